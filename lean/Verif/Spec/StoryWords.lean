import Verif.Spec.Pattern
import Verif.Spec.RobertaStory

/-! # The words and special tokens of a text, without a regular expression -/

namespace Berts.Spec

open Unicode Pattern

/-- The jobs that the pieces of a text lead to: a special token each, and the GPT-2 words of each plain piece. -/
inductive WordJobs (ws : Nat → Bool) (cl : Classes) (mask : List Nat) : List (Bool × List Nat) → List Job → Prop
  | nil : WordJobs ws cl mask [] []
  | special {s ps jobs} : WordJobs ws cl mask ps jobs →
      WordJobs ws cl mask ((true, s) :: ps) (.special (ps.head?.any fun p => p.1 && p.2 == mask) s :: jobs)
  | plain {s ps cs words jobs} : (∀ c ∈ cs, IsScalar c) →
      utf8Encode cs = keptBytes ws (ps.head?.any fun p => p.1 && p.2 == mask) s → Words cl cs words →
      WordJobs ws cl mask ps jobs →
      WordJobs ws cl mask ((false, s) :: ps) (words.map (fun w => .word (utf8Encode w)) ++ jobs)

end Berts.Spec
