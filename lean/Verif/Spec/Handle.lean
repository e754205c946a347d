import Verif.Model.Handle

/-!
# Histories of owning handles
-/

namespace Berts.Handle

variable {R : Type}

/-- `Legal s raw all`: the state `s` can be reached by a program that acquired exactly the resources
`all` (each is acquired once), hands each raw pointer it has (`raw`) to at most one handle, and uses
handles in any way that is not undefined behaviour. -/
inductive Legal : St R → List R → List R → Prop where
  | start : Legal St.init [] []
  | acquire {s raw all} (r : R) : Legal s raw all → r ∉ all → Legal s (r :: raw) (r :: all)
  | wrapNull {s raw all} (h : Nat) {s' : St R} : Legal s raw all → ctor s h none = .ok s' → Legal s' raw all
  | wrap {s all} (pre post : List R) (r : R) (h : Nat) {s' : St R} : Legal s (pre ++ r :: post) all →
      ctor s h (some r) = .ok s' → Legal s' (pre ++ post) all
  | moveCtor {s raw all} (h o : Nat) {s' : St R} : Legal s raw all → moveCtor s h o = .ok s' →
      Legal s' raw all
  | moveAssign {s raw all} (h o : Nat) {s' : St R} : Legal s raw all → moveAssign s h o = .ok s' →
      Legal s' raw all
  | dispose {s raw all} (h : Nat) {s' : St R} : Legal s raw all → dispose s h = .ok s' → Legal s' raw all
  | dtor {s raw all} (h : Nat) {s' : St R} : Legal s raw all → dtor s h = .ok s' → Legal s' raw all
  | release {s raw all} (h : Nat) (p : Option R) {s' : St R} : Legal s raw all →
      release s h = .ok (p, s') → Legal s' (p.toList ++ raw) all
  | ggCtorFail {s raw all} (hm hg tmp : Nat) {s' : St R} : Legal s raw all →
      ggCtor s hm hg tmp none = .ok s' → Legal s' raw all
  | ggCtor {s raw all} (hm hg tmp : Nat) (gguf ggml : R) {s' : St R} : Legal s raw all → gguf ∉ all →
      ggml ∉ all → gguf ≠ ggml → ggCtor s hm hg tmp (some (gguf, ggml)) = .ok s' →
      Legal s' raw (gguf :: ggml :: all)

end Berts.Handle
