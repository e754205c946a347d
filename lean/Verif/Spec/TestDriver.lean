import Verif.Model.TestDriver

/-! # What the report of a test program should say -/

namespace Berts.Spec

open Berts.Vocab Berts.TestDriver

/-- The different elements of a list, in the order of their first appearance. -/
def firsts : List Nat → List Nat
  | [] => []
  | x :: l => x :: (firsts l).filter (· ≠ x)

/-- The case passed. -/
def Passed (c : Case) : Prop := c.run = .pass

instance : DecidablePred Passed := fun c => by unfold Passed; infer_instance

/-- The case returned or an assertion in it failed. -/
def Finished (c : Case) : Prop := c.run = .pass ∨ ∃ w, c.run = .fail w

/-- What a failed case had to say. -/
def complaint (c : Case) : List Nat :=
  match c.run with
  | .fail w => w ++ ascii "\n"
  | _ => []

/-- The line for one case. -/
def caseLine (c : Case) : List Nat :=
  (if Passed c then ascii "\x1b[1m\x1b[32mOK\x1b[0m " else ascii "\x1b[1m\x1b[31mNG\x1b[0m ") ++
    c.name ++ ascii "\n"

/-- The cases registered for a test, in order. -/
def casesOf (regs : List (Nat × Case)) (t : Nat) : List Case :=
  (regs.filter (fun r => r.1 = t)).map (·.2)

/-- The paragraph for one test: its name, its cases, the complaints. -/
def paragraph (name : Nat → List Nat) (regs : List (Nat × Case)) (t : Nat) : List Nat :=
  ascii "\x1b[33m[" ++ name t ++ ascii "]\x1b[0m\n" ++ (casesOf regs t).flatMap caseLine ++
    (casesOf regs t).flatMap complaint ++ ascii "\n"

/-- The whole report. -/
def report (name : Nat → List Nat) (regs : List (Nat × Case)) : List Nat :=
  ascii "\n========================================================\n*** test results ***\n\n" ++
  (firsts (regs.map (·.1))).flatMap (paragraph name regs) ++
  ascii "--------------------------------------------------------\n" ++
  decimal regs.length ++ ascii " tests, \x1b[32m" ++
  decimal (regs.countP (fun r => Passed r.2)) ++ ascii " success\x1b[0m, \x1b[31m" ++
  decimal (regs.countP (fun r => ¬ Passed r.2)) ++ ascii " fail\x1b[0m\n" ++
  ascii "--------------------------------------------------------\n\n"

end Berts.Spec
