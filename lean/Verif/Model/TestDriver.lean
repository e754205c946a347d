import Verif.Model.Base
import Verif.Model.Vocab

/-!
# Model of the test programs' driver (`berts/tests/tests.hpp`)

* A test is known to the driver by the address of its name (`const char *`); `name` gives the text.
* A test case is what its body does when it is called: return, or throw.  Output of the bodies is
  not modelled.
* `main` of a test program calls `run_tests()`, which registers the cases, and returns 0
  (for example tests_example.cpp:29-32); the cases are run by the destructor of the static driver
  (tests.hpp:297), which cannot change the exit status.
-/

namespace Berts.TestDriver

open Berts.Vocab

/-- How the body of a test case ends, tests.hpp:197-218: it returns, or it throws a
`std::runtime_error`, another `std::exception`, or something else. -/
inductive Outcome where
  | pass
  | fail (what : List Nat)
  | throws (what : List Nat)
  | unknown
deriving DecidableEq, Repr

/-- An assertion in the body of a test case: its value, its text and its place. -/
structure Assertion where
  value : Bool
  expr : List Nat
  line : Nat
deriving DecidableEq, Repr

/-- `what()` of `__test_fail` as thrown by `berts_assert_`, tests.hpp:261-280 and 283-290. -/
def failText (test case file : List Nat) (a : Assertion) : List Nat :=
  test ++ ascii ":" ++ case ++ ascii " [" ++ file ++ ascii ":" ++ decimal a.line ++ ascii "] " ++
    (ascii "assertion failed: " ++ a.expr)

/-- A body that consists of assertions (`BERTS_ASSERT`, tests.hpp:317-327): the first one that does not
hold throws. -/
def runBody (test case file : List Nat) : List Assertion → Outcome
  | [] => .pass
  | a :: as => if !a.value then .fail (failText test case file a) else runBody test case file as

/-- A test case: name and behaviour. -/
structure Case where
  name : List Nat
  run : Outcome
deriving DecidableEq, Repr

/-- `__test_driver`, tests.hpp:126-138. -/
structure Driver where
  names : List Nat
  cases : Nat → Option (List Case)

/-- The static driver before anything is registered, tests.hpp:127-129. -/
def Driver.init : Driver := ⟨[], fun _ => none⟩

/-- `__test_driver::__add_test`, tests.hpp:150-159. -/
def Driver.add (d : Driver) (test : Nat) (c : Case) : Driver :=
  match d.cases test with
  | some l => { d with cases := fun x => if x = test then some (l ++ [c]) else d.cases x }
  | none => ⟨d.names ++ [test], fun x => if x = test then some [c] else d.cases x⟩

/-- `run_tests()`: the `testcase` macros register the cases in the order of the text, tests.hpp:140-148, 161-164 and 300-315. -/
def register (regs : List (Nat × Case)) : Driver :=
  regs.foldl (fun d r => d.add r.1 r.2) Driver.init

/-- State of the loops in the destructor: text collected in `ss`, `errors`, `ok`, `ng`,
tests.hpp:182-185 and 193. -/
structure St where
  ss : List Nat
  errors : List (List Nat)
  ok : Nat
  ng : Nat

/-- The loop over the cases of one test, tests.hpp:195-221.  `std::exit` in the destructor of a static
object (lines 213, 217) is undefined behaviour. -/
def runCases (s : St) : List Case → Res St
  | [] => .ok s
  | c :: cs =>
    match c.run with
    | .pass =>
      runCases { s with
        ss := s.ss ++ ascii "\x1b[1m\x1b[32mOK\x1b[0m" ++ ascii " " ++ c.name ++ ascii "\n"
        ok := s.ok + 1 } cs
    | .fail what =>
      runCases { s with
        ss := s.ss ++ ascii "\x1b[1m\x1b[31mNG\x1b[0m" ++ ascii " " ++ c.name ++ ascii "\n"
        errors := s.errors ++ [what]
        ng := s.ng + 1 } cs
    | .throws _ => .ub
    | .unknown => .ub

/-- The loop over the tests, tests.hpp:186-228. -/
def runTests (name : Nat → List Nat) (d : Driver) (s : St) : List Nat → Res St
  | [] => .ok s
  | t :: ts =>
    (runCases { s with ss := s.ss ++ ascii "\x1b[33m[" ++ name t ++ ascii "]\x1b[0m\n", errors := [] }
      ((d.cases t).getD [])).bind fun s =>
    runTests name d { s with ss := s.ss ++ s.errors.flatMap (· ++ ascii "\n") ++ ascii "\n" } ts

/-- The text around the results, tests.hpp:230-238. -/
def banner (s : St) : List Nat :=
  ascii "\n========================================================\n*** test results ***\n\n" ++ s.ss ++
  ascii "--------------------------------------------------------\n" ++
  decimal (s.ok + s.ng) ++ ascii " tests, \x1b[32m" ++ decimal s.ok ++ ascii " success\x1b[0m, \x1b[31m" ++
  decimal s.ng ++ ascii " fail\x1b[0m\n" ++
  ascii "--------------------------------------------------------\n\n"

/-- A test program: exit status and text on the standard output, tests.hpp:166-247 and
tests_example.cpp:29-32. -/
def program (name : Nat → List Nat) (regs : List (Nat × Case)) : Res (Nat × List Nat) :=
  (runTests name (register regs) ⟨[], [], 0, 0⟩ (register regs).names).bind fun s => .ok (0, banner s)

end Berts.TestDriver
