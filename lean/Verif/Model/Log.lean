import Verif.Model.Base

/-!
# Model of the log functions (berts/models/log.hpp, log.cpp)

Files are numbers; `out f` is what has been written to file `f`.  Writing to a file succeeds (a full disk
or a closed file is not modelled).
-/

namespace Berts.Log

/-- The severities that have functions: `BERTS_LOG_DEBUG` 0, `BERTS_LOG_INFO` 1, `BERTS_LOG_WARN` 2,
`BERTS_LOG_ERROR` 3 (berts/berts.h:58-66). -/
inductive Sev where
  | debug
  | info
  | warn
  | error
deriving DecidableEq, Repr

/-- The enumeration values, berts/berts.h:60-64. -/
def Sev.val : Sev → Int
  | .debug => 0
  | .info => 1
  | .warn => 2
  | .error => 3

/-- `LOG_LEVEL` and `LOG_FILE` (log.cpp:5-7), and the contents of all files. -/
structure St where
  level : Int
  file : Option Nat
  out : Nat → List Nat

/-- log.cpp:5-7; file 0 stands for `stderr`. -/
def St.init : St := ⟨2, some 0, fun _ => []⟩

/-- `set_log_level`, log.cpp:9-11. -/
def setLevel (s : St) (l : Int) : St := { s with level := l }

/-- `set_log_file`, log.cpp:21-23. -/
def setFile (s : St) (f : Option Nat) : St := { s with file := f }

/-- `is_logging`, log.cpp:17-19. -/
def isLogging (s : St) (l : Int) : Bool := s.level ≤ l

/-- What `fprintf(file, fmt)` prints when it is given no further arguments (log.cpp:31): the format up to
its first NUL; `%%` prints `%`; any other use of `%` is undefined behaviour (it asks for an argument that
was not passed, or is no conversion specification). -/
def printfText : List Nat → Res (List Nat)
  | [] => .ok []
  | c :: rest =>
    if c = 0 then .ok []
    else if c = 37 then
      match rest with
      | d :: rest => if d = 37 then (printfText rest).bind fun t => .ok (37 :: t) else .ub
      | [] => .ub
    else (printfText rest).bind fun t => .ok (c :: t)

/-- Text appended to a file. -/
def append (s : St) (f : Nat) (t : List Nat) : St :=
  { s with out := fun g => if g = f then s.out g ++ t else s.out g }

/-- `write`, log.cpp:29-35. -/
def write (s : St) (msg : List Nat) : Res St :=
  match s.file with
  | none => .ok s
  | some f => (printfText msg).bind fun t => .ok (append (append s f t) f [10])

/-- `write_if<N>`, log.cpp:37-42. -/
def writeIf (n : Int) (s : St) (msg : List Nat) : Res St :=
  if s.level ≤ n then write s msg else .ok s

/-- `debug`, `info`, `warn`, `error` of a string, log.cpp:44-58. -/
def plain (s : St) (v : Sev) (msg : List Nat) : Res St :=
  match v with
  | .debug => writeIf 0 s msg
  | .info => writeIf 1 s msg
  | .warn => writeIf 2 s msg
  | .error => writeIf 3 s msg

/-- `debug`, `info`, `warn`, `error` of a format string and arguments, log.hpp:38-64.  `msg` is the outcome
of formatting (`berts::fmt::fmt`, fmt.hpp:12-20; an exception it throws is a different outcome than `ok`).
Note the level tested at log.hpp:61. -/
def formatted (s : St) (v : Sev) (msg : Res (List Nat)) : Res St :=
  match v with
  | .debug => if isLogging s 0 then msg.bind (plain s .debug) else .ok s
  | .info => if isLogging s 1 then msg.bind (plain s .info) else .ok s
  | .warn => if isLogging s 2 then msg.bind (plain s .warn) else .ok s
  | .error => if isLogging s 1 then msg.bind (plain s .error) else .ok s

/-- `when`, log.hpp:20-28: runs `fn` and says whether it did. -/
def when (s : St) (l : Int) (fn : St → Res St) : Res (Bool × St) :=
  if isLogging s l then (fn s).bind fun s => .ok (true, s) else .ok (false, s)

end Berts.Log
