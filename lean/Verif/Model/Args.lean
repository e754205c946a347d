import Verif.Model.FileFormat

/-!
# The command line of the converter (`berts/models/convert_hf_to_gguf.py`)

`parse_args` and the main program, convert_hf_to_gguf.py:43-51, 485-492.  The library `argparse` is that of
Python 3.11.10 (`_parse_optional`, `_get_option_tuples`, `consume_optional`, `parse_known_args`,
`parse_args`), specialised to the five options the program declares (`-h` is declared by `argparse`).
Texts are lists of code points.  What the program prints for `-h` and on an error is left out; the exit
status is kept.  Loading the model from its repository (`load_diffusers`) is a parameter, and so is the
class of the digits (`\d`).  That the output file can be created and written is assumed.
-/

namespace Berts.Args

open Berts.Vocab (ascii)

abbrev Text := List Nat

/-- The options that take a value, convert_hf_to_gguf.py:45-46, 48. -/
inductive Opt where
  | input | output | cache
deriving DecidableEq

/-- What an option does: `argparse`'s help, storing a value, `store_true` (convert_hf_to_gguf.py:47). -/
inductive Act where
  | help | value (o : Opt) | f32
deriving DecidableEq

/-- The declared option strings in their order, convert_hf_to_gguf.py:44-48. -/
def options : List (Text × Act) :=
  [(ascii "-h", .help), (ascii "--help", .help),
   (ascii "-i", .value .input), (ascii "--input-model", .value .input),
   (ascii "-o", .value .output), (ascii "--output-path", .value .output),
   (ascii "--use-f32", .f32), (ascii "--cache-dir", .value .cache)]

/-- The value that comes in the same word as the option. -/
inductive Given where
  | no | eq (v : Text) | glued (v : Text)
deriving DecidableEq

/-- `partition('=')`: what stands before the first `=`, and what stands after it. -/
def partition (a : Text) : Text × Option Text :=
  (a.takeWhile (· ≠ 61), match a.dropWhile (· ≠ 61) with | [] => none | _ :: v => some v)

def given : Option Text → Given
  | none => .no
  | some v => .eq v

/-- `_get_option_tuples`: the options a word may abbreviate, or begin with. -/
def tuples (a : Text) : List (Act × Given) :=
  if a[1]? = some 45 then
    (options.filter fun o => (partition a).1.isPrefixOf o.1).map fun o => (o.2, given (partition a).2)
  else
    options.filterMap fun o =>
      if o.1 = a.take 2 then some (o.2, .glued (a.drop 2)) else if a.isPrefixOf o.1 then some (o.2, .no) else none

/-- The first part of `_parse_optional`: no option for sure, one option, several, or none. -/
inductive Found where
  | plain | one (a : Act) (g : Given) | many | none
deriving DecidableEq

def found (a : Text) : Found :=
  if a.head? ≠ some 45 then .plain
  else match options.lookup a with
  | some act => .one act .no
  | none =>
    if a.length = 1 then .plain
    else match (partition a).2, options.lookup (partition a).1 with
    | some v, some act => .one act (.eq v)
    | _, _ =>
      match tuples a with
      | [] => .none
      | [t] => .one t.1 t.2
      | _ :: _ :: _ => .many

/-- `\d+` or `\d*\.\d+`. -/
def numeral (dig : Nat → Bool) (t : Text) : Bool :=
  (t ≠ [] && t.all dig) ||
    (List.range t.length).any fun k =>
      (t.take k).all dig && t[k]? == some 46 && t.drop (k + 1) ≠ [] && (t.drop (k + 1)).all dig

/-- `_negative_number_matcher`: `$` also matches before a final newline. -/
def negative (dig : Nat → Bool) (a : Text) : Bool :=
  a.head? == some 45 &&
    (numeral dig a.tail || (a.tail.getLast? == some 10 && numeral dig a.tail.dropLast))

/-- What a word is taken for. -/
inductive Cls where
  | arg | dashes | opt (a : Act) (g : Given) | unknown
deriving DecidableEq

/-- `_parse_optional`; `none` is the error of an ambiguous abbreviation. -/
def parseOptional (dig : Nat → Bool) (a : Text) : Option Cls :=
  match found a with
  | .plain => some .arg
  | .one act g => some (.opt act g)
  | .many => none
  | .none => if negative dig a then some .arg else if a.contains 32 then some .arg else some .unknown

/-- The first loop of `parse_known_args`: everything after `--` is an argument. -/
def classify (dig : Nat → Bool) : List Text → Option (List (Text × Cls))
  | [] => some []
  | a :: r =>
    if a = ascii "--" then some ((a, .dashes) :: r.map fun b => (b, .arg))
    else match parseOptional dig a, classify dig r with
    | some c, some cs => some ((a, c) :: cs)
    | _, _ => none

/-- The namespace that `parse_args` fills, and whether something was not recognised. -/
structure St where
  input : Option Text := none
  output : Option Text := none
  cache : Option Text := none
  f32 : Bool := false
  extras : Bool := false

def St.store (s : St) (v : Text) : Opt → St
  | .input => { s with input := some v }
  | .output => { s with output := some v }
  | .cache => { s with cache := some v }

/-- What comes of the command line: the values, the help text (status 0), an error (status 2). -/
inductive Parsed where
  | run (input output : Text) (cache : Option Text) (f32 : Bool) | help | error
deriving DecidableEq

/-- The end of `parse_known_args` and `parse_args`: required options, unrecognised words. -/
def finish (s : St) : Parsed :=
  match s.input, s.output with
  | some i, some o => if s.extras then .error else .run i o s.cache s.f32
  | _, _ => .error

/-- `consume_optional` for `-h` with more letters in its word; `next` tells whether an argument follows. -/
def helpTail (next : Bool) : Text → Parsed
  | [] => .help
  | c :: r =>
    if c = 45 then .error
    else if c = 104 then if r.head? = some 61 then .error else helpTail next r
    else if c = 105 ∨ c = 111 then if r = [] ∧ next = false then .error else .help
    else .help

def isArg : List (Text × Cls) → Bool
  | (_, .arg) :: _ => true
  | _ => false

/-- The main loop of `parse_known_args`. -/
def consume : List (Text × Cls) → St → Parsed
  | [], s => finish s
  | (_, .arg) :: r, s => consume r { s with extras := true }
  | (_, .unknown) :: r, s => consume r { s with extras := true }
  | (_, .dashes) :: _, s => finish { s with extras := true }
  | (_, .opt (.value o) .no) :: (v, .arg) :: r, s => consume r (s.store v o)
  | (_, .opt (.value _) .no) :: _, _ => .error
  | (_, .opt (.value o) (.eq v)) :: r, s => consume r (s.store v o)
  | (_, .opt (.value o) (.glued v)) :: r, s => consume r (s.store v o)
  | (_, .opt .f32 .no) :: r, s => consume r { s with f32 := true }
  | (_, .opt .f32 _) :: _, _ => .error
  | (_, .opt .help .no) :: _, _ => .help
  | (_, .opt .help (.eq _)) :: _, _ => .error
  | (_, .opt .help (.glued v)) :: r, _ => helpTail (isArg r) v

/-- `parse_args`, convert_hf_to_gguf.py:43-51. -/
def parseArgs (dig : Nat → Bool) (args : List Text) : Parsed :=
  match classify dig args with
  | none => .error
  | some cs => consume cs {}

/-- How the program ends. -/
inductive Ended where
  | wrote (path : Text) (file : List Nat) | exit (status : Nat)

/-- The main program, convert_hf_to_gguf.py:485-492, and `ftype`, 377-379.  An exception of `load_diffusers`
or `convert` ends it with status 1 (what is then left of the file is not modelled). -/
def convertMain (dig : Nat → Bool) (source : Text → Option Text → Option (Convert.Source α))
    (enc : Bool → List α → List Nat) (args : List Text) : Ended :=
  match parseArgs dig args with
  | .help => .exit 0
  | .error => .exit 2
  | .run i o c f32 =>
    match source i c with
    | none => .exit 1
    | some s =>
      match FileFormat.convertFile enc (!f32) s with
      | none => .exit 1
      | some file => .wrote o file

end Berts.Args
