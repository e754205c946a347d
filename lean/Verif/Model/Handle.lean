import Verif.Model.Base

/-!
# Model of the owning handles (`berts/models/utils.hpp`)

`berts_ctx`, `ggml_ctx` and `gguf_ctx` are instances of one template, `unique_ctx`; they differ in the
free function only.  A state holds the handle objects that are alive, with their `ctx` member, and the
calls of the free function so far.  The messages of `on_init`/`on_dispose` are in `Verif.Model.LoadLog`.
Resources are elements of a type `R`; a null pointer is `none`.

`regex` (unicode.hpp:179-197) is a class of its own with the same duties: it owns what `uregex_open`
made, and `uregex_close` is its free function.
-/

namespace Berts.Handle

/-- Handle objects by number (`none`: no object with that number is alive) and the resources passed to
the free function, in order. -/
structure St (R : Type) where
  obj : Nat → Option (Option R)
  freed : List R

/-- No handles. -/
def St.init {R : Type} : St R := ⟨fun _ => none, []⟩

variable {R : Type}

/-- Assignment to the `ctx` member of an object, or its creation or removal. -/
def put (f : Nat → Option (Option R)) (h : Nat) (v : Option (Option R)) : Nat → Option (Option R) :=
  fun k => if k = h then v else f k

/-- The constructors, utils.hpp:36-44: `p` is the pointer to own.  Creating an object where one is alive
is undefined behaviour. -/
def ctor (s : St R) (h : Nat) (p : Option R) : Res (St R) :=
  match s.obj h with
  | some _ => .ub
  | none => .ok { s with obj := put s.obj h (some p) }

/-- `dispose`, utils.hpp:68-74, with `context_disposer::dispose`, utils.hpp:21-25. -/
def dispose (s : St R) (h : Nat) : Res (St R) :=
  match s.obj h with
  | none => .ub
  | some none => .ok s
  | some (some r) => .ok ⟨put s.obj h (some none), s.freed ++ [r]⟩

/-- The move constructor, utils.hpp:48-51. -/
def moveCtor (s : St R) (h o : Nat) : Res (St R) :=
  match s.obj o with
  | none => .ub
  | some p => (ctor s h p).bind fun s => .ok { s with obj := put s.obj o (some none) }

/-- Move assignment `h = std::move(o)`, utils.hpp:55-62. -/
def moveAssign (s : St R) (h o : Nat) : Res (St R) :=
  match s.obj h, s.obj o with
  | some _, some p =>
    if h = o then .ok s
    else (dispose s h).bind fun s =>
      .ok { s with obj := put (put s.obj h (some p)) o (some none) }
  | _, _ => .ub

/-- The destructor, utils.hpp:64-66. -/
def dtor (s : St R) (h : Nat) : Res (St R) :=
  (dispose s h).bind fun s => .ok { s with obj := put s.obj h none }

/-- `release`, utils.hpp:84-88: the pointer is handed out. -/
def release (s : St R) (h : Nat) : Res (Option R × St R) :=
  match s.obj h with
  | none => .ub
  | some p => .ok (p, { s with obj := put s.obj h (some none) })

/-- `operator bool` and the conversion to a pointer, utils.hpp:76-78, 90. -/
def get (s : St R) (h : Nat) : Res (Option R) :=
  match s.obj h with
  | none => .ub
  | some p => .ok p

/-- A store through `ptr()`, utils.hpp:80: the old value is overwritten. -/
def store (s : St R) (h : Nat) (p : Option R) : Res (St R) :=
  match s.obj h with
  | none => .ub
  | some _ => .ok { s with obj := put s.obj h (some p) }

/-- The constructor of `gg_ctx`, utils.hpp:171-174: handle `hm` is the ggml part (`first`), `hg` the
gguf part (`second`), `tmp` the temporary.  `res` is what `gguf_init_from_file` makes: on success the
gguf context and the ggml context it stores through the pointer; on failure the pointer is assumed to be
left alone. -/
def ggCtor (s : St R) (hm hg tmp : Nat) (res : Option (R × R)) : Res (St R) :=
  (ctor s hm none).bind fun s =>
  (ctor s hg none).bind fun s =>
  ((match res with
    | none => ctor s tmp none
    | some (gguf, ggml) => (store s hm (some ggml)).bind fun s => ctor s tmp (some gguf))).bind fun s =>
  (moveAssign s hg tmp).bind fun s =>
  dtor s tmp

/-- `regex::regex()` and `regex::regex(const ustr &)`, unicode.cpp:628-645; `res` is what `uregex_open` makes
(null when it reports an error). -/
def regexCtor (s : St R) (h : Nat) (res : Option R) : Res (St R) :=
  match s.obj h with
  | some _ => .ub
  | none => .ok { s with obj := put s.obj h (some res) }

/-- `regex::regex(regex &&)`, unicode.cpp:647-650. -/
def regexMove (s : St R) (h o : Nat) : Res (St R) :=
  match s.obj o, s.obj h with
  | some p, none => .ok { s with obj := put (put s.obj h (some p)) o (some none) }
  | _, _ => .ub

/-- `regex::~regex`, unicode.cpp:652-656. -/
def regexDtor (s : St R) (h : Nat) : Res (St R) :=
  match s.obj h with
  | none => .ub
  | some none => .ok { s with obj := put s.obj h none }
  | some (some r) => .ok ⟨put s.obj h none, s.freed ++ [r]⟩

/-- `regex::operator=(regex &&)`, unicode.cpp:658-667. -/
def regexAssign (s : St R) (h o : Nat) : Res (St R) :=
  match s.obj h, s.obj o with
  | some q, some p =>
    if h ≠ o then
      .ok ⟨put (put s.obj h (some p)) o (some none),
        match q with
        | none => s.freed
        | some r => s.freed ++ [r]⟩
    else .ok s
  | _, _ => .ub

end Berts.Handle
