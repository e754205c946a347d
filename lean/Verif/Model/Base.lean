/-!
# Outcomes

C++ functions of berts.cpp are modelled as total Lean functions.  Where the C++ program can
leave defined behaviour or stop the process this is a distinct outcome.
-/

namespace Berts

/-- Outcome of a modelled C++ call.
* `ok a`  – the call returns `a`;
* `ub`    – the call executes undefined behaviour (out-of-bounds access, read of an
            uninitialised object, signed overflow, division by zero ...);
* `abort` – the call deliberately stops the process (`GGML_ASSERT`, `assert`);
* `hang`  – the call is still running after the number of loop iterations the model was given
            (models of loops whose termination is itself in question take that number). -/
inductive Res (α : Type) where
  | ok (a : α)
  | ub
  | abort
  | hang
deriving DecidableEq, Repr

namespace Res

/-- Sequencing: `ub`, `abort` and `hang` are final. -/
def bind {α β : Type} : Res α → (α → Res β) → Res β
  | ok a, f => f a
  | ub, _ => ub
  | abort, _ => abort
  | hang, _ => hang

instance : Monad Res where
  pure := Res.ok
  bind := Res.bind

@[simp] theorem bind_ok {α β : Type} (a : α) (f : α → Res β) : (Res.ok a >>= f) = f a := rfl
@[simp] theorem bind_ub {α β : Type} (f : α → Res β) : ((Res.ub : Res α) >>= f) = Res.ub := rfl
@[simp] theorem bind_abort {α β : Type} (f : α → Res β) :
    ((Res.abort : Res α) >>= f) = Res.abort := rfl
@[simp] theorem bind_hang {α β : Type} (f : α → Res β) : ((Res.hang : Res α) >>= f) = Res.hang := rfl
@[simp] theorem pure_eq {α : Type} (a : α) : (pure a : Res α) = Res.ok a := rfl

/-- The call returns: it neither aborts nor hangs nor runs into undefined behaviour. -/
def Defined {α : Type} (r : Res α) : Prop := ∃ a, r = ok a

end Res

/-- `#define BERTS_INVALID_TOKEN_ID (bert_token_t)(-1)`, berts/berts.h:39; `bert_token_t` is
`uint32_t` (berts/berts.h:36) and is represented by `Nat`. -/
def INVALID : Nat := 0xFFFFFFFF

end Berts
