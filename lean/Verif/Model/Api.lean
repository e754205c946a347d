import Verif.Model.Base

/-!
# Model of the C interface (`berts/berts.cpp`)

A context is `none` (null pointer) or `some c`; its `model` may be absent
(`berts_context`, internal.cpp:12-22).  A caller's buffer is a list whose length is the space
really available; writing past its end is undefined behaviour.
-/

namespace Berts.Api

/-- The virtual functions of `internal::model` that the C interface calls. -/
structure ModelI where
  clsId : Nat
  maskId : Nat
  padId : Nat
  sepId : Nat
  unkId : Nat
  bosId : Nat
  eosId : Nat
  vocabCount : Nat
  idToToken : Nat → Res (List Nat)
  tokenToId : List Nat → Res Nat
  /-- return value and ids appended to the output vector -/
  tokenize : List Nat → Res (Bool × List Nat)

/-- `bert_type`, berts.h:87-92. -/
inductive Arch where
  | bert | roberta | unknown
deriving DecidableEq

/-- `berts_context`, internal.cpp:12-22 (`arch` stands for the hyper-parameters). -/
structure Ctx where
  arch : Arch
  model : Option ModelI

/-- `check_model`, berts.cpp:75-83 with internal.hpp:131-151. -/
def getModel (ctx : Option Ctx) : Option ModelI :=
  match ctx with
  | none => none
  | some c => c.model

/-- `BERTS_CHECK_MODEL_OR(default)` followed by a field read, berts.cpp:85-90. -/
def idOr (ctx : Option Ctx) (dflt : Nat) (f : ModelI → Nat) : Nat :=
  match getModel ctx with
  | none => dflt
  | some m => f m

/-- `berts_arch`, berts.cpp:65-70. -/
def bertsArch (ctx : Option Ctx) : Arch :=
  match ctx with
  | none => .unknown
  | some c => c.arch

/-- `berts_cls_id`, berts.cpp:92-95. -/
def bertsClsId (ctx : Option Ctx) : Nat := idOr ctx INVALID (·.clsId)
/-- `berts_mask_id`, berts.cpp:97-100. -/
def bertsMaskId (ctx : Option Ctx) : Nat := idOr ctx INVALID (·.maskId)
/-- `berts_pad_id`, berts.cpp:102-105. -/
def bertsPadId (ctx : Option Ctx) : Nat := idOr ctx INVALID (·.padId)
/-- `berts_sep_id`, berts.cpp:107-110. -/
def bertsSepId (ctx : Option Ctx) : Nat := idOr ctx INVALID (·.sepId)
/-- `berts_unk_id`, berts.cpp:112-115. -/
def bertsUnkId (ctx : Option Ctx) : Nat := idOr ctx INVALID (·.unkId)
/-- `berts_bos_id`, berts.cpp:117-120. -/
def bertsBosId (ctx : Option Ctx) : Nat := idOr ctx INVALID (·.bosId)
/-- `berts_eos_id`, berts.cpp:122-125. -/
def bertsEosId (ctx : Option Ctx) : Nat := idOr ctx INVALID (·.eosId)
/-- `berts_vocab_size`, berts.cpp:146-149. -/
def bertsVocabSize (ctx : Option Ctx) : Nat := idOr ctx 0 (·.vocabCount)

/-- `berts_token_to_id`, berts.cpp:141-144: the default is the literal `false`. -/
def bertsTokenToId (ctx : Option Ctx) (token : List Nat) : Res Nat :=
  match getModel ctx with
  | none => .ok 0
  | some m => m.tokenToId token

/-- `std::copy` of the first `k` elements of `src` into a buffer. -/
def copyInto {α : Type} (buf src : List α) (k : Nat) : Res (List α) :=
  if k ≤ buf.length then .ok (src.take k ++ buf.drop k) else .ub

/-- What an output call leaves behind: return value, the buffer, `*out_len`. -/
structure Out where
  ret : Bool
  buf : Option (List Nat)
  len : Option Nat
deriving DecidableEq

/-- The output protocol shared by `berts_id_to_token` (berts.cpp:133-137) and `berts_tokenize`
(179-183): nothing if `out_len` is null, otherwise store the full length and copy at most the old
`*out_len` elements. -/
def emit (data : List Nat) (buf : Option (List Nat)) (len : Option Nat) :
    Res (Option (List Nat) × Option Nat) :=
  match len with
  | none => .ok (buf, none)
  | some n =>
    match buf with
    | none => .ok (none, some data.length)
    | some b => do
      let b' ← copyInto b data (min n data.length)
      return (some b', some data.length)

/-- `berts_id_to_token`, berts.cpp:127-139. -/
def bertsIdToToken (ctx : Option Ctx) (id : Nat) (buf : Option (List Nat)) (len : Option Nat) :
    Res Out :=
  match getModel ctx with
  | none => .ok ⟨false, buf, len⟩
  | some m => do
    let token ← m.idToToken id
    let (b, l) ← emit token buf len
    return ⟨token.length ≠ 0, b, l⟩

/-- `berts_tokenize`, berts.cpp:151-197 (the final warning has no effect). -/
def bertsTokenize (ctx : Option Ctx) (text : List Nat) (buf : Option (List Nat)) (len : Option Nat) :
    Res Out :=
  match getModel ctx with
  | none => .ok ⟨false, buf, len⟩
  | some m =>
    if m.clsId = INVALID then .ok ⟨false, buf, len⟩
    else if m.sepId = INVALID then .ok ⟨false, buf, len⟩
    else do
      let (ok, toks) ← m.tokenize text
      if ok then
        let (b, l) ← emit ([m.clsId] ++ toks ++ [m.sepId]) buf len
        return ⟨true, b, l⟩
      else return ⟨false, buf, len⟩

end Berts.Api
