import Verif.Model.Nodes

/-!
# What a computation needs
-/

namespace Berts.Nodes

/-- `j` is needed for `i`: it is `i`, or needed for one of its sources. -/
inductive Needs (g : List Node) : Nat → Nat → Prop
  | refl (i : Nat) : Needs g i i
  | step (i s j : Nat) (nd : Node) : g[i]? = some nd → s ∈ nd.src → Needs g s j → Needs g i j

/-- The sources of every tensor were made before it. -/
def Ordered (g : List Node) : Prop := ∀ (i : Nat) (nd : Node), g[i]? = some nd → ∀ s ∈ nd.src, s < i

/-- The number of operations. -/
def opCount (g : List Node) : Nat := g.countP fun nd => !nd.leaf

/-- The number of leafs. -/
def leafCount (g : List Node) : Nat := g.countP fun nd => nd.leaf

/-- `i` is an operation. -/
def IsOp (g : List Node) (i : Nat) : Prop := ∃ nd, g[i]? = some nd ∧ nd.leaf = false

/-- `i` is a leaf. -/
def IsLeaf (g : List Node) (i : Nat) : Prop := ∃ nd, g[i]? = some nd ∧ nd.leaf = true

/-- A list of operations that can be carried out one after the other: the sources of each are leafs or stand before it. -/
def Runnable (g : List Node) (l : List Nat) : Prop :=
  ∀ a x b, l = a ++ x :: b → ∀ nd, g[x]? = some nd → ∀ s ∈ nd.src, IsLeaf g s ∨ s ∈ a

end Berts.Nodes
