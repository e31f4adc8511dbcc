/-
When the arrays of an ensemble represent a forest.
-/
import Verif.Model.Ensemble
import Verif.Spec.Tree
import Mathlib.Algebra.Order.Field.Basic

namespace Verif.Spec
variable {F : Type}

/-- The arrays of `m` hold the tree `t` with its root at node `i`. The list gives the indices of its nodes in the order root, left
subtree, right subtree. -/
inductive Encodes (m : Ensemble F) : Nat → Tree F → List Nat → Prop where
  | leaf {i : Nat} {v : F} (hl : m.left[i]? = some (-1)) (hr : m.right[i]? = some (-1))
      (hf : m.feature[i]? = some (-1)) (hv : m.value[i]? = some v) : Encodes m i (.leaf v) [i]
  | node {i f l r : Nat} {t : F} {tl tr : Tree F} {sl sr : List Nat} (hl : m.left[i]? = some (l : Int))
      (hr : m.right[i]? = some (r : Int)) (hf : m.feature[i]? = some (f : Int)) (hv : m.value[i]? = some t)
      (el : Encodes m l tl sl) (er : Encodes m r tr sr) : Encodes m i (.node f t tl tr) (i :: (sl ++ sr))

/-- The first node of the `k`-th tree: trees are stored one after the other. -/
def treeStart (fo : Forest F) (k : Nat) : Nat := Forest.numNodes (fo.take k)

/-- `m` represents the forest `fo`: array sizes fit, each tree is found at its root, and its nodes are exactly the nodes from
its root to the next root. -/
structure Represents (m : Ensemble F) (fo : Forest F) : Prop where
  nTrees : m.nTrees = fo.length
  nNodes : m.nNodes = Forest.numNodes fo
  left_len : m.left.length = m.nNodes
  right_len : m.right.length = m.nNodes
  value_len : m.value.length = m.nNodes
  feature_len : m.feature.length = m.nNodes
  weight : m.weight = fo.map (·.2)
  root : m.root = (List.range fo.length).map (fun k => (treeStart fo k : Int))
  trees : ∀ (k : Nat) t w, fo[k]? = some (t, w) → ∃ s, Encodes m (treeStart fo k) t s ∧
    s.Perm (List.range' (treeStart fo k) t.numNodes)

/-- Exact arithmetic in an ordered field. -/
def exactOps (K : Type) [Field K] [LinearOrder K] : FloatOps K where
  zero := 0
  add := (· + ·)
  mul := (· * ·)
  le := fun a b => decide (a ≤ b)
  sum := List.sum
  isOne := fun a => decide (a = 1)
  isZero := fun a => decide (a = 0)

end Verif.Spec
