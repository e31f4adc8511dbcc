/-
Specification of the shape of trees: nodes by level and position in a full binary tree.
-/
import Verif.Spec.Ensemble

namespace Verif.Spec
variable {F : Type}

/-- The subtree at a level (0 is the root) and position in the level, counted from the left as in a full binary tree. -/
def Tree.nodeAt : Tree F → Nat → Nat → Option (Tree F)
  | t, 0, p => if p = 0 then some t else none
  | .leaf _, _ + 1, _ => none
  | .node _ _ l r, n + 1, p => if p < 2 ^ n then l.nodeAt n p else r.nodeAt n (p - 2 ^ n)

/-- The tree is not a leaf. -/
def Tree.isInner : Tree F → Bool
  | .leaf _ => false
  | .node .. => true

/-- The tree has a node at a level and position; leaves count only if `includeLeaves`. -/
def Tree.hasNode (includeLeaves : Bool) (t : Tree F) (level pos : Nat) : Bool :=
  match t.nodeAt level pos with
  | some s => includeLeaves || s.isInner
  | none => false

/-- The number of trees having a node at a level and position; all trees have a root. -/
def Forest.having (includeLeaves : Bool) (fo : Forest F) (level pos : Nat) : Nat :=
  if level = 0 ∧ pos = 0 then fo.length else fo.countP (fun p => p.1.hasNode includeLeaves level pos)

/-- Parents are stored before their children. -/
def ParentFirst (m : Ensemble F) : Prop :=
  ∀ i j : Nat, (m.left[i]? = some (j : Int) ∨ m.right[i]? = some (j : Int)) → i < j

end Verif.Spec
