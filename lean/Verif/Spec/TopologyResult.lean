/-
Specification of descriptive statistics and of the number of nodes in a level.
-/
import Verif.Spec.Topology
import Mathlib.Data.Real.Sqrt

namespace Verif.Spec
variable {F : Type}

/-- The number of nodes of a tree in a level; leaves count only if `includeLeaves`. -/
def Tree.inLevel (includeLeaves : Bool) : Tree F → Nat → Nat
  | .leaf _, 0 => if includeLeaves then 1 else 0
  | .node .., 0 => 1
  | .leaf _, _ + 1 => 0
  | .node _ _ l r, n + 1 => l.inLevel includeLeaves n + r.inLevel includeLeaves n

/-- The number of nodes of all trees in a level; all trees have a root. -/
def Forest.inLevel (includeLeaves : Bool) (fo : Forest F) (level : Nat) : Nat :=
  if level = 0 then fo.length else (fo.map (fun p => p.1.inLevel includeLeaves level)).sum

/-- `avg` is the average. -/
def IsMean (l : List Nat) (avg : ℝ) : Prop := avg * l.length = (l.sum : ℝ)

/-- The sum of the powers of the distances from a number. -/
noncomputable def powSum (l : List Nat) (c : ℝ) (k : Nat) : ℝ := (l.map (fun n : Nat => ((n : ℝ) - c) ^ k)).sum

/-- The squared differences of all pairs. -/
noncomputable def pairSum (l : List Nat) : ℝ := (l.map (fun x : Nat => (l.map (fun y : Nat => ((x : ℝ) - y) ^ 2)).sum)).sum

end Verif.Spec
