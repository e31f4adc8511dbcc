/-
Specification of floating point arithmetic by its rounding errors (the standard model), and of the order of additions in a sum.
-/
import Mathlib.Data.Real.Basic
import Verif.Spec.Ensemble

namespace Verif.Spec
open Ensemble
variable {F : Type}

/-- Arithmetic with rounding: a finite result comes from finite numbers, and differs from the exact result by at most the fraction `u` of it;
products may in addition lose `η` (underflow). Comparisons are exact. `num` is the value of a finite number. -/
structure Rounded (ops : FloatOps F) (finite : F → Prop) (num : F → ℝ) (u η : ℝ) : Prop where
  u_nonneg : 0 ≤ u
  η_nonneg : 0 ≤ η
  zero : num ops.zero = 0
  add : ∀ a b, finite (ops.add a b) → finite a ∧ finite b ∧ |num (ops.add a b) - (num a + num b)| ≤ u * |num a + num b|
  mul : ∀ a b, finite (ops.mul a b) → finite a ∧ finite b ∧ |num (ops.mul a b) - num a * num b| ≤ u * |num a * num b| + η
  le : ∀ a b, finite a → finite b → (ops.le a b = true ↔ num a ≤ num b)
  isOne : ∀ a, ops.isOne a = true → num a = 1
  isZero : ∀ a, ops.isZero a = true → num a = 0

/-- Operations on finite numbers give a finite number if the exact result is at most `M`. -/
structure NoOverflow (ops : FloatOps F) (finite : F → Prop) (num : F → ℝ) (M : ℝ) : Prop where
  zero : finite ops.zero
  add : ∀ a b, finite a → finite b → |num a + num b| ≤ M → finite (ops.add a b)
  mul : ∀ a b, finite a → finite b → |num a * num b| ≤ M → finite (ops.mul a b)

/-- `SumTree ops d l s`: `s` is computed from the numbers in `l` (in any order, and zeros) by at most `d` levels of additions. -/
inductive SumTree (ops : FloatOps F) : Nat → List F → F → Prop where
  | zero (d : Nat) : SumTree ops d [] ops.zero
  | one (d : Nat) (a : F) : SumTree ops d [a] a
  | add {d : Nat} {l l' l'' : List F} {a b : F} (ha : SumTree ops d l a) (hb : SumTree ops d l' b) (h : (l ++ l').Perm l'') :
      SumTree ops (d + 1) l'' (ops.add a b)

/-- The tree with real numbers. -/
def Tree.toReal (num : F → ℝ) : Tree F → Tree ℝ
  | .leaf v => .leaf (num v)
  | .node f t l r => .node f (num t) (l.toReal num) (r.toReal num)

/-- The forest with real numbers. -/
def Forest.toReal (num : F → ℝ) (fo : Forest F) : Forest ℝ := fo.map (fun p => (p.1.toReal num, num p.2))

/-- The thresholds of the tree. -/
def Tree.thresholds : Tree F → List F
  | .leaf _ => []
  | .node _ t l r => t :: (l.thresholds ++ r.thresholds)

/-- The values of the leaves. -/
def Tree.outputs : Tree F → List F
  | .leaf v => [v]
  | .node _ _ l r => l.outputs ++ r.outputs

/-- The sum of the absolute values of the contributions of the trees. -/
noncomputable def treesSize (num : F → ℝ) (fo : Forest F) (row : List F) : ℝ :=
  ((fo.toReal num).map (fun p => |p.1.value (goesLeft (fun a b => decide (a ≤ b)) (row.map num)) * p.2|)).sum

/-- The exact score of a document. -/
noncomputable def exactScore (num : F → ℝ) (base lr : ℝ) (fo : Forest F) (row : List F) : ℝ :=
  base + lr * ((fo.toReal num).map (fun p => p.1.value (goesLeft (fun a b => decide (a ≤ b)) (row.map num)) * p.2)).sum

/-- The sum of the absolute values of everything that is added up. -/
noncomputable def scoreSize (num : F → ℝ) (base lr : ℝ) (fo : Forest F) (row : List F) : ℝ :=
  |base| + |lr| * ((fo.toReal num).map (fun p => |p.1.value (goesLeft (fun a b => decide (a ≤ b)) (row.map num)) * p.2|)).sum

end Verif.Spec
