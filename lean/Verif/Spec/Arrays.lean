/-
Specification of trees stored as arrays of splits and of leaves (LightGBM, jforests).
-/
import Verif.Model.LoadArrays
import Verif.Spec.Tree

namespace Verif.Spec
open Ensemble

/-- A tree as arrays. A child that is not negative is a split, the child `-(p+1)` is the leaf `p`. -/
structure ArrTree (F : Type) where
  features : List Nat
  thresholds : List F
  left : List Int
  right : List Int
  leaves : List F

namespace ArrTree
variable {F : Type}

/-- The reference `c` stands for the tree `t`. The list gives the positions of its nodes, root first, where leaf `p` has a position
after all splits. -/
inductive Holds (a : ArrTree F) : Int → Tree F → List Nat → Prop where
  | leaf {p : Nat} {v : F} (hv : a.leaves[p]? = some v) : Holds a (-(p + 1)) (.leaf v) [a.features.length + p]
  | node {p f : Nat} {t : F} {l r : Int} {tl tr : Tree F} {sl sr : List Nat} (hf : a.features[p]? = some f)
      (ht : a.thresholds[p]? = some t) (hl : a.left[p]? = some l) (hr : a.right[p]? = some r)
      (el : Holds a l tl sl) (er : Holds a r tr sr) : Holds a p (.node f t tl tr) (p :: (sl ++ sr))

/-- The arrays describe the tree `t`: the first split (or the only leaf) is its root, and every split and every leaf is used once. -/
structure Is (a : ArrTree F) (t : Tree F) : Prop where
  thresholds_len : a.thresholds.length = a.features.length
  left_len : a.left.length = a.features.length
  right_len : a.right.length = a.features.length
  holds : ∃ s, Holds a (if a.features = [] then -1 else 0) t s ∧ s.Perm (List.range (a.features.length + a.leaves.length))

/-- The lines of a tree in a LightGBM file, without those that have no effect. -/
def lgbLines (a : ArrTree F) : List (LgbLine F) :=
  [.numLeaves a.leaves.length, .splitFeature a.features, .threshold a.thresholds, .leftChild a.left, .rightChild a.right,
    .leafValue a.leaves, .shrinkage]

/-- The elements of a tree in a Jforests file. -/
def jfEvents (a : ArrTree F) : List (JfEvent F) :=
  [.splitFeatures a.features, .leftChildren a.left, .rightChildren a.right, .originalThresholds a.thresholds, .leafOutputs a.leaves]

end ArrTree

/-- The lines of a LightGBM file whose first tree has number `k`. -/
def lgbForest {F : Type} : Nat → List (ArrTree F) → List (LgbLine F)
  | _, [] => []
  | k, a :: as => .tree k :: (a.lgbLines ++ lgbForest (k + 1) as)

/-- Does the line have an effect? Decision type 2, zero default values and the absence of categorical features are accepted silently. -/
def lgbRelevant {F : Type} : LgbLine F → Bool
  | .other => false
  | .decisionType types => types.any (· != 2)
  | .defaultValue nonZero => nonZero
  | .hasCategorical b => b
  | _ => true

/-- The events of a Jforests file with weighted trees. -/
def jfForest {F : Type} : List (ArrTree F × F) → List (JfEvent F)
  | [] => []
  | (a, w) :: as => .startTree w :: (a.jfEvents ++ .endTree :: jfForest as)

/-- Events other than those of the tags read by the loader. -/
def jfRelevant {F : Type} : JfEvent F → Bool
  | .other => false
  | _ => true

end Verif.Spec
