/-
Specification of feature importance for an arbitrary metric of the scores: the change of the metric at each split, computed from the
predictions of the level of the node.
-/
import Verif.Spec.Feature

namespace Verif.Spec
variable {K : Type} [Field K] [LinearOrder K]

/-- The tree cut at depth `k`. -/
def Tree.trunc : Nat → Tree K → Tree K
  | 0, _ => .leaf 0
  | _ + 1, .leaf v => .leaf v
  | k + 1, .node f t l r => .node f t (l.trunc k) (r.trunc k)

/-- A split of the tree: the feature tested and the documents sent left and right. -/
structure Split where
  feature : Nat
  left : List Nat
  right : List Nat
  deriving DecidableEq, Repr

/-- The splits at depth `k` of a tree reached by the documents `D`. -/
def splitsAt (left : Nat → K → Nat → Bool) : Nat → Tree K → List Nat → List Split
  | _, .leaf _, _ => []
  | 0, .node f t _ _, D => [⟨f, goLeft left f t D, goRight left f t D⟩]
  | k + 1, .node f t l r, D => splitsAt left k l (goLeft left f t D) ++ splitsAt left k r (goRight left f t D)

/-- Predictions when one more split `s` is made: its two parts are predicted by their means, all other documents as before. -/
def splitPred (y : Nat → K) (s : Split) (base : Nat → K) (d : Nat) : K :=
  if d ∈ s.left then mean y s.left else if d ∈ s.right then mean y s.right else base d

/-- For every split at depth `k`: the metric of the predictions of the tree cut at depth `k`, minus the metric after making the split. `P` are the
predictions of the trees before. -/
def levelGains (M : List K → K) (left : Nat → K → Nat → Bool) (n : Nat) (y P : Nat → K) (t : Tree K) (k : Nat) : List (Nat × K) :=
  let base := fitted left y (t.trunc k) (List.range n)
  (splitsAt left k t (List.range n)).map (fun s => (s.feature,
    M ((List.range n).map (fun d => base d + P d)) - M ((List.range n).map (fun d => splitPred y s base d + P d))))

/-- The same for all depths. -/
def treeGains (M : List K → K) (left : Nat → K → Nat → Bool) (n : Nat) (y P : Nat → K) (t : Tree K) : List (Nat × K) :=
  (List.range t.height).flatMap (levelGains M left n y P t)

/-- The same for all trees: each is fitted to what the trees before it leave of the labels. -/
def forestMetricGains (M : List K → K) (left : Nat → K → Nat → Bool) (n : Nat) (lab : Nat → K) : Forest K → (Nat → K) → List (Nat × K)
  | [], _ => []
  | (t, w) :: fo, P =>
    treeGains M left n (fun d => lab d - P d) P t ++
      forestMetricGains M left n lab fo (fun d => P d + fitted left (fun d => lab d - P d) t (List.range n) d * w)

/-- Total of a feature. -/
def totalOf (gs : List (Nat × K)) (f : Nat) : K := ((gs.filter (fun g => g.1 = f)).map (·.2)).sum

end Verif.Spec
