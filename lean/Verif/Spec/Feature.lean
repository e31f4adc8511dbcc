/-
Specification of feature importance: reduction of the squared error at the nodes of the trees.
-/
import Verif.Spec.Ensemble

namespace Verif.Spec
variable {K : Type} [Field K] [LinearOrder K]

/-- Mean of the targets of documents. -/
def mean (y : Nat → K) (D : List Nat) : K := (D.map y).sum / D.length

/-- Squared error of documents when predicted by their mean. -/
def sse (y : Nat → K) (D : List Nat) : K := (D.map (fun d => (y d - mean y D) ^ 2)).sum

/-- The documents sent left and right at a node. -/
def goLeft (left : Nat → K → Nat → Bool) (f : Nat) (t : K) (D : List Nat) : List Nat := D.filter (fun d => left f t d)
def goRight (left : Nat → K → Nat → Bool) (f : Nat) (t : K) (D : List Nat) : List Nat := D.filter (fun d => !left f t d)

/-- For each node its feature and the reduction of the squared error by splitting the documents that reach it. -/
def gains (left : Nat → K → Nat → Bool) (y : Nat → K) : Tree K → List Nat → List (Nat × K)
  | .leaf _, _ => []
  | .node f t l r, D =>
    (f, sse y D - (sse y (goLeft left f t D) + sse y (goRight left f t D))) ::
      (gains left y l (goLeft left f t D) ++ gains left y r (goRight left f t D))

/-- The mean of the documents in the leaf of a document. -/
def fitted (left : Nat → K → Nat → Bool) (y : Nat → K) : Tree K → List Nat → Nat → K
  | .leaf _, D, _ => mean y D
  | .node f t l r, D, d => if left f t d then fitted left y l (goLeft left f t D) d else fitted left y r (goRight left f t D) d

/-- The gains of all trees: each tree is fitted to what the trees before it leave. -/
def forestGains (left : Nat → K → Nat → Bool) (D : List Nat) : Forest K → (Nat → K) → List (Nat × K)
  | [], _ => []
  | (t, w) :: fo, y => gains left y t D ++ forestGains left D fo (fun d => y d - fitted left y t D d * w)

/-- Importance of a feature: its total gain per document. -/
def importance (gs : List (Nat × K)) (n f : Nat) : K := ((gs.filter (fun g => g.1 = f)).map (·.2)).sum / n

/-- The features of the nodes visited: the root, and nodes reached by at least two documents. -/
def visitedFeatures (left : Nat → K → Nat → Bool) : Tree K → List Nat → List Nat
  | .leaf _, _ => []
  | .node f t l r, D =>
    f :: ((if 2 ≤ (goLeft left f t D).length then visitedFeatures left l (goLeft left f t D) else []) ++
      (if 2 ≤ (goRight left f t D).length then visitedFeatures left r (goRight left f t D) else []))

/-- No visited node whose documents start at position 0 sends all of them right. -/
def NoEmptyLeft (left : Nat → K → Nat → Bool) : Tree K → List Nat → Nat → Prop
  | .leaf _, _, _ => True
  | .node f t l r, D, start =>
    (start = 0 → goLeft left f t D ≠ []) ∧ (2 ≤ (goLeft left f t D).length → NoEmptyLeft left l (goLeft left f t D) start) ∧
      (2 ≤ (goRight left f t D).length → NoEmptyLeft left r (goRight left f t D) (start + (goLeft left f t D).length))

/-- Whether document `d`, a row of features, goes left at a node with feature `f` and threshold `t`. -/
def leftOf (rows : List (List K)) (f : Nat) (t : K) (d : Nat) : Bool :=
  match (rows[d]?).bind (·[f]?) with
  | some x => decide (x ≤ t)
  | none => false

/-- Total reduction of the squared error: each tree starts from the mean of what the trees before it leave, and ends with the mean of each
leaf. -/
def forestReduction (left : Nat → K → Nat → Bool) (D : List Nat) : Forest K → (Nat → K) → K
  | [], _ => 0
  | (t, w) :: fo, y => (sse y D - (D.map (fun d => (y d - fitted left y t D d) ^ 2)).sum) +
      forestReduction left D fo (fun d => y d - fitted left y t D d * w)

/-- The features of the nodes visited in all trees. -/
def forestVisited (left : Nat → K → Nat → Bool) (D : List Nat) (fo : Forest K) : List Nat := fo.flatMap (fun p => visitedFeatures left p.1 D)

end Verif.Spec
