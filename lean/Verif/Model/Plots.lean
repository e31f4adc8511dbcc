/-
Model of `rankeval/visualization`: what is drawn where.

Simplified: a plot is given by positions, sizes and labels; exact arithmetic instead of floats; colours, fonts and the layout of the page are left
out. `none` is NaN.
-/
import Verif.Model.Topology
import Mathlib.Algebra.Order.Floor.Ring

namespace Verif.Plots
variable {K : Type}

/-! ### visualization/topological.py -/

/-- `z[start:stop, level] = v`. -/
def setRange (z : Nat → Nat → K) (start stop level : Nat) (v : K) : Nat → Nat → K :=
  fun i l => if start ≤ i ∧ i < stop ∧ l = level then v else z i l

/-- visualization/topological.py 49: the rings of the plot. `rows` is the number of rows of the matrix. -/
def shapeLevels (rows maxLevel : Nat) : Nat := min rows (maxLevel + 1)

/-- visualization/topological.py 51: the angles of the plot. -/
def shapeNodes (levels : Nat) : Nat := max 128 (2 ^ levels)

/-- visualization/topological.py 98-105: the nodes of one level. -/
def shapeLevel (ts : Nat → Nat → K) (cols nodes : Nat) (z : Nat → Nat → K) (level : Nat) : Nat → Nat → K :=
  let same := nodes / 2 ^ level
  (List.range (2 ^ level)).foldl (fun z node =>
    if node < cols then setRange z (same * node) (same * node + same) level (ts level node) else z) z

/-- visualization/topological.py 47-105, `plot_shape`: the values of the grid; `ts` is the matrix with `rows` rows and `cols` columns. The first
index is the angle, the second the ring. -/
def shapeGrid [Zero K] (ts : Nat → Nat → K) (rows cols maxLevel : Nat) : Nat → Nat → K :=
  let levels := shapeLevels rows maxLevel
  (List.range levels).foldl (shapeLevel ts cols (shapeNodes levels)) (fun _ _ => 0)

/-- The number of rows or columns of a sparse matrix built from its entries. -/
def extent (l : List Nat) : Nat := (l.map (· + 1)).foldl max 0

/-- visualization/topological.py 47-105 for the result of the analysis. -/
def plotShape [DivisionRing K] (top : List Ensemble.Entry) (nTrees maxLevel : Nat) : Nat → Nat → K :=
  shapeGrid (Ensemble.avgTreeShape top nTrees) (extent (top.map Ensemble.Entry.row)) (extent (top.map Ensemble.Entry.col)) maxLevel

/-! ### visualization/feature.py -/

/-- Numpy's rule for two arrays with one axis, in `Axes.bar`. -/
def broadcast {α β : Type} (a : List α) (b : List β) : Except PyErr (List (α × β)) :=
  if a.length = b.length then .ok (a.zip b)
  else
    match a, b with
    | [x], b => .ok (b.map (fun y => (x, y)))
    | a, [y] => .ok (a.map (fun x => (x, y)))
    | _, _ => .error .valueError

/-- `l[:k]` for `k` of any sign. -/
def sliceTo {α : Type} (l : List α) (k : Int) : List α := if 0 ≤ k then l.take k.toNat else l.take (l.length - (-k).toNat)

inductive SortBy where
  | gain
  | count
  | other
  deriving DecidableEq

/-- The labels under the bars: numbers of features from 1, or names. -/
inductive TickLabels where
  | indices (l : List Nat)
  | names (l : List String)
  deriving DecidableEq, Repr

/-- The bars (position, height), the labels and the step between horizontal lines. -/
structure FeaturePlot (K : Type) where
  gains : List (Nat × K)
  counts : List (Nat × Nat)
  labels : TickLabels
  step : K
  deriving DecidableEq

/-- The elements at the given indices. -/
def pick {α : Type} (a : List α) (idx : List Nat) : Except PyErr (List α) :=
  idx.mapM (fun i => match a[i]? with
    | some x => .ok x
    | none => .error .indexError)

/-- `x.max()`. -/
def arrayMax [LinearOrder K] : List K → Except PyErr K
  | [] => .error .valueError
  | x :: l => .ok (l.foldl max x)

/-- visualization/feature.py 53-61: the features in the order of the plot. `argsort` and `argsortN` are `np.argsort` for both kinds of numbers. -/
def featureOrder (argsort : List K → List Nat) (argsortN : List Nat → List Nat) (importance : List K) (count : List Nat) : SortBy → Except PyErr (List Nat)
  | .gain => .ok (argsort importance).reverse
  | .count => .ok (argsortN count).reverse
  | .other => .error .runtimeError

/-- visualization/feature.py 63-66: the features shown. -/
def featureTop (sorted : List Nat) : Option Int → List Nat
  | some k => sliceTo sorted k
  | none => sorted

/-- visualization/feature.py 63-66: the length of the axis. -/
def featureShown (n : Nat) : Option Int → Nat
  | some k => k.toNat
  | none => n

/-- visualization/feature.py 93-100. -/
def featureLabels (top : List Nat) : Option (List String) → Except PyErr TickLabels
  | some names => do
    let l ← pick names top
    pure (.names l)
  | none => .ok (.indices (top.map (· + 1)))

/-- visualization/feature.py 69-104: the bars, labels and the step. -/
def featureBars [Field K] [LinearOrder K] [FloorRing K] (importance : List K) (count : List Nat) (names : Option (List String)) (top : List Nat)
    (shown : Nat) : Except PyErr (FeaturePlot K) := do
  let topImp ← pick importance top
  let topCount ← pick count top
  let gains ← broadcast (List.range shown) topImp
  let counts ← broadcast (List.range shown) topCount
  let labels ← featureLabels top names
  let m ← arrayMax topImp
  pure ⟨gains, counts, labels, ((⌈m * 10⌉ : Int) : K) / 100⟩

/-- visualization/feature.py 46-107, `plot_feature_importance`. -/
def plotFeatureImportance [Field K] [LinearOrder K] [FloorRing K] (argsort : List K → List Nat) (argsortN : List Nat → List Nat)
    (importance : List K) (count : List Nat) (maxFeatures : Option Int) (sortBy : SortBy) (names : Option (List String)) :
    Except PyErr (FeaturePlot K) := do
  let sorted ← featureOrder argsort argsortN importance count sortBy
  featureBars importance count names (featureTop sorted maxFeatures) (featureShown importance.length maxFeatures)

/-- Python's `%` for numbers that are not integers; the result of `x % 0.` is NaN. -/
def pyMod [Field K] [LinearOrder K] [FloorRing K] (x f : K) : Option K := if f = 0 then none else some (x - f * (⌊x / f⌋ : Int))

/-- visualization/feature.py 120-140, `align_y_axis`: the ticks of one axis. -/
def alignTicks [Field K] [LinearOrder K] [FloorRing K] (lo hi minres : K) (numTicks : Nat) : Option (List K) := do
  let f := minres * ((numTicks : K) - 1)
  let r ← pyMod (hi - lo) f
  let d ← pyMod (f - r) f
  let stop := hi + d
  pure ((List.range numTicks).map (fun i : Nat => lo + i * ((stop - lo) / ((numTicks : K) - 1))))

/-! ### visualization/effectiveness.py -/

/-- A bar: centre, width, height. -/
structure Bar (K V : Type) where
  centre : K
  width : K
  height : V
  deriving DecidableEq, Repr

/-- visualization/effectiveness.py 58-67, 82-88, 474-483 and 511-520: the bars for a table with one row for each series (colour) and one column for
each group. -/
def barPlot [Field K] {V : Type} (table : List (List V)) : List (List (Bar K V)) :=
  let width : K := (95 / 100) / (table.length : K)
  table.zipIdx.map (fun s => s.1.zipIdx.map (fun v => ⟨(v.2 : K) + (s.2 : K) * width, width, v.1⟩))

/-- visualization/effectiveness.py 77, 98, 496 and 532: the places of the names of the groups. -/
def groupTicks [Field K] (series groups : Nat) : List K :=
  let width : K := (95 / 100) / (series : K)
  (List.range groups).map (fun g : Nat => (g : K) - width / 2 + (95 / 100) / 2)

/-- The largest element of a numpy array, NaN if there is one. -/
def npMax [LinearOrder K] : List (Option K) → Except PyErr (Option K)
  | [] => .error .valueError
  | x :: l => .ok (l.foldl (fun a b => match a, b with
    | some a, some b => some (max a b)
    | _, _ => none) x)

/-- visualization/effectiveness.py 106-107, 498-499 and 534-535: the upper end of the vertical axis, whose lower end is 0. `set_ylim` raises an exception for NaN. -/
def yLimit [Field K] [LinearOrder K] [FloorRing K] (values : List (Option K)) : Except PyErr K := do
  match ← npMax values with
  | some m => pure (((⌈m * (14 / 10) * 10⌉ : Int) : K) / 10)
  | none => .error .valueError

/-- visualization/effectiveness.py 152: `np.nanargmax`. -/
def nanArgmax [LinearOrder K] (l : List (Option K)) : Except PyErr Nat :=
  match (l.zipIdx.filterMap (fun p => p.1.map (fun v => (v, p.2)))) with
  | [] => .error .valueError
  | x :: xs => .ok (xs.foldl (fun a b => if a.1 < b.1 then b else a) x).2

/-- visualization/effectiveness.py 152-154: the marker on a curve. -/
def maxMarker [LinearOrder K] {A : Type} (ks : List A) (values : List (Option K)) : Except PyErr (A × Option K) := do
  let i ← nanArgmax values
  match ks[i]?, values[i]? with
  | some k, some v => pure (k, v)
  | _, _ => .error .indexError

/-- visualization/effectiveness.py 389-394, `is_log_scale_matrix`: integers; dividing by 0 gives infinity or NaN. -/
def isLogScale (matrix : List (List Nat)) : Except PyErr Bool :=
  match (matrix.flatten.insertionSort (· ≤ ·)).reverse with
  | a :: b :: _ => .ok (if b = 0 then decide (a ≠ 0) else decide (2 * b < a))
  | _ => .error .indexError

/-- visualization/effectiveness.py 422-426: `pcolormesh` draws rows from the bottom to the top: the value seen above `x` on the horizontal and
beside `y` on the vertical axis. -/
def meshAt {V : Type} (matrix : List (List V)) (x y : Nat) : Option V := (matrix[y]?).bind (·[x]?)

end Verif.Plots
