/-
Model of the loops of `rankeval/visualization/effectiveness.py`: which values are drawn in which figure and subplot, under which name and in
which colour. The values are looked up with `performance.sel(dataset=..., model=..., metric=...)`, that is by comparing labels.

Simplified: colours are numbers in the cycle of colours (how many there are is a parameter where it matters); fonts, sizes, grids and places are
left out; the ends of the axes and the places of bars and names are in `Model/Plots.lean`. `Axes.bar` for values with more than one row raises
an exception.
-/
import Verif.Model.Plots

namespace Verif.Plots

/-- The positions at which an index holds a label. Labels are compared by `same`: `Dataset.__eq__` for datasets (dataset.py 418-422), identity
for models and metrics. -/
def positions {L : Type} (same : L → L → Bool) (labels : List L) (l : L) : List Nat :=
  labels.zipIdx.filterMap (fun p => if same p.1 l then some p.2 else none)

/-- What `sel` returns: an axis stays if its label is found at more than one position. -/
inductive Picked (V : Type) where
  | one (v : V)
  | several (vs : List V)
  | deep
  deriving DecidableEq, Repr

/-- A result table: the labels of its axes and the values by dataset, model and metric. For a table without metrics (`document_graded_relevance`
has labels in their place) the third axis is another one. -/
structure Perf (D M F V : Type) where
  name : String
  datasets : List D
  models : List M
  metrics : List F
  data : List (List (List V))

/-- How labels are compared. -/
structure Same (D M F : Type) where
  dataset : D → D → Bool
  model : M → M → Bool
  metric : F → F → Bool

variable {D M F V X : Type}

/-- One cell. -/
def cell (data : List (List (List V))) (i j k : Nat) : Except PyErr V :=
  match ((data[i]?).bind (·[j]?)).bind (·[k]?) with
  | some v => .ok v
  | none => .error .indexError

/-- The values found, with one axis for each list of positions that has not exactly one. -/
def picked (ps : List (List Nat)) (cells : List V) : Picked V :=
  match (ps.filter (fun l => l.length ≠ 1)).length, cells with
  | 0, v :: _ => .one v
  | 1, vs => .several vs
  | _, _ => .deep

/-- `performance.sel(dataset=d, model=m, metric=f)`, visualization/effectiveness.py 148-150, 174-176, 200-202, 291-293, 312-314, 351-353,
479-481 and 516-518. -/
def sel (s : Same D M F) (p : Perf D M F V) (d : D) (m : M) (f : F) : Except PyErr (Picked V) :=
  let is := positions s.dataset p.datasets d
  let js := positions s.model p.models m
  let ks := positions s.metric p.metrics f
  if is = [] ∨ js = [] ∨ ks = [] then .error .keyError
  else do
    let cells ← is.mapM (fun i => js.mapM (fun j => ks.mapM (fun k => cell p.data i j k)))
    pure (picked [is, js, ks] (cells.flatten.flatten))

/-- `performance.sel(dataset=d, model=m)`, visualization/effectiveness.py 65: the values of all metrics. -/
def selModel (s : Same D M F) (p : Perf D M F V) (d : D) (m : M) : Except PyErr (Picked (List V)) :=
  let is := positions s.dataset p.datasets d
  let js := positions s.model p.models m
  if is = [] ∨ js = [] then .error .keyError
  else do
    let rows ← is.mapM (fun i => js.mapM (fun j => (List.range p.metrics.length).mapM (fun k => cell p.data i j k)))
    pure (picked [is, js] rows.flatten)

/-- `performance.sel(dataset=d, metric=f)`, visualization/effectiveness.py 86: the values of all models. -/
def selMetric (s : Same D M F) (p : Perf D M F V) (d : D) (f : F) : Except PyErr (Picked (List V)) :=
  let is := positions s.dataset p.datasets d
  let ks := positions s.metric p.metrics f
  if is = [] ∨ ks = [] then .error .keyError
  else do
    let rows ← is.mapM (fun i => ks.mapM (fun k => (List.range p.models.length).mapM (fun j => cell p.data i j k)))
    pure (picked [is, ks] rows.flatten)

/-- A curve: its name, its colour, its points. -/
structure Curve (X V : Type) where
  label : String
  colour : Nat
  points : List (X × V)
  deriving DecidableEq, Repr

/-- A subplot. A mark is the black circle at the largest value of a curve. A legend is a list of names with colours; `none` is black. -/
structure Axes (X V : Type) where
  curves : List (Curve X V)
  marks : List (X × V) := []
  ylabel : String := ""
  xlabel : String := ""
  title : String := ""
  legend : Option (List (String × Option Nat)) := none
  deriving DecidableEq, Repr

/-- A figure with the subplots from the top to the bottom. -/
structure Figure (X V : Type) where
  title : String := ""
  axes : List (Axes X V)
  deriving DecidableEq, Repr

/-- `Axes.plot(xs, ys)`: the lines drawn. An array with two axes has a line for each column. -/
def lines (xs : List X) : Picked (List V) → Except PyErr (List (List (X × V)))
  | .one ys => if xs.length = ys.length then .ok [xs.zip ys] else .error .valueError
  | .several rows =>
    if xs.length = rows.length then
      .ok ((List.range ((rows.head?.map List.length).getD 0)).map (fun c => xs.zip (rows.filterMap (·[c]?))))
    else .error .valueError
  | .deep => .error .valueError

/-- `Axes.plot(xs, ys, label=label)`: each line takes the next colour. -/
def Axes.plot (a : Axes X V) (xs : List X) (ys : Picked (List V)) (label : String) : Except PyErr (Axes X V) := do
  let ls ← lines xs ys
  pure { a with curves := a.curves ++ ls.zipIdx.map (fun l => ⟨label, a.curves.length + l.2, l.1⟩) }

/-- Matplotlib leaves names out of a legend that are empty or start with an underscore. -/
def inLegend (label : String) : Bool := label ≠ "" && !label.startsWith "_"

/-- `Axes.legend()` without arguments. -/
def Axes.autoLegend (a : Axes X V) : List (String × Option Nat) :=
  (a.curves.filter (fun c => inLegend c.label)).map (fun c => (c.label, some c.colour))

/-- `Axes.legend(names)`: the names are given to the curves in order. -/
def Axes.namedLegend (a : Axes X V) (names : List String) : List (String × Option Nat) :=
  names.zip (a.curves.map (fun c => some c.colour))

/-- Change of the last element: after a loop `for i, x in enumerate(l)`, `axes[i, 0]` is the last subplot. -/
def onLast {A : Type} (f : A → A) : List A → List A
  | [] => []
  | [a] => [f a]
  | a :: l => a :: onLast f l

/-- `plt.subplots(n)`: there is no figure without subplot. -/
def subplots (n : Nat) : Except PyErr Unit := if n = 0 then .error .valueError else .ok ()

/-! ### Curves with their largest values -/

section
variable {K : Type} [LinearOrder K]

/-- visualization/effectiveness.py 152-154, 178-180, 204-206: `np.nanargmax` of the values in one row, and the point marked. For values in more
rows the position counts through all of them; then either `k_values` has no such position, or a row of values is drawn over one point. -/
def markMax (ks : List X) : Picked (List (Option K)) → Except PyErr (X × Option K)
  | .one ys => maxMarker ks ys
  | .several rows => do
    let i ← nanArgmax rows.flatten
    if i < ks.length then .error .valueError else .error .indexError
  | .deep => .error .indexError

/-- visualization/effectiveness.py 143-163, 169-189, 195-214: one figure of `plot_tree_wise_performance`: a subplot for each `b`, a curve for
each `c`, with its largest value. -/
def treeWiseFigure {B C : Type} (look : B → C → Except PyErr (Picked (List (Option K)))) (nameB : B → String) (nameC : C → String)
    (ks : List X) (bs : List B) (cs : List C) (title : String) : Except PyErr (Figure X (Option K)) := do
  subplots bs.length
  let axes ← bs.mapM (fun b => do
    let a ← cs.foldlM (fun (a : Axes X (Option K)) c => do
      let v ← look b c
      let a ← a.plot ks v (nameC c)
      let mark ← markMax ks v
      pure { a with marks := a.marks ++ [mark] }) { curves := [] }
    pure { a with ylabel := nameB b })
  pure ⟨title, onLast (fun a => { a with legend := some (a.autoLegend ++ [("Max", none)]), xlabel := "Number of trees" }) axes⟩

/-- visualization/effectiveness.py 135-218, `plot_tree_wise_performance`. `names` are the texts of datasets, models and metrics. -/
def plotTreeWise (s : Same D M F) (nd : D → String) (nm : M → String) (nf : F → String) (ks : List X) (p : Perf D M F (List (Option K)))
    (compare : String) : Except PyErr (List (Figure X (Option K))) :=
  if compare = "metrics" then
    p.datasets.mapM (fun d => treeWiseFigure (fun m f => sel s p d m f) nm nf ks p.models p.metrics (p.name ++ " for " ++ nd d))
  else if compare = "models" then
    p.datasets.mapM (fun d => treeWiseFigure (fun f m => sel s p d m f) nf nm ks p.metrics p.models (p.name ++ " for " ++ nd d))
  else if compare = "datasets" then
    p.models.mapM (fun m => treeWiseFigure (fun f d => sel s p d m f) nf nd ks p.metrics p.datasets (p.name ++ " for " ++ nm m))
  else .error .runtimeError

end

/-! ### Curves -/

/-- `metric_values.values*100`, visualization/effectiveness.py 295 and 316. -/
def Picked.scale (times100 : V → V) : Picked (List V) → Picked (List V)
  | .one ys => .one (ys.map times100)
  | .several rows => .several (rows.map (·.map times100))
  | .deep => .deep

/-- visualization/effectiveness.py 286-303, 307-323: one figure of `plot_query_wise_performance`; `times100` is the product with 100. -/
def queryWiseFigure {B C : Type} (times100 : V → V) (look : B → C → Except PyErr (Picked (List V))) (nameC : C → String) (xlabel : Option B → String)
    (bins : List X) (bs : List B) (cs : List C) (title : String) : Except PyErr (Figure X V) := do
  subplots bs.length
  let axes ← bs.mapM (fun b => do
    let a ← cs.foldlM (fun (a : Axes X V) c => do
      let v ← look b c
      a.plot bins (v.scale times100) (nameC c)) { curves := [] }
    pure { a with ylabel := "Query %" })
  pure ⟨title, onLast (fun a => { a with legend := some a.autoLegend, xlabel := xlabel bs.getLast? }) axes⟩

/-- visualization/effectiveness.py 278-325, `plot_query_wise_performance`. Comparing models, the horizontal axis is named after the last
metric. -/
def plotQueryWise (times100 : V → V) (s : Same D M F) (nd : D → String) (nm : M → String) (nf : F → String) (bins : List X) (p : Perf D M F (List V))
    (compare : String) : Except PyErr (List (Figure X V)) :=
  if compare = "metrics" then
    p.datasets.mapM (fun d => queryWiseFigure times100 (fun m f => sel s p d m f) nf (fun _ => "Metric Score") bins p.models p.metrics
      (p.name ++ " for " ++ nd d))
  else if compare = "models" then
    p.datasets.mapM (fun d => queryWiseFigure times100 (fun f m => sel s p d m f) nm (fun f => (f.map nf).getD "") bins p.metrics p.models
      (p.name ++ " for " ++ nd d))
  else .error .runtimeError

/-- visualization/effectiveness.py 344-365, `plot_document_graded_relevance`: the third axis has the relevance labels; `text` is
`"Label " + str(int(l))`. The curves have no names of their own. -/
def plotGraded (s : Same D M F) (nd : D → String) (nm : M → String) (text : F → String) (bins : List X) (p : Perf D M F (List V)) :
    Except PyErr (List (Figure X V)) :=
  p.datasets.mapM (fun d => do
    subplots p.models.length
    let axes ← p.models.mapM (fun m => do
      let a ← p.metrics.foldlM (fun (a : Axes X V) l => do
        let v ← sel s p d m l
        a.plot bins v "") { curves := [] }
      pure { a with title := p.name ++ " for " ++ nd d ++ " and model " ++ nm m, ylabel := "Relevance" })
    pure ⟨"", onLast (fun a => { a with legend := some (a.namedLegend (p.metrics.map text)), xlabel := "Predicted score" }) axes⟩)

/-- The number of points of `Axes.plot(ys)` without horizontal positions. -/
def Picked.points : Picked (List V) → Nat
  | .one ys => ys.length
  | .several rows => rows.length
  | .deep => 0

/-- `performance.sel(dataset=d, model=m)` for tables without a third axis: `p` with the single metric `()`. visualization/effectiveness.py
237-255, `plot_tree_wise_average_contribution`: the trees are numbered from 0. Each subplot has a legend with the name of its model. -/
def plotContribution (s : Same D M Unit) (nd : D → String) (nm : M → String) (p : Perf D M Unit (List V)) : Except PyErr (List (Figure Nat V)) :=
  p.datasets.mapM (fun d => do
    subplots p.models.length
    let axes ← p.models.mapM (fun m => do
      let v ← sel s p d m ()
      let a ← ({ curves := [] } : Axes Nat V).plot (List.range v.points) v ""
      pure { a with legend := some (a.namedLegend [nm m]) })
    pure ⟨p.name ++ " for " ++ nd d, onLast (fun a => { a with xlabel := "Number of trees" }) axes⟩)

/-! ### Bars -/

/-- A subplot with bars: the rows of bars in the order of the colours, the names below the groups, the names of the colours if there is a
legend. -/
structure BarAxes (K V : Type) where
  bars : List (List (Bar K V))
  ticks : List (K × String)
  ylabel : String
  legend : Option (List (String × Nat)) := none
  deriving DecidableEq, Repr

structure BarFigure (K V : Type) where
  title : String
  axes : List (BarAxes K V)
  deriving DecidableEq, Repr

/-- One row of values; more rows cannot be drawn. -/
def oneRow {A : Type} : Picked A → Except PyErr A
  | .one v => .ok v
  | _ => .error .valueError

/-- visualization/effectiveness.py 77-78, 98-99, 495-497, 531-533: the bars of a table and their names. -/
def barAxes {K : Type} [Field K] (table : List (List V)) (series groups : List String) (ylabel : String) : BarAxes K V :=
  { bars := barPlot table, ticks := (groupTicks series.length groups.length).zip groups, ylabel := ylabel }

/-- The names of the colours: `axes.legend(names)`. -/
def withLegend {K : Type} (series : List String) (a : BarAxes K V) : BarAxes K V :=
  { a with legend := some (series.zip (List.range a.bars.length)) }

/-- visualization/effectiveness.py 48-112, `plot_model_performance`. The row of a model is `performance.sel(dataset=d, model=m)`, that of a
metric `performance.sel(dataset=d, metric=f)`. -/
def plotModelPerformance {K : Type} [Field K] (s : Same D M F) (nd : D → String) (nm : M → String) (nf : F → String) (p : Perf D M F V)
    (compare : String) : Except PyErr (List (BarFigure K V)) :=
  if compare = "models" then
    p.datasets.mapM (fun d => do
      let table ← p.models.mapM (fun m => do oneRow (← selModel s p d m))
      pure ⟨p.name ++ " for " ++ nd d, [withLegend (p.models.map nm) (barAxes table (p.models.map nm) (p.metrics.map nf) "Metric Score")]⟩)
  else if compare = "metrics" then
    p.datasets.mapM (fun d => do
      let table ← p.metrics.mapM (fun f => do oneRow (← selMetric s p d f))
      pure ⟨p.name ++ " for " ++ nd d, [withLegend (p.metrics.map nf) (barAxes table (p.metrics.map nf) (p.models.map nm) "Metric Score")]⟩)
  else .error .runtimeError

/-- visualization/effectiveness.py 460-544, `plot_query_class_performance`: a row of values for the classes `classes`. Comparing metrics, the
figure is named after the last model. -/
def plotQueryClass {K : Type} [Field K] (s : Same D M F) (nd : D → String) (nm : M → String) (nf : F → String) (classes : List String)
    (p : Perf D M F (List V)) (compare : String) : Except PyErr (List (BarFigure K V)) :=
  if compare = "metrics" then
    p.datasets.mapM (fun d => do
      subplots p.models.length
      let axes ← p.models.mapM (fun m => do
        let table ← p.metrics.mapM (fun f => do oneRow (← sel s p d m f))
        pure (barAxes table (p.metrics.map nf) classes "Metric Score"))
      pure ⟨p.name ++ " for " ++ nd d ++ " and model " ++ (p.models.getLast?.map nm).getD "", onLast (withLegend (p.metrics.map nf)) axes⟩)
  else if compare = "models" then
    p.datasets.mapM (fun d => do
      subplots p.metrics.length
      let axes ← p.metrics.mapM (fun f => do
        let table ← p.models.mapM (fun m => do oneRow (← sel s p d m f))
        pure (barAxes table (p.models.map nm) classes (nf f)))
      pure ⟨p.name ++ " for " ++ nd d, onLast (withLegend (p.models.map nm)) axes⟩)
  else .error .runtimeError

end Verif.Plots
