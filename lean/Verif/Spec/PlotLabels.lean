/-
Specification of labelled tables and of the figures that show them (C114).
-/
import Verif.Model.PlotLabels

namespace Verif.Spec
open Plots

/-- The labels of an axis differ from each other, and each is found by itself. -/
def Distinct {L : Type} (same : L → L → Bool) (labels : List L) : Prop :=
  ∀ (i j : Nat) (x y : L), labels[i]? = some x → labels[j]? = some y → (same x y = true ↔ i = j)

/-- All labels of a table differ. -/
structure AllDistinct {D M F V : Type} (s : Same D M F) (p : Perf D M F V) : Prop where
  datasets : Distinct s.dataset p.datasets
  models : Distinct s.model p.models
  metrics : Distinct s.metric p.metrics

/-- The values of a table by the positions of dataset, model and metric. -/
def Holds {D M F V : Type} (p : Perf D M F V) (v : Nat → Nat → Nat → V) : Prop :=
  ∀ i j k : Nat, i < p.datasets.length → j < p.models.length → k < p.metrics.length → ((p.data[i]?).bind (·[j]?)).bind (·[k]?) = some (v i j k)

/-- A figure with `rows` subplots; the one at `j` has a curve for each of the `names`, in the order and with the colours of the names, and
the curve at `k` has the points `points j k`. -/
structure Shows {X V : Type} (fig : Figure X V) (title : String) (rows : Nat) (names : List String) (points : Nat → Nat → List (X × V)) : Prop where
  title : fig.title = title
  rows : fig.axes.length = rows
  curves : ∀ (j : Nat) (a : Axes X V), fig.axes[j]? = some a → a.curves = names.zipIdx.map (fun n => ⟨n.1, n.2, points j n.2⟩)

/-- The names beside the subplots; the legend and the name of the horizontal axis are at the last subplot only. -/
def Labelled {X V : Type} (fig : Figure X V) (ylabels : List String) (xlabel : String) (legend : List (String × Option Nat)) : Prop :=
  ∀ (j : Nat) (a : Axes X V), fig.axes[j]? = some a → ylabels[j]? = some a.ylabel ∧
    (j + 1 = fig.axes.length → a.legend = some legend ∧ a.xlabel = xlabel) ∧ (j + 1 < fig.axes.length → a.legend = none ∧ a.xlabel = "")

/-- The legend that names all curves, apart from those whose names are empty or start with an underscore. -/
def legendOf (names : List String) : List (String × Option Nat) :=
  (names.zipIdx.filter (fun n => n.1 ≠ "" ∧ n.1.startsWith "_" = false)).map (fun n => (n.1, some n.2))

end Verif.Spec
