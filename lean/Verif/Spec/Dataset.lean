/-
Specification vocabulary for datasets, independent of the model.
-/
import Mathlib.Data.List.Basic

namespace Verif.Spec

/-- The rows of each query are contiguous: between two rows of a query all rows are of that query. -/
def Contiguous (ids : List Int) : Prop :=
  ∀ i j k : Nat, ∀ a : Int, i < j → j < k → ids[i]? = some a → ids[k]? = some a → ids[j]? = some a

/-- The range of the `int32` type used for query ids. -/
def IsInt32 (q : Int) : Prop := -2 ^ 31 ≤ q ∧ q < 2 ^ 31

end Verif.Spec

namespace Verif.Spec

/-- The rows of a dataset with features, label and query id side by side. -/
def rows {R L : Type} (X : List R) (y : List L) (ids : List Int) : List (R × L × Int) :=
  X.zip (y.zip ids)

/-- The rows whose query is in `Q`, in order. -/
def rowsOfQueries {R L : Type} (X : List R) (y : List L) (ids Q : List Int) : List (R × L × Int) :=
  (rows X y ids).filter (fun r => decide (r.2.2 ∈ Q))

end Verif.Spec

namespace Verif.Spec

/-- The entries of `a` that belong to the rows of query `q`, in order. -/
def ofQuery {α : Type} (q : Int) (ids : List Int) (a : List α) : List α :=
  ((ids.zip a).filter (fun p => decide (p.1 = q))).map (·.2)

end Verif.Spec
