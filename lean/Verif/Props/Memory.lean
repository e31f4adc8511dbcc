/-
C74: arrays that are not stored row by row.
-/
import Verif.Model.Memory
import Verif.Props.Feature
import Verif.Props.Svmlight

namespace Verif.Props
open Spec Svm Ensemble
variable {K : Type}

/-- The rows of a matrix. -/
def matrixRows (n m : Nat) (X : Nat → Nat → K) : List (List K) := (List.range n).map (fun i => (List.range m).map (X i))

/-- The array holds the matrix. -/
def Holds (a : Nd K) (X : Nat → Nat → K) : Prop := ∀ i < a.rows, ∀ j < a.cols, a.read i j = .ok (X i j)

theorem mapM_ok {α β : Type} (f : α → Except PyErr β) (g : α → β) (l : List α) (h : ∀ x ∈ l, f x = .ok (g x)) :
    l.mapM f = .ok (l.map g) := by
  induction l with
  | nil => rfl
  | cons x l ih =>
    rw [List.mapM_cons, h x (by simp), ih (fun y hy => h y (by simp [hy]))]
    rfl

theorem rows_ok (n m : Nat) (f : Nat → Nat → Except PyErr K) (X : Nat → Nat → K) (h : ∀ i < n, ∀ j < m, f i j = .ok (X i j)) :
    (List.range n).mapM (fun i => (List.range m).mapM (fun j => f i j)) = .ok (matrixRows n m X) := by
  unfold matrixRows
  refine mapM_ok _ _ _ (fun i hi => ?_)
  exact mapM_ok _ _ _ (fun j hj => h i (List.mem_range.1 hi) j (List.mem_range.1 hj))

/-- C74: Python, numpy and the scoring code see the matrix whatever the layout. -/
theorem C74_values {a : Nd K} {X : Nat → Nat → K} (h : Holds a X) : a.values = .ok (matrixRows a.rows a.cols X) :=
  rows_ok _ _ _ _ h

theorem cell_map (n : Nat) (g : Nat → K) (k : Nat) (hk : k < n) : Nd.cell ((List.range n).map g) ((0 : Int) + (k : Nat)) = .ok (g k) := by
  unfold Nd.cell
  rw [if_pos (by omega)]
  have : ((0 : Int) + (k : Nat)).toNat = k := by omega
  rw [this, List.getElem?_map, List.getElem?_range hk]
  rfl

theorem index_lt {n m i j : Nat} (hi : i < n) (hj : j < m) : i * m + j < n * m := by
  calc i * m + j < i * m + m := by omega
    _ = (i + 1) * m := by ring
    _ ≤ n * m := Nat.mul_le_mul_right _ hi

/-- C74: an array whose rows are at least as far apart as its columns (row by row, slices of rows and columns, reversed) is written as it is.
Missing: the other arrays (`C74_violated_dump`). -/
theorem C74_dump_partial (showF : K → List Char) {a : Nd K} {X : Nat → Nat → K} (h : Holds a X) (ho : a.strideC.natAbs ≤ a.strideR.natAbs)
    (y : List K) (qids : List Int) (zeroBased : Bool) :
    dumpArray showF a y qids zeroBased = dumpFile showF (matrixRows a.rows a.cols X) y qids zeroBased := by
  unfold dumpArray Nd.copyK
  rw [if_pos ho, mapM_ok _ (fun k => X (k / a.cols) (k % a.cols)) _ (by
    intro k hk
    have hk := List.mem_range.1 hk
    have hc : 0 < a.cols := by
      rcases Nat.eq_zero_or_pos a.cols with e | e
      · rw [e] at hk; omega
      · exact e
    exact h _ (Nat.div_lt_of_lt_mul (by rwa [Nat.mul_comm])) _ (Nat.mod_lt _ hc))]
  have : Nd.raw ⟨(List.range (a.rows * a.cols)).map (fun k => X (k / a.cols) (k % a.cols)), a.rows, a.cols, a.cols, 1, 0⟩ =
      .ok (matrixRows a.rows a.cols X) := by
    refine rows_ok _ _ _ _ (fun i hi j hj => ?_)
    unfold Nd.pointer
    rw [cell_map _ _ _ (index_lt hi hj)]
    congr 2
    · rw [Nat.mul_comm, Nat.mul_add_div (by omega), Nat.div_eq_of_lt hj, Nat.add_zero]
    · rw [Nat.mul_comm, Nat.mul_add_mod, Nat.mod_eq_of_lt hj]
  show (Nd.raw _ >>= fun rows => dumpFile showF rows y qids zeroBased) = _
  rw [this]
  rfl

/-- C74: for the other arrays (column by column, transposed), the file has a matrix whose elements are those of `X` in the order of the columns,
written in the order of the rows. -/
theorem C74_dump_columns (showF : K → List Char) {a : Nd K} {X : Nat → Nat → K} (h : Holds a X) (ho : a.strideR.natAbs < a.strideC.natAbs)
    (y : List K) (qids : List Int) (zeroBased : Bool) :
    dumpArray showF a y qids zeroBased = dumpFile showF
      (matrixRows a.rows a.cols (fun i j => X ((i * a.cols + j) % a.rows) ((i * a.cols + j) / a.rows))) y qids zeroBased := by
  unfold dumpArray Nd.copyK
  rw [if_neg (by omega), mapM_ok _ (fun k => X (k % a.rows) (k / a.rows)) _ (by
    intro k hk
    have hk := List.mem_range.1 hk
    have hc : 0 < a.rows := by
      rcases Nat.eq_zero_or_pos a.rows with e | e
      · rw [e] at hk; omega
      · exact e
    exact h _ (Nat.mod_lt _ hc) _ (Nat.div_lt_of_lt_mul hk))]
  have : Nd.raw ⟨(List.range (a.rows * a.cols)).map (fun k => X (k % a.rows) (k / a.rows)), a.rows, a.cols, 1, a.rows, 0⟩ =
      .ok (matrixRows a.rows a.cols (fun i j => X ((i * a.cols + j) % a.rows) ((i * a.cols + j) / a.rows))) := by
    refine rows_ok _ _ _ _ (fun i hi j hj => ?_)
    unfold Nd.pointer
    rw [cell_map _ _ _ (index_lt hi hj)]
  show (Nd.raw _ >>= fun rows => dumpFile showF rows y qids zeroBased) = _
  rw [this]
  rfl

/-- C74: for a square matrix stored column by column, the file has the transpose. -/
theorem C74_dump_transpose (showF : K → List Char) {a : Nd K} {X : Nat → Nat → K} (h : Holds a X) (hs : a.rows = a.cols)
    (ho : a.strideR.natAbs < a.strideC.natAbs) (y : List K) (qids : List Int) (zeroBased : Bool) :
    dumpArray showF a y qids zeroBased = dumpFile showF (matrixRows a.rows a.cols (fun i j => X j i)) y qids zeroBased := by
  rw [C74_dump_columns showF h ho]
  congr 1
  unfold matrixRows
  refine List.map_congr_left (fun i hi => List.map_congr_left (fun j hj => ?_))
  have hj := List.mem_range.1 hj
  rw [hs]
  beta_reduce
  congr 1
  · rw [Nat.mul_comm, Nat.mul_add_mod, Nat.mod_eq_of_lt hj]
  · rw [Nat.mul_comm, Nat.mul_add_div (by omega), Nat.div_eq_of_lt hj, Nat.add_zero]

/-- The matrix `[[1, 2, 3], [4, 5, 6]]` stored column by column. -/
def columnMajor : Nd ℚ := ⟨[1, 4, 2, 5, 3, 6], 2, 3, 1, 2, 0⟩

/-- A printer for digits. -/
def showDigit (q : ℚ) : List Char := decimal q.num.natAbs

/-- C74 is violated: the same matrix, two layouts, two files. -/
theorem C74_violated_dump : columnMajor.values = .ok [[1, 2, 3], [4, 5, 6]] ∧
    Nd.values (⟨[1, 2, 3, 4, 5, 6], 2, 3, 3, 1, 0⟩ : Nd ℚ) = .ok [[1, 2, 3], [4, 5, 6]] ∧
    dumpArray showDigit columnMajor [0, 1] [7, 7] false = .ok "0 qid:7 1:1 2:4 3:2 \n1 qid:7 1:5 2:3 3:6 \n".toList ∧
    dumpArray showDigit ⟨[1, 2, 3, 4, 5, 6], 2, 3, 3, 1, 0⟩ [0, 1] [7, 7] false =
      .ok "0 qid:7 1:1 2:2 3:3 \n1 qid:7 1:4 2:5 3:6 \n".toList := by
  decide +kernel

/-- The hypotheses of `C74_dump_columns` and of `C74_dump_partial` can be met; the second is every other row of a matrix, from the last to the first. -/
example : Holds columnMajor (fun i j => 3 * i + j + 1) ∧ columnMajor.strideR.natAbs < columnMajor.strideC.natAbs ∧
    Holds (⟨[1, 2, 0, 0, 3, 4], 2, 2, -4, 1, 4⟩ : Nd ℚ) (fun i j => 3 - 2 * i + j) := by
  refine ⟨?_, by decide, ?_⟩ <;>
  · intro i hi j hj
    simp only [columnMajor] at hi hj
    interval_cases i <;> interval_cases j <;> decide +kernel

/-- C74: when the array is stored row by row, the importances are those of the matrix. Missing: other layouts
(`C74_violated_importance`, `C74_violated_bounds`). -/
theorem C74_importance_partial [Field K] [LinearOrder K] (m : Ensemble K) {a : Nd K} {X : Nat → Nat → K} (h : Holds a X)
    (hr : a.strideR = a.cols) (hc : a.strideC = 1) (y : List K) :
    importanceArray m a y = featureImportance m (matrixRows a.rows a.cols X).flatten a.cols a.rows y := by
  have : a.raw = .ok (matrixRows a.rows a.cols X) := by
    refine rows_ok _ _ _ _ (fun i hi j hj => ?_)
    rw [← h i hi j hj]
    unfold Nd.pointer Nd.read
    rw [hr, hc]
    push_cast
    congr 1
    ring
  unfold importanceArray
  rw [this]
  rfl

/-- C74 is violated: the same matrix, two layouts, two results. -/
theorem C74_violated_importance : Nd.values (⟨[2, 1, 0, 5, 0, 7], 3, 2, 1, 3, 0⟩ : Nd ℚ) = Nd.values ⟨[2, 5, 1, 0, 0, 7], 3, 2, 2, 1, 0⟩ ∧
    importanceArray fiEnsemble ⟨[2, 1, 0, 5, 0, 7], 3, 2, 1, 3, 0⟩ [3, 2, 0] ≠
      importanceArray fiEnsemble ⟨[2, 5, 1, 0, 0, 7], 3, 2, 2, 1, 0⟩ [3, 2, 0] := by
  decide +kernel

/-- C74 is violated: the reversed rows of an array (`X[::-1]`) are read beyond the buffer. -/
theorem C74_violated_bounds : Nd.values (⟨[0, 1, 2, 0, 2, 5], 3, 2, -2, 1, 4⟩ : Nd ℚ) = .ok [[2, 5], [2, 0], [0, 1]] ∧
    importanceArray fiEnsemble ⟨[0, 1, 2, 0, 2, 5], 3, 2, -2, 1, 4⟩ [3, 2, 0] = .error .undefinedBehaviour := by
  decide +kernel

end Verif.Props
