/-
Property C56 (rank confusion matrix).
-/
import Verif.Lemmas.Confusion

namespace Verif.Props
open Eff Spec
variable {R L S : Type} [LinearOrder L] [LinearOrder S]

/-- Cell of a matrix. -/
def cellAt (m : List (List Nat)) (a b : Nat) : Option Nat := m[a]?.bind (fun r => r[b]?)

/-- The assumptions on the data: labels are the numbers `lab` from 0 to `n - 1`, and the dataset has its queries in blocks. -/
structure ConfusionOk (X : List R) (nf : Nat) (y : List L) (ids : List Int) (yPred : List S) (toI : L → Int) (lab : L → Nat) (n : Nat)
    (d : Dataset R L) : Prop where
  built : mkDataset X nf y ids = .ok d
  contiguous : Contiguous ids
  lengthY : y.length = ids.length
  lengthP : yPred.length = ids.length
  label : ∀ l, toI l = (lab l : Int)
  range : ∀ l ∈ y, lab l < n
  inj : ∀ l ∈ y, ∀ l' ∈ y, lab l = lab l' → l = l'

variable {X : List R} {nf : Nat} {y : List L} {ids : List Int} {yPred : List S} {toI : L → Int} {lab : L → Nat} {n : Nat} {d : Dataset R L}

/-- C56: for different labels without equal scores in a query, the cell has the number of pairs of documents of the same query where the one
with label `la` has the lower score. -/
theorem C56_pairs_partial (ok : ConfusionOk X nf y ids yPred toI lab n d) (skip : Bool) {la lb : L} (ha : la ∈ y) (hb : lb ∈ y) (hab : la ≠ lb)
    (hties : ∀ q, ∀ u ∈ docsOf q ids y yPred, ∀ v ∈ docsOf q ids y yPred, u.1 ≠ v.1 → u.2 ≠ v.2) :
    ∃ m, confusion toI skip n d yPred = .ok m ∧
      cellAt m (lab la) (lab lb) = some (d.queryIds.map (fun q => lowerPairs (docsOf q ids y yPred) la lb)).sum := by
  refine ⟨_, confusion_spec ok.built ok.contiguous ok.lengthY ok.lengthP ok.label skip ok.range, ?_⟩
  unfold cellAt
  rw [matOf_get _ (ok.range la ha) (ok.range lb hb)]
  congr 2
  apply List.map_congr_left
  intro q _
  apply upPairs_offdiag hab
  · exact fun u hu v hv => ok.inj _ (docsOf_mem hu) _ (docsOf_mem hv)
  · exact fun u hu => ⟨ok.inj _ (docsOf_mem hu) _ ha, ok.inj _ (docsOf_mem hu) _ hb⟩
  · exact hties q

/-- C56: these numbers do not depend on the order of the documents. -/
theorem C56_order {docs docs' : List (L × S)} (h : docs.Perm docs') (la lb : L) : lowerPairs docs la lb = lowerPairs docs' la lb := by
  unfold lowerPairs
  exact (h.product h).countP_eq _

/-- C56: every pair of documents of a query, and every document with itself, is counted once. -/
theorem C56_total (ok : ConfusionOk X nf y ids yPred toI lab n d) :
    ∃ m, confusion toI false n d yPred = .ok m ∧
      2 * (m.map List.sum).sum = (d.queryIds.map (fun q => ids.count q * (ids.count q + 1))).sum := by
  refine ⟨_, confusion_spec ok.built ok.contiguous ok.lengthY ok.lengthP ok.label false ok.range, ?_⟩
  rw [matOf_sum_queries (cellOf lab false) (fun q => upPairs (docsOf q ids y yPred)) d.queryIds]
  · rw [← List.sum_map_mul_left]
    congr 1
    apply List.map_congr_left
    intro q _
    rw [upPairs_length]
    have : (docsOf q ids y yPred).length = ids.count q := by
      unfold docsOf ofQuery
      rw [List.length_map]
      have hz : (y.zip yPred).length = ids.length := by rw [List.length_zip, ok.lengthY, ok.lengthP]; simp
      conv_rhs => rw [← List.map_fst_zip (l₁ := ids) (l₂ := y.zip yPred) (by omega)]
      rw [List.count, List.countP_map, ← List.countP_eq_length_filter]
      apply List.countP_congr
      intro p _
      simp
    rw [this]
  · intro q _ p hp
    obtain ⟨h1, h2⟩ := upPairs_mem hp
    have l1 := ok.range _ (docsOf_mem h1)
    have l2 := ok.range _ (docsOf_mem h2)
    unfold cellOf
    rw [if_neg (by simp)]
    split
    · exact ⟨_, _, l1, l2, rfl⟩
    · exact ⟨_, _, l2, l1, rfl⟩

/-- C56: on the diagonal, each document is paired with the documents of the same label and with itself, or nothing is counted when equal
labels are skipped. -/
theorem C56_diagonal (ok : ConfusionOk X nf y ids yPred toI lab n d) {la : L} (ha : la ∈ y) :
    (∃ m c, confusion toI false n d yPred = .ok m ∧ cellAt m (lab la) (lab la) = some c ∧
      2 * c = (d.queryIds.map (fun q => (docsOf q ids y yPred).countP (fun u => decide (u.1 = la)) *
        ((docsOf q ids y yPred).countP (fun u => decide (u.1 = la)) + 1))).sum) ∧
    ∃ m, confusion toI true n d yPred = .ok m ∧ cellAt m (lab la) (lab la) = some 0 := by
  constructor
  · refine ⟨_, _, confusion_spec ok.built ok.contiguous ok.lengthY ok.lengthP ok.label false ok.range,
      matOf_get _ (ok.range la ha) (ok.range la ha), ?_⟩
    rw [← List.sum_map_mul_left]
    congr 1
    apply List.map_congr_left
    intro q _
    exact upPairs_diag _ (fun u hu => ok.inj _ (docsOf_mem hu) _ ha)
  · refine ⟨_, confusion_spec ok.built ok.contiguous ok.lengthY ok.lengthP ok.label true ok.range, ?_⟩
    unfold cellAt
    rw [matOf_get _ (ok.range la ha) (ok.range la ha)]
    congr 1
    rw [show d.queryIds.map (fun q => (upPairs (docsOf q ids y yPred)).countP (fun p => decide (cellOf lab true p = some (lab la, lab la)))) =
      d.queryIds.map (fun _ => 0) from List.map_congr_left (fun q _ => upPairs_skip _ (fun u hu => ok.inj _ (docsOf_mem hu) _ ha))]
    simp

/-- A dataset of four documents in two queries. -/
def cmData : Dataset Nat Nat := ⟨[0, 0, 0, 0], 1, [0, 1, 2, 1], [7, 5], [0, 3, 4]⟩

example : ConfusionOk [0, 0, 0, 0] 1 [0, 1, 2, 1] [7, 7, 7, 5] [3, 1, 2, 5] (fun l : Nat => (l : Int)) id 3 cmData :=
  ⟨by decide +kernel, by decide, rfl, rfl, fun _ => rfl, by decide, by decide⟩

example : (∀ u ∈ docsOf 7 [7, 7, 7, 5] [0, 1, 2, 1] [3, 1, 2, 5], ∀ v ∈ docsOf 7 [7, 7, 7, 5] [0, 1, 2, 1] [3, 1, 2, 5], u.1 ≠ v.1 → u.2 ≠ v.2) ∧
    confusion (fun l : Nat => (l : Int)) false 3 cmData [3, 1, 2, 5] = .ok [[1, 0, 0], [1, 2, 1], [1, 0, 1]] ∧
    confusion (fun l : Nat => (l : Int)) true 3 cmData [3, 1, 2, 5] = .ok [[0, 0, 0], [1, 0, 1], [1, 0, 0]] := by
  decide +kernel

/-- C56 is violated for equal scores: the cell depends on the order of the documents. -/
theorem C56_violated_ties : confusion (fun l : Nat => (l : Int)) true 2 (⟨[0, 0], 1, [0, 1], [7], [0, 2]⟩ : Dataset Nat Nat) [5, 5] = .ok [[0, 0], [1, 0]] ∧
    confusion (fun l : Nat => (l : Int)) true 2 (⟨[0, 0], 1, [1, 0], [7], [0, 2]⟩ : Dataset Nat Nat) [5, 5] = .ok [[0, 1], [0, 0]] := by
  decide +kernel

/-- C56 is violated for a single document: it is counted as a pair with itself. -/
theorem C56_violated_self : confusion (fun l : Nat => (l : Int)) false 1 (⟨[0], 1, [0], [7], [0, 1]⟩ : Dataset Nat Nat) [5] = .ok [[1]] := by
  decide +kernel

/-- C56 is violated for labels with a gap: the label is used as position in a matrix that has a row for each label. -/
theorem C56_violated_gap : rankConfusion (fun l : Nat => (l : Int)) false [((⟨[0, 0], 1, [0, 2], [7], [0, 2]⟩ : Dataset Nat Nat), [[5, 6]])] = .error .indexError := by
  decide +kernel

/-- C56 is violated for negative labels: positions are counted from the end, the row of label 0 is the first and has the label -1. -/
theorem C56_violated_negative : rankConfusion id true [((⟨[0, 0], 1, [-1, 0], [7], [0, 2]⟩ : Dataset Nat Int), [[5, 6]])] =
    .ok ([-1, 0], [[[[0, 0], [1, 0]]]]) := by
  decide +kernel

/-- C56 is violated for two datasets with different numbers of documents. -/
theorem C56_violated_lengths : rankConfusion (fun l : Nat => (l : Int)) false
    [((⟨[0, 0], 1, [0, 1], [7], [0, 2]⟩ : Dataset Nat Nat), [[5, 6]]), (⟨[0], 1, [0], [7], [0, 1]⟩, [[5]])] = .error .valueError := by
  decide +kernel

end Verif.Props
