/-
Properties C05 and C06 at the edges: negative and missing feature positions, query ids that do not fit into the
`uint32` array of `split`.
-/
import Verif.Props.Dataset

namespace Verif.Props
open Spec Dataset

variable {R L : Type}

/-! ### C05 -/

/-- C05: a negative position counts from the end, as if the number of features were added. -/
theorem C05_negative {K : Type} {X : List (List K)} {nf : Nat} {y : List L} {ids : List Int}
    {d : Dataset (List K) L} (h : mkDataset X nf y ids = .ok d) (hrows : ∀ r ∈ X, r.length = nf)
    (F : List Int) (hF : ∀ f ∈ F, -(nf : Int) ≤ f) :
    d.subsetFeatures F = d.subsetFeatures (F.map (fun f => if f < 0 then nf + f else f)) := by
  have hsp := mkDataset_spec h
  have hrow : ∀ r ∈ X, selectRow r F = selectRow r (F.map (fun f => if f < 0 then nf + f else f)) := by
    intro r hr
    unfold selectRow
    have hl := hrows r hr
    clear hrows
    induction F with
    | nil => rfl
    | cons f F ih =>
      rw [List.map_cons, List.mapM_cons, List.mapM_cons, ih (fun g hg => hF g (by simp [hg]))]
      have hf := hF f (by simp)
      have : pyGet r f = pyGet r (if f < 0 then nf + f else f) := by
        unfold pyGet
        rw [hl]
        by_cases h0 : f < 0
        · have h1 : ¬ 0 ≤ f := by omega
          have h2 : 0 ≤ (nf : Int) + f := by omega
          simp only [if_pos h0, if_neg h1, if_pos h2, Int.add_comm f]
        · rw [if_neg h0]
      rw [this]
  have hX : X.mapM (fun r => selectRow r F) = X.mapM (fun r => selectRow r (F.map (fun f => if f < 0 then nf + f else f))) := by
    clear h hrows hsp
    induction X with
    | nil => rfl
    | cons r X ih => rw [List.mapM_cons, List.mapM_cons, hrow r (by simp), ih (fun g hg => hrow g (by simp [hg]))]
  unfold Dataset.subsetFeatures
  rw [hsp.2.1, hX, List.length_map]

/-- C05: a position outside of `-n_features ≤ f < n_features` is an error. -/
theorem C05_out_of_range {K : Type} {X : List (List K)} {nf : Nat} {y : List L} {ids : List Int}
    {d : Dataset (List K) L} (h : mkDataset X nf y ids = .ok d) (hrows : ∀ r ∈ X, r.length = nf) (hX : X ≠ [])
    (F : List Int) {f : Int} (hf : f ∈ F) (hout : f < -(nf : Int) ∨ (nf : Int) ≤ f) :
    d.subsetFeatures F = .error .indexError := by
  have hsp := mkDataset_spec h
  cases X with
  | nil => exact absurd rfl hX
  | cons r X =>
    have hl := hrows r (by simp)
    have hrow : ∀ G : List Int, f ∈ G → selectRow r G = .error .indexError := by
      intro G
      unfold selectRow
      have hall : ∀ g : Int, (∃ v, pyGet r g = .ok v) ∨ pyGet r g = .error .indexError := by
        intro g
        unfold pyGet
        by_cases h1 : 0 ≤ (if 0 ≤ g then g else g + (r.length : Int))
        · simp only [if_pos h1]
          cases r[(if 0 ≤ g then g else g + (r.length : Int)).toNat]? with
          | none => exact .inr rfl
          | some v => exact .inl ⟨v, rfl⟩
        · simp only [if_neg h1]; exact .inr trivial
      have hbad : pyGet r f = .error .indexError := by
        unfold pyGet
        by_cases h0 : 0 ≤ f
        · simp only [if_pos h0]
          rw [List.getElem?_eq_none (by omega)]
        · simp only [if_neg h0]
          rw [if_neg (by omega)]
      induction G with
      | nil => intro hm; simp at hm
      | cons g G ih =>
        intro hm
        rw [List.mapM_cons]
        rcases List.mem_cons.1 hm with rfl | hm
        · rw [hbad]; rfl
        · rcases hall g with ⟨v, hv⟩ | hv
          · rw [hv, ih hm]; rfl
          · rw [hv]; rfl
    unfold Dataset.subsetFeatures
    rw [hsp.2.1, List.mapM_cons, hrow F hf]
    rfl

/-- Both cases on a row of three features. -/
example : (Dataset.subsetFeatures ⟨[[10, 11, 12]], 3, [1], [4], [0, 1]⟩ [-1, 0, -3] : Except PyErr (Dataset (List Nat) Nat)) =
      .ok ⟨[[12, 10, 10]], 3, [1], [4], [0, 1]⟩ ∧
    (Dataset.subsetFeatures ⟨[[10, 11, 12]], 3, [1], [4], [0, 1]⟩ [0, -4] : Except PyErr (Dataset (List Nat) Nat)) = .error .indexError := by
  decide +kernel

/-! ### C06 -/

/-- The `uint32` array of `split` holds the ids modulo 2^32. -/
theorem splitQidMap_cast {X : List R} {nf : Nat} {y : List L} {ids : List Int} {d : Dataset R L}
    (h : mkDataset X nf y ids = .ok d) (hy : y.length = X.length) (hc : Contiguous ids) :
    d.splitQidMap = ids.map (· % 2 ^ 32) := by
  have b := built_of_mk h
  have hsp := mkDataset_spec h
  have hn : d.nInstances = ids.length := by unfold Dataset.nInstances; rw [hsp.2.2.1]; omega
  apply List.ext_getElem?
  intro i
  rcases Nat.lt_or_ge i ids.length with hi | hi
  · obtain ⟨q, s, e, hm, h1, h2⟩ := b.enclosing hi
    have hget := (b.block_id_of_contiguous hc hm (i := i)).1 ⟨h1, h2⟩
    unfold Dataset.splitQidMap
    rw [b.fill_get Dataset.castUint32 (by simp; omega) hm h1 h2, List.getElem?_map, hget]
    rfl
  · rw [List.getElem?_eq_none (l := ids.map _) (by simpa using hi), List.getElem?_eq_none]
    unfold Dataset.splitQidMap
    rw [Dataset.length_foldl_fillSlice]; simp; omega

/-- C06: the documents and labels of each part are those of its queries, also for ids from 2^31 to 2^32. -/
theorem C06_large_ids {X : List R} {nf : Nat} {y : List L} {ids : List Int} {d : Dataset R L}
    (h : mkDataset X nf y ids = .ok d) (hy : y.length = X.length) (hc : Contiguous ids)
    (hu : ∀ q ∈ ids, 0 ≤ q ∧ q < 2 ^ 32) (Q : List Int) :
    ∃ d', d.splitDataset Q = .ok d' ∧ d'.X = (rowsOfQueries X y ids Q).map (·.1) ∧
      d'.y = (rowsOfQueries X y ids Q).map (·.2.1) := by
  have hsp := mkDataset_spec h
  have hmap : d.splitQidMap = ids := by
    rw [splitQidMap_cast h hy hc]
    conv_rhs => rw [← List.map_id ids]
    apply List.map_congr_left
    intro q hq
    exact Int.emod_eq_of_lt (hu q hq).1 (hu q hq).2
  have hX : X.length = ids.length := by omega
  have hy' : y.length = ids.length := by omega
  unfold Dataset.splitDataset
  rw [hmap, hsp.2.1, hsp.2.2.1, hsp.2.2.2.1]
  have e1 : maskSelect X (ids.map (fun q => decide (q ∈ Q))) = (rowsOfQueries X y ids Q).map (·.1) := by
    unfold rowsOfQueries rows
    rw [← filter_zip_fst (fun q => decide (q ∈ Q)) X y ids hX hy']
    exact maskSelect_zip _ X ids hX
  have e2 : maskSelect y (ids.map (fun q => decide (q ∈ Q))) = (rowsOfQueries X y ids Q).map (·.2.1) := by
    unfold rowsOfQueries rows
    rw [← filter_zip_snd (fun q => decide (q ∈ Q)) X y ids hX hy']
    exact maskSelect_zip _ y ids hy'
  have e3 : maskSelect ids (ids.map (fun q => decide (q ∈ Q))) = (rowsOfQueries X y ids Q).map (·.2.2) := by
    rw [maskSelect_map]
    exact filter_zip_third (fun q => decide (q ∈ Q)) X y ids hX hy'
  obtain ⟨d', hd'⟩ := mkDataset_isOk (X := maskSelect X (ids.map (fun q => decide (q ∈ Q)))) (nf := nf)
    (y := maskSelect y (ids.map (fun q => decide (q ∈ Q)))) (ids := maskSelect ids (ids.map (fun q => decide (q ∈ Q)))) (by rw [e1, e3]; simp)
  have hsp' := mkDataset_spec hd'
  exact ⟨d', hd', by rw [hsp'.2.1, e1], by rw [hsp'.2.2.1, e2]⟩

/-- C06 is violated by negative query ids: their rows are in no part, so that all parts of a dataset whose ids are all negative are empty,
whatever the sizes and the permutation. -/
theorem C06_violated_negative {X : List R} {nf : Nat} {y : List L} {ids : List Int} {d : Dataset R L}
    (h : mkDataset X nf y ids = .ok d) (hy : y.length = X.length) (hc : Contiguous ids)
    (hu : ∀ q ∈ ids, q < 0) (Q : List Int) (hQ : ∀ q ∈ Q, q ∈ d.queryIds) :
    ∃ d', d.splitDataset Q = .ok d' ∧ d'.X = [] ∧ d'.y = [] := by
  have hsp := mkDataset_spec h
  have b := built_of_mk h
  have hmask : (ids.map (· % 2 ^ 32)).map (fun q => decide (q ∈ Q)) = List.replicate ids.length false := by
    rw [List.eq_replicate_iff]
    refine ⟨by simp, ?_⟩
    intro v hv
    simp only [List.mem_map] at hv
    obtain ⟨q', ⟨q, _, rfl⟩, rfl⟩ := hv
    have h0 : 0 ≤ q % 2 ^ 32 := Int.emod_nonneg q (by norm_num)
    simp only [decide_eq_false_iff_not]
    intro hm
    have := hu _ (b.mem_iff.1 (hQ _ hm))
    omega
  have hnone : ∀ {α : Type} (v : List α) (n : Nat), maskSelect v (List.replicate n false) = [] := by
    intro α v n
    unfold maskSelect
    rw [List.map_eq_nil_iff, List.filter_eq_nil_iff]
    intro p hp
    have := (List.of_mem_zip hp).2
    rw [List.mem_replicate] at this
    simp [this.2]
  unfold Dataset.splitDataset
  simp only [splitQidMap_cast h hy hc, hmask, hnone]
  obtain ⟨d', hd'⟩ := mkDataset_isOk (X := ([] : List R)) (nf := d.nFeatures) (y := ([] : List L)) (ids := []) rfl
  have hsp' := mkDataset_spec hd'
  exact ⟨d', hd', hsp'.2.1, hsp'.2.2.1⟩

/-- Two queries with negative ids: the test set of `split(0.5)` is empty and not the query -2. -/
example : (Dataset.mk [5, 6] 1 [1, 0] [-1, -2] [0, 1, 2] : Dataset Nat Nat).splitDataset [-2] = .ok ⟨[], 1, [], [], [0]⟩ ∧
    mkDataset [5, 6] 1 [1, 0] [-1, -2] = .ok (Dataset.mk [5, 6] 1 [1, 0] [-1, -2] [0, 1, 2] : Dataset Nat Nat) := by
  decide +kernel

/-- An id above 2^31 is kept with its row. -/
example : ∃ d', (Dataset.mk [5, 6] 1 [1, 0] [3000000000, 2] [0, 1, 2] : Dataset Nat Nat).splitDataset [3000000000] = .ok d' ∧ d'.X = [5] ∧ d'.y = [1] := by
  refine ⟨⟨[5], 1, [1], [3000000000], [0, 1]⟩, by decide +kernel, rfl, rfl⟩

end Verif.Props
