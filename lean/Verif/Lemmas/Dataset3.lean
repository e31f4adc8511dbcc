/-
Lemmas about `subset`, `split` and `kfold`.
-/
import Verif.Lemmas.Dataset2

namespace Verif
open Spec

variable {R L : Type}

/-- What a dataset built from filtered rows looks like. -/
theorem mk_of_rows {X : List R} {nf : Nat} {y : List L} {ids : List Int} (Q : List Int)
    (hX : X.length = ids.length) (hy : y.length = ids.length) (hc : Contiguous ids)
    (h32 : ∀ q ∈ ids, IsInt32 q) :
    let mask := ids.map (fun q => decide (q ∈ Q))
    ∃ d', mkDataset (maskSelect X mask) nf (maskSelect y mask) (maskSelect ids mask) = .ok d' ∧
      d'.X = (rowsOfQueries X y ids Q).map (·.1) ∧ d'.y = (rowsOfQueries X y ids Q).map (·.2.1) ∧
      d'.getQids = (rowsOfQueries X y ids Q).map (·.2.2) ∧ d'.nFeatures = nf ∧
      d'.y.length = d'.X.length := by
  intro mask
  have e1 : maskSelect X mask = (rowsOfQueries X y ids Q).map (·.1) := by
    unfold rowsOfQueries rows
    rw [← filter_zip_fst (fun q => decide (q ∈ Q)) X y ids hX hy]
    exact maskSelect_zip _ X ids hX
  have e2 : maskSelect y mask = (rowsOfQueries X y ids Q).map (·.2.1) := by
    unfold rowsOfQueries rows
    rw [← filter_zip_snd (fun q => decide (q ∈ Q)) X y ids hX hy]
    exact maskSelect_zip _ y ids hy
  have e3' : maskSelect ids mask = ids.filter (fun q => decide (q ∈ Q)) := maskSelect_map _ _
  have e3 : maskSelect ids mask = (rowsOfQueries X y ids Q).map (·.2.2) := by
    rw [e3']
    exact filter_zip_third (fun q => decide (q ∈ Q)) X y ids hX hy
  obtain ⟨d', hd'⟩ := mkDataset_isOk (X := maskSelect X mask) (nf := nf) (y := maskSelect y mask)
    (ids := maskSelect ids mask) (by rw [e1, e3]; simp)
  have hsp := mkDataset_spec hd'
  refine ⟨d', hd', by rw [hsp.2.1, e1], by rw [hsp.2.2.1, e2], ?_, hsp.2.2.2.1,
    by rw [hsp.2.1, hsp.2.2.1, e1, e2]; simp⟩
  rw [(built_of_mk hd').getQids_of_contiguous, e3]
  · rw [e3']; exact contiguous_sublist hc List.filter_sublist
  · intro q hq; rw [e3'] at hq; exact h32 q (List.mem_of_mem_filter hq)
  · rw [hsp.2.2.1, e2, e3]; simp

theorem subset_spec {X : List R} {nf : Nat} {y : List L} {ids : List Int} {d : Dataset R L}
    (h : mkDataset X nf y ids = .ok d) (hy : y.length = X.length) (hc : Contiguous ids)
    (h32 : ∀ q ∈ ids, IsInt32 q) (Q : List Int) :
    ∃ d', d.subset Q = .ok d' ∧
      d'.X = (rowsOfQueries X y ids Q).map (·.1) ∧ d'.y = (rowsOfQueries X y ids Q).map (·.2.1) ∧
      d'.getQids = (rowsOfQueries X y ids Q).map (·.2.2) ∧ d'.nFeatures = nf ∧
      d'.y.length = d'.X.length := by
  have hsp := mkDataset_spec h
  have hq : d.getQids = ids :=
    (built_of_mk h).getQids_of_contiguous hc h32 (by rw [hsp.2.2.1]; omega)
  unfold Dataset.subset
  rw [hq, hsp.2.1, hsp.2.2.1, hsp.2.2.2.1]
  exact mk_of_rows Q (by omega) (by omega) hc h32

theorem splitQidMap_eq {X : List R} {nf : Nat} {y : List L} {ids : List Int} {d : Dataset R L}
    (h : mkDataset X nf y ids = .ok d) (hy : y.length = X.length) (hc : Contiguous ids)
    (hu : ∀ q ∈ ids, 0 ≤ q ∧ q < 2 ^ 31) : d.splitQidMap = ids := by
  have b := built_of_mk h
  have hsp := mkDataset_spec h
  have hn : d.nInstances = ids.length := by unfold Dataset.nInstances; rw [hsp.2.2.1]; omega
  apply List.ext_getElem?
  intro i
  rcases Nat.lt_or_ge i ids.length with hi | hi
  · obtain ⟨q, s, e, hm, h1, h2⟩ := b.enclosing hi
    have hget := (b.block_id_of_contiguous hc hm (i := i)).1 ⟨h1, h2⟩
    unfold Dataset.splitQidMap
    rw [b.fill_get Dataset.castUint32 (by simp; omega) hm h1 h2, hget]
    have := hu q (b.block_start hm).2.1
    unfold Dataset.castUint32
    rw [Int.emod_eq_of_lt this.1 (by omega)]
  · rw [List.getElem?_eq_none hi, List.getElem?_eq_none]
    unfold Dataset.splitQidMap
    rw [Dataset.length_foldl_fillSlice]; simp; omega

theorem splitDataset_spec {X : List R} {nf : Nat} {y : List L} {ids : List Int} {d : Dataset R L}
    (h : mkDataset X nf y ids = .ok d) (hy : y.length = X.length) (hc : Contiguous ids)
    (hu : ∀ q ∈ ids, 0 ≤ q ∧ q < 2 ^ 31) (Q : List Int) :
    ∃ d', d.splitDataset Q = .ok d' ∧
      d'.X = (rowsOfQueries X y ids Q).map (·.1) ∧ d'.y = (rowsOfQueries X y ids Q).map (·.2.1) ∧
      d'.getQids = (rowsOfQueries X y ids Q).map (·.2.2) ∧ d'.nFeatures = nf ∧
      d'.y.length = d'.X.length := by
  have hsp := mkDataset_spec h
  unfold Dataset.splitDataset
  rw [splitQidMap_eq h hy hc hu, hsp.2.1, hsp.2.2.1, hsp.2.2.2.1]
  exact mk_of_rows Q (by omega) (by omega) hc
    (fun q hq => ⟨by have := hu q hq; omega, (hu q hq).2⟩)

theorem pyRound_nonneg {q : ℚ} (h : 0 ≤ q) : 0 ≤ Dataset.pyRound q := by
  unfold Dataset.pyRound
  have : (0 : Int) ≤ ⌊q⌋ := Int.floor_nonneg.2 h
  simp only
  split
  · exact this
  · split
    · omega
    · split <;> omega

theorem splitQids_append {perm : List Int} {n : Nat} (hn : perm.length = n) {a b : Int}
    (ha : 0 ≤ a) (hb : 0 ≤ b) (hlt : a + b < n) :
    let p := Dataset.splitQids perm n a b
    p.1 ++ p.2.1 ++ p.2.2 = perm := by
  intro p
  have h1 : p.1 = perm.take a.toNat := by
    show pyTake a perm = _
    simp [pyTake, ha]
  have h2 : p.2.1 = (perm.take (a + b).toNat).drop a.toNat := by
    show pyDrop a (pyTake (a + b) perm) = _
    simp [pyDrop, pyTake, ha, show 0 ≤ a + b by omega]
  have h3 : p.2.2 = perm.drop (a + b).toNat := by
    show pyDrop (-((n : Int) - a - b)) perm = _
    rw [pyDrop, if_neg (by omega)]
    congr 1
    rw [hn]; omega
  rw [h1, h2, h3]
  have h4 : perm.take a.toNat = (perm.take (a + b).toNat).take a.toNat := by
    rw [List.take_take]; congr 1; omega
  rw [h4, List.take_append_drop, List.take_append_drop]

/-- Rows of disjoint covering id lists are together all the rows. -/
theorem rowsOfQueries_perm {X : List R} {y : List L} {ids : List Int} {A B C : List Int}
    (hmem : ∀ q ∈ ids, q ∈ A ++ B ++ C) (hnd : (A ++ B ++ C).Nodup) :
    (rowsOfQueries X y ids A ++ rowsOfQueries X y ids B ++ rowsOfQueries X y ids C).Perm
      (rows X y ids) := by
  unfold rowsOfQueries
  have key : ∀ l : List (R × L × Int), (∀ r ∈ l, r.2.2 ∈ A ++ B ++ C) →
      (l.filter (fun r => decide (r.2.2 ∈ A)) ++ l.filter (fun r => decide (r.2.2 ∈ B)) ++
        l.filter (fun r => decide (r.2.2 ∈ C))).Perm l := by
    intro l
    induction l with
    | nil => intro _; simp
    | cons r l ih =>
      intro hr
      have hr0 := hr r (by simp)
      have ih' := ih (fun r' h' => hr r' (by simp [h']))
      rw [List.nodup_append'] at hnd
      have hAB := List.nodup_append'.1 hnd.1
      have hd := hnd.2.2
      simp only [List.mem_append] at hr0
      by_cases hA : r.2.2 ∈ A
      · have hB : r.2.2 ∉ B := fun h => hAB.2.2 hA h
        have hC : r.2.2 ∉ C := fun h => hd (List.mem_append_left _ hA) h
        simp [hA, hB, hC]
        simpa using ih'
      · by_cases hB : r.2.2 ∈ B
        · have hC : r.2.2 ∉ C := fun h => hd (List.mem_append_right _ hB) h
          simp only [hA, hB, hC, List.filter_cons, decide_true, decide_false, if_true]
          simp only [Bool.false_eq_true, if_false]
          rw [List.append_assoc, List.cons_append]
          refine List.perm_middle.trans ?_
          rw [← List.append_assoc]
          exact ih'.cons r
        · have hC : r.2.2 ∈ C := by tauto
          simp only [hA, hB, hC, List.filter_cons, decide_true, decide_false, if_true]
          simp only [Bool.false_eq_true, if_false]
          refine List.perm_middle.trans ?_
          exact ih'.cons r
  apply key
  intro r hr
  apply hmem
  unfold rows at hr
  obtain ⟨i, hi⟩ := List.mem_iff_getElem?.1 hr
  rw [show r = (r.1, (r.2.1, r.2.2)) from rfl, List.getElem?_zip_eq_some, List.getElem?_zip_eq_some] at hi
  exact List.mem_of_getElem? hi.2.2

/-! ### kfold -/

theorem gather_range' {α : Type} (v : List α) (a b : Nat) (hb : a + b ≤ v.length) :
    gather v (List.range' a b) = (v.take (a + b)).drop a := by
  induction b generalizing a with
  | zero => simp [gather]
  | succ b ih =>
    rw [List.range'_succ, gather_cons _ _ _ (by omega), ih (a + 1) (by omega)]
    have h1 : a < (v.take (a + (b + 1))).length := by simp; omega
    rw [List.drop_eq_getElem_cons h1]
    congr 1
    · simp
    · congr 2; omega

theorem cyclicSlice_le {qids : List Int} {a b : Nat} (hab : a ≤ b) (hb : b < qids.length ∨ a = b) :
    Dataset.cyclicSlice qids a b = (qids.take b).drop a := by
  unfold Dataset.cyclicSlice
  simp only [if_neg (show ¬ b < a by omega)]
  rcases hb with hb | hb
  · have : (List.range' a (b - a)).map (· % qids.length) = List.range' a (b - a) := by
      conv_rhs => rw [← List.map_id (List.range' a (b - a))]
      apply List.map_congr_left
      intro i hi
      rw [List.mem_range'_1] at hi
      exact Nat.mod_eq_of_lt (by omega)
    rw [this, gather_range' _ _ _ (by omega)]
    congr 2; omega
  · subst hb; simp [gather]

theorem cyclicSlice_gt {qids : List Int} {a b : Nat} (hab : b < a) (ha : a < qids.length) :
    Dataset.cyclicSlice qids a b = qids.drop a ++ qids.take b := by
  unfold Dataset.cyclicSlice
  simp only [if_pos hab]
  have h : List.range' a (b + qids.length - a) =
      List.range' a (qids.length - a) ++ List.range' qids.length b := by
    have := List.range'_append_1 (s := a) (m := qids.length - a) (n := b)
    rw [show a + (qids.length - a) = qids.length by omega] at this
    rw [this]; congr 1; omega
  rw [h, List.map_append, gather_append]
  congr 1
  · have : (List.range' a (qids.length - a)).map (· % qids.length) =
        List.range' a (qids.length - a) := by
      conv_rhs => rw [← List.map_id (List.range' a (qids.length - a))]
      apply List.map_congr_left
      intro i hi
      rw [List.mem_range'_1] at hi
      exact Nat.mod_eq_of_lt (by omega)
    rw [this, gather_range' _ _ _ (by omega), List.take_of_length_le (by omega)]
  · have : (List.range' qids.length b).map (· % qids.length) = List.range' 0 b := by
      have h2 : List.range' qids.length b = (List.range' 0 b).map (· + qids.length) := by
        rw [List.range'_eq_map_range, ← List.range_eq_range']
        apply List.map_congr_left
        intro i _; omega
      rw [h2, List.map_map]
      conv_rhs => rw [← List.map_id (List.range' 0 b)]
      apply List.map_congr_left
      intro i hi
      rw [List.mem_range'_1] at hi
      simp only [Function.comp]
      rw [Nat.add_mod_right]
      exact Nat.mod_eq_of_lt (by omega)
    rw [this, gather_range' _ _ _ (by omega)]
    simp

end Verif
