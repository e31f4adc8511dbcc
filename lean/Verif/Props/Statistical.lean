/-
Properties C49 (p-values), C50 (order of the models), C51 (cross-validated scoring), C52 (bias and variance).
-/
import Verif.Lemmas.KfoldScoring
import Mathlib.Algebra.Order.Field.Rat
import Mathlib.Tactic.NormNum
import Mathlib.Data.Fin.VecNotation

namespace Verif.Props
open Stat Spec
variable {K : Type} [Field K] [LinearOrder K] [IsStrictOrderedRing K]

/-! ### C49 -/

/-- C49: the p-values are the fractions of the random exchanges whose difference of means is at least the one observed, without and with
regard to the sign. -/
theorem C49_meaning (a b : List K) (sels : List (List Bool)) (hs : sels ≠ []) (hl : a.length = b.length) (hne : a ≠ [])
    (hsel : ∀ s ∈ sels, s.length = a.length) :
    randomization a b sels = .ok
      ((sels.countP (fun s => decide (meanDiff (exchange (bestFirst a b).1 (bestFirst a b).2 s) ≥ meanDiff (bestFirst a b))) : Nat) / (sels.length : K),
       (sels.countP (fun s => decide (|meanDiff (exchange (bestFirst a b).1 (bestFirst a b).2 s)| ≥ |meanDiff (bestFirst a b)|)) : Nat) /
        (sels.length : K)) := by
  obtain ⟨l1, l2⟩ := bestFirst_lengths hl
  have hd : ∀ s ∈ sels, swapDelta (bestFirst a b).1 (bestFirst a b).2 s = meanDiff (exchange (bestFirst a b).1 (bestFirst a b).2 s) :=
    fun s h => swapDelta_eq _ _ s (by rw [l1, l2]) (by rw [hsel s h, l1])
  rw [randomization_bestFirst a b sels hs hl hne]
  congr 3
  · rw [List.countP_congr (fun s h => by rw [hd s h])]
  · rw [List.countP_congr (fun s h => by rw [hd s h])]

/-- C49: p-values are between 0 and 1, and the one-sided is at most the two-sided. -/
theorem C49_bounds (a b : List K) (sels : List (List Bool)) (p1 p2 : K) (h : randomization a b sels = .ok (p1, p2)) :
    0 ≤ p1 ∧ p1 ≤ p2 ∧ p2 ≤ 1 := by
  have hs : sels ≠ [] := by
    rintro rfl
    simp [randomization] at h
  by_cases hl : a.length = b.length
  · by_cases hne : a = []
    · unfold randomization at h
      rw [if_neg hs, if_neg (by simpa using hl), if_pos hne] at h
      simp only [Except.ok.injEq, Prod.mk.injEq] at h
      obtain ⟨rfl, rfl⟩ := h
      exact ⟨le_refl _, le_refl _, zero_le_one⟩
    · rw [randomization_bestFirst a b sels hs hl hne] at h
      simp only [Except.ok.injEq, Prod.mk.injEq] at h
      obtain ⟨rfl, rfl⟩ := h
      have hpos : (0 : K) < sels.length := by
        have := List.length_pos_iff.2 hs
        exact_mod_cast this
      refine ⟨div_nonneg (Nat.cast_nonneg _) (Nat.cast_nonneg _), ?_, ?_⟩
      · apply div_le_div_of_nonneg_right _ hpos.le
        norm_cast
        apply List.countP_mono_left
        intro s _ h1
        simp only [decide_eq_true_eq] at h1 ⊢
        rw [abs_of_nonneg (bestFirst_nonneg a b)]
        exact le_trans h1 (le_abs_self _)
      · rw [div_le_one hpos]
        norm_cast
        exact List.countP_le_length
  · unfold randomization at h
    rw [if_neg hs, if_pos hl] at h
    cases h

/-- C49: when the two score vectors are equal, both p-values are 1. -/
theorem C49_equal (a : List K) (sels : List (List Bool)) (hs : sels ≠ []) (hne : a ≠ []) :
    randomization a a sels = .ok (1, 1) := by
  rw [randomization_bestFirst a a sels hs rfl hne]
  have hb : bestFirst a a = (a, a) := by simp [bestFirst]
  have hD : meanDiff (a, a) = 0 := by simp [meanDiff]
  have hz : ∀ s, swapDelta a a s = 0 := by
    intro s
    unfold swapDelta
    simp
  have hpos : (sels.length : K) ≠ 0 := by
    have := List.length_pos_iff.2 hs
    exact_mod_cast (by omega)
  simp [hb, hD, hz, div_self hpos]

/-- C49: without queries the means are not numbers and both p-values are 0. -/
theorem C49_no_queries (sels : List (List Bool)) (hs : sels ≠ []) : randomization ([] : List K) [] sels = .ok (0, 0) := by
  simp [randomization, hs]

example : (∀ s ∈ [[true, false, false], [false, true, true], [false, false, false], [true, true, false]], s.length = ([1, 2, 3] : List ℚ).length) ∧
    randomization ([1, 2, 3] : List ℚ) [2, 3, 5] [[true, false, false], [false, true, true], [false, false, false], [true, true, false]] =
      .ok (1 / 4, 1 / 4) ∧
    randomization ([1, 2, 3] : List ℚ) [2, 3, 5] [[true, true, true], [false, true, true], [false, false, false], [true, true, false]] =
      .ok (1 / 4, 1 / 2) := by
  refine ⟨by decide, by decide +kernel, by decide +kernel⟩

/-! ### C50 -/

/-- C50: for different mean scores the order of the two models does not matter. -/
theorem C50_order (a b : List K) (sels : List (List Bool)) (hne : a.sum / a.length ≠ b.sum / b.length) :
    randomization a b sels = randomization b a sels := by
  have hb : bestFirst a b = bestFirst b a := by
    unfold bestFirst
    rcases lt_or_gt_of_ne hne with h | h
    · rw [if_pos h, if_neg (not_lt.2 h.le)]
    · rw [if_neg (not_lt.2 (le_of_lt h)), if_pos h]
  by_cases hs : sels = []
  · simp [randomization, hs]
  by_cases hl : a.length = b.length
  · by_cases ha : a = []
    · have : b = [] := List.length_eq_zero_iff.1 (by rw [← hl, ha]; rfl)
      rw [ha, this]
    · have hb' : b ≠ [] := by
        rintro rfl
        exact ha (List.length_eq_zero_iff.1 hl)
      rw [randomization_bestFirst a b sels hs hl ha, randomization_bestFirst b a sels hs hl.symm hb', hb]
  · unfold randomization
    rw [if_neg hs, if_pos hl, if_neg hs, if_pos (Ne.symm hl)]

/-- C50: over all subsets of queries, each taken once, the two-sided p-value is twice the one-sided. -/
theorem C50_exact (a b : List K) (hl : a.length = b.length) (hne : a.sum / a.length ≠ b.sum / b.length) :
    ∃ p, randomization a b (allSels a.length) = .ok (p, 2 * p) := by
  have ha : a ≠ [] := by
    rintro rfl
    have : b = [] := List.length_eq_zero_iff.1 hl.symm
    exact hne (by rw [this])
  have hs : allSels a.length ≠ [] := by
    rw [← List.length_pos_iff, allSels_count]
    positivity
  obtain ⟨l1, l2⟩ := bestFirst_lengths hl
  have hD : 0 < meanDiff (bestFirst a b) := by
    unfold bestFirst meanDiff
    rcases lt_or_gt_of_ne hne with h | h
    · rw [if_pos h]
      simp only
      linarith
    · rw [if_neg (not_lt.2 (le_of_lt h))]
      simp only
      linarith
  refine ⟨((allSels a.length).countP (fun s => decide (swapDelta (bestFirst a b).1 (bestFirst a b).2 s ≥ meanDiff (bestFirst a b))) : Nat) /
    ((allSels a.length).length : K), ?_⟩
  rw [randomization_bestFirst a b _ hs hl ha, countP_abs _ hD]
  have hneg : (allSels a.length).countP (fun s => decide (-swapDelta (bestFirst a b).1 (bestFirst a b).2 s ≥ meanDiff (bestFirst a b))) =
      (allSels a.length).countP (fun s => decide (swapDelta (bestFirst a b).1 (bestFirst a b).2 s ≥ meanDiff (bestFirst a b))) := by
    rw [← (allSels_not a.length).countP_eq, List.countP_map]
    apply List.countP_congr
    intro s hs'
    simp only [Function.comp_apply]
    rw [swapDelta_not _ _ s (by rw [l1, l2]) (by rw [allSels_length _ s hs', l1])]
    simp
  rw [hneg]
  push_cast
  congr 2
  ring

/-- C50: the list used above has each subset once. -/
theorem C50_all_subsets (n : Nat) : (allSels n).Nodup ∧ ∀ s, s ∈ allSels n ↔ s.length = n := by
  induction n with
  | zero => simp [allSels]
  | succ n ih =>
    obtain ⟨h1, h2⟩ := ih
    constructor
    · rw [allSels, List.nodup_append]
      refine ⟨h1.map (fun _ _ h => (List.cons.inj h).2), h1.map (fun _ _ h => (List.cons.inj h).2), ?_⟩
      intro x hx z hz
      obtain ⟨u, _, rfl⟩ := List.mem_map.1 hx
      obtain ⟨v, _, rfl⟩ := List.mem_map.1 hz
      simp
    · intro s
      match s with
      | [] => simp [allSels]
      | false :: s => simp [allSels, h2]
      | true :: s => simp [allSels, h2]

/-- C50: for equal means the two-sided p-value is 1 in both orders. -/
theorem C50_equal_means (a b : List K) (sels : List (List Bool)) (hs : sels ≠ []) (hl : a.length = b.length) (hne : a ≠ [])
    (he : a.sum / a.length = b.sum / b.length) : ∃ p, randomization a b sels = .ok (p, 1) := by
  have e := randomization_bestFirst a b sels hs hl hne
  have hD : meanDiff (bestFirst a b) = 0 := by
    unfold bestFirst meanDiff
    rw [if_neg (by rw [he]; exact lt_irrefl _)]
    simp only
    rw [he, sub_self]
  have hpos : (sels.length : K) ≠ 0 := by
    have := List.length_pos_iff.2 hs
    exact_mod_cast (by omega)
  have e2 : ((sels.countP (fun s => decide (|swapDelta (bestFirst a b).1 (bestFirst a b).2 s| ≥ |meanDiff (bestFirst a b)|)) : Nat) : K) /
      (sels.length : K) = 1 := by
    simp [hD, div_self hpos]
  rw [e2] at e
  exact ⟨_, e⟩

/-- C50: for equal means the one-sided p-value depends on the order. -/
theorem C50_equal_means_differ : ∃ (a b : List ℚ) (sels : List (List Bool)), a.length = b.length ∧ a.sum / a.length = b.sum / b.length ∧
    randomization a b sels ≠ randomization b a sels :=
  ⟨[1, 3], [2, 2], [[true, false], [true, false], [false, true]], rfl, by norm_num, by decide +kernel⟩

example : ([1, 2, 3] : List ℚ).sum / 3 ≠ ([2, 3, 5] : List ℚ).sum / 3 ∧ randomization ([1, 2, 3] : List ℚ) [2, 3, 5] (allSels 3) = .ok (1 / 8, 2 * (1 / 8)) :=
  ⟨by norm_num, by decide +kernel⟩

/-! ### C51 -/

variable {R L S : Type}

/-- The scores come from models trained without the query: the chunks `Qs` have each query once; the scores of the rows of chunk `Q` are
what the learner gives when trained on exactly the rows of the other queries, with the sizes of these queries, and asked for the rows of
`Q`. -/
structure NoLeak (algo : Algo R L S) (X : List R) (y : List L) (ids queryIds : List Int) (c : Nat) (Qs : List (List Int)) (scores : List S) : Prop where
  length : scores.length = X.length
  chunks : Qs.flatten.Perm queryIds
  scores : ∀ j Q, Qs[j]? = some Q → pick (fun q => decide (q ∈ Q)) ids scores =
    algo (j * c) (pick (fun q => decide (q ∉ Q)) ids X) (pick (fun q => decide (q ∉ Q)) ids y)
      ((queryIds.filter (fun q => decide (q ∉ Q))).map (fun q => ids.count q)) (pick (fun q => decide (q ∈ Q)) ids X)

/-- C51: in a notebook, cross-validated scoring gives each row one score, from a model trained on all rows of the queries of other
chunks and none of its own; there are at most `k` chunks. -/
theorem C51_no_leak_partial {X : List R} {nf : Nat} {y : List L} {ids : List Int} {d : Dataset R L} (h : mkDataset X nf y ids = .ok d)
    (hy : y.length = X.length) (hc : Contiguous ids) (hne : ids ≠ []) {k : Nat} (hk : 0 < k) {algo : Algo R L S}
    (halgo : ∀ p tx ty tq sx, (algo p tx ty tq sx).length = sx.length) {perm : List Nat} (hperm : perm.Perm (List.range d.queryIds.length)) (zero : S) :
    ∃ scores Qs, kfoldScoring true d k algo perm zero = .ok scores ∧ Qs.length ≤ k ∧
      NoLeak algo X y ids d.queryIds (chunkSize d.queryIds.length k) Qs scores := by
  have b := built_of_mk h
  obtain ⟨hX, hdX, hdy, -⟩ := mkDataset_spec h
  have hq : 0 < d.queryIds.length := by
    obtain ⟨x, ids', rfl⟩ := List.exists_cons_of_ne_nil hne
    exact List.length_pos_of_mem (b.mem_iff.2 (List.mem_cons_self))
  have hmem : ∀ q ∈ perm, q < d.queryIds.length := fun q hq => List.mem_range.1 (hperm.subset hq)
  have hnd : perm.Nodup := hperm.nodup_iff.2 List.nodup_range
  obtain ⟨c, hcdef⟩ : ∃ c, chunkSize d.queryIds.length k = c := ⟨_, rfl⟩
  have hcpos : 0 < c := by
    rw [← hcdef]
    unfold chunkSize
    exact Nat.div_pos (by omega) hk
  have hck : d.queryIds.length ≤ k * c := by
    rw [← hcdef]
    unfold chunkSize
    have := Nat.div_add_mod (d.queryIds.length + k - 1) k
    have := Nat.mod_lt (d.queryIds.length + k - 1) hk
    omega
  obtain ⟨m, hm⟩ : ∃ m, (d.queryIds.length + c - 1) / c = m := ⟨_, rfl⟩
  have hmc : d.queryIds.length ≤ m * c := by
    rw [← hm, Nat.mul_comm]
    have := Nat.div_add_mod (d.queryIds.length + c - 1) c
    have := Nat.mod_lt (d.queryIds.length + c - 1) hcpos
    omega
  have hmk : m ≤ k := by
    rw [← hm]
    have : (d.queryIds.length + c - 1) / c ≤ (k * c + c - 1) / c := Nat.div_le_div_right (by omega)
    refine this.trans ?_
    rw [show k * c + c - 1 = (c - 1) + k * c by omega, Nat.add_mul_div_right _ _ hcpos, Nat.div_eq_of_lt (by omega)]
    omega
  obtain ⟨scores, e, hlen, hsc⟩ := kfoldLoop_spec h hy hc halgo c hmem hnd zero m
  refine ⟨scores, (List.range m).map (fun j => gather d.queryIds (slice (j * c) (j * c + c) perm)), ?_, by simpa using hmk, ?_, ?_, ?_⟩
  · unfold kfoldScoring
    rw [if_neg (by omega)]
    simp only [Dataset.nQueries, hcdef]
    rw [if_neg (by omega), hm, e]
    rfl
  · rw [hlen, hX]
  · have e1 : ((List.range m).map (fun j => gather d.queryIds (slice (j * c) (j * c + c) perm))).flatten = gather d.queryIds perm := by
      conv_rhs => rw [← slices_flatten c perm m (by rw [hperm.length_eq, List.length_range]; exact hmc)]
      unfold gather
      rw [List.filterMap_flatMap, List.flatMap_def]
    rw [e1]
    exact gather_perm_self hperm
  · intro j Q hj
    rw [List.getElem?_map, Option.map_eq_some_iff] at hj
    obtain ⟨j', hj', rfl⟩ := hj
    obtain ⟨hjm, rfl⟩ := List.getElem?_eq_some_iff.1 hj'
    rw [List.getElem_range]
    rw [hcdef]
    exact hsc j (by simpa using hjm)

/-- C51 is violated outside of notebooks: the progress bar that is closed after the loop has never been created. -/
theorem C51_violated_outside_notebooks {X : List R} {nf : Nat} {y : List L} {ids : List Int} {d : Dataset R L} (h : mkDataset X nf y ids = .ok d)
    (hy : y.length = X.length) (hc : Contiguous ids) (hne : ids ≠ []) {k : Nat} (hk : 0 < k) {algo : Algo R L S}
    (halgo : ∀ p tx ty tq sx, (algo p tx ty tq sx).length = sx.length) {perm : List Nat} (hperm : perm.Perm (List.range d.queryIds.length)) (zero : S) :
    kfoldScoring false d k algo perm zero = .error .unboundLocalError := by
  obtain ⟨scores, Qs, e, -⟩ := C51_no_leak_partial h hy hc hne hk halgo hperm zero
  unfold kfoldScoring at e ⊢
  rw [if_neg (by omega)] at e ⊢
  simp only at e ⊢
  split at e
  · cases e
  · rename_i hc0
    rw [if_neg hc0]
    obtain ⟨s, e1, -⟩ := except_bind_ok e
    rw [e1]
    rfl

/-- Three queries in two chunks, with a learner that returns the sum of the training labels for each row. -/
example : ∃ d : Dataset Nat Nat, mkDataset [10, 11, 12, 13] 1 [1, 2, 3, 4] [7, 7, 5, 9] = .ok d ∧ Contiguous [7, 7, 5, 9] ∧
    [2, 0, 1].Perm (List.range d.queryIds.length) ∧
    kfoldScoring true d 2 (fun _ _ ty _ sx => sx.map (fun _ => ty.sum)) [2, 0, 1] 0 = .ok [3, 3, 7, 3] :=
  ⟨⟨[10, 11, 12, 13], 1, [1, 2, 3, 4], [7, 5, 9], [0, 2, 3, 4]⟩, by decide +kernel, by decide, by decide, by decide +kernel⟩

/-! ### C52 -/

/-- C52: error is bias plus variance. -/
theorem C52_decomposition (scores : List (List K)) (target : List K) (hl : scores.length = target.length) (hne : scores ≠ []) {n : Nat}
    (hn : 0 < n) (hrows : ∀ r ∈ scores, r.length = n) :
    (biasVar scores target).1 = (biasVar scores target).2.1 + (biasVar scores target).2.2 := by
  have h1 : (0 : K) < scores.length := by
    have := List.length_pos_iff.2 hne
    exact_mod_cast this
  have h2 : (0 : K) < n := by exact_mod_cast hn
  unfold biasVar npMean2
  simp only
  unfold npMean
  rw [flatten_zipWith_length (fun s t => (s - t) ^ 2) scores target hl hrows,
    flatten_zipWith_length (fun s t => (s - t) ^ 2) scores (scores.map (fun xs => xs.sum / (xs.length : K))) (by simp) hrows]
  have := total_decomp hn scores target hl hrows
  unfold npMean at this
  rw [this]
  simp only [List.length_zipWith, List.length_map, ← hl, Nat.min_self]
  push_cast
  field_simp

/-- C52: variance is not negative, and it is 0 exactly if all repetitions agree on every document. -/
theorem C52_variance (scores : List (List K)) (target : List K) (hne : scores ≠ []) {n : Nat} (hn : 0 < n) (hrows : ∀ r ∈ scores, r.length = n) :
    0 ≤ (biasVar scores target).2.2 ∧ ((biasVar scores target).2.2 = 0 ↔ ∀ r ∈ scores, ∀ s ∈ r, ∀ s' ∈ r, s = s') := by
  have hnn := flatten_sum_nonneg scores (scores.map npMean)
  have hlen : ((List.zipWith (fun r p => r.map (fun s => (s - p) ^ 2)) scores (scores.map npMean)).flatten.length : K) ≠ 0 := by
    rw [flatten_zipWith_length (fun s t => (s - t) ^ 2) scores (scores.map npMean) (by simp) hrows]
    have h1 := List.length_pos_iff.2 hne
    have : 0 < scores.length * n := Nat.mul_pos h1 hn
    exact_mod_cast (by omega)
  unfold biasVar npMean2
  simp only
  constructor
  · conv_rhs => unfold npMean
    exact div_nonneg (List.sum_nonneg hnn) (Nat.cast_nonneg _)
  · rw [← variance_zero scores, ← sum_eq_zero_iff_nonneg _ hnn]
    rw [show npMean (List.zipWith (fun r p => r.map (fun s => (s - p) ^ 2)) scores (scores.map npMean)).flatten =
      (List.zipWith (fun r p => r.map (fun s => (s - p) ^ 2)) scores (scores.map npMean)).flatten.sum /
        ((List.zipWith (fun r p => r.map (fun s => (s - p) ^ 2)) scores (scores.map npMean)).flatten.length : K) from rfl]
    rw [div_eq_zero_iff]
    exact ⟨fun h => h.resolve_right hlen, Or.inl⟩

theorem rowsOf_ofFn {α : Type} {n l : Nat} (s : Fin n → Fin l → α) :
    rowsOf n (List.ofFn (fun r => List.ofFn (fun i => s i r))) = List.ofFn (fun i => List.ofFn (s i)) := by
  unfold rowsOf
  apply List.ext_getElem (by simp)
  intro i h1 h2
  simp only [List.length_map, List.length_range] at h1
  simp only [List.getElem_map, List.getElem_range, List.getElem_ofFn]
  rw [List.ofFn_eq_map, List.filterMap_map, List.ofFn_eq_map, ← List.filterMap_eq_map]
  congr 1
  funext r
  simp [h1]

theorem zipWith_ofFn {A B C : Type} (f : A → B → C) {n : Nat} (a : Fin n → A) (b : Fin n → B) :
    List.zipWith f (List.ofFn a) (List.ofFn b) = List.ofFn (fun i => f (a i) (b i)) := by
  apply List.ext_getElem (by simp)
  intro i h1 h2
  simp

theorem npMean2_ofFn {n l : Nat} (f : Fin n → Fin l → K) : npMean2 (List.ofFn (fun i => List.ofFn (f i))) = (∑ i, ∑ r, f i r) / (n * l) := by
  unfold npMean2 npMean
  congr 1
  · rw [List.sum_flatten, List.map_ofFn, List.sum_ofFn]
    simp [List.sum_ofFn]
  · rw [List.length_flatten, List.map_ofFn, List.sum_ofFn]
    simp

/-- C52: the values of error, bias and variance. -/
theorem C52_values {n l : Nat} (s : Fin n → Fin l → K) (t : Fin n → K) :
    biasVar (List.ofFn (fun i => List.ofFn (s i))) (List.ofFn t) = errorBiasVariance s t := by
  have hm : (List.ofFn (fun i => List.ofFn (s i))).map npMean = List.ofFn (meanPred s) := by
    rw [List.map_ofFn]
    congr 1
    funext i
    simp [npMean, meanPred, List.sum_ofFn]
  unfold biasVar errorBiasVariance
  simp only [hm, zipWith_ofFn, List.map_ofFn]
  refine Prod.ext ?_ (Prod.ext ?_ ?_)
  · exact npMean2_ofFn (fun i r => (s i r - t i) ^ 2)
  · simp [npMean, List.sum_ofFn]
  · exact npMean2_ofFn (fun i r => (s i r - meanPred s i) ^ 2)

/-- C52 for the function and MSE: error, bias and variance of the scores of the cross-validations (C51) with respect to the labels. -/
theorem C52_mse_values {d : Dataset R K} {k l : Nat} {reps : List (List Nat × Algo R K K)} {w : Bool} (hk : 2 ≤ k) (hl : 2 ≤ l)
    {s : Fin d.nInstances → Fin l → K} {t : Fin d.nInstances → K} (hy : d.y = List.ofFn t)
    (hs : reps.mapM (fun r => kfoldScoring w d k r.2 r.1 0) = .ok (List.ofFn (fun r => List.ofFn (fun i => s i r)))) :
    biasVarianceMse w d k reps = .ok (errorBiasVariance s t) := by
  have hlen : reps.length = l := by simpa using (mapM_ok_mem hs).1.symm
  unfold biasVarianceMse multiKfold
  rw [if_neg (by omega), hs, ← C52_values, hy, ← rowsOf_ofFn s]
  rfl

/-- C52 for the function and another metric: error, bias and variance of the metric of the queries, with respect to its ideal value 1. -/
theorem C52_metric_values {d : Dataset R L} {k l : Nat} {reps : List (List Nat × Algo R L S)} {zero : S} {metric : List S → Except PyErr (List K)}
    {w : Bool} (hk : 2 ≤ k) (hl : 2 ≤ l) {s : Fin d.nQueries → Fin l → K} {cols : List (List S)}
    (hc : reps.mapM (fun r => kfoldScoring w d k r.2 r.1 zero) = .ok cols)
    (hs : cols.mapM metric = .ok (List.ofFn (fun r => List.ofFn (fun i => s i r)))) :
    biasVarianceMetric w d k reps zero metric = .ok (errorBiasVariance s (fun _ => 1)) := by
  have h1 : cols.length = l := by simpa using (mapM_ok_mem hs).1.symm
  have h2 : reps.length = l := by rw [← (mapM_ok_mem hc).1, h1]
  unfold biasVarianceMetric multiKfold
  rw [if_neg (by omega), hc, ← C52_values, ← rowsOf_ofFn s, List.ofFn_const]
  show (cols.mapM metric >>= _) = _
  rw [hs]
  rfl

/-- C52 for the function: whenever `bias_variance` returns for MSE on a dataset with rows, error is bias plus variance and the variance is
not negative. -/
theorem C52_mse {d : Dataset R K} {k : Nat} {reps : List (List Nat × Algo R K K)} {w : Bool} {e b v : K} (hX : 0 < d.nInstances)
    (hy : d.y.length = d.nInstances) (h : biasVarianceMse w d k reps = .ok (e, b, v)) : e = b + v ∧ 0 ≤ v := by
  unfold biasVarianceMse at h
  split at h
  · cases h
  rename_i hk
  obtain ⟨cols, hc, h⟩ := except_bind_ok h
  obtain ⟨hl, hm⟩ := mapM_ok_mem hc
  have hrows : ∀ c ∈ cols, c.length = d.nInstances := by
    intro c hcm
    obtain ⟨r, -, hr⟩ := hm c hcm
    exact kfoldScoring_length hr
  have hne : rowsOf d.nInstances cols ≠ [] := by
    rw [← List.length_pos_iff, rowsOf_length]
    exact hX
  have hpos : 0 < cols.length := by omega
  have h1 := C52_decomposition (rowsOf d.nInstances cols) d.y (by rw [rowsOf_length, hy]) hne hpos (rowsOf_rows hrows)
  have h2 := (C52_variance (rowsOf d.nInstances cols) d.y hne hpos (rowsOf_rows hrows)).1
  cases h
  exact ⟨h1, h2⟩

/-- C52 for another metric, compared with its ideal value 1. -/
theorem C52_metric {d : Dataset R L} {k : Nat} {reps : List (List Nat × Algo R L S)} {zero : S} {metric : List S → Except PyErr (List K)}
    {w : Bool} {e b v : K} (hq : 0 < d.nQueries) (hmetric : ∀ s r, metric s = .ok r → r.length = d.nQueries)
    (h : biasVarianceMetric w d k reps zero metric = .ok (e, b, v)) : e = b + v ∧ 0 ≤ v := by
  unfold biasVarianceMetric at h
  split at h
  · cases h
  rename_i hk
  obtain ⟨cols, hc, h⟩ := except_bind_ok h
  obtain ⟨q, hqc, h⟩ := except_bind_ok h
  obtain ⟨hl, -⟩ := mapM_ok_mem hc
  obtain ⟨hl2, hm⟩ := mapM_ok_mem hqc
  have hrows : ∀ c ∈ q, c.length = d.nQueries := by
    intro c hcm
    obtain ⟨r, -, hr⟩ := hm c hcm
    exact hmetric r c hr
  have hne : rowsOf d.nQueries q ≠ [] := by
    rw [← List.length_pos_iff, rowsOf_length]
    exact hq
  have hpos : 0 < q.length := by omega
  have h1 := C52_decomposition (rowsOf d.nQueries q) (List.replicate d.nQueries 1) (by simp [rowsOf_length]) hne hpos (rowsOf_rows hrows)
  have h2 := (C52_variance (rowsOf d.nQueries q) (List.replicate d.nQueries 1) hne hpos (rowsOf_rows hrows)).1
  cases h
  exact ⟨h1, h2⟩

/-- Two documents, two repetitions. -/
example : errorBiasVariance (K := ℚ) (n := 2) (l := 2) ![![1, 3], ![2, 2]] ![1, 4] = (3, 5 / 2, 1 / 2) := by
  decide +kernel

/-- A learner that gives the mean training label, over two repetitions with different permutations of three queries. -/
example : ∃ d : Dataset Nat ℚ, mkDataset [10, 11, 12] 1 [1, 2, 6] [7, 5, 9] = .ok d ∧
    biasVarianceMse true d 2 [([2, 0, 1], fun _ _ ty _ sx => sx.map (fun _ => ty.sum / ty.length)), ([0, 1, 2], fun _ _ ty _ sx => sx.map (fun _ => ty.sum / ty.length))] =
      .ok (161 / 12, 277 / 24, 15 / 8) :=
  ⟨⟨[10, 11, 12], 1, [1, 2, 6], [7, 5, 9], [0, 1, 2, 3]⟩, by decide +kernel, by decide +kernel⟩

example : biasVar ([[1, 3], [2, 2]] : List (List ℚ)) [1, 4] = (3, 5 / 2, 1 / 2) ∧ (∀ r ∈ ([[1, 3], [2, 2]] : List (List ℚ)), r.length = 2) :=
  ⟨by decide +kernel, by decide⟩

end Verif.Props
