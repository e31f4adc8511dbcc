/-
Properties C14 Precision, C15 Recall, C21 RBP, C22 MRR, C23 MAP: per-query values.

`y` are the labels and `s` the predicted scores of a query, `c` is the cutoff (`none`: no cutoff). The
argsort is arbitrary, so ties are broken arbitrarily: `IsRanking (y.zip s) r` says that `r` lists the
documents by non-increasing score, and `retrieved c r` are the labels of its first `c` documents.
-/
import Verif.Lemmas.Metrics

namespace Verif.Props
open Spec Metrics

variable {K : Type} [Field K] [LinearOrder K] [IsStrictOrderedRing K] {S : Type} [LinearOrder S]
  {sort : List S → List Nat} {y : List K} {s : List S}

/-- The cutoff argument passed to the code. -/
abbrev cut (c : Option Nat) : Option Int := c.map Int.ofNat

/-! ### C14 -/

/-- C14: precision is the fraction of the retrieved documents with label at least `t`; nothing
retrieved raises `ZeroDivisionError`. -/
theorem C14_precision (hs : IsArgsort s (sort s)) (h : y.length = s.length) :
    ∃ r, IsRanking (y.zip s) r ∧ ∀ (c : Option Nat) (t : K),
      (retrieved c r ≠ [] → Metrics.precision sort (cut c) t y s = .ok (Spec.precision t (retrieved c r))) ∧
      (retrieved c r = [] → Metrics.precision sort (cut c) t y s = .error .zeroDivisionError) := by
  refine ⟨_, rankedDocs_isRanking hs h, fun c t => ?_⟩
  unfold Metrics.precision
  simp only [gather_topIdx hs h, length_topIdx hs h, nRelevant_eq_filter]
  constructor
  · intro hne
    rw [if_neg (by simpa using hne)]
    rfl
  · intro he
    rw [if_pos (by simp [he])]

/-- The number of documents retrieved: all, or the cutoff if smaller. -/
theorem C14_retrieved_length {r : List (K × S)} (h : y.length = s.length) (hr : IsRanking (y.zip s) r)
    (c : Option Nat) :
    (retrieved c r).length = nRetrieved c y.length :=
  length_retrieved h hr c

/-- C14: precision lies in [0, 1], for every (also negative) cutoff. -/
theorem C14_precision_bounds (hs : IsArgsort s (sort s)) (h : y.length = s.length)
    {c : Option Int} {t v : K} (hv : Metrics.precision sort c t y s = .ok v) : 0 ≤ v ∧ v ≤ 1 := by
  unfold Metrics.precision at hv
  simp only at hv
  split at hv
  · cases hv
  · rename_i hne
    have hl : (gather y (topIdx sort c s)).length = (topIdx sort c s).length :=
      length_gather _ _ (fun i hi => by rw [h]; exact topIdx_lt hs c i hi)
    cases hv
    refine ⟨by positivity, ?_⟩
    rw [div_le_one (by exact_mod_cast Nat.pos_of_ne_zero hne), ← hl]
    exact_mod_cast List.length_filter_le _ _

omit [Field K] [IsStrictOrderedRing K] in
theorem npMax_spec {l : List K} {m : K} (h : npMax l = .ok m) : m ∈ l ∧ ∀ v ∈ l, v ≤ m := by
  cases l with
  | nil => cases h
  | cons a l =>
    simp only [npMax, Except.ok.injEq] at h
    subst h
    induction l generalizing a with
    | nil => simp
    | cons b l ih =>
      obtain ⟨h1, h2⟩ := ih (max a b)
      simp only [List.foldl_cons]
      refine ⟨?_, ?_⟩
      · rcases List.mem_cons.1 h1 with h1 | h1
        · rcases max_choice a b with hm | hm <;> rw [h1, hm] <;> simp
        · simp [h1]
      · intro v hv
        have hm := h2 (max a b) (by simp)
        rcases List.mem_cons.1 hv with rfl | hv
        · exact le_trans (le_max_left _ _) hm
        · rcases List.mem_cons.1 hv with rfl | hv
          · exact le_trans (le_max_right _ _) hm
          · exact h2 v (by simp [hv])

omit [Field K] [IsStrictOrderedRing K] in
theorem npMax_ok {l : List K} (h : l ≠ []) : ∃ m, npMax l = .ok m := by
  cases l with
  | nil => exact absurd rfl h
  | cons a l => exact ⟨_, rfl⟩

/-- C14: PrecisionMax is precision with the largest label of the query as threshold. -/
theorem C14_precision_max (hs : IsArgsort s (sort s)) (h : y.length = s.length) (hne : y ≠ []) :
    ∃ r m, IsRanking (y.zip s) r ∧ m ∈ y ∧ (∀ v ∈ y, v ≤ m) ∧ ∀ c : Option Nat, c ≠ some 0 →
      Metrics.precisionMax sort (cut c) y s = .ok (Spec.precision m (retrieved c r)) := by
  obtain ⟨m, hm⟩ := npMax_ok hne
  refine ⟨_, m, rankedDocs_isRanking hs h, (npMax_spec hm).1, (npMax_spec hm).2, fun c hc => ?_⟩
  have hlen := length_retrieved h (rankedDocs_isRanking hs h) c
  have hpos := List.length_pos_iff.2 hne
  have hlen0 : (retrieved c (rankedDocs sort y s)).length ≠ 0 := by
    rw [hlen]
    cases c with
    | none => simp only [nRetrieved]; omega
    | some k => simp only [nRetrieved]; have : k ≠ 0 := fun h => hc (by rw [h]); omega
  unfold Metrics.precisionMax
  simp only [hm, bind, Except.bind, gather_topIdx hs h, length_topIdx hs h, nRelevant_eq_filter]
  rw [if_neg hlen0]
  rfl

example : Metrics.precision argsort (cut (some 2)) (1 : ℚ) [0, 2, 1, 0] [3, 7, 5, 9] = .ok (1 / 2) := by
  decide +kernel
example : Metrics.precisionMax argsort (cut (some 3)) ([0, 2, 1, 0] : List ℚ) [3, 7, 5, 9] = .ok (1 / 3) := by
  decide +kernel
/-- The hypotheses of the theorems of this file are met by every list of scores. -/
example : ∃ sort : List ℚ → List Nat, IsArgsort [3, 7, 7, 9] (sort [3, 7, 7, 9]) ∧
    ([0, 2, 1, 0] : List ℚ).length = [(3 : ℚ), 7, 7, 9].length := ⟨argsort, argsort_isArgsort _, rfl⟩

/-! ### C15 -/

/-- C15: recall is the fraction of the relevant documents that are retrieved, or `no_relevant_results`. -/
theorem C15_recall (hs : IsArgsort s (sort s)) (h : y.length = s.length) :
    ∃ r, IsRanking (y.zip s) r ∧ ∀ (c : Option Nat) (t d : K),
      Metrics.recall sort (cut c) t d y s =
        if nRelevant t y = 0 then d else Spec.recall t y (retrieved c r) := by
  refine ⟨_, rankedDocs_isRanking hs h, fun c t d => ?_⟩
  unfold Metrics.recall
  simp only [gather_topIdx hs h, nRelevant_eq_filter, Spec.recall]
  by_cases h0 : nRelevant t y = 0 <;> simp [h0]

/-- C15: recall lies in [0, 1] when some document is relevant. -/
theorem C15_recall_bounds (hs : IsArgsort s (sort s)) (h : y.length = s.length) (c : Option Nat) (t d : K)
    (hrel : ∃ v ∈ y, t ≤ v) :
    0 ≤ Metrics.recall sort (cut c) t d y s ∧ Metrics.recall sort (cut c) t d y s ≤ 1 := by
  have hpos : 0 < nRelevant t y := by
    rw [nRelevant, List.countP_pos_iff]
    obtain ⟨v, h1, h2⟩ := hrel
    exact ⟨v, h1, by simpa using h2⟩
  obtain ⟨r, hr, hrec⟩ := C15_recall (K := K) hs h
  rw [hrec c t d, if_neg (by omega)]
  unfold Spec.recall
  refine ⟨by positivity, ?_⟩
  rw [div_le_one (by exact_mod_cast hpos)]
  exact_mod_cast nRelevant_retrieved_le (s := s) (y := y) t h hr c

theorem retrieved_mono {r : List (K × S)} {k k' : Nat} (hk : k ≤ k') :
    (retrieved (some k) r).Sublist (retrieved (some k') r) := by
  apply List.Sublist.map
  show (r.take k).Sublist (r.take k')
  rw [show r.take k = (r.take k').take k by rw [List.take_take, Nat.min_eq_left hk]]
  exact List.take_sublist _ _

/-- C15: recall does not decrease when the cutoff grows. -/
theorem C15_recall_monotone (hs : IsArgsort s (sort s)) (h : y.length = s.length) {k k' : Nat} (hk : k ≤ k')
    (t d : K) :
    Metrics.recall sort (cut (some k)) t d y s ≤ Metrics.recall sort (cut (some k')) t d y s := by
  obtain ⟨r, hr, hrec⟩ := C15_recall (K := K) hs h
  rw [hrec, hrec]
  split
  · exact le_refl _
  · unfold Spec.recall
    apply div_le_div_of_nonneg_right _ (by positivity)
    exact_mod_cast (retrieved_mono hk).countP_le

/-- C15: without cutoff recall is 1 as soon as some document is relevant. -/
theorem C15_recall_no_cutoff (hs : IsArgsort s (sort s)) (h : y.length = s.length) (t d : K)
    (hrel : ∃ v ∈ y, t ≤ v) : Metrics.recall sort none t d y s = 1 := by
  have hpos : 0 < nRelevant t y := by
    rw [nRelevant, List.countP_pos_iff]
    obtain ⟨v, h1, h2⟩ := hrel
    exact ⟨v, h1, by simpa using h2⟩
  obtain ⟨r, hr, hrec⟩ := C15_recall (K := K) hs h
  have := hrec none t d
  simp only [cut, Option.map_none] at this
  rw [this, if_neg (by omega)]
  have hc : nRelevant t (retrieved none r) = nRelevant t y := (labels_perm h hr).countP_eq _
  rw [Spec.recall, hc]
  exact div_self (by exact_mod_cast (by omega : nRelevant t y ≠ 0))

/-- C15: precision times the number retrieved is recall times the number of relevant documents. -/
theorem C15_precision_recall (hs : IsArgsort s (sort s)) (h : y.length = s.length) {c : Option Nat} {t d p : K}
    (hrel : ∃ v ∈ y, t ≤ v) (hp : Metrics.precision sort (cut c) t y s = .ok p) :
    p * (nRetrieved c y.length : K) =
      Metrics.recall sort (cut c) t d y s * (nRelevant t y : K) := by
  have hpos : 0 < nRelevant t y := by
    rw [nRelevant, List.countP_pos_iff]
    obtain ⟨v, h1, h2⟩ := hrel
    exact ⟨v, h1, by simpa using h2⟩
  have hr := rankedDocs_isRanking hs h
  rw [← length_retrieved h hr c]
  unfold Metrics.precision at hp
  unfold Metrics.recall
  simp only [gather_topIdx hs h, length_topIdx hs h, nRelevant_eq_filter] at hp ⊢
  split at hp
  · cases hp
  · rename_i hne
    cases hp
    rw [if_pos (by omega)]
    have h1 : ((retrieved c (rankedDocs sort y s)).length : K) ≠ 0 := by exact_mod_cast hne
    have h2 : (nRelevant t y : K) ≠ 0 := by exact_mod_cast (by omega : nRelevant t y ≠ 0)
    rw [div_mul_cancel₀ _ h1, div_mul_cancel₀ _ h2]

example : Metrics.recall argsort (cut (some 2)) (1 : ℚ) 0 [0, 2, 1, 0] [3, 7, 5, 9] = 1 / 2 := by
  decide +kernel
example : Metrics.recall argsort (cut (some 2)) (3 : ℚ) 0 [0, 2, 1, 0] [3, 7, 5, 9] = 0 := by
  decide +kernel

/-! ### C21 -/

/-- C21: RBP is `(1-p)` times the sum of `p^i` over the relevant retrieved ranks `i` (from 0). -/
theorem C21_rbp (hs : IsArgsort s (sort s)) (h : y.length = s.length) :
    ∃ r, IsRanking (y.zip s) r ∧ ∀ (c : Option Nat) (t p : K),
      Metrics.rbp sort (cut c) t p y s = Spec.rbp p t (retrieved c r) := by
  refine ⟨_, rankedDocs_isRanking hs h, fun c t p => ?_⟩
  unfold Metrics.rbp Spec.rbp
  simp only [gather_topIdx hs h, length_topIdx hs h, sum_zipWith_mul]

/-- C21: for `p` in [0, 1) RBP is in [0, 1], at most `1 - p^n` for `n` retrieved documents. -/
theorem C21_rbp_bounds (hs : IsArgsort s (sort s)) (h : y.length = s.length) (c : Option Nat) (t : K) {p : K}
    (hp : 0 ≤ p) (hp1 : p < 1) :
    0 ≤ Metrics.rbp sort (cut c) t p y s ∧
    Metrics.rbp sort (cut c) t p y s ≤ 1 - p ^ (nRetrieved c y.length) ∧
    Metrics.rbp sort (cut c) t p y s ≤ 1 := by
  obtain ⟨r, hr, hrbp⟩ := C21_rbp (K := K) hs h
  rw [← length_retrieved h hr c, hrbp]
  have hw : ∀ i : Nat, 0 ≤ p ^ i := fun i => pow_nonneg hp i
  have h1 : 0 ≤ 1 - p := by linarith
  have hle : Spec.rbp p t (retrieved c r) ≤ 1 - p ^ (retrieved c r).length := by
    rw [← geom_weightedGain, Spec.rbp]
    apply mul_le_mul_of_nonneg_left _ h1
    apply weightedGain_le_weightedGain hw
    intro v _
    split <;> simp
  refine ⟨?_, hle, ?_⟩
  · apply mul_nonneg h1
    apply weightedGain_nonneg hw
    intro v _
    split <;> simp
  · have := hw (retrieved c r).length
    linarith

/-- C21: the bound is reached when all documents are relevant. -/
theorem C21_rbp_all_relevant (hs : IsArgsort s (sort s)) (h : y.length = s.length) (c : Option Nat) (t p : K)
    (hall : ∀ v ∈ y, t ≤ v) :
    Metrics.rbp sort (cut c) t p y s = 1 - p ^ (nRetrieved c y.length) := by
  obtain ⟨r, hr, hrbp⟩ := C21_rbp (K := K) hs h
  rw [← length_retrieved h hr c, hrbp, ← geom_weightedGain, Spec.rbp]
  congr 1
  apply Finset.sum_congr rfl
  intro i _
  have hmem : (retrieved c r)[i] ∈ y :=
    (labels_perm h hr).mem_iff.1 ((retrieved_sublist_labels c).subset (List.getElem_mem _))
  beta_reduce
  rw [if_pos (hall _ hmem)]

/-- C21: with `p = 0` RBP is precision at cutoff 1. -/
theorem C21_rbp_zero (hs : IsArgsort s (sort s)) (h : y.length = s.length) (hne : y ≠ []) {c : Option Nat}
    (hc : c ≠ some 0) (t : K) :
    Metrics.precision sort (cut (some 1)) t y s = .ok (Metrics.rbp sort (cut c) t 0 y s) := by
  have hr := rankedDocs_isRanking hs h
  have hlen := length_retrieved h hr c
  have hlen1 := length_retrieved h hr (some 1)
  have hpos := List.length_pos_iff.2 hne
  unfold Metrics.precision Metrics.rbp
  simp only [gather_topIdx hs h, length_topIdx hs h, nRelevant_eq_filter, sum_zipWith_mul]
  obtain ⟨d, ds, hd⟩ : ∃ d ds, rankedDocs sort y s = d :: ds := by
    cases hq : rankedDocs sort y s with
    | nil =>
      have := hr.perm.length_eq
      rw [hq, List.length_zip] at this
      simp at this; omega
    | cons d ds => exact ⟨d, ds, rfl⟩
  obtain ⟨rest, hrest⟩ : ∃ rest, retrieved c (rankedDocs sort y s) = d.1 :: rest := by
    rw [hd]
    cases c with
    | none => exact ⟨_, rfl⟩
    | some k =>
      cases k with
      | zero => exact absurd rfl hc
      | succ k => exact ⟨_, by simp [retrieved, top]; rfl⟩
  have h1 : retrieved (some 1) (rankedDocs sort y s) = [d.1] := by simp [retrieved, top, hd]
  rw [h1, hrest, if_neg (by simp), weightedGain_cons]
  have hz : weightedGain (fun i : Nat => (0 : K) ^ (i + 1)) (fun v => if v ≥ t then 1 else 0) rest = 0 := by
    apply Finset.sum_eq_zero
    intro i _
    simp
  rw [hz]
  by_cases ht : t ≤ d.1 <;> simp [nRelevant, ht]

example : Metrics.rbp argsort (cut (some 3)) (1 : ℚ) (1 / 2) [0, 2, 1, 0] [3, 7, 5, 9] = 3 / 8 := by
  decide +kernel

/-! ### C22 -/

/-- C22: MRR is the reciprocal of the 1-based rank of the first relevant retrieved document, or 0. -/
theorem C22_mrr (hs : IsArgsort s (sort s)) (h : y.length = s.length) :
    ∃ r, IsRanking (y.zip s) r ∧ ∀ (c : Option Nat) (t : K),
      (∃ i, IsFirstRelevant t (retrieved c r) i ∧ Metrics.mrr sort (cut c) t y s = 1 / ((i : K) + 1)) ∨
      ((∀ v ∈ retrieved c r, v < t) ∧ Metrics.mrr sort (cut c) t y s = 0) := by
  refine ⟨_, rankedDocs_isRanking hs h, fun c t => ?_⟩
  have hspec := mrrRank_spec t y (topIdx sort (cut c) s) 0
    (fun i hi => by rw [h]; exact topIdx_lt hs _ i hi)
  rw [gather_topIdx hs h] at hspec
  unfold Metrics.mrr
  cases hm : mrrRank t y 0 (topIdx sort (cut c) s) with
  | none => rw [hm] at hspec; exact Or.inr ⟨hspec, rfl⟩
  | some i => rw [hm] at hspec; exact Or.inl ⟨i, by simpa using hspec.2, rfl⟩

/-- C22: MRR is 0 iff no relevant document is retrieved, and it is in [0, 1]. -/
theorem C22_mrr_bounds (hs : IsArgsort s (sort s)) (h : y.length = s.length) :
    ∃ r, IsRanking (y.zip s) r ∧ ∀ (c : Option Nat) (t : K),
      (Metrics.mrr sort (cut c) t y s = 0 ↔ ∀ v ∈ retrieved c r, v < t) ∧
      0 ≤ Metrics.mrr sort (cut c) t y s ∧ Metrics.mrr sort (cut c) t y s ≤ 1 := by
  obtain ⟨r, hr, hm⟩ := C22_mrr (K := K) hs h
  refine ⟨r, hr, fun c t => ?_⟩
  rcases hm c t with ⟨i, hi, hv⟩ | ⟨hall, hv⟩
  · have hpos : (0 : K) < 1 / ((i : K) + 1) := by positivity
    rw [hv]
    refine ⟨⟨fun h0 => absurd h0 hpos.ne', fun hall => ?_⟩, hpos.le, ?_⟩
    · obtain ⟨v, hv1, hv2⟩ := hi.1
      exact absurd hv2 (not_le.2 (hall v (List.mem_of_getElem? hv1)))
    · rw [div_le_one (by positivity)]
      have : (0 : K) ≤ i := by positivity
      linarith
  · rw [hv]
    exact ⟨⟨fun _ => hall, fun _ => rfl⟩, le_refl _, zero_le_one⟩

/-- C22: MRR does not decrease when the cutoff grows. -/
theorem C22_mrr_monotone (hs : IsArgsort s (sort s)) (h : y.length = s.length) {k k' : Nat} (hk : k ≤ k')
    (t : K) : Metrics.mrr sort (cut (some k)) t y s ≤ Metrics.mrr sort (cut (some k')) t y s := by
  obtain ⟨r, hr, hm⟩ := C22_mrr (K := K) hs h
  obtain ⟨r', hr', hb⟩ := C22_mrr_bounds (K := K) hs h
  rcases hm (some k) t with ⟨i, hi, hv⟩ | ⟨_, hv⟩
  · have hpre : ∀ (j : Nat) v, (retrieved (some k) r)[j]? = some v → (retrieved (some k') r)[j]? = some v := by
      intro j v hj
      simp only [retrieved, top, List.map_take, List.getElem?_take] at hj ⊢
      split at hj
      · rw [if_pos (by omega)]; exact hj
      · cases hj
    have hi' : IsFirstRelevant t (retrieved (some k') r) i := by
      obtain ⟨v, hv1, hv2⟩ := hi.1
      refine ⟨⟨v, hpre i v hv1, hv2⟩, ?_⟩
      intro j hj w hw
      apply hi.2 j hj w
      have hik : i < (retrieved (some k) r).length := by
        rw [List.getElem?_eq_some_iff] at hv1; exact hv1.1
      simp only [retrieved, top, List.map_take, List.getElem?_take, List.length_take] at hw hik ⊢
      rw [if_pos (by omega)] at hw ⊢
      exact hw
    rcases hm (some k') t with ⟨i', hi2, hv'⟩ | ⟨hall, _⟩
    · rw [hv, hv', isFirstRelevant_unique hi' hi2]
    · obtain ⟨v, hv1, hv2⟩ := hi'.1
      exact absurd hv2 (not_le.2 (hall v (List.mem_of_getElem? hv1)))
  · rw [hv]
    exact (hb (some k') t).2.1

example : Metrics.mrr argsort (cut (some 3)) (1 : ℚ) [0, 2, 1, 0] [3, 7, 5, 9] = 1 / 2 := by
  decide +kernel

/-! ### C23 -/

omit [Field K] [IsStrictOrderedRing K] in
theorem countP_ne_zero_of_nonneg [Field K] {l : List K} (h : ∀ v ∈ l, 0 ≤ v) :
    (l.filter (fun v => decide (v ≠ 0))).length = l.countP (fun v => decide (0 < v)) := by
  rw [List.countP_eq_length_filter]
  congr 1
  apply List.filter_congr
  intro v hv
  simp only [ne_eq, decide_eq_decide]
  exact ⟨fun hne => lt_of_le_of_ne (h v hv) (Ne.symm hne), fun hlt => hlt.ne'⟩

/-- C23, proved part (missing: the value 0 when relevant documents exist but none is retrieved, which is
false, see `C23_violated`): when a relevant document is retrieved, AP is the sum of the precisions at the relevant retrieved
ranks over the smaller of the numbers of retrieved and of relevant documents. Otherwise it is the
`no_relevant_results` value, whether or not the query has relevant documents. -/
theorem C23_map_partial (hs : IsArgsort s (sort s)) (h : y.length = s.length) (hy : ∀ v ∈ y, 0 ≤ v) :
    ∃ r, IsRanking (y.zip s) r ∧ ∀ (c : Option Nat) (d : K),
      ((∃ v ∈ retrieved c r, 0 < v) → Metrics.map sort (cut c) d y s =
        sumPrecisions (retrieved c r) /
          ((min (retrieved c r).length (y.countP (fun v => decide (0 < v))) : Nat) : K)) ∧
      ((∀ v ∈ retrieved c r, ¬ 0 < v) → Metrics.map sort (cut c) d y s = d) := by
  refine ⟨_, rankedDocs_isRanking hs h, fun c d => ?_⟩
  unfold Metrics.map
  simp only [gather_topIdx hs h, length_topIdx hs h, mapLoop_count, mapLoop_sum, countP_ne_zero_of_nonneg hy]
  constructor
  · rintro ⟨v, hv, hv0⟩
    rw [if_pos (List.countP_pos_iff.2 ⟨v, hv, by simpa using hv0⟩)]
  · intro hall
    rw [if_neg]
    rw [gt_iff_lt, List.countP_pos_iff]
    rintro ⟨v, hv, hv0⟩
    exact hall v hv (by simpa using hv0)

/-- C23: AP is in [0, 1] when the default is. -/
theorem C23_map_bounds (hs : IsArgsort s (sort s)) (h : y.length = s.length) (hy : ∀ v ∈ y, 0 ≤ v)
    (c : Option Nat) {d : K} (hd : 0 ≤ d) (hd1 : d ≤ 1) :
    0 ≤ Metrics.map sort (cut c) d y s ∧ Metrics.map sort (cut c) d y s ≤ 1 := by
  obtain ⟨r, hr, hm⟩ := C23_map_partial (K := K) hs h hy
  by_cases hex : ∃ v ∈ retrieved c r, 0 < v
  · rw [(hm c d).1 hex]
    have hc1 : (retrieved c r).countP (fun v => decide (0 < v)) ≤ y.countP (fun v => decide (0 < v)) := by
      rw [← (labels_perm h hr).countP_eq]
      exact (retrieved_sublist_labels c).countP_le
    have hc2 : (retrieved c r).countP (fun v => decide (0 < v)) ≤ (retrieved c r).length := List.countP_le_length
    have hpos : 0 < (retrieved c r).countP (fun v => decide (0 < v)) := by
      obtain ⟨v, hv, hv0⟩ := hex
      exact List.countP_pos_iff.2 ⟨v, hv, by simpa using hv0⟩
    refine ⟨div_nonneg (sumPrecisions_nonneg _) (by positivity), ?_⟩
    rw [div_le_one (by exact_mod_cast (by omega :
      0 < min (retrieved c r).length (y.countP (fun v => decide (0 < v)))))]
    refine le_trans (sumPrecisions_le _) ?_
    exact_mod_cast le_min hc2 hc1
  · rw [(hm c d).2 (fun v hv hv0 => hex ⟨v, hv, hv0⟩)]
    exact ⟨hd, hd1⟩

theorem sumPrecisions_ideal {l : List K} (hl : l.Pairwise (fun a b => 0 < b → 0 < a)) :
    sumPrecisions l = (l.countP (fun v => decide (0 < v)) : K) ∧
      ∀ v ∈ l, (0 < v → ∀ l' : List K, l = l' ++ [v] → l'.countP (fun v => decide (0 < v)) = l'.length) := by
  induction l using List.reverseRecOn with
  | nil => simp [sumPrecisions]
  | append_singleton l v ih =>
    rw [List.pairwise_append] at hl
    have hall : 0 < v → l.countP (fun v => decide (0 < v)) = l.length := by
      intro hv
      rw [List.countP_eq_length]
      intro a ha
      simpa using hl.2.2 a ha v (by simp) hv
    constructor
    · rw [sumPrecisions_append, (ih hl.1).1, List.countP_append]
      by_cases hv : 0 < v
      · have := hall hv
        simp only [hv, ↓reduceIte, this, decide_true, List.countP_cons_of_pos, List.countP_nil, zero_add,
          Nat.cast_add, Nat.cast_one]
        rw [div_self (by positivity)]
      · simp [hv]
    · intro w _ hw l' hl'
      obtain ⟨h1, h2⟩ := List.append_inj' hl' rfl
      subst h1
      simp at h2
      subst h2
      exact hall hw

omit [IsStrictOrderedRing K] in
theorem count_take_ideal (l : List K) (k : Nat) (hpw : l.Pairwise (fun a b => 0 < b → 0 < a)) :
    (l.take k).countP (fun v => decide (0 < v)) =
      min (l.take k).length (l.countP (fun v => decide (0 < v))) := by
  induction l generalizing k with
  | nil => simp
  | cons b l ih =>
    cases k with
    | zero => simp
    | succ k =>
      by_cases hb : 0 < b
      · have := ih k (List.pairwise_cons.1 hpw).2
        simp only [List.take_succ_cons, hb, decide_true, List.countP_cons_of_pos, this, List.length_cons]
        omega
      · have hz : ∀ m : List K, (∀ v ∈ m, v ∈ l) → m.countP (fun v => decide (0 < v)) = 0 := by
          intro m hm
          rw [List.countP_eq_zero]
          intro v hv
          simpa using fun h0 => hb ((List.pairwise_cons.1 hpw).1 v (hm v hv) h0)
        simp [hb, hz l (fun v hv => hv), hz (l.take k) (fun v hv => List.mem_of_mem_take hv)]

/-- C23: AP is 1 when all relevant documents come before all others (every prefix of a ranking in which a
relevant document never follows a non-relevant one) and one is retrieved. -/
theorem C23_map_ideal (hs : IsArgsort s (sort s)) (h : y.length = s.length) (hy : ∀ v ∈ y, 0 ≤ v)
    (hideal : ∀ r, IsRanking (y.zip s) r → (r.map (·.1)).Pairwise (fun a b => 0 < b → 0 < a))
    (hex : ∃ v ∈ y, 0 < v) {c : Option Nat} (hc : c ≠ some 0) (d : K) :
    Metrics.map sort (cut c) d y s = 1 := by
  obtain ⟨r, hr, hm⟩ := C23_map_partial (K := K) hs h hy
  have hpw := hideal r hr
  have hlp := labels_perm h hr
  obtain ⟨a, t, hat⟩ : ∃ a t, r.map (·.1) = a :: t := by
    obtain ⟨v, hv, _⟩ := hex
    have := hlp.mem_iff.2 hv
    cases hq : r.map (·.1) with
    | nil => rw [hq] at this; cases this
    | cons a t => exact ⟨a, t, rfl⟩
  have ha : 0 < a := by
    obtain ⟨v, hv, hv0⟩ := hex
    have hvm := hlp.mem_iff.2 hv
    rw [hat] at hvm hpw
    rcases List.mem_cons.1 hvm with rfl | hvm
    · exact hv0
    · exact (List.pairwise_cons.1 hpw).1 v hvm hv0
  have hmem : a ∈ retrieved c r := by
    cases c with
    | none => simp only [retrieved, top]; rw [hat]; simp
    | some k =>
      cases k with
      | zero => exact absurd rfl hc
      | succ k => simp only [retrieved, top, List.map_take]; rw [hat]; simp
  rw [(hm c d).1 ⟨a, hmem, ha⟩]
  have hpw' : (retrieved c r).Pairwise (fun a b => 0 < b → 0 < a) := hpw.sublist (retrieved_sublist_labels c)
  rw [(sumPrecisions_ideal hpw').1]
  have hcount : (retrieved c r).countP (fun v => decide (0 < v)) =
      min (retrieved c r).length (y.countP (fun v => decide (0 < v))) := by
    rw [← hlp.countP_eq]
    cases c with
    | none => simp only [retrieved, top]; rw [Nat.min_eq_right List.countP_le_length]
    | some k =>
      simp only [retrieved, top, List.map_take]
      exact count_take_ideal _ k hpw
  rw [hcount]
  apply div_self
  have : 0 < (retrieved c r).countP (fun v => decide (0 < v)) := List.countP_pos_iff.2 ⟨a, hmem, by simpa using ha⟩
  rw [← hcount]
  exact_mod_cast this.ne'

/-- C23 is violated in its last part: a query with a relevant document of which none is retrieved gets the
value 1 (the default of `no_relevant_results`). -/
theorem C23_violated : ∃ (y s : List ℚ), (∃ v ∈ y, 0 < v) ∧ Metrics.map argsort (cut (some 1)) 1 y s = 1 ∧
    ∀ r, IsRanking (y.zip s) r → ∀ v ∈ retrieved (some 1) r, v = 0 := by
  refine ⟨[1, 0], [3, 5], ⟨1, by simp, by norm_num⟩, by decide +kernel, ?_⟩
  intro r hr v hv
  have hp := hr.perm
  have hs := hr.sorted
  have h2 : r.length = 2 := by simpa using hp.length_eq
  match r, h2 with
  | [a, b], _ =>
    simp only [retrieved, top, List.take_succ_cons, List.take_zero, List.map_cons, List.map_nil,
      List.mem_singleton] at hv
    subst hv
    have ha : a ∈ ([1, 0] : List ℚ).zip [3, 5] := hp.mem_iff.1 (by simp)
    have hb : (0, 5) ∈ [a, b] := hp.mem_iff.2 (by simp)
    simp only [List.pairwise_cons] at hs
    simp at ha hb
    rcases ha with rfl | rfl
    · rcases hb with hb | rfl
      · simp at hb
      · have := hs.1 (0, 5) (by simp); norm_num at this
    · rfl

example : Metrics.map argsort (cut (some 3)) (1 : ℚ) [0, 2, 1, 0] [3, 7, 5, 9] = 7 / 12 := by
  decide +kernel

end Verif.Props
