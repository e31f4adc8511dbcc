/-
Properties C16 NDCG, C19 ERR, C20 Pfound: per-query values. Notation as in `MetricsCount.lean`.
-/
import Verif.Lemmas.Gain
import Verif.Props.MetricsCount

namespace Verif.Props
open Spec Metrics

variable {S S' : Type} [LinearOrder S] [LinearOrder S'] {sort : List S → List Nat} {sort' : List S' → List Nat}
  {sortY : List ℝ → List Nat} {y : List ℝ} {s : List S} {s' : List S'}

/-- The scores `s` order the documents by label: a document does not score higher than one of larger label,
and documents of equal score have equal labels. -/
def OrdersByLabel (y : List ℝ) (s : List S) : Prop :=
  ∀ p ∈ y.zip s, ∀ q ∈ y.zip s, p.2 ≤ q.2 → p.1 ≤ q.1

/-- The gain functions of the documentation. -/
def IsGain : Impl → (ℝ → ℝ) → Prop
  | .flat, g => ∀ v, g v = v
  | .exp, g => ∀ v, g v = (2 : ℝ) ^ v - 1
  | .other, _ => False

theorem dcgGain_of_isGain {impl : Impl} {g : ℝ → ℝ} (h : IsGain impl g) : dcgGain impl = .ok g := by
  cases impl with
  | flat => simp [dcgGain]; funext v; exact (h v).symm
  | exp => simp [dcgGain]; funext v; exact (h v).symm
  | other => exact h.elim

/-! ### C16 -/

/-- C16: DCG is the sum over the retrieved ranks of the gain of the label over `log2 (rank + 1)`. -/
theorem C16_dcg (hs : IsArgsort s (sort s)) (h : y.length = s.length) :
    ∃ r, IsRanking (y.zip s) r ∧ ∀ (c : Option Nat) (impl : Impl) (g : ℝ → ℝ), IsGain impl g →
      Metrics.dcg sort (cut c) impl y s = .ok (Spec.dcg g (retrieved c r)) :=
  ⟨_, rankedDocs_isRanking hs h, fun c _ _ hg => dcg_model hs h c (dcgGain_of_isGain hg)⟩

/-- C16: any other implementation name is an error. -/
theorem C16_unknown_implementation (c : Option Int) : Metrics.dcg sort c .other y s = .error .unboundLocalError := by
  simp [Metrics.dcg, dcgGain, bind, Except.bind]

/-- C16: no ranking has a larger DCG than a ranking by decreasing label. -/
theorem C16_dcg_le_ideal (hs : IsArgsort s (sort s)) (h : y.length = s.length) (hs' : IsArgsort s' (sort' s'))
    (h' : y.length = s'.length) (hid : OrdersByLabel y s') (c : Option Nat) {impl : Impl} (himpl : impl ≠ .other) :
    ∃ v v', Metrics.dcg sort (cut c) impl y s = .ok v ∧ Metrics.dcg sort' (cut c) impl y s' = .ok v' ∧ v ≤ v' := by
  obtain ⟨g, hg⟩ : ∃ g, dcgGain impl = .ok g := by
    cases impl with
    | flat => exact ⟨_, rfl⟩
    | exp => exact ⟨_, rfl⟩
    | other => exact absurd rfl himpl
  refine ⟨_, _, dcg_model hs h c hg, dcg_model hs' h' c hg, ?_⟩
  have hr := rankedDocs_isRanking hs h
  have hr' := rankedDocs_isRanking hs' h'
  rw [dcg_eq_weightedGain, dcg_eq_weightedGain, retrieved_eq_top, retrieved_eq_top]
  exact weightedGain_top_le (P := fun _ => True) disc_strictAnti.antitone (fun i => (disc_pos i).le)
    (fun a b _ _ hab => (dcgGain_spec hg).1.monotone hab) ((labels_perm h hr).trans (labels_perm h' hr').symm)
    (ideal_labels_sorted hr' hid) (fun _ _ => trivial) c

theorem dcg_nonneg {g : ℝ → ℝ} (hg : StrictMono g) (h0 : g 0 = 0) {l : List ℝ} (hl : ∀ v ∈ l, 0 ≤ v) :
    0 ≤ Spec.dcg g l := by
  rw [dcg_eq_weightedGain]
  apply weightedGain_nonneg (fun i => (disc_pos i).le)
  intro v hv
  rw [← h0]
  exact hg.monotone (hl v hv)

theorem dcg_ideal_pos {g : ℝ → ℝ} (hg : StrictMono g) (h0 : g 0 = 0) {l : List ℝ} (hl : ∀ v ∈ l, 0 ≤ v)
    (hs : l.Pairwise (· ≥ ·)) (hex : ∃ v ∈ l, 0 < v) {c : Option Nat} (hc : c ≠ some 0) :
    0 < Spec.dcg g (top c l) := by
  obtain ⟨v, hv, hv0⟩ := hex
  cases l with
  | nil => cases hv
  | cons a t =>
    have ha : 0 < a := by
      rcases List.mem_cons.1 hv with rfl | hv
      · exact hv0
      · exact lt_of_lt_of_le hv0 ((List.pairwise_cons.1 hs).1 v hv)
    obtain ⟨m, hm, hsub⟩ : ∃ m, top c (a :: t) = a :: m ∧ ∀ v ∈ m, v ∈ t := by
      cases c with
      | none => exact ⟨t, rfl, fun v hv => hv⟩
      | some k =>
        cases k with
        | zero => exact absurd rfl hc
        | succ k => exact ⟨t.take k, rfl, fun v hv => List.mem_of_mem_take hv⟩
    rw [hm, dcg_eq_weightedGain, weightedGain_cons]
    have h1 : 0 < disc 0 * g a := mul_pos (disc_pos 0) (by rw [← h0]; exact hg ha)
    have h2 : 0 ≤ weightedGain (fun i => disc (i + 1)) g m := by
      apply weightedGain_nonneg (fun i => (disc_pos _).le)
      intro v hv
      rw [← h0]
      exact hg.monotone (hl v (by simp [hsub v hv]))
    linarith

theorem top_subset {α : Type} {c : Option Nat} {l : List α} {v : α} (h : v ∈ top c l) : v ∈ l := by
  cases c with
  | none => exact h
  | some k => exact List.mem_of_mem_take h

/-- The value of NDCG: DCG over ideal DCG (for any order `t` of the labels by decreasing label) if that is
not 0, else the default. -/
theorem C16_ndcg (hs : IsArgsort s (sort s)) (h : y.length = s.length) (hsY : IsArgsort y (sortY y)) :
    ∃ r t, IsRanking (y.zip s) r ∧ t.Perm y ∧ t.Pairwise (· ≥ ·) ∧
      ∀ (c : Option Nat) (impl : Impl) (g : ℝ → ℝ) (d : ℝ), IsGain impl g →
        Metrics.ndcg sort sortY (cut c) impl d y s =
          .ok (if Spec.dcg g (top c t) ≠ 0 then Spec.dcg g (retrieved c r) / Spec.dcg g (top c t) else d) := by
  have hrY := rankedDocs_isRanking hsY (rfl : y.length = y.length)
  refine ⟨_, (rankedDocs sortY y y).map (·.1), rankedDocs_isRanking hs h, labels_perm rfl hrY,
    ideal_labels_sorted hrY self_order, fun c impl g d hg => ?_⟩
  unfold Metrics.ndcg
  simp only [dcg_model hs h c (dcgGain_of_isGain hg), dcg_model hsY rfl c (dcgGain_of_isGain hg), bind, Except.bind,
    pure, Except.pure, ← retrieved_eq_top]
  split <;> rfl

/-- C16: for non-negative labels NDCG lies in [0, 1] (with a default in [0, 1]). -/
theorem C16_ndcg_bounds (hs : IsArgsort s (sort s)) (h : y.length = s.length) (hsY : IsArgsort y (sortY y))
    (hy : ∀ v ∈ y, 0 ≤ v) (c : Option Nat) {impl : Impl} (himpl : impl ≠ .other) {d : ℝ} (hd : 0 ≤ d ∧ d ≤ 1) :
    ∃ v, Metrics.ndcg sort sortY (cut c) impl d y s = .ok v ∧ 0 ≤ v ∧ v ≤ 1 := by
  obtain ⟨g, hg⟩ : ∃ g, IsGain impl g := by
    cases impl with
    | flat => exact ⟨fun v => v, fun _ => rfl⟩
    | exp => exact ⟨fun v => (2 : ℝ) ^ v - 1, fun _ => rfl⟩
    | other => exact absurd rfl himpl
  obtain ⟨hmono, h0⟩ := dcgGain_spec (dcgGain_of_isGain hg)
  obtain ⟨r, t, hr, ht, hts, hval⟩ := C16_ndcg hs h hsY
  refine ⟨_, hval c impl g d hg, ?_⟩
  have hrl : ∀ v ∈ retrieved c r, 0 ≤ v := fun v hv =>
    hy v ((labels_perm h hr).mem_iff.1 ((retrieved_sublist_labels c).subset hv))
  have htl : ∀ v ∈ top c t, 0 ≤ v := fun v hv => hy v (ht.mem_iff.1 (top_subset hv))
  have h1 := dcg_nonneg hmono h0 hrl
  have h2 := dcg_nonneg hmono h0 htl
  split
  · rename_i hne
    have hpos : 0 < Spec.dcg g (top c t) := lt_of_le_of_ne h2 (Ne.symm hne)
    refine ⟨div_nonneg h1 h2, ?_⟩
    rw [div_le_one hpos, dcg_eq_weightedGain, dcg_eq_weightedGain, retrieved_eq_top]
    exact weightedGain_top_le (P := fun _ => True) disc_strictAnti.antitone (fun i => (disc_pos i).le)
      (fun a b _ _ hab => hmono.monotone hab) ((labels_perm h hr).trans ht.symm) hts (fun _ _ => trivial) c
  · exact hd

/-- C16: for non-negative labels, one of them positive, NDCG is 1 exactly if the labels of the retrieved
documents are those retrieved by a ranking by decreasing label. -/
theorem C16_ndcg_one_iff (hs : IsArgsort s (sort s)) (h : y.length = s.length) (hsY : IsArgsort y (sortY y))
    (hy : ∀ v ∈ y, 0 ≤ v) (hex : ∃ v ∈ y, 0 < v) :
    ∃ r, IsRanking (y.zip s) r ∧ ∀ (c : Option Nat) (impl : Impl) (d : ℝ), c ≠ some 0 → impl ≠ .other →
      (Metrics.ndcg sort sortY (cut c) impl d y s = .ok 1 ↔
        ∃ t : List ℝ, t.Perm y ∧ t.Pairwise (· ≥ ·) ∧ retrieved c r = top c t) := by
  obtain ⟨r, t, hr, ht, hts, hval⟩ := C16_ndcg hs h hsY
  refine ⟨r, hr, fun c impl d hc himpl => ?_⟩
  obtain ⟨g, hg⟩ : ∃ g, IsGain impl g := by
    cases impl with
    | flat => exact ⟨fun v => v, fun _ => rfl⟩
    | exp => exact ⟨fun v => (2 : ℝ) ^ v - 1, fun _ => rfl⟩
    | other => exact absurd rfl himpl
  obtain ⟨hmono, h0⟩ := dcgGain_spec (dcgGain_of_isGain hg)
  have hpos : 0 < Spec.dcg g (top c t) := by
    obtain ⟨v, hv, hv0⟩ := hex
    exact dcg_ideal_pos hmono h0 (fun v hv => hy v (ht.mem_iff.1 hv)) hts ⟨v, ht.mem_iff.2 hv, hv0⟩ hc
  rw [hval c impl g d hg, if_pos hpos.ne', Except.ok.injEq, div_eq_one_iff_eq hpos.ne']
  have hrt : (r.map (·.1)).Perm t := (labels_perm h hr).trans ht.symm
  constructor
  · intro heq
    refine ⟨t, ht, hts, ?_⟩
    rw [dcg_eq_weightedGain, dcg_eq_weightedGain, retrieved_eq_top] at heq
    rw [retrieved_eq_top]
    obtain ⟨k, hk⟩ := top_eq_take c t
    rw [hk t rfl, hk _ hrt.length_eq] at heq ⊢
    have := eq_sorted_of_weightedGain_eq (P := fun _ => True) disc_strictAnti disc_pos
      (fun a b _ _ hab => hmono.monotone hab) hrt hts (fun _ _ => trivial) heq
    exact List.map_injective_iff.2 hmono.injective this
  · rintro ⟨t', ht', hts', heq⟩
    rw [heq, sorted_unique (ht'.trans ht.symm) hts' hts]

/-- C16: NDCG is 1 when the scores order the documents by label. -/
theorem C16_ndcg_ideal (hs : IsArgsort s (sort s)) (h : y.length = s.length) (hsY : IsArgsort y (sortY y))
    (hy : ∀ v ∈ y, 0 ≤ v) (hex : ∃ v ∈ y, 0 < v) (hid : OrdersByLabel y s) {c : Option Nat} (hc : c ≠ some 0)
    {impl : Impl} (himpl : impl ≠ .other) (d : ℝ) : Metrics.ndcg sort sortY (cut c) impl d y s = .ok 1 := by
  obtain ⟨r, hr, hiff⟩ := C16_ndcg_one_iff hs h hsY hy hex
  exact (hiff c impl d hc himpl).2 ⟨_, labels_perm h hr, ideal_labels_sorted hr hid, retrieved_eq_top c r⟩

/-- C16: a query without relevant documents gets `no_relevant_results`. -/
theorem C16_ndcg_no_relevant (hs : IsArgsort s (sort s)) (h : y.length = s.length) (hsY : IsArgsort y (sortY y))
    (hy : ∀ v ∈ y, v = 0) (c : Option Nat) {impl : Impl} (himpl : impl ≠ .other) (d : ℝ) :
    Metrics.ndcg sort sortY (cut c) impl d y s = .ok d := by
  obtain ⟨g, hg⟩ : ∃ g, IsGain impl g := by
    cases impl with
    | flat => exact ⟨fun v => v, fun _ => rfl⟩
    | exp => exact ⟨fun v => (2 : ℝ) ^ v - 1, fun _ => rfl⟩
    | other => exact absurd rfl himpl
  obtain ⟨r, t, hr, ht, hts, hval⟩ := C16_ndcg hs h hsY
  have h0 := (dcgGain_spec (dcgGain_of_isGain hg)).2
  have : Spec.dcg g (top c t) = 0 := by
    apply Finset.sum_eq_zero
    intro i _
    have hz : (top c t)[i] = 0 := hy _ (ht.mem_iff.1 (top_subset (List.getElem_mem _)))
    rw [hz, h0, zero_div]
  rw [hval c impl g d hg, if_neg (by simpa using this)]

/-- The hypotheses of the theorems above are met, e.g. by this query with tied scores. -/
example : ∃ (sort : List ℝ → List Nat) (sortY : List ℝ → List Nat),
    IsArgsort ([1, 5, 5] : List ℝ) (sort [1, 5, 5]) ∧ IsArgsort ([0, 2, 2] : List ℝ) (sortY [0, 2, 2]) ∧
    (∀ v ∈ ([0, 2, 2] : List ℝ), 0 ≤ v) ∧ (∃ v ∈ ([0, 2, 2] : List ℝ), 0 < v) ∧
    OrdersByLabel ([0, 2, 2] : List ℝ) ([1, 5, 5] : List ℝ) := by
  refine ⟨argsort, argsort, argsort_isArgsort _, argsort_isArgsort _, by simp, by simp, ?_⟩
  simp [OrdersByLabel]

/-! ### C19 -/

/-- C19: ERR is the expected reciprocal stopping rank of the cascade user who stops at a document of label
`v` with probability `(2^v - 1) / 2^m`, `m` the largest label of the query. -/
theorem C19_err (hs : IsArgsort s (sort s)) (h : y.length = s.length) (hne : y ≠ []) :
    ∃ r m, IsRanking (y.zip s) r ∧ m ∈ y ∧ (∀ v ∈ y, v ≤ m) ∧ ∀ c : Option Nat,
      Metrics.err sort (cut c) y s = .ok (Spec.err (fun v => ((2 : ℝ) ^ v - 1) / 2 ^ m) (retrieved c r)) := by
  obtain ⟨m, hm⟩ := npMax_ok hne
  refine ⟨_, m, rankedDocs_isRanking hs h, (npMax_spec hm).1, (npMax_spec hm).2, fun c => ?_⟩
  unfold Metrics.err
  simp only [hm, bind, Except.bind, pure, Except.pure, gather_topIdx hs h, errLoop_eq]
  rfl

/-- The numbers in `Spec.err` are a probability distribution: stopping at each rank, or never. -/
theorem C19_stop_probabilities (u : ℝ → ℝ) (l : List ℝ) (hu : ∀ v ∈ l, 0 ≤ u v ∧ u v ≤ 1) :
    (∀ i, 0 ≤ stopAt u l i) ∧ 0 ≤ (l.map (fun v => 1 - u v)).prod ∧
      (∑ i, stopAt u l i) + (l.map (fun v => 1 - u v)).prod = 1 := by
  refine ⟨fun i => mul_nonneg (pass_nonneg (u := u) (fun v hv => (hu v (List.mem_of_mem_take hv)).2))
    (hu _ (List.getElem_mem _)).1, pass_nonneg (fun v hv => (hu v hv).2), ?_⟩
  have := casc_one u l
  simp only [casc, mul_one] at this
  exact this

theorem casc_recip_lt_one {u : ℝ → ℝ} {l : List ℝ} (h : ∀ v ∈ l, 0 ≤ u v ∧ u v < 1) :
    casc (fun i => 1 / ((i : ℝ) + 1)) u l < 1 := by
  cases l with
  | nil => simp [casc_nil]
  | cons a l =>
    rw [casc_cons]
    obtain ⟨h1, h2⟩ := h a (by simp)
    have hanti : Antitone (fun i : Nat => 1 / (((i + 1 : Nat) : ℝ) + 1)) := fun i j hij => antitone_recip (by omega)
    have h3 := casc_le (u := u) (l := l) hanti (fun i => by positivity)
      (fun v hv => ⟨(h v (by simp [hv])).1, (h v (by simp [hv])).2.le⟩)
    norm_num at h3 ⊢
    nlinarith

/-- C19: for non-negative labels ERR is in [0, 1). -/
theorem C19_err_bounds (hs : IsArgsort s (sort s)) (h : y.length = s.length) (hne : y ≠ [])
    (hy : ∀ v ∈ y, 0 ≤ v) (c : Option Nat) :
    ∃ v, Metrics.err sort (cut c) y s = .ok v ∧ 0 ≤ v ∧ v < 1 := by
  obtain ⟨r, m, hr, hm, hmax, hval⟩ := C19_err hs h hne
  refine ⟨_, hval c, ?_⟩
  have hu : ∀ v ∈ retrieved c r, 0 ≤ utility m v ∧ utility m v < 1 := by
    intro v hv
    have hv' := (labels_perm h hr).mem_iff.1 ((retrieved_sublist_labels c).subset hv)
    exact utility_bounds (hy v hv') (hmax v hv')
  exact ⟨casc_nonneg (w := fun i => 1 / ((i : ℝ) + 1)) (u := utility m) (fun i => by positivity)
    (fun v hv => ⟨(hu v hv).1, (hu v hv).2.le⟩), casc_recip_lt_one hu⟩

/-- C19: ERR is largest when documents are ranked by decreasing label. -/
theorem C19_err_ideal (hs : IsArgsort s (sort s)) (h : y.length = s.length) (hs' : IsArgsort s' (sort' s'))
    (h' : y.length = s'.length) (hne : y ≠ []) (hy : ∀ v ∈ y, 0 ≤ v) (hid : OrdersByLabel y s') (c : Option Nat) :
    ∃ v v', Metrics.err sort (cut c) y s = .ok v ∧ Metrics.err sort' (cut c) y s' = .ok v' ∧ v ≤ v' := by
  obtain ⟨r, m, hr, hm, hmax, hval⟩ := C19_err hs h hne
  obtain ⟨r', m', hr', hm', hmax', hval'⟩ := C19_err hs' h' hne
  have hmm : m' = m := le_antisymm (hmax m' hm') (hmax' m hm)
  subst hmm
  refine ⟨_, _, hval c, hval' c, ?_⟩
  rw [retrieved_eq_top, retrieved_eq_top]
  exact casc_top_le (P := fun v => 0 ≤ v ∧ v ≤ m') (u := utility m') antitone_recip (fun i => by positivity)
    (fun v hv => ⟨(utility_bounds hv.1 hv.2).1, (utility_bounds hv.1 hv.2).2.le⟩)
    (fun a b _ _ hab => utility_mono hab) ((labels_perm h hr).trans (labels_perm h' hr').symm)
    (ideal_labels_sorted hr' hid)
    (fun v hv => have hv' := (labels_perm h hr).mem_iff.1 hv; ⟨hy v hv', hmax v hv'⟩) c

/-- C19: an empty query is an error. -/
theorem C19_err_empty (c : Option Int) : Metrics.err sort c [] s = .error .valueError := rfl

/-! ### C20 -/

/-- C20, proved part (missing: the documented reading of the parameter, which is false, see `C20_violated`):
Pfound is the sum over the retrieved ranks of the probability of stopping there in the cascade times
`p^rank` (rank from 0). -/
theorem C20_pfound_partial (hs : IsArgsort s (sort s)) (h : y.length = s.length) (hne : y ≠ []) :
    ∃ r m, IsRanking (y.zip s) r ∧ m ∈ y ∧ (∀ v ∈ y, v ≤ m) ∧ ∀ (c : Option Nat) (p : ℝ),
      Metrics.pfound sort (cut c) p y s =
        .ok (Spec.pfound p (fun v => ((2 : ℝ) ^ v - 1) / 2 ^ m) (retrieved c r)) := by
  obtain ⟨m, hm⟩ := npMax_ok hne
  refine ⟨_, m, rankedDocs_isRanking hs h, (npMax_spec hm).1, (npMax_spec hm).2, fun c p => ?_⟩
  unfold Metrics.pfound
  simp only [hm, bind, Except.bind, pure, Except.pure, gather_topIdx hs h, pfoundLoop_eq]
  rfl

/-- C20: Pfound is in [0, 1] for non-negative labels and `p` in [0, 1]. -/
theorem C20_pfound_bounds (hs : IsArgsort s (sort s)) (h : y.length = s.length) (hne : y ≠ [])
    (hy : ∀ v ∈ y, 0 ≤ v) (c : Option Nat) {p : ℝ} (hp : 0 ≤ p) (hp1 : p ≤ 1) :
    ∃ v, Metrics.pfound sort (cut c) p y s = .ok v ∧ 0 ≤ v ∧ v ≤ 1 := by
  obtain ⟨r, m, hr, hm, hmax, hval⟩ := C20_pfound_partial hs h hne
  refine ⟨_, hval c p, ?_⟩
  have hu : ∀ v ∈ retrieved c r, 0 ≤ utility m v ∧ utility m v ≤ 1 := by
    intro v hv
    have hv' := (labels_perm h hr).mem_iff.1 ((retrieved_sublist_labels c).subset hv)
    have := utility_bounds (hy v hv') (hmax v hv')
    exact ⟨this.1, this.2.le⟩
  refine ⟨casc_nonneg (w := fun i => p ^ i) (u := utility m) (fun i => pow_nonneg hp i) hu, ?_⟩
  have := casc_le (w := fun i => p ^ i) (u := utility m) (antitone_pow hp hp1) (fun i => pow_nonneg hp i) hu
  rw [pow_zero] at this
  exact this

/-- C20: Pfound is largest when documents are ranked by decreasing label. -/
theorem C20_pfound_ideal (hs : IsArgsort s (sort s)) (h : y.length = s.length) (hs' : IsArgsort s' (sort' s'))
    (h' : y.length = s'.length) (hne : y ≠ []) (hy : ∀ v ∈ y, 0 ≤ v) (hid : OrdersByLabel y s') (c : Option Nat)
    {p : ℝ} (hp : 0 ≤ p) (hp1 : p ≤ 1) :
    ∃ v v', Metrics.pfound sort (cut c) p y s = .ok v ∧ Metrics.pfound sort' (cut c) p y s' = .ok v' ∧ v ≤ v' := by
  obtain ⟨r, m, hr, hm, hmax, hval⟩ := C20_pfound_partial hs h hne
  obtain ⟨r', m', hr', hm', hmax', hval'⟩ := C20_pfound_partial hs' h' hne
  have hmm : m' = m := le_antisymm (hmax m' hm') (hmax' m hm)
  subst hmm
  refine ⟨_, _, hval c p, hval' c p, ?_⟩
  rw [retrieved_eq_top, retrieved_eq_top]
  exact casc_top_le (P := fun v => 0 ≤ v ∧ v ≤ m') (u := utility m') (antitone_pow hp hp1)
    (fun i => pow_nonneg hp i) (fun v hv => ⟨(utility_bounds hv.1 hv.2).1, (utility_bounds hv.1 hv.2).2.le⟩)
    (fun a b _ _ hab => utility_mono hab) ((labels_perm h hr).trans (labels_perm h' hr').symm)
    (ideal_labels_sorted hr' hid)
    (fun v hv => have hv' := (labels_perm h hr).mem_iff.1 hv; ⟨hy v hv', hmax v hv'⟩) c

/-- C20: Pfound never decreases in the parameter called `p_abandonment`: it acts as the probability of going
on, not of abandoning. -/
theorem C20_pfound_monotone_in_p (hs : IsArgsort s (sort s)) (h : y.length = s.length) (hne : y ≠ [])
    (hy : ∀ v ∈ y, 0 ≤ v) (c : Option Nat) {p p' : ℝ} (hp : 0 ≤ p) (hpp : p ≤ p') :
    ∃ v v', Metrics.pfound sort (cut c) p y s = .ok v ∧ Metrics.pfound sort (cut c) p' y s = .ok v' ∧ v ≤ v' := by
  obtain ⟨r, m, hr, hm, hmax, hval⟩ := C20_pfound_partial hs h hne
  refine ⟨_, _, hval c p, hval c p', ?_⟩
  apply Finset.sum_le_sum
  intro i _
  apply mul_le_mul_of_nonneg_left (pow_le_pow_left₀ hp hpp _)
  have hu : ∀ v ∈ retrieved c r, 0 ≤ utility m v ∧ utility m v ≤ 1 := by
    intro v hv
    have hv' := (labels_perm h hr).mem_iff.1 ((retrieved_sublist_labels c).subset hv)
    have := utility_bounds (hy v hv') (hmax v hv')
    exact ⟨this.1, this.2.le⟩
  exact (C19_stop_probabilities (utility m) _ hu).1 i

/-- C20, the documented reading of the parameter is violated: a larger probability of abandoning the
ranking gives a larger probability of finding, here 1/2 for 0 and 3/4 for 1. -/
theorem C20_violated : ∃ (y s : List ℝ) (sort : List ℝ → List Nat), IsArgsort s (sort s) ∧ y.length = s.length ∧
    Metrics.pfound sort none 0 y s = .ok (1 / 2) ∧ Metrics.pfound sort none 1 y s = .ok (3 / 4) := by
  have hs : IsArgsort ([5, 5] : List ℝ) ((fun _ => [1, 0]) ([5, 5] : List ℝ)) := by
    constructor
    · exact List.Perm.swap 0 1 []
    · simp
  refine ⟨[1, 1], [5, 5], fun _ => [1, 0], hs, rfl, ?_, ?_⟩
  all_goals
    simp [Metrics.pfound, npMax, bind, Except.bind, pure, Except.pure, topIdx, gather, pfoundLoop, utility]
    norm_num

example : ∃ (sort : List ℝ → List Nat), IsArgsort ([1, 5, 5] : List ℝ) (sort [1, 5, 5]) ∧
    ([0, 2, 2] : List ℝ).length = ([1, 5, 5] : List ℝ).length ∧ ([0, 2, 2] : List ℝ) ≠ [] :=
  ⟨argsort, argsort_isArgsort _, rfl, by simp⟩

end Verif.Props
