/-
Properties C08 (equal datasets), C17 and C18 (the NDCG object).
-/
import Verif.Lemmas.Ndcg
import Verif.Lemmas.Metrics
import Verif.Props.MetricsGain

namespace Verif.Props
open Spec Metrics

/-! ### C08 -/

section C08
variable {R L : Type}

theorem npAllEq_self_length {F : Type} [BEq F] [LawfulBEq F] : ∀ {a b : List F}, a.length = b.length →
    (npAllEq a b = .ok true ↔ a = b) := by
  intro a b h
  simp only [npAllEq, h, ↓reduceIte, Except.ok.injEq, List.all_eq_true]
  constructor
  · intro hz
    apply List.ext_getElem h
    intro i h1 h2
    have := hz (a[i], b[i]) (by
      rw [List.mem_iff_getElem]
      exact ⟨i, by simp [h1, h2], by simp⟩)
    simpa using this
  · rintro rfl p hp
    obtain ⟨i, hi, rfl⟩ := List.mem_iff_getElem.1 hp
    simp

/-- C08, proved part: for datasets with the same numbers of rows and queries, `==` is true exactly if rows, labels
and the list of distinct query ids agree, and then the hashes agree. If also the query boundaries agree, the datasets are
equal in every field, so every function of one is the same function of the other. Missing: `==` does not look at the
boundaries, see `C08_violated`. -/
theorem C08_eq_partial [BEq R] [LawfulBEq R] [BEq L] [LawfulBEq L] {a b : Dataset R L} (hX : a.X.length = b.X.length)
    (hy : a.y.length = b.y.length) (hq : a.queryIds.length = b.queryIds.length) :
    (Dataset.eq (· == ·) a b = .ok true ↔ a.X = b.X ∧ a.y = b.y ∧ a.queryIds = b.queryIds) ∧
    (Dataset.eq (· == ·) a b = .ok true →
      (∀ (H B : Type) (digest : List B → H) bX bY bQ, a.hash digest bX bY bQ = b.hash digest bX bY bQ) ∧
      (a.nFeatures = b.nFeatures → a.queryOffsets = b.queryOffsets → a = b)) := by
  have key : Dataset.eq (· == ·) a b = .ok true ↔ a.X = b.X ∧ a.y = b.y ∧ a.queryIds = b.queryIds := by
    rw [← npAllEq_self_length hX, ← npAllEq_self_length hy, ← npAllEq_self_length hq]
    unfold Dataset.eq npAllEqRows
    simp only [bind, Except.bind]
    have e : (npAllEq (F := R) a.X b.X) = @npAllEq R ⟨fun x y => x == y⟩ a.X b.X := rfl
    rw [← e]
    cases hx : npAllEq a.X b.X with
    | error e => simp
    | ok v =>
      cases v with
      | false => simp [pure, Except.pure]
      | true =>
        simp only [↓reduceIte, true_and]
        cases hyy : npAllEq a.y b.y with
        | error e => simp
        | ok w => cases w <;> simp [pure, Except.pure]
  refine ⟨key, fun h => ?_⟩
  obtain ⟨h1, h2, h3⟩ := key.1 h
  refine ⟨fun H B digest bX bY bQ => by simp [Dataset.hash, h1, h2, h3], fun h4 h5 => ?_⟩
  cases a; cases b
  simp_all

/-- C08 is violated: (1) two datasets with the same rows, labels and ids, but the middle row belongs to different
queries, compare equal and hash equal. (2) A one-row dataset compares equal to a two-row dataset, by
broadcasting. -/
theorem C08_violated :
    (∃ a b : Dataset Nat Nat, mkDataset [10, 20, 30] 1 [0, 1, 2] [1, 1, 2] = .ok a ∧
      mkDataset [10, 20, 30] 1 [0, 1, 2] [1, 2, 2] = .ok b ∧ Dataset.eq (· == ·) a b = .ok true ∧
      (∀ (H B : Type) (digest : List B → H) bX bY bQ, a.hash digest bX bY bQ = b.hash digest bX bY bQ) ∧
      a.getQids = [1, 1, 2] ∧ b.getQids = [1, 2, 2]) ∧
    (∃ a b : Dataset Nat Nat, mkDataset [10] 1 [4] [1] = .ok a ∧ mkDataset [10, 10] 1 [4, 4] [1, 1] = .ok b ∧
      Dataset.eq (· == ·) a b = .ok true) := by
  refine ⟨⟨⟨[10, 20, 30], 1, [0, 1, 2], [1, 2], [0, 2, 3]⟩, ⟨[10, 20, 30], 1, [0, 1, 2], [1, 2], [0, 1, 3]⟩,
    by decide +kernel, by decide +kernel, by decide +kernel, fun _ _ _ _ _ _ => rfl, by decide +kernel,
    by decide +kernel⟩, ⟨⟨[10], 1, [4], [1], [0, 1]⟩, ⟨[10, 10], 1, [4, 4], [1], [0, 2]⟩, by decide +kernel,
    by decide +kernel, by decide +kernel⟩⟩

/-- C08 is violated on floats that compare equal but have different bytes (`0.0` and `-0.0`): the datasets are equal and
their hashes are not, for every digest without collisions. `Bool` is the sign bit of a zero here. -/
theorem C08_hash_violated :
    ∃ (F : Type) (feq : BEq F) (bytes : List F → List Bool) (a b : Dataset F F),
      mkDataset [] 1 [] [] = .ok (⟨[], 1, [], [], [0]⟩ : Dataset F F) ∧
      (∃ x y ids, mkDataset x 1 y ids = .ok a) ∧ (∃ x y ids, mkDataset x 1 y ids = .ok b) ∧
      @Dataset.eq F F feq (fun _ _ => true) a b = .ok true ∧
      ∀ (H : Type) (digest : List Bool → H), Function.Injective digest →
        a.hash digest bytes bytes (fun _ => []) ≠ b.hash digest bytes bytes (fun _ => []) := by
  refine ⟨Bool, ⟨fun _ _ => true⟩, id, ⟨[true], 1, [true], [7], [0, 1]⟩, ⟨[false], 1, [true], [7], [0, 1]⟩,
    by decide +kernel, ⟨[true], [true], [7], by decide +kernel⟩, ⟨[false], [true], [7], by decide +kernel⟩,
    by decide +kernel, ?_⟩
  intro H digest hinj h
  have := hinj h
  simp at this

/-- C08: the hash distinguishes datasets of the same shape that differ in a row, a label or a query id, for every digest without collisions
and encodings of a fixed number of bytes per value. -/
theorem C08_hash_separates {R L H B : Type} {digest : List B → H} (hd : Function.Injective digest) {bX : List R → List B} {bY : List L → List B}
    {bQ : List Int → List B} (iX : Function.Injective bX) (iY : Function.Injective bY) (iQ : Function.Injective bQ)
    (lX : ∀ u v : List R, u.length = v.length → (bX u).length = (bX v).length)
    (lY : ∀ u v : List L, u.length = v.length → (bY u).length = (bY v).length) {a b : Dataset R L}
    (hX : a.X.length = b.X.length) (hy : a.y.length = b.y.length) :
    a.hash digest bX bY bQ = b.hash digest bX bY bQ ↔ a.X = b.X ∧ a.y = b.y ∧ a.queryIds = b.queryIds := by
  unfold Dataset.hash
  rw [hd.eq_iff]
  constructor
  · intro h
    rw [List.append_assoc, List.append_assoc] at h
    obtain ⟨h1, h2⟩ := List.append_inj h (lX _ _ hX)
    obtain ⟨h3, h4⟩ := List.append_inj h2 (lY _ _ hy)
    exact ⟨iX h1, iY h3, iQ h4⟩
  · rintro ⟨h1, h2, h3⟩
    rw [h1, h2, h3]

/-- One number per value. -/
example : Function.Injective (id : List Int → List Int) ∧
    (∀ u v : List Int, u.length = v.length → (id u).length = (id v).length) ∧
    (⟨[1], 1, [2], [7], [0, 1]⟩ : Dataset Int Int).X.length = (⟨[1], 1, [2], [8], [0, 1]⟩ : Dataset Int Int).X.length :=
  ⟨Function.injective_id, fun _ _ h => h, rfl⟩

end C08

/-! ### C17 -/

section C17
variable {R S : Type}

/-- C17, proved part: after any sequence of calls on one NDCG object, evaluating `d` returns what a new object returns,
if the datasets evaluated so far which the cache identifies with each other (`same`) have the same labels and the same
query boundaries. Missing: this is not the case for all datasets that compare equal, see `C17_violated`. -/
theorem C17_history_partial (cfg : NdcgCfg S) (same : Dataset R ℝ → Dataset R ℝ → Bool)
    (store : Option ℝ → Option ℝ) (hrefl : ∀ a, same a a = true) (calls : List (NdcgCall R S)) (d : Dataset R ℝ)
    (yPred : List S)
    (hsame : ∀ a b, (a = d ∨ ∃ p, NdcgCall.eval a p ∈ calls) → (b = d ∨ ∃ p, NdcgCall.eval b p ∈ calls) →
      same a b = true → a.y = b.y ∧ a.queryIds = b.queryIds ∧ a.queryOffsets = b.queryOffsets) :
    (ndcgEval cfg same store (ndcgRun cfg same store calls) d yPred).2 =
      (ndcgEval cfg same store ndcgFresh d yPred).2 := by
  have hs : ∀ a b, (a = d ∨ evaluated calls a) → (b = d ∨ evaluated calls b) → same a b = true → SameLabels a b := by
    intro a b ha hb h
    obtain ⟨h1, h2, h3⟩ := hsame a b ha hb h
    simp [SameLabels, Dataset.queryIterator, h1, h2, h3]
  have hc := ndcgRun_cacheOk cfg same store (D := fun a => a = d ∨ evaluated calls a) (fun a _ => hrefl a) hs calls
    ndcgFresh (by simp [CacheOk, ndcgFresh]) (fun a ha => Or.inr ha)
  change CacheOk cfg _ (ndcgRun cfg same store calls).cache at hc
  rw [(ndcgEval_spec cfg same store (fun a _ => hrefl a) hs hc (Or.inl rfl) yPred).1,
    (ndcgEval_spec cfg same store (D := fun a => a = d) (fun a _ => hrefl a)
      (fun a b ha hb h => hs a b (Or.inl ha) (Or.inl hb) h) (st := ndcgFresh) (by simp [CacheOk, ndcgFresh]) rfl yPred).1]

/-- C17: the value is that of `Metric.eval` with the NDCG formula (when the ideal scores are stored without rounding). -/
theorem C17_value_partial (cfg : NdcgCfg S) (hf : cfg.f32 = id) (same : Dataset R ℝ → Dataset R ℝ → Bool)
    (store : Option ℝ → Option ℝ) (hrefl : ∀ a, same a a = true) (calls : List (NdcgCall R S)) (d : Dataset R ℝ)
    (yPred : List S)
    (hsame : ∀ a b, (a = d ∨ ∃ p, NdcgCall.eval a p ∈ calls) → (b = d ∨ ∃ p, NdcgCall.eval b p ∈ calls) →
      same a b = true → a.y = b.y ∧ a.queryIds = b.queryIds ∧ a.queryOffsets = b.queryOffsets) :
    (ndcgEval cfg same store (ndcgRun cfg same store calls) d yPred).2 =
      metricEval store (fun y s => (ndcg cfg.sort cfg.sortY cfg.cutoff cfg.impl cfg.noRel y s).map some) d yPred := by
  rw [C17_history_partial cfg same store hrefl calls d yPred hsame]
  have hs : ∀ a b, a = d → b = d → same a b = true → SameLabels a b := by
    rintro a b rfl rfl _
    rfl
  rw [(ndcgEval_spec cfg same store (D := fun a => a = d) (fun a _ => hrefl a) hs (st := ndcgFresh)
    (by simp [CacheOk, ndcgFresh]) rfl yPred).1]
  congr 1
  funext y s
  simp only [ndcgRounded, ndcg, bind, Except.bind, hf, id]
  cases dcg cfg.sort cfg.cutoff cfg.impl y s with
  | error e => rfl
  | ok v =>
    cases dcg cfg.sortY cfg.cutoff cfg.impl y y with
    | error e => rfl
    | ok w =>
      simp only [ndcgRatio, pure, Except.pure]
      split <;> rfl

/-- C17: a rounding of the stored ideal scores with relative error at most `u` (2⁻²⁴ for float32) lets the value exceed 1 by
a factor `1 / (1 - u)` at most. -/
theorem C17_rounding [LinearOrder S] (cfg : NdcgCfg S) {u : ℝ} (hu : 0 ≤ u ∧ u < 1)
    (hf : ∀ x, |cfg.f32 x - x| ≤ u * |x|) {c : Option Nat} (hcut : cfg.cutoff = cut c) (himpl : cfg.impl ≠ .other)
    (hno : 0 ≤ cfg.noRel ∧ cfg.noRel ≤ 1) {y : List ℝ} {s : List S} (hs : IsArgsort s (cfg.sort s))
    (hsY : IsArgsort y (cfg.sortY y)) (h : y.length = s.length) (hy : ∀ v ∈ y, 0 ≤ v) :
    ∃ v, ndcgRounded cfg y s = .ok (some v) ∧ 0 ≤ v ∧ v ≤ 1 / (1 - u) := by
  obtain ⟨r, t, hr, ht, hts, hval⟩ := C16_ndcg hs h hsY
  obtain ⟨v, hv, hv0, hv1⟩ := C16_ndcg_bounds hs h hsY hy c himpl hno
  have h1u : 0 < 1 - u := by linarith [hu.2]
  have hone : 1 ≤ 1 / (1 - u) := by rw [le_div_iff₀ h1u]; linarith [hu.1]
  unfold ndcgRounded
  unfold ndcg at hv
  rw [hcut]
  obtain ⟨a, ha⟩ := dcg_ok cfg.sort (cut c) himpl y s
  obtain ⟨b, hb⟩ := dcg_ok cfg.sortY (cut c) himpl y y
  simp only [ha, hb, bind, Except.bind] at hv ⊢
  refine ⟨_, rfl, ?_⟩
  have hfb := hf b
  unfold ndcgRatio
  by_cases hb0 : b = 0
  · subst hb0
    have : cfg.f32 0 = 0 := by simpa using hfb
    rw [this]
    simp only [ne_eq, not_true_eq_false, ↓reduceIte]
    exact ⟨hno.1, hno.2.trans hone⟩
  · simp only [ne_eq, hb0, not_false_eq_true, ↓reduceIte, pure, Except.pure, Except.ok.injEq] at hv
    -- the ideal score is positive
    have hbpos : 0 < b := by
      obtain ⟨g, hg⟩ : ∃ g, dcgGain cfg.impl = .ok g := by
        cases hi : cfg.impl with
        | flat => exact ⟨_, rfl⟩
        | exp => exact ⟨_, rfl⟩
        | other => exact (himpl hi).elim
      have hm := dcg_model hsY (rfl : y.length = y.length) c hg
      rw [hb, Except.ok.injEq] at hm
      obtain ⟨hg1, hg2⟩ := dcgGain_spec hg
      have hge : 0 ≤ b := by
        rw [hm]
        apply dcg_nonneg hg1 hg2
        intro v hv
        rw [retrieved_eq_top] at hv
        have := top_subset hv
        exact hy v ((labels_perm rfl (rankedDocs_isRanking hsY rfl)).subset this)
      exact lt_of_le_of_ne hge (Ne.symm hb0)
    have hfpos : (1 - u) * b ≤ cfg.f32 b := by
      rw [abs_of_pos hbpos] at hfb
      have := (abs_le.1 hfb).1
      linarith
    have hfp : 0 < cfg.f32 b := lt_of_lt_of_le (mul_pos h1u hbpos) hfpos
    rw [if_pos hfp.ne']
    have ha' : a = v * b := by rw [← hv]; field_simp
    have ha0 : 0 ≤ a := by rw [ha']; positivity
    refine ⟨by positivity, ?_⟩
    rw [div_le_div_iff₀ hfp h1u]
    calc a * (1 - u) = v * ((1 - u) * b) := by rw [ha']; ring
      _ ≤ 1 * cfg.f32 b := by
        apply mul_le_mul hv1 hfpos (by positivity) (by norm_num)

end C17

/-- `same` of the real dictionary on datasets: `__eq__` is true (the hashes then agree). -/
noncomputable def sameDataset (a b : Dataset ℕ ℝ) : Bool := decide (Dataset.eq (· == ·) a b = .ok true)

/-- NDCG@1 with flat gains. -/
noncomputable def cfg1 : NdcgCfg ℝ := ⟨argsort, argsort, some 1, .flat, 1, id⟩

theorem dcg1_one (a : ℝ) : dcg argsort (some 1) .flat [a] [a] = .ok a := by
  simp [Metrics.dcg, dcgGain, topIdx, argsort, pyTake, gather, bind, Except.bind, pure, Except.pure]

theorem dcg1_two {a b : ℝ} (h : a < b) : dcg argsort (some 1) .flat [a, b] [a, b] = .ok b := by
  simp [Metrics.dcg, dcgGain, topIdx, argsort, pyTake, gather, bind, Except.bind, pure, Except.pure, h.le]

/-- C17 is violated: three rows with labels 1, 2, 3; the second row belongs to the first query in `a` and to the second
query in `b`. Evaluating `b` with its labels as predictions gives NDCG@1 = 1 for both queries with a new object, but 1/2 for the
first query with an object that evaluated `a` before. -/
theorem C17_violated :
    ∃ a b : Dataset ℕ ℝ, mkDataset [0, 0, 0] 1 [1, 2, 3] [1, 1, 2] = .ok a ∧
      mkDataset [0, 0, 0] 1 [1, 2, 3] [1, 2, 2] = .ok b ∧ (∀ d, sameDataset d d = true) ∧
      (ndcgEval cfg1 sameDataset id ndcgFresh b [1, 2, 3]).2 = .ok (some 1, [some 1, some 1]) ∧
      (ndcgEval cfg1 sameDataset id (ndcgRun cfg1 sameDataset id [.eval a [1, 2, 3]]) b [1, 2, 3]).2 =
        .ok (some (3 / 4), [some (1 / 2), some 1]) := by
  have hrefl : ∀ d, sameDataset d d = true := by
    intro d
    simp only [sameDataset, decide_eq_true_eq]
    exact (C08_eq_partial rfl rfl rfl).1.2 ⟨rfl, rfl, rfl⟩
  have hself : sameDataset ⟨[0, 0, 0], 1, [1, 2, 3], [1, 2], [0, 2, 3]⟩ ⟨[0, 0, 0], 1, [1, 2, 3], [1, 2], [0, 1, 3]⟩
      = true := by
    simp only [sameDataset, decide_eq_true_eq]
    exact (C08_eq_partial rfl rfl rfl).1.2 ⟨rfl, rfl, rfl⟩
  refine ⟨⟨[0, 0, 0], 1, [1, 2, 3], [1, 2], [0, 2, 3]⟩, ⟨[0, 0, 0], 1, [1, 2, 3], [1, 2], [0, 1, 3]⟩, by
    rw [mkDataset]; simp [show npUnique [1, 1, 2] = ([1, 2], [0, 2]) by decide +kernel,
      show argsortNat [0, 2] = [0, 1] by decide +kernel, gather], by
    rw [mkDataset]; simp [show npUnique [1, 2, 2] = ([1, 2], [0, 1]) by decide +kernel,
      show argsortNat [0, 1] = [0, 1] by decide +kernel, gather], hrefl, ?_, ?_⟩
  · simp [ndcgEval, ndcgBaseEval, cacheGet, ndcgFresh, ndcgIdeal, queryIter, Dataset.queryIterator, slice, cfg1, dcg1_one,
      dcg1_two (show (2 : ℝ) < 3 by norm_num), bind, Except.bind, pure, Except.pure, ndcgLoop, ndcgPerQuery,
      Dataset.nQueries, hrefl, pySet, ndcgRatio, nanmean, List.replicate]
  · simp [ndcgEval, ndcgBaseEval, cacheGet, ndcgRun, ndcgStep, ndcgFresh, ndcgIdeal, queryIter, Dataset.queryIterator,
      slice, cfg1, dcg1_one, dcg1_two (show (2 : ℝ) < 3 by norm_num), dcg1_two (show (1 : ℝ) < 2 by norm_num), bind,
      Except.bind, pure, Except.pure, ndcgLoop, ndcgPerQuery, Dataset.nQueries, hrefl, hself, pySet, ndcgRatio, nanmean,
      List.replicate]
    norm_num

/-- The hypotheses of `C17_history_partial` are met by a history over two datasets with different labels. -/
example : ∃ (a b : Dataset ℕ ℝ), a.y ≠ b.y ∧
    ∀ x z, (x = a ∨ ∃ p, NdcgCall.eval x p ∈ [NdcgCall.eval b ([1] : List ℝ), .perQuery [1] [1]]) →
      (z = a ∨ ∃ p, NdcgCall.eval z p ∈ [NdcgCall.eval b ([1] : List ℝ), .perQuery [1] [1]]) → sameDataset x z = true →
      x.y = z.y ∧ x.queryIds = z.queryIds ∧ x.queryOffsets = z.queryOffsets := by
  refine ⟨⟨[0], 1, [1], [1], [0, 1]⟩, ⟨[0], 1, [2], [1], [0, 1]⟩, by simp, ?_⟩
  have h1 : sameDataset ⟨[0], 1, [1], [1], [0, 1]⟩ ⟨[0], 1, [2], [1], [0, 1]⟩ ≠ true := by
    simp only [sameDataset, ne_eq, decide_eq_true_eq]
    intro h
    have := ((C08_eq_partial (by simp) (by simp) (by simp)).1.1 h).2.1
    norm_num at this
  have h2 : sameDataset ⟨[0], 1, [2], [1], [0, 1]⟩ ⟨[0], 1, [1], [1], [0, 1]⟩ ≠ true := by
    simp only [sameDataset, ne_eq, decide_eq_true_eq]
    intro h
    have := ((C08_eq_partial (by simp) (by simp) (by simp)).1.1 h).2.1
    norm_num at this
  intro x z hx hz hs
  simp only [List.mem_cons, NdcgCall.eval.injEq, reduceCtorEq, List.not_mem_nil, or_false, exists_and_left,
    exists_eq, and_true] at hx hz
  rcases hx with rfl | rfl <;> rcases hz with rfl | rfl
  · exact ⟨rfl, rfl, rfl⟩
  · exact (h1 hs).elim
  · exact (h2 hs).elim
  · exact ⟨rfl, rfl, rfl⟩

/-! ### C18 -/

section C18
variable {R S : Type}

/-- C18, proved part: on an object on which only `eval_per_query` was called so far, it returns the NDCG of the query.
Missing: any history with an `eval`, see `C18_violated`. -/
theorem C18_per_query_partial (cfg : NdcgCfg S) (same : Dataset R ℝ → Dataset R ℝ → Bool)
    (store : Option ℝ → Option ℝ) (calls : List (NdcgCall R S)) (hcalls : ∀ c ∈ calls, ∃ y s, c = .perQuery y s)
    (y : List ℝ) (yPred : List S) :
    (ndcgPerQuery cfg same (ndcgRun cfg same store calls) y yPred).2 =
      ndcg cfg.sort cfg.sortY cfg.cutoff cfg.impl cfg.noRel y yPred := by
  have hrun : ∀ (calls : List (NdcgCall R S)) (st : NdcgState (Dataset R ℝ)), st.cursor = none →
      (∀ c ∈ calls, ∃ y s, c = .perQuery y s) → calls.foldl (ndcgStep cfg same store) st = st := by
    intro calls
    induction calls with
    | nil => intro st _ _; rfl
    | cons c calls ih =>
      intro st hst hc
      obtain ⟨y, s, rfl⟩ := hc c (by simp)
      rw [List.foldl_cons]
      simp only [ndcgStep, (ndcgPerQuery_cache cfg same st y s).2 hst]
      exact ih st hst (fun c hc' => hc c (by simp [hc']))
  rw [ndcgRun, hrun calls ndcgFresh rfl hcalls]
  simp only [ndcgPerQuery, ndcgFresh, ndcg, bind, Except.bind]
  cases dcg cfg.sort cfg.cutoff cfg.impl y yPred with
  | error e => rfl
  | ok v =>
    cases dcg cfg.sortY cfg.cutoff cfg.impl y y with
    | error e => rfl
    | ok w =>
      simp only [ndcgRatio, pure, Except.pure]
      split <;> rfl

/-- C18 is violated, after every successful evaluation: whatever was called before, whatever query is then asked for,
`eval_per_query` raises IndexError. -/
theorem C18_violated (cfg : NdcgCfg S) (himpl : cfg.impl ≠ .other) (same : Dataset R ℝ → Dataset R ℝ → Bool)
    (store : Option ℝ → Option ℝ) (hrefl : ∀ a, same a a = true) (calls : List (NdcgCall R S)) (d : Dataset R ℝ)
    (p : List S)
    (hsame : ∀ a b, (a = d ∨ ∃ p, NdcgCall.eval a p ∈ calls) → (b = d ∨ ∃ p, NdcgCall.eval b p ∈ calls) →
      same a b = true → a.y = b.y ∧ a.queryIds = b.queryIds ∧ a.queryOffsets = b.queryOffsets)
    {X : List R} {nf : Nat} {y0 : List ℝ} {ids : List Int} (hd : mkDataset X nf y0 ids = .ok d)
    (y : List ℝ) (yPred : List S) :
    (ndcgPerQuery cfg same (ndcgRun cfg same store (calls ++ [.eval d p])) y yPred).2 = .error .indexError := by
  have hs : ∀ a b, (a = d ∨ evaluated calls a) → (b = d ∨ evaluated calls b) → same a b = true → SameLabels a b := by
    intro a b ha hb h
    obtain ⟨h1, h2, h3⟩ := hsame a b ha hb h
    simp [SameLabels, Dataset.queryIterator, h1, h2, h3]
  have hc := ndcgRun_cacheOk cfg same store (D := fun a => a = d ∨ evaluated calls a) (fun a _ => hrefl a) hs calls
    ndcgFresh (by simp [CacheOk, ndcgFresh]) (fun a ha => Or.inr ha)
  have hok : ∃ r, (ndcgEval cfg same store (ndcgRun cfg same store calls) d p).2 = .ok r := by
    rw [ndcgRun, (ndcgEval_spec cfg same store (fun a _ => hrefl a) hs hc (Or.inl rfl) p).1]
    obtain ⟨res, hres⟩ := evalLoop_isOk store (ndcgRounded cfg) (queryIter d p) 0
      (List.replicate d.nQueries (some 0)) (by simp [length_queryIter hd, Dataset.nQueries]) (by
      intro b _
      obtain ⟨v, hv⟩ := dcg_ok cfg.sort cfg.cutoff himpl b.2.1 b.2.2
      obtain ⟨w, hw⟩ := dcg_ok cfg.sortY cfg.cutoff himpl b.2.1 b.2.1
      exact ⟨some (ndcgRatio cfg v (cfg.f32 w)), by simp only [ndcgRounded, hv, hw]⟩)
    exact ⟨_, by simp only [metricEval, hres, bind, Except.bind]; rfl⟩
  obtain ⟨arr, h1, h2, h3⟩ := (ndcgEval_spec cfg same store (fun a _ => hrefl a) hs hc (Or.inl rfl) p).2.2 hok
  have hrun : ndcgRun cfg same store (calls ++ [.eval d p]) =
      (ndcgEval cfg same store (ndcgRun cfg same store calls) d p).1 := by
    simp [ndcgRun, ndcgStep]
  rw [hrun]
  obtain ⟨v, hv⟩ := dcg_ok cfg.sort cfg.cutoff himpl y yPred
  have h1' : (ndcgEval cfg same store (ndcgRun cfg same store calls) d p).1.cur = some d := h1
  have h2' : cacheGet same (ndcgEval cfg same store (ndcgRun cfg same store calls) d p).1.cache d = some arr := h2
  have h3' : (ndcgEval cfg same store (ndcgRun cfg same store calls) d p).1.cursor = some arr.length := h3
  simp [ndcgPerQuery, hv, h1', h2', h3']

/-- The hypotheses of `C18_violated` are met: a dataset with two queries, evaluated by a new object. -/
example : ∃ d : Dataset ℕ ℝ, mkDataset [0, 0, 0] 1 [1, 2, 3] [1, 1, 2] = .ok d ∧ (∀ a, sameDataset a a = true) ∧
    cfg1.impl ≠ .other := by
  obtain ⟨a, _, h, _, h2, _⟩ := C17_violated
  exact ⟨a, h, h2, by simp [cfg1]⟩

end C18
end Verif.Props
