/-
Property C98: ERR, Pfound and RBP in floating point.
-/
import Verif.Lemmas.CascadeFloat
import Verif.Props.NdcgFloat
import Verif.Props.MetricsCount

namespace Verif.Props
open Spec Metrics Decimal

variable {S : Type} [LinearOrder S] {sort : List S → List Nat} {s : List S} {ns : List Nat} {y : List ℚ}

/-! ### The probability of stopping -/

/-- The probability of stopping at a document of label `n`. -/
def stopQ (M n : Nat) : ℚ := (2 ^ n - 1) / 2 ^ M

theorem stopQ_bounds {M n : Nat} (h : n ≤ M) : 0 ≤ stopQ M n ∧ stopQ M n ≤ 1 := by
  have h1 : (1 : ℚ) ≤ 2 ^ n := one_le_pow₀ (by norm_num)
  have h2 : (2 : ℚ) ^ n ≤ 2 ^ M := pow_le_pow_right₀ (by norm_num) h
  have h3 : (0 : ℚ) < 2 ^ M := by positivity
  unfold stopQ
  refine ⟨div_nonneg (by linarith) h3.le, ?_⟩
  rw [div_le_one h3]
  linarith

theorem double_dyadic {k M : Nat} (hk : k ≤ 2 ^ 24) (hM : M ≤ 24) : double ((k : ℚ) / 2 ^ M) = (k : ℚ) / 2 ^ M := by
  have h24 : (2 : Nat) ^ 24 < 2 ^ 53 := by norm_num
  refine double_exact (by positivity) ?_ ⟨k, -(M : Int), ?_, by omega, by omega, ?_⟩
  · have h1 : (k : ℚ) ≤ ((2 ^ 24 : Nat) : ℚ) := Nat.cast_le.2 hk
    rw [Nat.cast_pow, Nat.cast_ofNat] at h1
    have h2 : (k : ℚ) / 2 ^ M ≤ k := div_le_self (Nat.cast_nonneg _) (one_le_pow₀ (by norm_num))
    exact (h2.trans h1).trans_lt (pow_lt_pow_right₀ (by norm_num) (by norm_num))
  · rw [abs_of_nonneg (Int.natCast_nonneg _)]
    exact_mod_cast hk.trans_lt h24
  · rw [zpow_neg, zpow_natCast, Int.cast_natCast, div_eq_mul_inv]

theorem utilityFloat_nat {pow2 : ℚ → ℚ} (hpow : ExactPowers pow2) {M n : Nat} (hM : M ≤ 24) (h : n ≤ M) :
    utilityFloat pow2 M n = stopQ M n ∧ double (1 - stopQ M n) = 1 - stopQ M n := by
  have hle : 2 ^ n ≤ 2 ^ M := Nat.pow_le_pow_right (by norm_num) h
  have hle' : 2 ^ M ≤ 2 ^ 24 := Nat.pow_le_pow_right (by norm_num) hM
  have hpos : 1 ≤ 2 ^ n := Nat.one_le_two_pow
  have e1 : (2 : ℚ) ^ n - 1 = ((2 ^ n - 1 : Nat) : ℚ) := by
    rw [Nat.cast_sub hpos]
    push_cast
    rfl
  constructor
  · unfold utilityFloat stopQ
    rw [hpow n (h.trans hM), hpow M hM, e1, double_nat (by
      have : (2 : Nat) ^ 24 < 2 ^ 53 := by norm_num
      omega), double_dyadic (by omega) hM]
  · have e2 : 1 - stopQ M n = ((2 ^ M - (2 ^ n - 1) : Nat) : ℚ) / 2 ^ M := by
      rw [Nat.cast_sub (by omega), stopQ, e1]
      have : (2 : ℚ) ^ M ≠ 0 := by positivity
      push_cast
      field_simp
    rw [e2, double_dyadic (by omega) hM]

theorem errLoopFloat_eq {pow2 : ℚ → ℚ} (hpow : ExactPowers pow2) {M : Nat} (hM : M ≤ 24) :
    ∀ (l : List Nat) (i : Nat) (p e : ℚ), (∀ n ∈ l, n ≤ M) →
      ((labels l).foldl (fun (st : Nat × ℚ × ℚ) v =>
        let u := utilityFloat pow2 M v
        (st.1 + 1, double (st.2.1 * double (1 - u)), double (st.2.2 + double (st.2.1 * double (u / ((st.1 : ℚ) + 1))))))
        ((i, p, e) : Nat × ℚ × ℚ)).2.2 = cascFloat errTerm i p e (l.map (stopQ M)) := by
  intro l
  induction l with
  | nil => intro i p e _; rfl
  | cons n l ih =>
    intro i p e h
    obtain ⟨h1, h2⟩ := utilityFloat_nat hpow hM (h n List.mem_cons_self)
    have := ih (i + 1) (double (p * (1 - stopQ M n))) (double (e + errTerm i p (stopQ M n))) (fun k hk => h k (List.mem_cons_of_mem _ hk))
    rw [List.map_cons, cascFloat, ← this]
    unfold labels
    rw [List.map_cons, List.foldl_cons]
    simp only [h1, h2, errTerm]

theorem pfoundLoopFloat_eq {pow2 : ℚ → ℚ} (hpow : ExactPowers pow2) (pw : Nat → ℚ) {M : Nat} (hM : M ≤ 24) :
    ∀ (l : List Nat) (i : Nat) (p e : ℚ), (∀ n ∈ l, n ≤ M) →
      ((labels l).foldl (fun (st : Nat × ℚ × ℚ) v =>
        let u := utilityFloat pow2 M v
        (st.1 + 1, double (st.2.1 * double (1 - u)), double (st.2.2 + double (double (st.2.1 * u) * pw st.1))))
        ((i, p, e) : Nat × ℚ × ℚ)).2.2 = cascFloat (pfoundTerm pw) i p e (l.map (stopQ M)) := by
  intro l
  induction l with
  | nil => intro i p e _; rfl
  | cons n l ih =>
    intro i p e h
    obtain ⟨h1, h2⟩ := utilityFloat_nat hpow hM (h n List.mem_cons_self)
    have := ih (i + 1) (double (p * (1 - stopQ M n))) (double (e + pfoundTerm pw i p (stopQ M n))) (fun k hk => h k (List.mem_cons_of_mem _ hk))
    rw [List.map_cons, cascFloat, ← this]
    unfold labels
    rw [List.map_cons, List.foldl_cons]
    simp only [h1, h2, pfoundTerm]

theorem cascQ_real (w : Nat → ℚ) (M : Nat) : ∀ (l : List Nat) (i : Nat) (p e : ℚ),
    ((cascQ w i p e (l.map (stopQ M)) : ℚ) : ℝ) = e + p * casc (fun j => ((w (j + i) : ℚ) : ℝ)) (fun v => ((2 : ℝ) ^ v - 1) / 2 ^ (M : ℝ)) (realLabels l) := by
  intro l
  induction l with
  | nil => intro i p e; simp [cascQ, realLabels, casc_nil]
  | cons n l ih =>
    intro i p e
    have e1 : (fun j => ((w (j + (i + 1)) : ℚ) : ℝ)) = fun j => ((w (j + 1 + i) : ℚ) : ℝ) := by
      funext j
      rw [show j + (i + 1) = j + 1 + i by omega]
    have e2 : ((stopQ M n : ℚ) : ℝ) = ((2 : ℝ) ^ (n : ℝ) - 1) / 2 ^ (M : ℝ) := by
      unfold stopQ
      rw [Real.rpow_natCast, Real.rpow_natCast]
      push_cast
      rfl
    rw [List.map_cons, cascQ, ih, e1]
    unfold realLabels
    rw [List.map_cons, casc_cons, ← e2]
    push_cast
    rw [Nat.zero_add]
    ring

theorem npMax_labels {m : ℚ} (h : npMax (labels ns) = .ok m) : ∃ M ∈ ns, m = M ∧ ∀ n ∈ ns, n ≤ M := by
  obtain ⟨h1, h2⟩ := npMax_spec h
  obtain ⟨M, hM, rfl⟩ := List.mem_map.1 h1
  refine ⟨M, hM, rfl, fun n hn => ?_⟩
  have := h2 (n : ℚ) (List.mem_map_of_mem hn)
  exact_mod_cast this

theorem stored_real {x X : ℚ} {Y : ℝ} (h : ∃ m : Nat, toSingle x = some (m : Int) ∧ m ≤ 2 ^ 149 ∧ |(m : ℚ) / 2 ^ 149 - X| ≤ 1 / 2 ^ 24) (hY : (X : ℝ) = Y) :
    ∃ m : Nat, toSingle x = some (m : Int) ∧ m ≤ 2 ^ 149 ∧ |(m : ℝ) / 2 ^ 149 - Y| ≤ 1 / 2 ^ 24 := by
  obtain ⟨m, h1, h2, h3⟩ := h
  refine ⟨m, h1, h2, ?_⟩
  have h4 : ((|(m : ℚ) / 2 ^ 149 - X| : ℚ) : ℝ) ≤ ((1 / 2 ^ 24 : ℚ) : ℝ) := Rat.cast_le.2 h3
  rw [← hY]
  push_cast at h4
  exact h4

/-! ### C98 -/

/-- C98: the stored ERR is in [0, 1] and within 2^-24 of the exact one, for integer labels up to 24 and up to 2^21 documents. -/
theorem C98_err {pow2 : ℚ → ℚ} (hpow : ExactPowers pow2) (hs : IsArgsort s (sort s)) (h : ns.length = s.length) (hne : ns ≠ [])
    (hlab : ∀ n ∈ ns, n ≤ 24) (hn : ns.length ≤ 2 ^ 21) :
    ∃ r M, IsRanking (ns.zip s) r ∧ M ∈ ns ∧ (∀ n ∈ ns, n ≤ M) ∧ ∀ c : Option Nat, ∃ v, errFloat pow2 sort (cut c) (labels ns) s = .ok v ∧
      ∃ m : Nat, toSingle v = some (m : Int) ∧ m ≤ 2 ^ 149 ∧
        |(m : ℝ) / 2 ^ 149 - Spec.err (fun v => ((2 : ℝ) ^ v - 1) / 2 ^ (M : ℝ)) (realLabels (retrieved c r))| ≤ 1 / 2 ^ 24 := by
  obtain ⟨m, hm⟩ := npMax_ok (l := labels ns) (by simpa [labels] using hne)
  obtain ⟨M, hMn, rfl, hmax⟩ := npMax_labels hm
  have hr := rankedDocs_isRanking hs h
  refine ⟨_, M, hr, hMn, hmax, fun c => ?_⟩
  have hmem : ∀ n ∈ retrieved c (rankedDocs sort ns s), n ≤ M := fun n hn' =>
    hmax n ((labels_perm h hr).mem_iff.1 ((retrieved_sublist_labels c).subset hn'))
  have hlen : ((retrieved c (rankedDocs sort ns s)).map (stopQ M)).length ≤ 2 ^ 21 := by
    rw [List.length_map]
    refine ((retrieved_sublist_labels c).length_le).trans ?_
    rw [(labels_perm h hr).length_eq]
    exact hn
  refine ⟨cascFloat errTerm 0 1 0 ((retrieved c (rankedDocs sort ns s)).map (stopQ M)), ?_, ?_⟩
  · unfold errFloat errLoopFloat
    simp only [hm, bind, Except.bind, pure, Except.pure]
    rw [gather_labels, show cut c = c.map Int.ofNat from rfl, gather_topIdx hs h c, errLoopFloat_eq hpow (hlab M hMn) _ 0 1 0 hmem]
  · obtain ⟨k1, k2, -, k4⟩ := casc_error_start (w := fun i => 1 / ((i : ℚ) + 1)) (term := errTerm) (N := 2 ^ 21) (τ := 3 * (1 / 2 ^ 52)) (by norm_num)
      (by norm_num) (fun i => ⟨by positivity, by
        rw [div_le_one (by positivity)]
        have := Nat.cast_nonneg (α := ℚ) i
        linarith⟩)
      (fun i _ p' p u a1 a2 _ _ a5 a6 a7 => errTerm_error a1 a2 a5 a6 a7) (us := (retrieved c (rankedDocs sort ns s)).map (stopQ M)) (by
        intro u hu
        obtain ⟨n, hn', rfl⟩ := List.mem_map.1 hu
        exact stopQ_bounds (hmem n hn')) hlen
    refine stored_real (stored_unit k2 k4 (k1.trans (by norm_num))) ?_
    rw [cascQ_real, err_eq_casc]
    simp

/-- C98: the stored Pfound is in [0, 1] and within 2^-24 of the exact sum, for integer labels up to 24 and up to 4000 documents. -/
theorem C98_pfound {pow2 : ℚ → ℚ} (hpow : ExactPowers pow2) (hs : IsArgsort s (sort s)) (h : ns.length = s.length) (hne : ns ≠ [])
    (hlab : ∀ n ∈ ns, n ≤ 24) (hn : ns.length ≤ 4000) :
    ∃ r M, IsRanking (ns.zip s) r ∧ M ∈ ns ∧ (∀ n ∈ ns, n ≤ M) ∧ ∀ (c : Option Nat) (p : ℚ) (pw : Nat → ℚ), 0 ≤ p → p ≤ 1 → AccuratePower p pw →
      ∃ v, pfoundFloat pow2 pw sort (cut c) (labels ns) s = .ok v ∧
      ∃ m : Nat, toSingle v = some (m : Int) ∧ m ≤ 2 ^ 149 ∧
        |(m : ℝ) / 2 ^ 149 - Spec.pfound p (fun v => ((2 : ℝ) ^ v - 1) / 2 ^ (M : ℝ)) (realLabels (retrieved c r))| ≤ 1 / 2 ^ 24 := by
  obtain ⟨m, hm⟩ := npMax_ok (l := labels ns) (by simpa [labels] using hne)
  obtain ⟨M, hMn, rfl, hmax⟩ := npMax_labels hm
  have hr := rankedDocs_isRanking hs h
  refine ⟨_, M, hr, hMn, hmax, fun c p pw hp0 hp1 hpw => ?_⟩
  have hmem : ∀ n ∈ retrieved c (rankedDocs sort ns s), n ≤ M := fun n hn' =>
    hmax n ((labels_perm h hr).mem_iff.1 ((retrieved_sublist_labels c).subset hn'))
  have hlen : ((retrieved c (rankedDocs sort ns s)).map (stopQ M)).length ≤ 4000 := by
    rw [List.length_map]
    refine ((retrieved_sublist_labels c).length_le).trans ?_
    rw [(labels_perm h hr).length_eq]
    exact hn
  refine ⟨cascFloat (pfoundTerm pw) 0 1 0 ((retrieved c (rankedDocs sort ns s)).map (stopQ M)), ?_, ?_⟩
  · unfold pfoundFloat pfoundLoopFloat
    simp only [hm, bind, Except.bind, pure, Except.pure]
    rw [gather_labels, show cut c = c.map Int.ofNat from rfl, gather_topIdx hs h c, pfoundLoopFloat_eq hpow pw (hlab M hMn) _ 0 1 0 hmem]
  · obtain ⟨k1, k2, -, k4⟩ := casc_error_start (w := fun i => p ^ i) (term := pfoundTerm pw) (N := 4000) (τ := (((4000 : Nat) : ℚ) + 3) * (1 / 2 ^ 52)) (by positivity)
      (by norm_num) (fun i => ⟨pow_nonneg hp0 i, pow_le_one₀ hp0 hp1⟩)
      (fun i hi p' q u a1 a2 _ _ a5 a6 a7 => pfoundTerm_error hp0 hp1 hpw hi.le a1 a2 a5 a6 a7) (us := (retrieved c (rankedDocs sort ns s)).map (stopQ M)) (by
        intro u hu
        obtain ⟨n, hn', rfl⟩ := List.mem_map.1 hu
        exact stopQ_bounds (hmem n hn')) hlen
    refine stored_real (stored_unit k2 k4 (k1.trans (by norm_num))) ?_
    rw [cascQ_real, pfound_eq_casc]
    simp

theorem weighted_near {p : ℚ} {pw : Nat → ℚ} (hpw : AccuratePower p pw) {g : ℚ → ℚ} (hg : ∀ v, 0 ≤ g v ∧ g v ≤ 1) (l : List ℚ) :
    |weightedGain pw g l - weightedGain (fun i => p ^ i) g l| ≤ (l.length : ℚ) * (1 / 2 ^ 52) := by
  unfold weightedGain
  rw [← Finset.sum_sub_distrib]
  refine (Finset.abs_sum_le_sum_abs _ _).trans ?_
  have : ∀ i ∈ (Finset.univ : Finset (Fin l.length)), |pw i * g l[i] - p ^ (i : Nat) * g l[i]| ≤ 1 / 2 ^ 52 := by
    intro i _
    rw [← sub_mul, abs_mul, abs_of_nonneg (hg _).1]
    calc _ ≤ |pw i - p ^ (i : Nat)| * 1 := mul_le_mul_of_nonneg_left (hg _).2 (abs_nonneg _)
      _ ≤ _ := by rw [mul_one]; exact (hpw i).2.2
  refine (Finset.sum_le_card_nsmul _ _ _ this).trans ?_
  rw [Finset.card_univ, Fintype.card_fin, nsmul_eq_mul]

theorem weighted_le_length {w : Nat → ℚ} (hw : ∀ i, w i ≤ 1) {g : ℚ → ℚ} (hg : ∀ v, 0 ≤ g v ∧ g v ≤ 1) (l : List ℚ) : weightedGain w g l ≤ l.length := by
  unfold weightedGain
  have : ∀ i ∈ (Finset.univ : Finset (Fin l.length)), w i * g l[i] ≤ 1 := by
    intro i _
    calc w i * g l[i] ≤ 1 * g l[i] := mul_le_mul_of_nonneg_right (hw i) (hg _).1
      _ ≤ 1 := by rw [one_mul]; exact (hg _).2
  refine (Finset.sum_le_card_nsmul _ _ _ this).trans ?_
  rw [Finset.card_univ, Fintype.card_fin, nsmul_eq_mul, mul_one]

/-- C98: the stored RBP is in [0, 1] and within 2^-24 of the exact one, for up to 2^20 documents. -/
theorem C98_rbp (hs : IsArgsort s (sort s)) (h : y.length = s.length) (hn : y.length ≤ 2 ^ 20) :
    ∃ r, IsRanking (y.zip s) r ∧ ∀ (c : Option Nat) (t p : ℚ) (pw : Nat → ℚ), 0 ≤ p → p ≤ 1 → AccuratePower p pw →
      ∃ m : Nat, toSingle (rbpFloat pw sort (cut c) t p y s) = some (m : Int) ∧ m ≤ 2 ^ 149 ∧
        |(m : ℚ) / 2 ^ 149 - Spec.rbp p t (retrieved c r)| ≤ 1 / 2 ^ 24 := by
  have hr := rankedDocs_isRanking hs h
  refine ⟨_, hr, fun c t p pw hp0 hp1 hpw => ?_⟩
  have hlen : (retrieved c (rankedDocs sort y s)).length ≤ 2 ^ 20 := by
    refine ((retrieved_sublist_labels c).length_le).trans ?_
    rw [(labels_perm h hr).length_eq]
    exact hn
  unfold rbpFloat
  simp only [show cut c = c.map Int.ofNat from rfl, gather_topIdx hs h, length_topIdx hs h]
  generalize retrieved c (rankedDocs sort y s) = l at hlen ⊢
  have hg : ∀ v : ℚ, 0 ≤ (if v ≥ t then (1 : ℚ) else 0) ∧ (if v ≥ t then (1 : ℚ) else 0) ≤ 1 := by
    intro v
    split <;> norm_num
  have hsum : (List.zipWith (· * ·) (l.map (fun v => if v ≥ t then (1 : ℚ) else 0)) ((List.range l.length).map pw)).sum =
      weightedGain pw (fun v => if v ≥ t then (1 : ℚ) else 0) l := sum_zipWith_mul pw _ l
  have htree := pairwiseSum_sum (ops := doubleOps) 14 (l := List.zipWith (· * ·) (l.map (fun v => if v ≥ t then (1 : ℚ) else 0)) ((List.range l.length).map pw)) (by
    rw [List.length_zipWith, List.length_map, List.length_map, List.length_range, min_self]
    have h1 : (2 : Nat) ^ 20 ≤ 112 * 2 ^ 14 + 16 := by norm_num
    omega)
  have hnn : ∀ a ∈ List.zipWith (· * ·) (l.map (fun v => if v ≥ t then (1 : ℚ) else 0)) ((List.range l.length).map pw), 0 ≤ a := by
    intro a ha
    obtain ⟨i, hi, rfl⟩ := List.mem_iff_getElem.1 ha
    rw [List.getElem_zipWith, List.getElem_map, List.getElem_map]
    exact mul_nonneg (hg _).1 (hpw _).1
  obtain ⟨s0, s1⟩ := doubleSum_abs htree hnn
  rw [hsum] at s1
  have hS1 : (1 - p) * weightedGain (fun i => p ^ i) (fun v => if v ≥ t then (1 : ℚ) else 0) l ≤ 1 := by
    have h1 : weightedGain (fun i => p ^ i) (fun v => if v ≥ t then (1 : ℚ) else 0) l ≤ weightedGain (fun i => p ^ i) (fun _ => 1) l :=
      weightedGain_le_weightedGain (fun i => pow_nonneg hp0 i) (fun v _ => (hg v).2)
    have h2 := mul_le_mul_of_nonneg_left h1 (by linarith : 0 ≤ 1 - p)
    rw [geom_weightedGain] at h2
    have h3 := pow_nonneg hp0 l.length
    linarith
  obtain ⟨k1, k2⟩ := rbp_error hp0 hp1 (n := l.length) hlen (by norm_num : 25 + 14 ≤ 64)
    (weighted_le_length (fun i => pow_le_one₀ hp0 hp1) hg l) hS1 (weightedGain_nonneg (fun i => (hpw i).1) (fun v _ => (hg v).1))
    (weighted_near hpw hg l) s0 s1
  exact stored_unit k1 hS1 (k2.trans (by norm_num))

/-! ### Rankings that are told apart only by exact numbers -/

/-- 26 relevant documents, then one that is not. -/
def betterRanking : List ℚ := List.replicate 26 1 ++ [0]

/-- The same documents, where the last two have changed places. -/
def worseRanking : List ℚ := List.replicate 25 1 ++ [0, 1]

/-- Decreasing scores. -/
def fallingScores : List ℚ := (List.range 27).map (fun i : Nat => 27 - (i : ℚ))

/-- C98 fails: a ranking with the larger RBP need not have the larger stored RBP; here both are stored as 1. -/
theorem C98_violated : betterRanking.Perm worseRanking ∧ IsRanking (betterRanking.zip fallingScores) (betterRanking.zip fallingScores) ∧
    IsRanking (worseRanking.zip fallingScores) (worseRanking.zip fallingScores) ∧
    Spec.rbp (1 / 2) 1 (retrieved none (worseRanking.zip fallingScores)) < Spec.rbp (1 / 2) 1 (retrieved none (betterRanking.zip fallingScores)) ∧
    Spec.rbp (1 / 2) 1 (retrieved none (betterRanking.zip fallingScores)) < 1 ∧
    toSingle (rbpFloat (fun i => (1 / 2) ^ i) argsort none 1 (1 / 2) worseRanking fallingScores) = some singleOne ∧
    toSingle (rbpFloat (fun i => (1 / 2) ^ i) argsort none 1 (1 / 2) betterRanking fallingScores) = some singleOne := by
  refine ⟨by decide +kernel, ⟨List.Perm.refl _, by decide +kernel⟩, ⟨List.Perm.refl _, by decide +kernel⟩, by decide +kernel, by decide +kernel, by decide +kernel,
    by decide +kernel⟩

/-! ### Examples -/

/-- The hypotheses on powers hold for exact powers. -/
example : ExactPowers (fun v => 2 ^ v.num.toNat) ∧ AccuratePower (1 / 2) (fun i => (1 / 2) ^ i) := by
  refine ⟨fun k _ => by simp, fun i => ⟨by positivity, pow_le_one₀ (by norm_num) (by norm_num), ?_⟩⟩
  rw [sub_self, abs_zero]
  positivity

/-- The hypotheses of `C98_err` and `C98_pfound` hold for this query. -/
example : IsArgsort ([3, 7, 5, 7] : List ℚ) (argsort [3, 7, 5, 7]) ∧ ([0, 2, 1, 4] : List Nat).length = ([3, 7, 5, 7] : List ℚ).length ∧
    (∀ n ∈ ([0, 2, 1, 4] : List Nat), n ≤ 24) := ⟨argsort_isArgsort _, rfl, by decide⟩

/-- ERR of this query, where nothing is rounded: the relevant document is second and stops the user with probability 1/2. -/
example : errFloat (fun v => 2 ^ v.num.toNat) argsort none (labels [0, 1]) ([7, 3] : List ℚ) = .ok (1 / 4) := by decide +kernel

end Verif.Props
