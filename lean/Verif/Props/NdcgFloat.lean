/-
Property C96: NDCG in floating point.
-/
import Verif.Lemmas.NdcgFloat
import Verif.Props.MetricsGain
import Verif.Props.MeanRounding

namespace Verif.Props
open Spec Metrics Decimal

variable {S : Type} [LinearOrder S] {sort : List S → List Nat} {sortY : List ℚ → List Nat} {s : List S} {ns : List Nat}

/-- The labels as single precision numbers. -/
def labels (ns : List Nat) : List ℚ := ns.map (fun n : Nat => (n : ℚ))

/-- The labels as real numbers. -/
def realLabels (ns : List Nat) : List ℝ := ns.map (fun n : Nat => (n : ℝ))

/-- The gain of a label that is a natural number. -/
def natGain : Impl → Nat → Nat
  | .flat, n => n
  | .exp, n => 2 ^ n - 1
  | .other, n => n

theorem natGain_cast {impl : Impl} {g : ℝ → ℝ} (hg : IsGain impl g) (n : Nat) : g n = natGain impl n := by
  cases impl with
  | flat => exact hg _
  | exp =>
    rw [show g n = (2 : ℝ) ^ (n : ℝ) - 1 from hg _, natGain, Nat.cast_sub Nat.one_le_two_pow]
    push_cast
    rw [Real.rpow_natCast]
  | other => exact hg.elim

theorem natGain_le (impl : Impl) {n : Nat} (h : n ≤ 24) : natGain impl n ≤ 2 ^ 24 := by
  have : 2 ^ n ≤ 2 ^ 24 := Nat.pow_le_pow_right (by norm_num) h
  have h24 : (24 : Nat) ≤ 2 ^ 24 := by norm_num
  cases impl <;> simp only [natGain] <;> omega

theorem natGain_mono (impl : Impl) {m n : Nat} (h : m ≤ n) : natGain impl m ≤ natGain impl n := by
  have : 2 ^ m ≤ 2 ^ n := Nat.pow_le_pow_right (by norm_num) h
  cases impl <;> simp only [natGain] <;> omega

theorem natGain_pos (impl : Impl) {n : Nat} (h : 0 < n) : 0 < natGain impl n := by
  have : 2 ^ 1 ≤ 2 ^ n := Nat.pow_le_pow_right (by norm_num) h
  cases impl <;> simp only [natGain] <;> omega

theorem gainFloat_nat {exp2 : ℚ → ℚ} (hexp : ExactPowers exp2) {impl : Impl} (h : impl ≠ .other) :
    ∃ g, gainFloat exp2 impl = .ok g ∧ ∀ n : Nat, n ≤ 24 → g n = natGain impl n := by
  cases impl with
  | flat => exact ⟨_, rfl, fun n _ => rfl⟩
  | exp =>
    refine ⟨_, rfl, fun n hn => ?_⟩
    have hm : IsMagnitude ((2 ^ n - 1) * 2 ^ 149) := by
      refine ⟨2 ^ n - 1, 149, rfl, ?_, by norm_num⟩
      have : 2 ^ n ≤ 2 ^ 24 := Nat.pow_le_pow_right (by norm_num) hn
      have := Nat.one_le_two_pow (n := n)
      omega
    have e : ((2 : ℚ) ^ n - 1) * 2 ^ 149 = (((2 ^ n - 1) * 2 ^ 149 : Nat) : ℚ) := by
      rw [Nat.cast_mul, Nat.cast_sub Nat.one_le_two_pow]
      push_cast
      rfl
    have hr := round_near hm (x := ((2 : ℚ) ^ n - 1) * 2 ^ 149) (by
      rw [e, sub_self, abs_zero]
      exact div_nonneg (Nat.cast_nonneg _) (by norm_num))
    have hg := Binary32.round_finite (x := ((2 : ℚ) ^ n - 1) * 2 ^ 149) (by rw [hr]; rfl)
    rw [hr, Option.some.injEq] at hg
    rw [hexp n hn, ← hg, Int.cast_natCast, ← e, natGain, Nat.cast_sub Nat.one_le_two_pow]
    push_cast
    field_simp
  | other => exact absurd rfl h

theorem gather_labels (ns : List Nat) (idx : List Nat) : gather (labels ns) idx = labels (gather ns idx) := by
  unfold labels
  rw [gather_map]

theorem dcgFloat_eq {log2 : Nat → ℚ} {exp2 : ℚ → ℚ} (hexp : ExactPowers exp2) {impl : Impl} (himpl : impl ≠ .other) (hs : IsArgsort s (sort s))
    (h : ns.length = s.length) (hlab : ∀ n ∈ ns, n ≤ 24) (c : Option Nat) :
    dcgFloat log2 exp2 sort (cut c) impl (labels ns) s = .ok (computedDcg log2 ((retrieved c (rankedDocs sort ns s)).map (natGain impl))) := by
  obtain ⟨g, hg, hgn⟩ := gainFloat_nat hexp himpl
  have hgain : (labels (retrieved c (rankedDocs sort ns s))).map g = ((retrieved c (rankedDocs sort ns s)).map (natGain impl)).map (fun n : Nat => (n : ℚ)) := by
    unfold labels
    rw [List.map_map, List.map_map]
    apply List.map_congr_left
    intro n hn
    refine hgn n (hlab n ?_)
    exact (labels_perm h (rankedDocs_isRanking hs h)).mem_iff.1 ((retrieved_sublist_labels c).subset hn)
  unfold dcgFloat computedDcg
  have hi := gather_topIdx hs h c
  have hl := length_topIdx hs h c
  simp only [hg, bind, Except.bind, pure, Except.pure]
  rw [gather_labels, show cut c = c.map Int.ofNat from rfl, hi, hl, hgain, List.zipWith_map_left, List.zipWith_map_right, List.length_map]

theorem exactDcg_eq {impl : Impl} {g : ℝ → ℝ} (hg : IsGain impl g) (l : List Nat) : Spec.dcg g (realLabels l) = exactDcg (l.map (natGain impl)) := by
  rw [← sum_zipWith_div]
  unfold exactDcg realLabels
  rw [List.map_map, List.zipWith_map_left, List.zipWith_map_left, List.zipWith_map_right, List.length_map, List.length_map]
  congr 2
  funext a k
  rw [Function.comp, natGain_cast hg]

theorem ideal_sorted {y : List ℚ} {r : List (Nat × ℚ)} (hr : IsRanking (ns.zip (labels ns)) r) : (r.map (·.1)).Pairwise (· ≥ ·) := by
  rw [List.pairwise_map]
  refine hr.sorted.imp_of_mem ?_
  have key : ∀ p ∈ ns.zip (labels ns), p.2 = (p.1 : ℚ) := by
    intro p hp
    obtain ⟨i, hi, rfl⟩ := List.mem_iff_getElem.1 hp
    simp [labels]
  intro a b ha hb hab
  rw [key a (hr.perm.mem_iff.1 ha), key b (hr.perm.mem_iff.1 hb)] at hab
  exact_mod_cast hab

theorem top_length_le {α : Type} (c : Option Nat) (l : List α) : (top c l).length ≤ l.length := by
  cases c <;> simp [top]

/-- The computed and the exact scores of the retrieved documents, and of the ideal ranking. -/
theorem ndcgFloat_eq {log2 : Nat → ℚ} {exp2 : ℚ → ℚ} (hexp : ExactPowers exp2) {impl : Impl} (himpl : impl ≠ .other) (hs : IsArgsort s (sort s))
    (h : ns.length = s.length) (hsY : IsArgsort (labels ns) (sortY (labels ns))) (hlab : ∀ n ∈ ns, n ≤ 24) (c : Option Nat) (d : ℚ) :
    ndcgFloat log2 exp2 sort sortY (cut c) impl d (labels ns) s =
      .ok (ratioFloat d (computedDcg log2 ((retrieved c (rankedDocs sort ns s)).map (natGain impl)))
        (toSingle (computedDcg log2 ((top c ((rankedDocs sortY ns (labels ns)).map (·.1))).map (natGain impl))))) := by
  unfold ndcgFloat
  rw [dcgFloat_eq hexp himpl hs h hlab, dcgFloat_eq hexp himpl hsY (by simp [labels]) hlab, ← retrieved_eq_top]
  rfl

/-- C96: NDCG as it is computed is the exact NDCG up to a factor of 1 ± 2^-23, for integer labels up to 24 and up to 2^40 documents. -/
theorem C96_error {log2 : Nat → ℚ} {exp2 : ℚ → ℚ} (hlog : AccurateLog log2) (hexp : ExactPowers exp2) (hs : IsArgsort s (sort s)) (h : ns.length = s.length)
    (hsY : IsArgsort (labels ns) (sortY (labels ns))) (hlab : ∀ n ∈ ns, n ≤ 24) (hn : ns.length ≤ 2 ^ 40) :
    ∃ r t, IsRanking (ns.zip s) r ∧ t.Perm ns ∧ t.Pairwise (· ≥ ·) ∧ ∀ (c : Option Nat) (impl : Impl) (g : ℝ → ℝ) (d : ℚ), IsGain impl g →
      ∃ v, ndcgFloat log2 exp2 sort sortY (cut c) impl d (labels ns) s = .ok v ∧
        (Spec.dcg g (realLabels (top c t)) = 0 → v = d) ∧
        (Spec.dcg g (realLabels (top c t)) ≠ 0 →
          |(v : ℝ) - Spec.dcg g (realLabels (retrieved c r)) / Spec.dcg g (realLabels (top c t))| ≤
            Spec.dcg g (realLabels (retrieved c r)) / Spec.dcg g (realLabels (top c t)) / 2 ^ 23) := by
  have hr := rankedDocs_isRanking hs h
  have hY := rankedDocs_isRanking hsY (show ns.length = (labels ns).length by simp [labels])
  have hp := labels_perm (show ns.length = (labels ns).length by simp [labels]) hY
  refine ⟨_, _, hr, hp, ideal_sorted (y := labels ns) hY, fun c impl g d hg => ?_⟩
  have himpl : impl ≠ .other := by
    rintro rfl
    exact hg
  refine ⟨_, ndcgFloat_eq hexp himpl hs h hsY hlab c d, ?_⟩
  rw [exactDcg_eq hg, exactDcg_eq hg]
  have hrm : ∀ n ∈ retrieved c (rankedDocs sort ns s), n ≤ 24 := fun n hn' =>
    hlab n ((labels_perm h hr).mem_iff.1 ((retrieved_sublist_labels c).subset hn'))
  have htm : ∀ n ∈ top c ((rankedDocs sortY ns (labels ns)).map (·.1)), n ≤ 24 := fun n hn' => hlab n (hp.mem_iff.1 (top_subset hn'))
  have hrl : ((retrieved c (rankedDocs sort ns s)).map (natGain impl)).length ≤ 2 ^ 40 := by
    rw [List.length_map]
    refine ((retrieved_sublist_labels c).length_le).trans ?_
    rw [(labels_perm h hr).length_eq]
    exact hn
  have htl : ((top c ((rankedDocs sortY ns (labels ns)).map (·.1))).map (natGain impl)).length ≤ 2 ^ 40 := by
    rw [List.length_map]
    refine (top_length_le c _).trans ?_
    rw [hp.length_eq]
    exact hn
  have e1 := dcg_error hlog hrl
  have e2 := dcg_error hlog htl
  obtain ⟨b1, -⟩ := exactDcg_bounds hrl (by
    intro x hx
    obtain ⟨n, hn', rfl⟩ := List.mem_map.1 hx
    exact natGain_le impl (hrm n hn'))
  obtain ⟨b2, b3⟩ := exactDcg_bounds htl (by
    intro x hx
    obtain ⟨n, hn', rfl⟩ := List.mem_map.1 hx
    exact natGain_le impl (htm n hn'))
  constructor
  · intro h0
    rw [h0, zero_div, sub_zero] at e2
    have h1 : (computedDcg log2 ((top c ((rankedDocs sortY ns (labels ns)).map (·.1))).map (natGain impl)) : ℝ) = 0 :=
      abs_eq_zero.1 (le_antisymm e2 (abs_nonneg _))
    have h2 : computedDcg log2 ((top c ((rankedDocs sortY ns (labels ns)).map (·.1))).map (natGain impl)) = 0 := by exact_mod_cast h1
    have h3 : toSingle 0 = some 0 := by decide +kernel
    rw [h2, h3]
    rfl
  · intro h0
    exact ratio_error e1 e2 b1 (b2.resolve_left h0) b3

theorem sorted_nat_unique {l l' : List Nat} (hp : l.Perm l') (h : l.Pairwise (· ≥ ·)) (h' : l'.Pairwise (· ≥ ·)) : l = l' :=
  hp.eq_of_pairwise (fun a b _ _ h1 h2 => le_antisymm h2 h1) h h'

/-- The ideal score is positive if a document is relevant and retrieved. -/
theorem ideal_pos {t : List Nat} (ht : t.Pairwise (· ≥ ·)) (hex : ∃ n ∈ t, 0 < n) {c : Option Nat} (hc : c ≠ some 0) (impl : Impl) :
    exactDcg ((top c t).map (natGain impl)) ≠ 0 := by
  obtain ⟨n, hn, hpos⟩ := hex
  cases t with
  | nil => simp at hn
  | cons a t =>
    have ha : 0 < a := by
      rcases List.mem_cons.1 hn with rfl | hn
      · exact hpos
      · have := (List.pairwise_cons.1 ht).1 n hn
        omega
    obtain ⟨t', ht'⟩ : ∃ t', top c (a :: t) = a :: t' := by
      cases c with
      | none => exact ⟨t, rfl⟩
      | some k =>
        cases k with
        | zero => exact absurd rfl hc
        | succ k => exact ⟨t.take k, rfl⟩
    rw [ht', List.map_cons]
    unfold exactDcg
    rw [List.length_cons, List.range'_succ, List.zipWith_cons_cons, List.sum_cons]
    have h1 : (1 : ℝ) ≤ natGain impl a := by exact_mod_cast natGain_pos impl ha
    have h2 : Real.logb 2 (2 : Nat) = 1 := by
      rw [Nat.cast_ofNat]
      exact Real.logb_self_eq_one (by norm_num)
    have h3 : 0 ≤ (List.zipWith (fun (g k : Nat) => (g : ℝ) / Real.logb 2 k) (t'.map (natGain impl)) (List.range' (2 + 1) (t'.map (natGain impl)).length)).sum := by
      apply List.sum_nonneg
      intro x hx
      obtain ⟨i, hi, rfl⟩ := List.mem_iff_getElem.1 hx
      rw [List.getElem_zipWith, List.getElem_range']
      exact div_nonneg (Nat.cast_nonneg _) (zero_le_one.trans (logb_bounds (by omega)).1)
    rw [h2]
    simp only [div_one]
    linarith

/-- C96: the stored NDCG of documents ranked by label is 1 or the number below it, 1 - 2^-24. Missing: that it is 1, which is false. -/
theorem C96_ideal_partial {log2 : Nat → ℚ} {exp2 : ℚ → ℚ} (hlog : AccurateLog log2) (hexp : ExactPowers exp2) (hs : IsArgsort s (sort s))
    (h : ns.length = s.length) (hsY : IsArgsort (labels ns) (sortY (labels ns))) (hlab : ∀ n ∈ ns, n ≤ 24) (hn : ns.length ≤ 2 ^ 40)
    (hid : ∀ p ∈ ns.zip s, ∀ q ∈ ns.zip s, p.2 ≤ q.2 → p.1 ≤ q.1) (hex : ∃ n ∈ ns, 0 < n) {c : Option Nat} (hc : c ≠ some 0) {impl : Impl}
    (himpl : impl ≠ .other) (d : ℚ) :
    ∃ v, ndcgFloat log2 exp2 sort sortY (cut c) impl d (labels ns) s = .ok v ∧ (toSingle v = some singleOne ∨ toSingle v = some belowOne) := by
  have hr := rankedDocs_isRanking hs h
  have hY := rankedDocs_isRanking hsY (show ns.length = (labels ns).length by simp [labels])
  have hp := labels_perm (show ns.length = (labels ns).length by simp [labels]) hY
  have hsorted := ideal_sorted (y := labels ns) hY
  have heq : (rankedDocs sort ns s).map (·.1) = (rankedDocs sortY ns (labels ns)).map (·.1) := by
    refine sorted_nat_unique ((labels_perm h hr).trans hp.symm) ?_ hsorted
    rw [List.pairwise_map]
    refine hr.sorted.imp_of_mem ?_
    intro a b ha hb hab
    exact hid b (hr.perm.mem_iff.1 hb) a (hr.perm.mem_iff.1 ha) hab
  refine ⟨_, ndcgFloat_eq hexp himpl hs h hsY hlab c d, ?_⟩
  rw [retrieved_eq_top, heq]
  have htl : ((top c ((rankedDocs sortY ns (labels ns)).map (·.1))).map (natGain impl)).length ≤ 2 ^ 40 := by
    rw [List.length_map]
    refine (top_length_le c _).trans ?_
    rw [hp.length_eq]
    exact hn
  have e2 := abs_le.1 (dcg_error hlog htl)
  obtain ⟨b2, b3⟩ := exactDcg_bounds htl (by
    intro x hx
    obtain ⟨n, hn', rfl⟩ := List.mem_map.1 hx
    exact natGain_le impl (hlab n (hp.mem_iff.1 (top_subset hn'))))
  have b2' := b2.resolve_left (ideal_pos hsorted (by
    obtain ⟨n, hn', hpos⟩ := hex
    exact ⟨n, hp.mem_iff.2 hn', hpos⟩) hc impl)
  generalize computedDcg log2 ((top c ((rankedDocs sortY ns (labels ns)).map (·.1))).map (natGain impl)) = i at e2 ⊢
  generalize exactDcg ((top c ((rankedDocs sortY ns (labels ns)).map (·.1))).map (natGain impl)) = I at e2 b2' b3
  apply ratio_same
  · have : (((1 : ℚ) / 2 ^ 100 : ℚ) : ℝ) ≤ (i : ℝ) := by
      push_cast
      norm_num at e2 b2' ⊢
      linarith
    exact_mod_cast this
  · have : (i : ℝ) ≤ (((2 : ℚ) ^ 100 : ℚ) : ℝ) := by
      push_cast
      norm_num at e2 b3 ⊢
      linarith
    exact_mod_cast this

/-! ### The number below 1 -/

theorem logb_lower {p q n : Nat} (hq : 0 < q) (h : 2 ^ p < n ^ q) : (p : ℝ) / q < Real.logb 2 n := by
  have hn : 0 < n := by
    rcases Nat.eq_zero_or_pos n with rfl | hn
    · rw [Nat.zero_pow hq] at h
      exact absurd h (Nat.not_lt_zero _)
    · exact hn
  have hq' : (0 : ℝ) < q := by exact_mod_cast hq
  have hn' : (0 : ℝ) < n := by exact_mod_cast hn
  rw [div_lt_iff₀ hq', mul_comm, ← Real.logb_pow, Real.lt_logb_iff_rpow_lt (by norm_num) (by positivity), Real.rpow_natCast]
  exact_mod_cast h

theorem logb_upper {p q n : Nat} (hq : 0 < q) (hn : 0 < n) (h : n ^ q < 2 ^ p) : Real.logb 2 n < (p : ℝ) / q := by
  have hq' : (0 : ℝ) < q := by exact_mod_cast hq
  have hn' : (0 : ℝ) < n := by exact_mod_cast hn
  rw [lt_div_iff₀ hq', mul_comm, ← Real.logb_pow, Real.logb_lt_iff_lt_rpow (by norm_num) (by positivity), Real.rpow_natCast]
  exact_mod_cast h

theorem four_score : (2561606309 / 1000000000 : ℝ) < exactDcg [1, 1, 1, 1] ∧ exactDcg [1, 1, 1, 1] < 2561606314 / 1000000000 := by
  have a1 := logb_lower (p := 25781) (q := 16266) (n := 3) (by norm_num) (by decide +kernel)
  have a2 := logb_upper (p := 24727) (q := 15601) (n := 3) (by norm_num) (by norm_num) (by decide +kernel)
  have b1 := logb_lower (p := 29384) (q := 12655) (n := 5) (by norm_num) (by decide +kernel)
  have b2 := logb_upper (p := 20087) (q := 8651) (n := 5) (by norm_num) (by norm_num) (by decide +kernel)
  have c2 : Real.logb 2 (2 : Nat) = 1 := by
    rw [Nat.cast_ofNat]
    exact Real.logb_self_eq_one (by norm_num)
  have c4 : Real.logb 2 (4 : Nat) = 2 := by
    rw [show ((4 : Nat) : ℝ) = 2 ^ 2 by norm_num, Real.logb_pow, Real.logb_self_eq_one (by norm_num)]
    norm_num
  have e : exactDcg [1, 1, 1, 1] = 1 + 1 / Real.logb 2 (3 : Nat) + 1 / 2 + 1 / Real.logb 2 (5 : Nat) := by
    simp only [exactDcg, List.length_cons, List.length_nil, List.range', List.zipWith_cons_cons, List.zipWith_nil_left, List.sum_cons, List.sum_nil,
      Nat.reduceAdd, c2, c4, Nat.cast_one]
    ring
  rw [e]
  generalize Real.logb 2 (3 : Nat) = x at a1 a2 ⊢
  generalize Real.logb 2 (5 : Nat) = y at b1 b2 ⊢
  norm_num at a1 a2 b1 b2
  have x0 : 0 < x := by linarith
  have y0 : 0 < y := by linarith
  have x1 : 1 / x < 1 / (25781 / 16266) := one_div_lt_one_div_of_lt (by norm_num) a1
  have x2 : 1 / (24727 / 15601) < 1 / x := one_div_lt_one_div_of_lt x0 a2
  have y1 : 1 / y < 1 / (29384 / 12655) := one_div_lt_one_div_of_lt (by norm_num) b1
  have y2 : 1 / (20087 / 8651) < 1 / y := one_div_lt_one_div_of_lt y0 b2
  norm_num at x1 x2 y1 y2
  norm_num
  constructor <;> linarith

/-- The score is rounded up in single precision, so that the quotient is below 1 - 2^-25. -/
theorem four_ratio {log2 : Nat → ℚ} (hlog : AccurateLog log2) (d : ℚ) :
    toSingle (ratioFloat d (computedDcg log2 [1, 1, 1, 1]) (toSingle (computedDcg log2 [1, 1, 1, 1]))) = some belowOne := by
  have h1 := abs_le.1 (dcg_error hlog (gs := [1, 1, 1, 1]) (by norm_num))
  obtain ⟨h2, h3⟩ := four_score
  generalize computedDcg log2 [1, 1, 1, 1] = i at h1 ⊢
  have i1 : (2561606308 / 1000000000 : ℚ) < i := by
    have : ((2561606308 / 1000000000 : ℚ) : ℝ) < (i : ℝ) := by
      push_cast
      norm_num at h1 h2 h3 ⊢
      linarith
    exact_mod_cast this
  have i2 : i < (2561606315 / 1000000000 : ℚ) := by
    have : (i : ℝ) < ((2561606315 / 1000000000 : ℚ) : ℝ) := by
      push_cast
      norm_num at h1 h2 h3 ⊢
      linarith
    exact_mod_cast this
  have hs : toSingle i = some (10744156 * 2 ^ 127) := by
    apply toSingle_eq (u := 127) (by norm_num)
    · norm_num
      linarith
    · norm_num
      linarith
    · have e : i * 2 ^ 149 / 2 ^ 127 = i * 2 ^ 22 := by
        rw [mul_div_assoc]
        norm_num
      rw [e]
      apply nearest_eq
      rw [abs_lt]
      norm_num at i1 i2 ⊢
      constructor <;> linarith
  rw [hs]
  unfold ratioFloat
  have hne : (10744156 * 2 ^ 127 : Int) ≠ 0 := by norm_num
  simp only [if_pos hne]
  have e : i / (((10744156 * 2 ^ 127 : Int) : ℚ) / 2 ^ 149) = i * (2 ^ 22 / 10744156) := by
    push_cast
    rw [div_eq_mul_inv]
    norm_num
  rw [e]
  have q1 : (99999996 / 100000000 : ℚ) ≤ i * (2 ^ 22 / 10744156) := by
    norm_num at i1 ⊢
    linarith
  have q2 : i * (2 ^ 22 / 10744156) ≤ (999999965 / 1000000000 : ℚ) := by
    norm_num at i2 ⊢
    linarith
  generalize i * (2 ^ 22 / 10744156) = q at q1 q2 ⊢
  have hr := double_error (x := q) (by
    rw [abs_of_nonneg (by linarith)]
    have : (1 : ℚ) / 2 ^ 1000 ≤ 1 / 2 ^ 1 := one_div_le_one_div_of_le (by norm_num) (pow_le_pow_right₀ (by norm_num) (by norm_num))
    refine this.trans ?_
    norm_num
    linarith)
  rw [abs_of_nonneg (by linarith : 0 ≤ q)] at hr
  have hr' := abs_le.1 hr
  have r1 : (99999995 / 100000000 : ℚ) ≤ double q := by
    norm_num at hr' ⊢
    linarith
  have r2 : double q ≤ (999999966 / 1000000000 : ℚ) := by
    norm_num at hr' ⊢
    linarith
  generalize double q = r at r1 r2 ⊢
  have hn : Binary32.nearest (r * 2 ^ 149 / 2 ^ 125) = 2 ^ 24 - 1 := by
    have e : r * 2 ^ 149 / 2 ^ 125 = r * 2 ^ 24 := by
      rw [mul_div_assoc]
      norm_num
    rw [e]
    apply nearest_eq
    rw [abs_lt]
    norm_num at r1 r2 ⊢
    constructor <;> linarith
  rw [toSingle_eq (u := 125) (by norm_num) (by norm_num at r1 ⊢; linarith) (by norm_num at r2 ⊢; linarith) hn]
  rfl

/-- C96 is violated: for four documents with label 1 every ranking is ideal, but the stored NDCG is 1 - 2^-24, whatever the predicted scores. -/
theorem C96_violated {log2 : Nat → ℚ} {exp2 : ℚ → ℚ} (hlog : AccurateLog log2) (hexp : ExactPowers exp2) (hs : IsArgsort s (sort s)) (h : s.length = 4)
    (hsY : IsArgsort (labels [1, 1, 1, 1]) (sortY (labels [1, 1, 1, 1]))) {impl : Impl} (himpl : impl ≠ .other) (d : ℚ) :
    (∀ p ∈ [1, 1, 1, 1].zip s, ∀ q ∈ [1, 1, 1, 1].zip s, p.2 ≤ q.2 → p.1 ≤ q.1) ∧
    ∃ v, ndcgFloat log2 exp2 sort sortY (cut none) impl d (labels [1, 1, 1, 1]) s = .ok v ∧ toSingle v = some belowOne ∧
      Binary32.num (some belowOne) = 1 - 1 / 2 ^ 24 := by
  have hall : ∀ {T : Type} (l : List T), ∀ p ∈ [1, 1, 1, 1].zip l, p.1 = 1 := by
    intro T l p hp
    have := (List.of_mem_zip hp).1
    simpa using this
  have hlab : ∀ n ∈ [1, 1, 1, 1], n ≤ 24 := by decide
  have key : ∀ l : List Nat, l.Perm [1, 1, 1, 1] → l.map (natGain impl) = [1, 1, 1, 1] := by
    intro l hl
    have e : l = List.replicate 4 1 := by
      rw [List.eq_replicate_iff]
      exact ⟨hl.length_eq, fun b hb => by simpa using hl.mem_iff.1 hb⟩
    rw [e]
    cases impl <;> rfl
  refine ⟨fun p hp q hq _ => ?_, _, ndcgFloat_eq hexp himpl hs (by rw [h]; rfl) hsY hlab none d, ?_, ?_⟩
  · rw [hall s p hp, hall s q hq]
  · rw [retrieved_eq_top]
    simp only [top]
    rw [key _ (labels_perm (by rw [h]; rfl) (rankedDocs_isRanking hs (by rw [h]; rfl))), key _ (labels_perm (s := labels [1, 1, 1, 1]) rfl (rankedDocs_isRanking hsY rfl))]
    exact four_ratio hlog d
  · simp only [Binary32.num, belowOne]
    norm_num

/-- C96: an implementation that is neither flat nor exp is an error, as in exact arithmetic. -/
theorem C96_unknown (log2 : Nat → ℚ) (exp2 : ℚ → ℚ) (c : Option Int) (d : ℚ) (y : List ℚ) :
    ndcgFloat log2 exp2 sort sortY c .other d y s = .error .unboundLocalError := by
  unfold ndcgFloat dcgFloat gainFloat
  rfl

/-- There are such logarithms and powers: the exact powers, and the logarithms rounded to 100 binary places. -/
theorem accurate_exists : ∃ (log2 : Nat → ℚ) (exp2 : ℚ → ℚ), AccurateLog log2 ∧ ExactPowers exp2 := by
  refine ⟨fun k => (⌊Real.logb 2 k * 2 ^ 100⌋ : ℚ) / 2 ^ 100, fun q => 2 ^ q.num.toNat, fun k hk => ?_, fun k _ => ?_⟩
  · have h1 := (logb_bounds hk).1
    have h2 := Int.floor_le (Real.logb 2 k * 2 ^ 100)
    have h3 := Int.lt_floor_add_one (Real.logb 2 k * 2 ^ 100)
    push_cast
    rw [abs_le]
    generalize ((⌊Real.logb 2 k * 2 ^ 100⌋ : Int) : ℝ) = f at h2 h3 ⊢
    norm_num at h2 h3 ⊢
    constructor <;> linarith
  · simp

/-- Five documents with labels 0 to 2, ranked by label: the hypotheses of `C96_error` and `C96_ideal_partial` hold. -/
example : ∃ (log2 : Nat → ℚ) (exp2 : ℚ → ℚ), AccurateLog log2 ∧ ExactPowers exp2 ∧ IsArgsort [9, 3, 7, 1, 8] (argsort [9, 3, 7, 1, 8]) ∧
    IsArgsort (labels [2, 0, 1, 0, 1]) (argsort (labels [2, 0, 1, 0, 1])) ∧ (∀ n ∈ [2, 0, 1, 0, 1], n ≤ 24) ∧ (∃ n ∈ [2, 0, 1, 0, 1], 0 < n) ∧
    (∀ p ∈ [2, 0, 1, 0, 1].zip [9, 3, 7, 1, 8], ∀ q ∈ [2, 0, 1, 0, 1].zip [9, 3, 7, 1, 8], p.2 ≤ q.2 → p.1 ≤ q.1) ∧
    ∃ v, ndcgFloat log2 exp2 argsort argsort (cut (some 3)) .exp 0 (labels [2, 0, 1, 0, 1]) [9, 3, 7, 1, 8] = .ok v ∧
      (toSingle v = some singleOne ∨ toSingle v = some belowOne) := by
  obtain ⟨log2, exp2, h1, h2⟩ := accurate_exists
  have h3 := argsort_isArgsort [9, 3, 7, 1, 8]
  have h4 := argsort_isArgsort (labels [2, 0, 1, 0, 1])
  have h5 : ∀ n ∈ [2, 0, 1, 0, 1], n ≤ 24 := by decide
  have h6 : ∃ n ∈ [2, 0, 1, 0, 1], 0 < n := by decide
  have h7 : ∀ p ∈ [2, 0, 1, 0, 1].zip [9, 3, 7, 1, 8], ∀ q ∈ [2, 0, 1, 0, 1].zip [9, 3, 7, 1, 8], p.2 ≤ q.2 → p.1 ≤ q.1 := by decide
  exact ⟨log2, exp2, h1, h2, h3, h4, h5, h6, h7, C96_ideal_partial (ns := [2, 0, 1, 0, 1]) (c := some 3) (impl := .exp) h1 h2 h3 rfl h4 h5 (by norm_num) h7 h6
    (by simp) (by simp) 0⟩

/-- The exact NDCG of a query: the default if there is no gain. -/
noncomputable def exactNdcg (g : ℝ → ℝ) (d : ℝ) (c : Option Nat) (r : List (Nat × S)) (t : List Nat) : ℝ :=
  if Spec.dcg g (realLabels (top c t)) = 0 then d else Spec.dcg g (realLabels (retrieved c r)) / Spec.dcg g (realLabels (top c t))

theorem exactNdcg_bounds {impl : Impl} {g : ℝ → ℝ} (hg : IsGain impl g) {d : ℝ} (hd : 0 ≤ d ∧ d ≤ 1) (c : Option Nat) {r : List (Nat × S)} {t : List Nat}
    (h : ns.length = s.length) (hr : IsRanking (ns.zip s) r) (ht : t.Perm ns) (hts : t.Pairwise (· ≥ ·)) :
    0 ≤ exactNdcg g d c r t ∧ exactNdcg g d c r t ≤ 1 := by
  unfold exactNdcg
  split
  · exact hd
  · rename_i hne
    have h1 : 0 ≤ Spec.dcg g (realLabels (retrieved c r)) := by
      rw [exactDcg_eq hg]
      exact exactDcg_nonneg _
    have h2 : 0 ≤ Spec.dcg g (realLabels (top c t)) := by
      rw [exactDcg_eq hg]
      exact exactDcg_nonneg _
    have h3 : Spec.dcg g (realLabels (retrieved c r)) ≤ Spec.dcg g (realLabels (top c t)) := by
      have e1 : realLabels (retrieved c r) = top c (realLabels (r.map (·.1))) := by
        rw [retrieved_eq_top]
        exact top_map _ c _
      have e2 : realLabels (top c t) = top c (realLabels t) := top_map _ c _
      rw [e1, e2, dcg_eq_weightedGain, dcg_eq_weightedGain]
      refine weightedGain_top_le (P := fun _ => True) disc_strictAnti.antitone (fun i => (disc_pos i).le)
        (fun a b _ _ hab => (dcgGain_spec (dcgGain_of_isGain hg)).1.monotone hab) (((labels_perm h hr).trans ht.symm).map _) ?_ (fun _ _ => trivial) c
      rw [List.pairwise_map]
      refine hts.imp ?_
      intro a b hab
      exact_mod_cast hab
    exact ⟨div_nonneg h1 h2, div_le_one_of_le₀ h3 h2⟩

theorem ofQuery_lengths {α β : Type} (q : Int) : ∀ {ids : List Int} {a : List α} {b : List β}, a.length = ids.length → b.length = ids.length →
    (ofQuery q ids a).length = (ofQuery q ids b).length
  | [], [], [], _, _ => rfl
  | i :: ids, x :: a, z :: b, ha, hb => by
    have ih := ofQuery_lengths q (ids := ids) (a := a) (b := b) (by simpa using ha) (by simpa using hb)
    unfold ofQuery at ih ⊢
    by_cases h : i = q <;> simp [List.filter_cons, h] at ih ⊢ <;> exact ih

theorem mem_query {α : Type} {q : Int} {ids : List Int} {a : List α} {v : α} (h : v ∈ ofQuery q ids a) : v ∈ a := by
  obtain ⟨p, hp, rfl⟩ := List.mem_map.1 h
  exact (List.of_mem_zip (List.mem_filter.1 hp).1).2

theorem length_query_le {α : Type} (q : Int) (ids : List Int) (a : List α) : (ofQuery q ids a).length ≤ a.length := by
  unfold ofQuery
  rw [List.length_map]
  refine (List.length_filter_le _ _).trans ?_
  rw [List.length_zip]
  exact Nat.min_le_right _ _

theorem ofQuery_labels (q : Int) (ids : List Int) (ns : List Nat) : ofQuery q ids (labels ns) = labels (ofQuery q ids ns) := by
  unfold labels ofQuery
  rw [List.zip_map_right, List.filter_map, List.map_map, List.map_map]
  rfl

/-- C96 for `NDCG.eval`: the average is off by at most `(e + 31) / 2^23` from the mean of the exact NDCG of the queries, for up to `112 * 2^e + 16` queries. -/
theorem C96_eval {R : Type} {X : List R} {nf : Nat} {ids : List Int} {ds : Dataset R ℚ} {dbl : ℚ → ℚ} (hdbl : ∀ x, |dbl x - x| ≤ |x| / 2 ^ 53)
    {log2 : Nat → ℚ} {exp2 : ℚ → ℚ} (hlog : AccurateLog log2) (hexp : ExactPowers exp2) (hs : ∀ s : List S, IsArgsort s (sort s))
    (hsY : ∀ y, IsArgsort y (sortY y)) (hds : mkDataset X nf (labels ns) ids = .ok ds) (hcont : Contiguous ids) (hne : ids ≠ []) (hl : ns.length = ids.length)
    (hp : s.length = ids.length) (hlab : ∀ n ∈ ns, n ≤ 24) (hn : ns.length ≤ 2 ^ 40) (c : Option Nat) {impl : Impl} {g : ℝ → ℝ} (hg : IsGain impl g) {d : ℚ}
    (hd : 0 ≤ d ∧ d ≤ 1) {e : Nat} (he : e ≤ 40) (hq : ds.queryIds.length ≤ 112 * 2 ^ e + 16) :
    ∃ (exact : Int → ℝ) (avg : Int) (det : List (Option (Option Int))),
      (∀ q ∈ ids, ∃ r t, IsRanking ((ofQuery q ids ns).zip (ofQuery q ids s)) r ∧ t.Perm (ofQuery q ids ns) ∧ t.Pairwise (· ≥ ·) ∧ exact q = exactNdcg g d c r t) ∧
      metricEvalFloat Binary32.ops toSingle (divSingle dbl) (fun y p => (ndcgFloat log2 exp2 sort sortY (cut c) impl d y p).map some) ds s =
        .ok (some (some avg), det) ∧
      |Binary32.num (some avg) - (ds.queryIds.map exact).sum / ds.queryIds.length| ≤ (e + 31) / 2 ^ 23 := by
  have hlen : ∀ q, (ofQuery q ids ns).length = (ofQuery q ids s).length := fun q => ofQuery_lengths q hl hp
  have key : ∀ q, ∃ x : ℝ, q ∈ ids → (∃ r t, IsRanking ((ofQuery q ids ns).zip (ofQuery q ids s)) r ∧ t.Perm (ofQuery q ids ns) ∧ t.Pairwise (· ≥ ·) ∧
      x = exactNdcg g d c r t) ∧ (0 ≤ x ∧ x ≤ 1) ∧
      ∃ v : ℚ, ndcgFloat log2 exp2 sort sortY (cut c) impl d (labels (ofQuery q ids ns)) (ofQuery q ids s) = .ok v ∧ |(v : ℝ) - x| ≤ 1 / 2 ^ 23 := by
    intro q
    obtain ⟨r, t, hr, ht, hts, hv⟩ := C96_error hlog hexp (hs (ofQuery q ids s)) (hlen q) (hsY _) (fun n hn' => hlab n (mem_query hn'))
      ((length_query_le q ids ns).trans hn)
    obtain ⟨v, hv1, hv2, hv3⟩ := hv c impl g d hg
    have hb := exactNdcg_bounds hg (d := (d : ℝ)) ⟨by exact_mod_cast hd.1, by exact_mod_cast hd.2⟩ c (hlen q) hr ht hts
    refine ⟨exactNdcg g d c r t, fun _ => ⟨⟨r, t, hr, ht, hts, rfl⟩, hb, v, hv1, ?_⟩⟩
    by_cases h0 : Spec.dcg g (realLabels (top c t)) = 0
    · rw [hv2 h0]
      unfold exactNdcg
      rw [if_pos h0, sub_self, abs_zero]
      norm_num
    · have h1 := hv3 h0
      unfold exactNdcg at hb ⊢
      rw [if_neg h0] at hb ⊢
      refine h1.trans ?_
      exact div_le_div_of_nonneg_right hb.2 (by norm_num)
  choose exact hex using key
  obtain ⟨avg, det, h1, h2⟩ := C91_binary32 (evalQ := fun y p => (ndcgFloat log2 exp2 sort sortY (cut c) impl d y p).map some) hdbl hds hcont hne
    (by simpa [labels] using hl) hp exact (fun q hq' => (hex q hq').2.1) (ε := 1 / 2 ^ 23) (by norm_num) (by norm_num) (by
      intro q hq'
      obtain ⟨-, -, v, hv, herr⟩ := hex q hq'
      refine ⟨v, ?_, herr⟩
      rw [ofQuery_labels]
      simp only [hv]
      rfl) he hq
  refine ⟨exact, avg, det, fun q hq' => (hex q hq').1, h1, h2.trans (le_of_eq ?_)⟩
  ring

/-- Two queries with five documents meet the hypotheses of `C96_eval`. -/
example : ∃ (log2 : Nat → ℚ) (exp2 : ℚ → ℚ) (ds : Dataset Nat ℚ) (exact : Int → ℝ) (avg : Int) (det : List (Option (Option Int))),
    mkDataset [0, 0, 0, 0, 0] 1 (labels [0, 1, 2, 0, 1]) [7, 7, 3, 3, 3] = .ok ds ∧
    metricEvalFloat Binary32.ops toSingle (divSingle id) (fun y p => (ndcgFloat log2 exp2 argsort argsort (cut none) .flat 0 y p).map some) ds
      ([5, 4, 3, 2, 1] : List ℚ) = .ok (some (some avg), det) ∧
    |Binary32.num (some avg) - (ds.queryIds.map exact).sum / ds.queryIds.length| ≤ 31 / 2 ^ 23 := by
  obtain ⟨log2, exp2, hlog, hexp⟩ := accurate_exists
  have h : mkDataset [0, 0, 0, 0, 0] 1 (labels [0, 1, 2, 0, 1]) [7, 7, 3, 3, 3] =
      .ok (⟨[0, 0, 0, 0, 0], 1, labels [0, 1, 2, 0, 1], [7, 3], [0, 2, 5]⟩ : Dataset Nat ℚ) := by
    decide +kernel
  obtain ⟨exact, avg, det, -, h1, h2⟩ := C96_eval (dbl := id) (by intro x; simp; positivity) hlog hexp (fun s => argsort_isArgsort s) (fun y => argsort_isArgsort y) h
    (s := ([5, 4, 3, 2, 1] : List ℚ)) (by decide) (by simp) rfl rfl (by decide) (by norm_num) none (impl := .flat) (g := fun v => v) (fun _ => rfl) (d := 0)
    ⟨le_rfl, by norm_num⟩ (e := 0) (by norm_num) (by decide)
  refine ⟨log2, exp2, _, exact, avg, det, h, h1, h2.trans (le_of_eq ?_)⟩
  norm_num

end Verif.Props
