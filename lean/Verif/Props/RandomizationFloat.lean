/-
Property C101: the randomization test in floating point.
-/
import Verif.Lemmas.RandomizationFloat
import Verif.Props.Statistical

namespace Verif.Props
open Stat Spec Metrics Decimal

/-- The number 1. -/
def oneSingle : Option Int := some (2 ^ 149)

/-- C101: violated. One model has the scores 1, 0, 0 and the other has only zeros. Exchanging scores can only change the sign of the difference of the means, so
exactly all exchanges are at least as extreme: the two-sided p-value is 1. Computed, it is 0, and so is the one-sided p-value, whatever the subsets
are: the difference of the means is rounded to float32, to something above 1/3, and the differences after the exchange are rounded to float64. -/
theorem C101_violated : ∀ sels : List (List Bool), sels ≠ [] → (∀ s ∈ sels, s.length = 3) →
    randomizationFloat double [oneSingle, some 0, some 0] [some 0, some 0, some 0] sels = .ok (0, 0) ∧
    ∃ p, randomization ([1, 0, 0] : List ℚ) [0, 0, 0] sels = .ok (p, 1) := by
  intro sels hne hs
  have hmem : ∀ s ∈ sels, s ∈ allSels 3 := by
    intro s h
    have := hs s h
    match s, this with
    | [x, y, z], _ => cases x <;> cases y <;> cases z <;> decide
  have hz : ∀ s ∈ allSels 3,
      compareFloat (fun x y => decide (x ≥ y)) (swapDeltaFloat double (bestFloat double [oneSingle, some 0, some 0] [some 0, some 0, some 0]).1
        (bestFloat double [oneSingle, some 0, some 0] [some 0, some 0, some 0]).2 s)
        (differenceFloat double (bestFloat double [oneSingle, some 0, some 0] [some 0, some 0, some 0])) = false ∧
      compareFloat (fun x y => decide (|x| ≥ |y|)) (swapDeltaFloat double (bestFloat double [oneSingle, some 0, some 0] [some 0, some 0, some 0]).1
        (bestFloat double [oneSingle, some 0, some 0] [some 0, some 0, some 0]).2 s)
        (differenceFloat double (bestFloat double [oneSingle, some 0, some 0] [some 0, some 0, some 0])) = false := by decide +kernel
  constructor
  · rw [randomizationFloat_eq [oneSingle, some 0, some 0] [some 0, some 0, some 0] _ hne rfl (by simp), List.countP_eq_zero.2 (fun s h => by rw [(hz s (hmem s h)).1]; simp),
      List.countP_eq_zero.2 (fun s h => by rw [(hz s (hmem s h)).2]; simp)]
    simp [double_zero]
  · have hx : ∀ s ∈ allSels 3, |meanDiff (exchange (bestFirst ([1, 0, 0] : List ℚ) [0, 0, 0]).1 (bestFirst ([1, 0, 0] : List ℚ) [0, 0, 0]).2 s)| ≥
        |meanDiff (bestFirst ([1, 0, 0] : List ℚ) [0, 0, 0])| := by decide +kernel
    rw [C49_meaning [1, 0, 0] [0, 0, 0] _ hne rfl (by simp) hs, List.countP_eq_length.2 (fun s h => decide_eq_true (hx s (hmem s h)))]
    refine ⟨_, by rw [div_self (by simpa using hne)]⟩

theorem difference_nonneg {dbl : ℚ → ℚ} {a b : List (Option Int)} {D : ℚ} (h : differenceFloat dbl (bestFloat dbl a b) = some D) : 0 ≤ D := by
  have key : ∀ x y : Int, y ≤ x → value (subSingle (some x) (some y)) = some D → 0 ≤ D := by
    intro x y hxy hv
    have hx : (0 : ℚ) ≤ ((x - y : Int) : ℚ) := by exact_mod_cast sub_nonneg.2 hxy
    have hf : (Binary32.round ((x - y : Int) : ℚ)).isSome = true := by
      cases hr : Binary32.round ((x - y : Int) : ℚ) with
      | none =>
        unfold subSingle at hv
        simp only at hv
        rw [hr] at hv
        cases hv
      | some _ => rfl
    simp only [subSingle, Binary32.round_finite hf, value, Option.map_some, Option.some.injEq] at hv
    rw [← hv]
    exact div_nonneg (by exact_mod_cast grid_pos hx) (by positivity)
  unfold differenceFloat bestFloat at h
  cases ha : meanSingle dbl a with
  | none => cases hb : meanSingle dbl b <;> simp [ha, hb, value, compareFloat, subSingle] at h
  | some x =>
    cases hb : meanSingle dbl b with
    | none => simp [ha, hb, value, compareFloat, subSingle] at h
    | some y =>
      have hp : (0 : ℚ) < 2 ^ 149 := by positivity
      by_cases c : x < y
      · have c' : (x : ℚ) / 2 ^ 149 < y / 2 ^ 149 := div_lt_div_of_pos_right (by exact_mod_cast c) hp
        have e : compareFloat (fun x y => decide (x < y)) (value (meanSingle dbl a)) (value (meanSingle dbl b)) = true := by
          rw [ha, hb]
          exact decide_eq_true c'
        rw [if_pos e] at h
        simp only at h
        rw [ha, hb] at h
        exact key y x c.le h
      · have c' : ¬ (x : ℚ) / 2 ^ 149 < y / 2 ^ 149 := by
          rw [div_lt_div_iff_of_pos_right hp]
          exact_mod_cast c
        have e : compareFloat (fun x y => decide (x < y)) (value (meanSingle dbl a)) (value (meanSingle dbl b)) = false := by
          rw [ha, hb]
          exact decide_eq_false c'
        rw [if_neg (by rw [e]; simp)] at h
        simp only at h
        rw [ha, hb] at h
        exact key x y (not_lt.1 c) h

theorem countP_one_two {dbl : ℚ → ℚ} (a b : List (Option Int)) (sels : List (List Bool)) :
    sels.countP (fun s => compareFloat (fun x y => decide (x ≥ y)) (swapDeltaFloat dbl (bestFloat dbl a b).1 (bestFloat dbl a b).2 s)
      (differenceFloat dbl (bestFloat dbl a b))) ≤
    sels.countP (fun s => compareFloat (fun x y => decide (|x| ≥ |y|)) (swapDeltaFloat dbl (bestFloat dbl a b).1 (bestFloat dbl a b).2 s)
      (differenceFloat dbl (bestFloat dbl a b))) := by
  refine List.countP_mono_left (fun s _ h => ?_)
  cases hd : differenceFloat dbl (bestFloat dbl a b) with
  | none =>
    rw [hd] at h
    cases hq : swapDeltaFloat dbl (bestFloat dbl a b).1 (bestFloat dbl a b).2 s <;> rw [hq] at h <;> cases h
  | some D =>
    have h0 := difference_nonneg hd
    rw [hd] at h
    cases hq : swapDeltaFloat dbl (bestFloat dbl a b).1 (bestFloat dbl a b).2 s with
    | none => rw [hq] at h; cases h
    | some q =>
      rw [hq] at h
      have h1 : q ≥ D := of_decide_eq_true h
      refine decide_eq_true ?_
      rw [abs_of_nonneg h0]
      exact h1.le.trans (le_abs_self q)

/-- C101: the p-values are between 0 and 1, and the one-sided is at most the two-sided. -/
theorem C101_range {a b : List (Option Int)} {sels : List (List Bool)} {p1 p2 : ℚ} (h : randomizationFloat double a b sels = .ok (p1, p2)) :
    0 ≤ p1 ∧ p1 ≤ p2 ∧ p2 ≤ 1 := by
  have hs : sels ≠ [] := by
    rintro rfl
    simp [randomizationFloat] at h
  by_cases hl : a.length = b.length
  · by_cases hne : a = []
    · unfold randomizationFloat at h
      rw [if_neg hs, if_neg (by simpa using hl), if_pos hne] at h
      simp only [Except.ok.injEq, Prod.mk.injEq] at h
      obtain ⟨rfl, rfl⟩ := h
      exact ⟨le_refl _, le_refl _, zero_le_one⟩
    · rw [randomizationFloat_eq a b sels hs hl hne] at h
      simp only [Except.ok.injEq, Prod.mk.injEq] at h
      obtain ⟨rfl, rfl⟩ := h
      have hpos : (0 : ℚ) < sels.length := by exact_mod_cast List.length_pos_iff.2 hs
      have h12 := countP_one_two (dbl := double) a b sels
      have h2 := List.countP_le_length (l := sels) (p := fun s => compareFloat (fun x y => decide (|x| ≥ |y|))
        (swapDeltaFloat double (bestFloat double a b).1 (bestFloat double a b).2 s) (differenceFloat double (bestFloat double a b)))
      generalize sels.countP (fun s => compareFloat (fun x y => decide (x ≥ y)) (swapDeltaFloat double (bestFloat double a b).1 (bestFloat double a b).2 s)
        (differenceFloat double (bestFloat double a b))) = c1 at h12 ⊢
      generalize sels.countP (fun s => compareFloat (fun x y => decide (|x| ≥ |y|)) (swapDeltaFloat double (bestFloat double a b).1 (bestFloat double a b).2 s)
        (differenceFloat double (bestFloat double a b))) = c2 at h12 h2 ⊢
      have g1 : (0 : ℚ) ≤ c1 / sels.length := div_nonneg (Nat.cast_nonneg _) hpos.le
      have g2 : (c1 : ℚ) / sels.length ≤ c2 / sels.length := div_le_div_of_nonneg_right (Nat.cast_le.2 h12) hpos.le
      have g3 : (c2 : ℚ) / sels.length ≤ 1 := by
        rw [div_le_one hpos]
        exact Nat.cast_le.2 h2
      exact ⟨double_nonneg g1, double_mono g1 g2 (g3.trans_lt one_lt_big), double_le_one (g1.trans g2) g3⟩
  · unfold randomizationFloat at h
    rw [if_neg hs, if_pos (by simpa using hl)] at h
    cases h

/-- C101: equal scores give the p-values 1. -/
theorem C101_equal {a : List (Option Int)} {sels : List (List Bool)} (hs : sels ≠ []) (hne : a ≠ []) (ha : UnitScores a) (hn : a.length ≤ 2 ^ 20)
    (hsel : ∀ s ∈ sels, s.length = a.length) : randomizationFloat double a a sels = .ok (1, 1) := by
  have hb : bestFloat double a a = (a, a) := by rcases bestFloat_cases (dbl := double) a a with h | h <;> exact h
  have hpos : (sels.length : ℚ) ≠ 0 := by
    have := List.length_pos_iff.2 hs
    exact_mod_cast (by omega)
  have hD : differenceFloat double (a, a) = some 0 := by
    obtain ⟨m, hm⟩ := Option.isSome_iff_exists.1 (meanSingle_error ha hne hn).1
    unfold differenceFloat
    simp only
    rw [hm]
    simp only [subSingle, sub_self]
    decide +kernel
  have hq : ∀ s ∈ sels, swapDeltaFloat double a a s = some 0 := by
    intro s h
    obtain ⟨q, hq, -⟩ := swapDeltaFloat_error ha ha rfl hne hn s (hsel s h)
    rw [hq]
    unfold swapDeltaFloat at hq
    simp only at hq
    generalize divDouble double _ _ = X at hq
    cases X with
    | none => cases hq
    | some x =>
      simp only [subDouble, sub_self, Option.some.injEq] at hq
      rw [← hq, double_zero]
  rw [randomizationFloat_eq a a sels hs rfl hne, hb, hD]
  simp only
  rw [List.countP_eq_length.2 (fun s h => by rw [hq s h]; rfl), List.countP_eq_length.2 (fun s h => by rw [hq s h]; rfl), div_self hpos, double_one]

theorem unitScores_two : UnitScores [oneSingle, some 0] := by
  intro x hx
  simp only [List.mem_cons, List.not_mem_nil, or_false] at hx
  have h1 : Binary32.num oneSingle = 1 := by
    unfold oneSingle Binary32.num
    norm_num
  rcases hx with rfl | rfl
  · rw [h1]
    exact ⟨rfl, by norm_num, le_refl _⟩
  · refine ⟨rfl, ?_, ?_⟩ <;> simp [Binary32.num]

example : UnitScores [oneSingle, some 0] ∧ randomizationFloat double [oneSingle, some 0] [oneSingle, some 0] [[true, false]] = .ok (1, 1) :=
  ⟨unitScores_two, C101_equal (by simp) (by simp) unitScores_two (by simp) (by simp)⟩

example : randomizationFloat double [oneSingle, some 0] [some 0, some 0] [[true, false], [false, true]] = .ok (1 / 2, 1) := by decide +kernel

/-- C101: scores between 0 and 1 of at most 2^20 queries. Every exchange by which the exact difference of the means exceeds the exact difference of the
models by 2^-12 is counted, and no exchange is counted by which it is less by more than 2^-12; the same for the absolute values. Missing: the exchanges
in between, which may be counted or not. -/
theorem C101_bounds_partial {a b : List (Option Int)} {sels : List (List Bool)} (hs : sels ≠ []) (hl : a.length = b.length) (hne : a ≠ [])
    (hn : a.length ≤ 2 ^ 20) (ha : UnitScores a) (hb : UnitScores b) (hsel : ∀ s ∈ sels, s.length = a.length) :
    ∃ (x y : List ℝ) (c1 c2 : Nat), ((x, y) = (a.map Binary32.num, b.map Binary32.num) ∨ (x, y) = (b.map Binary32.num, a.map Binary32.num)) ∧
      -(1 / 2 ^ 12) ≤ meanDiff (x, y) ∧
      randomizationFloat double a b sels = .ok (double ((c1 : ℚ) / sels.length), double ((c2 : ℚ) / sels.length)) ∧
      sels.countP (fun s => decide (meanDiff (x, y) + 1 / 2 ^ 12 ≤ meanDiff (exchange x y s))) ≤ c1 ∧
      c1 ≤ sels.countP (fun s => decide (meanDiff (x, y) - 1 / 2 ^ 12 ≤ meanDiff (exchange x y s))) ∧
      sels.countP (fun s => decide (|meanDiff (x, y)| + 1 / 2 ^ 12 ≤ |meanDiff (exchange x y s)|)) ≤ c2 ∧
      c2 ≤ sels.countP (fun s => decide (|meanDiff (x, y)| - 1 / 2 ^ 12 ≤ |meanDiff (exchange x y s)|)) := by
  have hu : UnitScores (bestFloat double a b).1 ∧ UnitScores (bestFloat double a b).2 ∧ (bestFloat double a b).1.length = a.length ∧
      (bestFloat double a b).2.length = a.length := by
    rcases bestFloat_cases (dbl := double) a b with h | h <;> rw [h]
    · exact ⟨ha, hb, rfl, hl.symm⟩
    · exact ⟨hb, ha, hl.symm, rfl⟩
  obtain ⟨u1, u2, l1, l2⟩ := hu
  have hne' : (bestFloat double a b).1 ≠ [] := by
    intro e
    rw [e] at l1
    exact hne (List.length_eq_zero_iff.1 l1.symm)
  obtain ⟨D, hD, eD⟩ := differenceFloat_error u1 u2 (by rw [l1, l2]) hne' (by rw [l1]; exact hn)
  have hD0 := difference_nonneg hD
  have hD0' : (0 : ℝ) ≤ D := by exact_mod_cast hD0
  have hq : ∀ s ∈ sels, ∃ q, swapDeltaFloat double (bestFloat double a b).1 (bestFloat double a b).2 s = some q ∧
      |(q : ℝ) - meanDiff (exchange ((bestFloat double a b).1.map Binary32.num) ((bestFloat double a b).2.map Binary32.num) s)| ≤ 1 / 2 ^ 13 :=
    fun s h => swapDeltaFloat_error u1 u2 (by rw [l1, l2]) hne' (by rw [l1]; exact hn) s (by rw [l1]; exact hsel s h)
  refine ⟨(bestFloat double a b).1.map Binary32.num, (bestFloat double a b).2.map Binary32.num, _, _, ?_, ?_, randomizationFloat_eq a b sels hs hl hne, ?_, ?_, ?_, ?_⟩
  · rcases bestFloat_cases (dbl := double) a b with h | h <;> rw [h]
    · exact .inl rfl
    · exact .inr rfl
  · obtain ⟨d1, d2⟩ := abs_le.1 eD
    norm_num at d1 d2 ⊢
    linarith
  all_goals
    refine List.countP_mono_left (fun s hsm h => ?_)
    obtain ⟨q, hq, eq⟩ := hq s hsm
    beta_reduce at h ⊢
  · have h1 := of_decide_eq_true h
    rw [hq, hD]
    refine decide_eq_true ?_
    have : (D : ℝ) ≤ q := by
      obtain ⟨d1, d2⟩ := abs_le.1 eD
      obtain ⟨q1, q2⟩ := abs_le.1 eq
      norm_num at d1 d2 q1 q2 h1
      linarith
    exact_mod_cast this
  · rw [hq, hD] at h
    have h1 : q ≥ D := of_decide_eq_true h
    have h1' : (D : ℝ) ≤ q := by exact_mod_cast h1
    refine decide_eq_true ?_
    obtain ⟨d1, d2⟩ := abs_le.1 eD
    obtain ⟨q1, q2⟩ := abs_le.1 eq
    norm_num at d1 d2 q1 q2 ⊢
    linarith
  · have h1 := of_decide_eq_true h
    rw [hq, hD]
    refine decide_eq_true ?_
    have : |(D : ℝ)| ≤ |(q : ℝ)| := by
      have d1 := (abs_abs_sub_abs_le _ _).trans eD
      have q1 := (abs_abs_sub_abs_le _ _).trans eq
      obtain ⟨d1, d2⟩ := abs_le.1 d1
      obtain ⟨q1, q2⟩ := abs_le.1 q1
      norm_num at d1 d2 q1 q2 h1
      linarith
    exact_mod_cast this
  · rw [hq, hD] at h
    have h1 : |q| ≥ |D| := of_decide_eq_true h
    have h1' : |(D : ℝ)| ≤ |(q : ℝ)| := by exact_mod_cast h1
    refine decide_eq_true ?_
    have d1 := (abs_abs_sub_abs_le _ _).trans eD
    have q1 := (abs_abs_sub_abs_le _ _).trans eq
    obtain ⟨d1, d2⟩ := abs_le.1 d1
    obtain ⟨q1, q2⟩ := abs_le.1 q1
    norm_num at d1 d2 q1 q2 ⊢
    linarith

theorem sum_le_pow {k j : Nat} {a : List Nat} (h : ∀ m ∈ a, m ≤ 2 ^ k) (hl : a.length = 2 ^ j) : a.sum ≤ 2 ^ (k + j) := by
  have := List.sum_le_card_nsmul a (2 ^ k) h
  rw [hl, smul_eq_mul] at this
  rw [Nat.add_comm, pow_add]
  exact this

theorem sum_exact (k : Nat) : ∀ a : List Nat, (a.map (fun m : Nat => (m : ℚ) / 2 ^ k)).sum = (a.sum : ℚ) / 2 ^ k
  | [] => by simp
  | m :: a => by
    rw [List.map_cons, List.sum_cons, sum_exact k a, List.sum_cons, Nat.cast_add, add_div]

theorem mean_exact {k j : Nat} {a : List Nat} (hl : a.length = 2 ^ j) :
    (a.map (fun m : Nat => (m : ℚ) / 2 ^ k)).sum / (a.map (fun m : Nat => (m : ℚ) / 2 ^ k)).length = (a.sum : ℚ) / 2 ^ (k + j) := by
  rw [sum_exact, List.length_map, hl, Nat.cast_pow, Nat.cast_ofNat, div_div, ← pow_add]

theorem maskSelect_sum_le (a : List Nat) : ∀ s : List Bool, (maskSelect a s).sum ≤ a.sum := by
  induction a with
  | nil => intro s; simp [maskSelect]
  | cons x a ih =>
    intro s
    cases s with
    | nil => simp [maskSelect]
    | cons t s =>
      have := ih s
      unfold maskSelect at this ⊢
      cases t
      · simp only [List.zip_cons_cons, List.filter_cons, Bool.false_eq_true, if_false, List.sum_cons]
        omega
      · simp only [List.zip_cons_cons, List.filter_cons, if_true, List.map_cons, List.sum_cons]
        omega

theorem swapDelta_dyad {k j : Nat} (hkj : k + j ≤ 22) (hj : j ≤ 20) {x y : List Nat} (hx : x.length = 2 ^ j) (hy : y.length = 2 ^ j)
    (hxs : x.sum ≤ 2 ^ (k + j)) (hys : y.sum ≤ 2 ^ (k + j)) {s : List Bool} :
    swapDeltaFloat double (x.map (dyad k)) (y.map (dyad k)) s =
      some (swapDelta (x.map (fun m : Nat => (m : ℚ) / 2 ^ k)) (y.map (fun m : Nat => (m : ℚ) / 2 ^ k)) s) := by
  have hp : 2 ^ (k + j) ≤ 2 ^ 22 := Nat.pow_le_pow_right (by norm_num) hkj
  have h22 : (2 : Nat) ^ 22 + 2 ^ 22 < 2 ^ 24 := by norm_num
  have hj' : 2 ^ j ≤ 2 ^ 20 := Nat.pow_le_pow_right (by norm_num) hj
  have s1 := maskSelect_sum_le x s
  have s2 := maskSelect_sum_le y s
  have g1 := maskSelect_length x s
  have g2 := maskSelect_length y s
  unfold swapDeltaFloat swapDelta
  simp only [Stat.maskSelect_map (dyad k), Stat.maskSelect_map (fun m : Nat => (m : ℚ) / 2 ^ k), List.length_map, sum_exact]
  rw [sum_dyad (by omega) (by omega), sum_dyad (by omega) (by omega), sum_dyad (by omega) (by omega), sum_dyad (by omega) (by omega),
    sub_dyad (by omega) s1, sub_dyad (by omega) s2, add_dyad (by omega), add_dyad (by omega), hx, div_dyad (by omega) (by omega), div_dyad (by omega) (by omega)]
  simp only [subDouble]
  rw [double_dyad_sub (by omega) (by omega) (by omega), Nat.cast_add, Nat.cast_add, Nat.cast_sub s1, Nat.cast_sub s2, Nat.cast_pow, Nat.cast_ofNat]
  congr 1
  have h1 : (2 : ℚ) ^ k ≠ 0 := by positivity
  have h2 : (2 : ℚ) ^ j ≠ 0 := by positivity
  rw [pow_add]
  field_simp

example : UnitScores [oneSingle, some 0] ∧ UnitScores [some 0, oneSingle] ∧
    (∀ s ∈ [[true, false]], s.length = ([oneSingle, some 0] : List (Option Int)).length) := by
  refine ⟨unitScores_two, fun x hx => unitScores_two x ?_, by simp⟩
  simp only [List.mem_cons, List.not_mem_nil, or_false] at hx ⊢
  exact hx.symm

/-- C101: exact, but for the last division, if the number of queries is a power of two and all scores are multiples of a power of two. -/
theorem C101_exact_partial {k j : Nat} (hkj : k + j ≤ 22) (hj : j ≤ 20) {a b : List Nat} (hla : a.length = 2 ^ j) (hlb : b.length = 2 ^ j)
    (ha : ∀ m ∈ a, m ≤ 2 ^ k) (hb : ∀ m ∈ b, m ≤ 2 ^ k) {sels : List (List Bool)} (hs : sels ≠ []) :
    ∃ p1 p2 : ℚ, randomization (a.map (fun m : Nat => (m : ℚ) / 2 ^ k)) (b.map (fun m : Nat => (m : ℚ) / 2 ^ k)) sels = .ok (p1, p2) ∧
      randomizationFloat double (a.map (fun m => some ((m * 2 ^ (149 - k) : Nat) : Int))) (b.map (fun m => some ((m * 2 ^ (149 - k) : Nat) : Int))) sels =
        .ok (double p1, double p2) := by
  have hsa := sum_le_pow ha hla
  have hsb := sum_le_pow hb hlb
  have hp : 2 ^ (k + j) ≤ 2 ^ 22 := Nat.pow_le_pow_right (by norm_num) hkj
  have h22 : (2 : Nat) ^ 22 < 2 ^ 24 := by norm_num
  have hane : a ≠ [] := by
    intro e
    rw [e, List.length_nil] at hla
    exact absurd hla (Nat.pos_of_ne_zero (by positivity)).ne
  refine ⟨_, _, randomization_bestFirst _ _ sels hs (by simp [hla, hlb]) (by simpa using hane), ?_⟩
  show randomizationFloat double (a.map (dyad k)) (b.map (dyad k)) sels = _
  rw [randomizationFloat_eq _ _ sels hs (by simp [hla, hlb]) (by simpa using hane)]
  have hM : (0 : ℚ) < 2 ^ (k + j) := by positivity
  have hcmp : compareFloat (fun x y => decide (x < y)) (value (meanSingle double (a.map (dyad k)))) (value (meanSingle double (b.map (dyad k)))) =
      decide (a.sum < b.sum) := by
    rw [mean_dyad (by omega) hla hj (by omega), mean_dyad (by omega) hlb hj (by omega), value_dyad (by omega), value_dyad (by omega)]
    show decide ((a.sum : ℚ) / 2 ^ (k + j) < b.sum / 2 ^ (k + j)) = _
    rw [decide_eq_decide, div_lt_div_iff_of_pos_right hM, Nat.cast_lt]
  have hexa : (a.map (fun m : Nat => (m : ℚ) / 2 ^ k)).sum / (a.map (fun m : Nat => (m : ℚ) / 2 ^ k)).length <
      (b.map (fun m : Nat => (m : ℚ) / 2 ^ k)).sum / (b.map (fun m : Nat => (m : ℚ) / 2 ^ k)).length ↔ a.sum < b.sum := by
    rw [mean_exact hla, mean_exact hlb, div_lt_div_iff_of_pos_right hM, Nat.cast_lt]
  have main : ∀ {x y : List Nat}, x.length = 2 ^ j → y.length = 2 ^ j → x.sum ≤ 2 ^ (k + j) → y.sum ≤ 2 ^ (k + j) → y.sum ≤ x.sum →
      differenceFloat double (x.map (dyad k), y.map (dyad k)) =
        some (meanDiff (x.map (fun m : Nat => (m : ℚ) / 2 ^ k), y.map (fun m : Nat => (m : ℚ) / 2 ^ k))) ∧
      ∀ s ∈ sels, swapDeltaFloat double (x.map (dyad k)) (y.map (dyad k)) s =
        some (swapDelta (x.map (fun m : Nat => (m : ℚ) / 2 ^ k)) (y.map (fun m : Nat => (m : ℚ) / 2 ^ k)) s) := by
    intro x y hx hy hxs hys hle
    constructor
    · unfold differenceFloat meanDiff
      simp only
      rw [mean_dyad (by omega) hx hj (by omega), mean_dyad (by omega) hy hj (by omega), sub_dyad (by omega) hle, value_dyad (by omega), mean_exact hx,
        mean_exact hy, Nat.cast_sub hle, sub_div]
    · intro s _
      exact swapDelta_dyad hkj hj hx hy hxs hys
  obtain ⟨x, y, e1, e2, hx, hy, hxs, hys, hle⟩ : ∃ x y : List Nat, bestFloat double (a.map (dyad k)) (b.map (dyad k)) = (x.map (dyad k), y.map (dyad k)) ∧
      bestFirst (a.map (fun m : Nat => (m : ℚ) / 2 ^ k)) (b.map (fun m : Nat => (m : ℚ) / 2 ^ k)) =
        (x.map (fun m : Nat => (m : ℚ) / 2 ^ k), y.map (fun m : Nat => (m : ℚ) / 2 ^ k)) ∧
      x.length = 2 ^ j ∧ y.length = 2 ^ j ∧ x.sum ≤ 2 ^ (k + j) ∧ y.sum ≤ 2 ^ (k + j) ∧ y.sum ≤ x.sum := by
    by_cases c : a.sum < b.sum
    · exact ⟨b, a, by unfold bestFloat; rw [hcmp, if_pos (decide_eq_true c)], by unfold bestFirst; rw [if_pos (hexa.2 c)], hlb, hla, hsb, hsa, c.le⟩
    · exact ⟨a, b, by unfold bestFloat; rw [hcmp, if_neg (by simpa using c)], by unfold bestFirst; rw [if_neg (fun h => c (hexa.1 h))], hla, hlb, hsa, hsb,
        not_lt.1 c⟩
  obtain ⟨m1, m2⟩ := main hx hy hxs hys hle
  rw [e1, e2]
  simp only
  rw [m1]
  have c1 : ∀ r : ℚ → ℚ → Bool, sels.countP (fun s => compareFloat r (swapDeltaFloat double (x.map (dyad k)) (y.map (dyad k)) s)
        (some (meanDiff (x.map (fun m : Nat => (m : ℚ) / 2 ^ k), y.map (fun m : Nat => (m : ℚ) / 2 ^ k))))) =
      sels.countP (fun s => r (swapDelta (x.map (fun m : Nat => (m : ℚ) / 2 ^ k)) (y.map (fun m : Nat => (m : ℚ) / 2 ^ k)) s)
        (meanDiff (x.map (fun m : Nat => (m : ℚ) / 2 ^ k), y.map (fun m : Nat => (m : ℚ) / 2 ^ k)))) := by
    intro r
    refine List.countP_congr (fun s hsm => ?_)
    rw [m2 s hsm]
    rfl
  rw [c1, c1]

example : 1 + 1 ≤ 22 ∧ [1, 2].length = 2 ^ 1 ∧ (∀ m ∈ [1, 2], m ≤ 2 ^ 1) ∧
    randomization ([1, 2].map (fun m : Nat => (m : ℚ) / 2 ^ 1)) ([0, 1].map (fun m : Nat => (m : ℚ) / 2 ^ 1)) [[true, false], [true, true], [false, false]] =
      .ok (1 / 3, 2 / 3) := by
  refine ⟨by norm_num, rfl, by decide, by decide +kernel⟩

end Verif.Props
