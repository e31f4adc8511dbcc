/-
Quotients of counts, rounded to double and then to single precision.
-/
import Verif.Spec.CountFloat
import Verif.Model.CountFloat
import Verif.Lemmas.NdcgFloat
import Verif.Lemmas.SingleRounded
import Verif.Lemmas.Metrics

namespace Verif.Metrics
open Spec Decimal Binary32

/-- The conversion to single precision gives a nearest number. -/
theorem toSingle_nearest {q : ℚ} (h0 : 0 ≤ q) (h1 : q ≤ 2) : ∃ m : Nat, toSingle q = some (m : Int) ∧ NearestSingle q m := by
  have hlt : q < 2 ^ 128 - 2 ^ 103 := lt_of_le_of_lt h1 (by norm_num)
  obtain ⟨m, hm, hm1, hm2⟩ := (single_spec false h0).1 hlt
  unfold single at hm
  have hx : 0 ≤ q * 2 ^ 149 := by positivity
  cases hr : Binary32.round (q * 2 ^ 149) with
  | none => rw [hr] at hm; cases hm
  | some k =>
    rw [hr] at hm
    have hk : k.natAbs = m := by
      simp only [Single.num.injEq] at hm
      exact hm.2
    have hk0 : 0 ≤ k := by
      have := round_finite (x := q * 2 ^ 149) (by rw [hr]; rfl)
      rw [hr, Option.some.injEq] at this
      rw [this]
      exact grid_pos hx
    refine ⟨m, ?_, hm1, hm2⟩
    unfold toSingle
    rw [hr, ← hk, Int.natAbs_of_nonneg hk0]

theorem isMagnitude_pow {e : Nat} (h : e ≤ 253) : IsMagnitude (2 ^ e) := ⟨1, e, by simp, by norm_num, h⟩

/-- Numbers that are not too small are multiples of a power of two. -/
theorem isMagnitude_dvd {m c : Nat} (hm : IsMagnitude m) (h : 2 ^ (c + 24) ≤ m) : 2 ^ c ∣ m := by
  obtain ⟨k, j, rfl, hk, -⟩ := hm
  have h1 : 2 ^ (c + 24) < 2 ^ (j + 24) := by
    refine lt_of_le_of_lt h ?_
    rw [pow_add, mul_comm]
    exact Nat.mul_lt_mul_of_pos_left hk (by positivity)
  have h2 : c + 24 < j + 24 := (Nat.pow_lt_pow_iff_right (by norm_num)).1 h1
  exact Dvd.dvd.mul_left (pow_dvd_pow _ (by omega)) _

/-- If `M` is not farther from `D` than `N`, but `N` is closer to `q`, then the middle of `M` and `N` is between. -/
theorem middle_between {M N D q : ℚ} (h1 : |M - D| ≤ |N - D|) (h2 : |N - q| < |M - q|) : |q - (M + N) / 2| ≤ |q - D| ∧ q ≠ (M + N) / 2 := by
  have s1 := sq_le_sq.2 h1
  have s2 := sq_lt_sq.2 h2
  have t1 : (M - N) * (M + N - 2 * D) ≤ 0 := by
    have e : (M - N) * (M + N - 2 * D) = (M - D) ^ 2 - (N - D) ^ 2 := by ring
    linarith
  have t2 : 0 < (M - N) * (M + N - 2 * q) := by
    have e : (M - N) * (M + N - 2 * q) = (M - q) ^ 2 - (N - q) ^ 2 := by ring
    linarith
  rcases lt_trichotomy M N with hlt | heq | hgt
  · have u1 : 0 ≤ M + N - 2 * D := by
      by_contra hc
      have := mul_pos_of_neg_of_neg (sub_neg.2 hlt) (not_le.1 hc)
      linarith
    have u2 : M + N - 2 * q < 0 := by
      by_contra hc
      have := mul_nonpos_of_nonpos_of_nonneg (sub_neg.2 hlt).le (not_lt.1 hc)
      linarith
    refine ⟨?_, by intro h; linarith⟩
    rw [abs_of_pos (by linarith), abs_of_pos (by linarith)]
    linarith
  · rw [heq, sub_self, zero_mul] at t2
    exact absurd t2 (lt_irrefl _)
  · have u1 : M + N - 2 * D ≤ 0 := by
      by_contra hc
      have := mul_pos (sub_pos.2 hgt) (not_le.1 hc)
      linarith
    have u2 : 0 < M + N - 2 * q := by
      by_contra hc
      have := mul_nonpos_of_nonneg_of_nonpos (sub_pos.2 hgt).le (not_lt.1 hc)
      linarith
    refine ⟨?_, by intro h; linarith⟩
    rw [abs_of_neg (by linarith), abs_of_neg (by linarith)]
    linarith

/-- A power of two below a quotient, at most a factor of two away. -/
theorem quotient_scale {a b : Nat} (ha : 0 < a) (hab : a ≤ b) (hb : b < 2 ^ 24) : ∃ k, k ≤ 24 ∧ b ≤ 2 ^ k * a ∧ 2 ^ k * a < 2 * b := by
  have hex : ∃ k, b ≤ 2 ^ k * a := ⟨24, hb.le.trans (Nat.le_mul_of_pos_right _ ha)⟩
  refine ⟨Nat.find hex, Nat.find_le (hb.le.trans (Nat.le_mul_of_pos_right _ ha)), Nat.find_spec hex, ?_⟩
  cases hk : Nat.find hex with
  | zero => simp only [pow_zero, one_mul]; omega
  | succ j =>
    have := Nat.find_min hex (m := j) (by omega)
    rw [pow_succ _ j]
    have e : 2 ^ j * 2 * a = 2 * (2 ^ j * a) := by ring
    rw [e]
    omega

/-- A quotient with a small denominator is not close to a number with few bits. -/
theorem quotient_gap {a b k t : Nat} (hb0 : 0 < b) (hb : b < 2 ^ 24) (hne : (a : ℚ) / b ≠ (t : ℚ) / (2 ^ k * 2 ^ 26)) :
    1 / 2 ^ k / 2 ^ 50 < |(a : ℚ) / b - (t : ℚ) / (2 ^ k * 2 ^ 26)| := by
  have hbq : (0 : ℚ) < b := Nat.cast_pos.2 hb0
  have hP : (0 : ℚ) < 2 ^ k := by positivity
  obtain ⟨P, hPn⟩ : ∃ P : Nat, P = 2 ^ k := ⟨_, rfl⟩
  have e : (2 : ℚ) ^ k = P := by rw [hPn, Nat.cast_pow, Nat.cast_ofNat]
  rw [e] at hP hne ⊢
  have ediff : (a : ℚ) / b - (t : ℚ) / (P * 2 ^ 26) = (((a : Int) * P * 67108864 - t * b : Int) : ℚ) / (b * (P * 2 ^ 26)) := by
    push_cast
    field_simp
    norm_num
  have hne' : ((a : Int) * P * 67108864 - t * b : Int) ≠ 0 := by
    intro h0
    rw [h0, Int.cast_zero, zero_div] at ediff
    exact hne (sub_eq_zero.1 ediff)
  have h1 : (1 : ℚ) ≤ |(((a : Int) * P * 67108864 - t * b : Int) : ℚ)| := by
    rw [← Int.cast_abs, ← Int.cast_one, Int.cast_le]
    exact Int.one_le_abs hne'
  rw [ediff, abs_div]
  generalize (((a : Int) * P * 67108864 - t * b : Int) : ℚ) = z at h1
  have hB : (b : ℚ) < 2 ^ 24 := by
    have : (b : ℚ) < ((2 ^ 24 : Nat) : ℚ) := Nat.cast_lt.2 hb
    rwa [Nat.cast_pow, Nat.cast_ofNat] at this
  have hden : |(b : ℚ) * (P * 2 ^ 26)| < 2 ^ 50 * (P : ℚ) := by
    rw [abs_of_pos (by positivity)]
    have : (b : ℚ) * (P * 2 ^ 26) < 2 ^ 24 * (P * 2 ^ 26) := mul_lt_mul_of_pos_right hB (by positivity)
    refine lt_of_lt_of_eq this ?_
    ring
  rw [div_div, div_lt_div_iff₀ (by positivity) (abs_pos.2 (by positivity)), one_mul]
  refine lt_of_lt_of_le hden ?_
  rw [mul_comm (2 ^ 50 : ℚ)]
  exact le_mul_of_one_le_left (by positivity) h1

/-- A quotient of counts below 2^24, rounded to double and then to single precision, is a nearest single precision number. -/
theorem quotient_nearest {a b : Nat} (hab : a ≤ b) (hb0 : 0 < b) (hb : b < 2 ^ 24) :
    ∃ m : Nat, toSingle (double ((a : ℚ) / b)) = some (m : Int) ∧ NearestSingle ((a : ℚ) / b) m := by
  rcases Nat.eq_zero_or_pos a with rfl | ha
  · obtain ⟨m, h1, h2⟩ := toSingle_nearest (q := 0) le_rfl (by norm_num)
    refine ⟨m, ?_, ?_⟩
    · rw [Nat.cast_zero, zero_div, double_zero, h1]
    · rw [Nat.cast_zero, zero_div]
      exact h2
  obtain ⟨k, hk, k1, k2⟩ := quotient_scale ha hab hb
  have hbq : (0 : ℚ) < b := by exact_mod_cast hb0
  have haq : (0 : ℚ) < a := by exact_mod_cast ha
  set q : ℚ := (a : ℚ) / b with hq
  have hP : (0 : ℚ) < 2 ^ k := by positivity
  have q1 : 1 / 2 ^ k ≤ q := by
    rw [hq, div_le_div_iff₀ hP hbq, one_mul, mul_comm]
    exact_mod_cast k1
  have q2 : q < 2 / 2 ^ k := by
    rw [hq, div_lt_div_iff₀ hbq hP, mul_comm]
    exact_mod_cast k2
  have q3 : q ≤ 1 := by
    rw [hq, div_le_one hbq]
    exact_mod_cast hab
  have q0 : 0 < q := by positivity
  have hP24 : (2 : ℚ) ^ k ≤ 2 ^ 24 := pow_le_pow_right₀ (by norm_num) hk
  have hbig : 1 / 2 ^ 1000 ≤ |q| := by
    rw [abs_of_pos q0]
    refine le_trans ?_ q1
    exact one_div_le_one_div_of_le hP (hP24.trans (pow_le_pow_right₀ (by norm_num) (by norm_num)))
  have hd := double_error hbig
  rw [abs_of_pos q0] at hd
  set d := double q with hdd
  clear_value d
  clear hbig
  have hd' := abs_le.1 hd
  have hq53 : q / 2 ^ 53 ≤ 1 / 2 ^ 53 := div_le_div_of_nonneg_right q3 (by norm_num)
  have d0 : 0 ≤ d := by
    have : q / 2 ^ 53 ≤ q := div_le_self q0.le (by norm_num)
    linarith
  obtain ⟨m, hm1, hm2, hm3⟩ := toSingle_nearest d0 (by norm_num at hq53 ⊢; linarith)
  refine ⟨m, hm1, hm2, fun m' hm' => ?_⟩
  by_contra hc
  have hc := not_le.1 hc
  obtain ⟨c1, c2⟩ := middle_between (hm3 m' hm') hc
  -- both numbers are not too small
  have hpow : IsMagnitude (2 ^ (149 - k)) := isMagnitude_pow (by omega)
  have epow : ((2 ^ (149 - k) : Nat) : ℚ) / 2 ^ 149 = 1 / 2 ^ k := by
    have e : (2 : ℚ) ^ 149 = 2 ^ (149 - k) * 2 ^ k := by rw [← pow_add]; congr 1; omega
    rw [Nat.cast_pow, Nat.cast_ofNat, e]
    field_simp
  have h3 := hm3 _ hpow
  rw [epow] at h3
  set g : ℚ := 1 / 2 ^ k with hg
  have g0 : 0 < g := by positivity
  have e2g : (2 : ℚ) / 2 ^ k = 2 * g := by rw [hg]; ring
  rw [e2g] at q2
  have hsmall : q / 2 ^ 53 ≤ g / 2 ^ 52 := by
    have : q / 2 ^ 53 ≤ 2 * g / 2 ^ 53 := div_le_div_of_nonneg_right q2.le (by norm_num)
    refine this.trans (le_of_eq ?_)
    norm_num
    ring
  have hg52 : g / 2 ^ 52 ≤ g / 8 := div_le_div_of_nonneg_left g0.le (by norm_num) (by norm_num)
  have hqd : |q - d| ≤ g / 2 ^ 52 := by rw [abs_sub_comm]; linarith
  have hqd' := abs_le.1 hqd
  have hgd : |g - d| ≤ (q - g) + g / 8 := by
    rw [abs_le]
    constructor <;> linarith
  have hM : |(m : ℚ) / 2 ^ 149 - q| ≤ (q - g) + g / 4 := by
    have e : (m : ℚ) / 2 ^ 149 - q = ((m : ℚ) / 2 ^ 149 - d) + (d - q) := by ring
    rw [e]
    refine (abs_add_le _ _).trans ?_
    have : |d - q| ≤ g / 8 := by linarith
    linarith
  have hMl := (abs_le.1 hM).1
  have hNl := (abs_le.1 (hc.le.trans hM)).1
  have low : ∀ n : Nat, g / 2 ≤ (n : ℚ) / 2 ^ 149 → 2 ^ (124 - k + 24) ≤ n := by
    intro n hn
    rw [le_div_iff₀ (by positivity), hg] at hn
    have e : (1 : ℚ) / 2 ^ k / 2 * 2 ^ 149 = ((2 ^ (124 - k + 24) : Nat) : ℚ) := by
      have e1 : (2 : ℚ) ^ 149 = 2 ^ (124 - k + 24) * 2 ^ k * 2 := by rw [← pow_add, ← pow_succ]; congr 1; omega
      rw [e1, Nat.cast_pow, Nat.cast_ofNat]
      field_simp
    rw [e] at hn
    exact Nat.cast_le.1 hn
  obtain ⟨t, rfl⟩ := isMagnitude_dvd hm2 (low m (by linarith))
  obtain ⟨t', rfl⟩ := isMagnitude_dvd hm' (low m' (by linarith))
  have ec : (((2 ^ (124 - k) * t : Nat) : ℚ) / 2 ^ 149 + ((2 ^ (124 - k) * t' : Nat) : ℚ) / 2 ^ 149) / 2 = ((t + t' : Nat) : ℚ) / (2 ^ k * 2 ^ 26) := by
    have e1 : (2 : ℚ) ^ 149 = 2 ^ (124 - k) * (2 ^ k * 2 ^ 25) := by rw [← pow_add, ← pow_add]; congr 1; omega
    rw [e1]
    push_cast
    field_simp
  rw [ec] at c1 c2
  have hlow := quotient_gap hb0 hb c2
  have : g / 2 ^ 52 < g / 2 ^ 50 := div_lt_div_of_pos_left g0 (by norm_num) (by norm_num)
  linarith

/-- A nearest number is at most 2^-25 away from a number in [0, 1]. -/
theorem nearest_close {q : ℚ} {m : Nat} (h0 : 0 ≤ q) (h1 : q ≤ 1) (h : NearestSingle q m) : |(m : ℚ) / 2 ^ 149 - q| ≤ 1 / 2 ^ 25 := by
  have e : ∀ n : Int, (n : ℚ) * 2 ^ 125 / 2 ^ 149 = n / 2 ^ 24 := by
    intro n
    have : (2 : ℚ) ^ 149 = 2 ^ 125 * 2 ^ 24 := by norm_num
    rw [this]
    field_simp
  have hn := abs_le.1 (nearest_error (q * 2 ^ 24))
  have b0 : 0 ≤ nearest (q * 2 ^ 24) ∧ nearest (q * 2 ^ 24) ≤ 2 ^ 24 := by
    have := nearest_between (y := q * 2 ^ 24) (a := 0) (b := 2 ^ 24) (by push_cast; positivity) (by push_cast; linarith)
    exact this
  set n := nearest (q * 2 ^ 24)
  have hmag : IsMagnitude (n.toNat * 2 ^ 125) := by
    rcases b0.2.lt_or_eq with hlt | heq
    · exact ⟨n.toNat, 125, rfl, by omega, by norm_num⟩
    · have : n.toNat = 2 ^ 24 := by omega
      rw [this]
      exact ⟨1, 149, by norm_num, by norm_num, by norm_num⟩
  have h2 := h.2 _ hmag
  refine h2.trans ?_
  have hc : ((n.toNat : Nat) : ℚ) = (n : ℚ) := by
    rw [← Int.cast_natCast, Int.toNat_of_nonneg b0.1]
  rw [Nat.cast_mul, hc, Nat.cast_pow, Nat.cast_ofNat, e]
  have e2 : (n : ℚ) / 2 ^ 24 - q = (n - q * 2 ^ 24) / 2 ^ 24 := by field_simp
  rw [e2, abs_div, abs_of_pos (by norm_num : (0 : ℚ) < 2 ^ 24), div_le_div_iff₀ (by norm_num) (by norm_num)]
  have := abs_le.2 hn
  norm_num at this ⊢
  linarith

/-- The relative error of a nearest number, if it is not too small. -/
theorem nearest_relative {q : ℚ} {m : Nat} (h0 : 1 / 2 ^ 100 ≤ q) (h1 : q ≤ 2) (h : NearestSingle q m) : |(m : ℚ) / 2 ^ 149 - q| ≤ q / 2 ^ 24 := by
  have hq : 0 < q := lt_of_lt_of_le (by norm_num) h0
  have hx : 0 ≤ q * 2 ^ 149 := by positivity
  have hu : ulp (q * 2 ^ 149) ≠ 0 := by
    intro hu
    have := ulp_upper hx
    rw [hu, pow_zero, one_mul] at this
    have h2 : 1 / 2 ^ 100 * 2 ^ 149 ≤ q * 2 ^ 149 := mul_le_mul_of_nonneg_right h0 (by norm_num)
    norm_num at this h2
    linarith
  have hg := grid_error hu
  rw [abs_of_nonneg hx] at hg
  have hlt : grid (q * 2 ^ 149) < 2 ^ 277 := by
    rw [grid_lt_iff hx]
    have : q * 2 ^ 149 ≤ 2 * 2 ^ 149 := mul_le_mul_of_nonneg_right h1 (by norm_num)
    have h277 : (2 : ℚ) * 2 ^ 149 < 2 ^ 277 - 2 ^ 252 := by
      have e1 : (2 : ℚ) ^ 277 = 2 ^ 252 * 2 ^ 25 := by rw [← pow_add]
      have e2 : (2 : ℚ) ^ 252 = 2 ^ 149 * 2 ^ 103 := by rw [← pow_add]
      rw [e1, e2]
      norm_num
    exact lt_of_le_of_lt this h277
  obtain ⟨g1, g2⟩ := grid_isMagnitude hx hlt
  refine (h.2 _ g2).trans ?_
  have hc : (((grid (q * 2 ^ 149)).natAbs : Nat) : ℚ) = (grid (q * 2 ^ 149) : ℚ) := by
    rw [← Int.cast_natCast, Int.natAbs_of_nonneg g1]
  rw [hc]
  have e : (grid (q * 2 ^ 149) : ℚ) / 2 ^ 149 - q = (grid (q * 2 ^ 149) - q * 2 ^ 149) / 2 ^ 149 := by field_simp
  rw [e, abs_div, abs_of_pos (by norm_num : (0 : ℚ) < 2 ^ 149), div_le_iff₀ (by norm_num)]
  refine hg.trans (le_of_eq ?_)
  ring

/-- Different quotients of small counts have different nearest numbers, in the same order. -/
theorem nearest_lt {a b a' b' m m' : Nat} (hb0 : 0 < b) (hb0' : 0 < b') (hab : a ≤ b) (hab' : a' ≤ b') (hbb : b * b' < 2 ^ 24)
    (hlt : (a : ℚ) / b < (a' : ℚ) / b') (h : NearestSingle ((a : ℚ) / b) m) (h' : NearestSingle ((a' : ℚ) / b') m') : m < m' := by
  have hbq : (0 : ℚ) < b := by exact_mod_cast hb0
  have hbq' : (0 : ℚ) < b' := by exact_mod_cast hb0'
  have c1 := abs_le.1 (nearest_close (by positivity) (by rw [div_le_one hbq]; exact_mod_cast hab) h)
  have c2 := abs_le.1 (nearest_close (by positivity) (by rw [div_le_one hbq']; exact_mod_cast hab') h')
  have hgap : 1 / 2 ^ 24 < (a' : ℚ) / b' - (a : ℚ) / b := by
    rw [div_lt_div_iff₀ hbq hbq'] at hlt
    have hn : a * b' + 1 ≤ a' * b := by exact_mod_cast hlt
    have hn' : (a : ℚ) * b' + 1 ≤ a' * b := by exact_mod_cast hn
    rw [div_sub_div _ _ hbq'.ne' hbq.ne', div_lt_div_iff₀ (by norm_num) (by positivity)]
    have hbbq : (b : ℚ) * b' < 2 ^ 24 := by exact_mod_cast hbb
    have h1 : 1 * (2 ^ 24 : ℚ) ≤ (a' * b - b' * a) * 2 ^ 24 := mul_le_mul_of_nonneg_right (by linarith) (by norm_num)
    rw [one_mul] at h1 ⊢
    linarith [mul_comm (b : ℚ) b']
  have : (m : ℚ) / 2 ^ 149 < (m' : ℚ) / 2 ^ 149 := by
    norm_num at c1 c2 hgap ⊢
    linarith
  rw [div_lt_div_iff_of_pos_right (by norm_num)] at this
  exact_mod_cast this

/-- A single precision number is its own nearest number. -/
theorem nearest_exact {n m : Nat} (hn : IsMagnitude n) (h : NearestSingle ((n : ℚ) / 2 ^ 149) m) : m = n := by
  have h1 := h.2 n hn
  rw [sub_self, abs_zero] at h1
  have h2 := sub_eq_zero.1 (abs_eq_zero.1 (le_antisymm h1 (abs_nonneg _)))
  rw [div_left_inj' (by norm_num)] at h2
  exact Nat.cast_injective h2

theorem one_magnitude : IsMagnitude (2 ^ 149) := isMagnitude_pow (by norm_num)

theorem one_cast : (((2 ^ 149 : Nat) : Nat) : ℚ) / 2 ^ 149 = 1 := by
  rw [Nat.cast_pow, Nat.cast_ofNat]
  exact div_self (by norm_num)

/-- The nearest number is 1 only for the quotient 1. -/
theorem nearest_one {a b m : Nat} (hb0 : 0 < b) (hb : b < 2 ^ 24) (hab : a ≤ b) (h : NearestSingle ((a : ℚ) / b) m) : m ≤ 2 ^ 149 ∧ (m = 2 ^ 149 ↔ a = b) := by
  have hbq : (0 : ℚ) < b := Nat.cast_pos.2 hb0
  rcases hab.lt_or_eq with hlt | rfl
  · have hmag : IsMagnitude ((2 ^ 24 - 1) * 2 ^ 125) := ⟨2 ^ 24 - 1, 125, rfl, by norm_num, by norm_num⟩
    have h1 := h.2 _ hmag
    have e : (((2 ^ 24 - 1) * 2 ^ 125 : Nat) : ℚ) / 2 ^ 149 = 1 - 1 / 2 ^ 24 := by norm_num
    rw [e] at h1
    have hq : (a : ℚ) / b < 1 - 1 / 2 ^ 24 := by
      have hB : (b : ℚ) < 2 ^ 24 := by
        have : (b : ℚ) < ((2 ^ 24 : Nat) : ℚ) := Nat.cast_lt.2 hb
        rwa [Nat.cast_pow, Nat.cast_ofNat] at this
      have hA : (a : ℚ) + 1 ≤ b := by
        have : ((a + 1 : Nat) : ℚ) ≤ (b : ℚ) := Nat.cast_le.2 hlt
        rwa [Nat.cast_add, Nat.cast_one] at this
      have h2 : (a : ℚ) / b ≤ 1 - 1 / b := by
        have h4 : ((a : ℚ) + 1) / b ≤ 1 := by rw [div_le_one hbq]; exact hA
        rw [add_div] at h4
        linarith
      have h3 : (1 : ℚ) / 2 ^ 24 < 1 / b := one_div_lt_one_div_of_lt hbq hB
      linarith
    rw [abs_of_pos (sub_pos.2 hq)] at h1
    have h2 := (abs_le.1 h1).2
    have h3 : (m : ℚ) / 2 ^ 149 < 1 := by
      have : (0 : ℚ) < 1 / 2 ^ 24 := by norm_num
      linarith
    rw [div_lt_one (by norm_num)] at h3
    have h4 : m < 2 ^ 149 := by
      have e : (2 : ℚ) ^ 149 = ((2 ^ 149 : Nat) : ℚ) := by rw [Nat.cast_pow, Nat.cast_ofNat]
      rw [e] at h3
      exact Nat.cast_lt.1 h3
    exact ⟨h4.le, ⟨fun h' => absurd h' h4.ne, fun h' => absurd h' hlt.ne⟩⟩
  · rw [div_self hbq.ne', ← one_cast] at h
    have := nearest_exact one_magnitude h
    exact ⟨this.le, ⟨fun _ => rfl, fun _ => this⟩⟩

/-- The nearest number is 0 only for the quotient 0. -/
theorem nearest_zero {a b m : Nat} (hb0 : 0 < b) (hb : b < 2 ^ 24) (h : NearestSingle ((a : ℚ) / b) m) : m = 0 ↔ a = 0 := by
  have hbq : (0 : ℚ) < b := Nat.cast_pos.2 hb0
  constructor
  · rintro rfl
    by_contra ha
    have hmag : IsMagnitude (2 ^ 125) := isMagnitude_pow (by norm_num)
    have h1 := h.2 _ hmag
    have e : (((2 ^ 125 : Nat) : Nat) : ℚ) / 2 ^ 149 = 1 / 2 ^ 24 := by norm_num
    have hB : (b : ℚ) < 2 ^ 24 := by
      have : (b : ℚ) < ((2 ^ 24 : Nat) : ℚ) := Nat.cast_lt.2 hb
      rwa [Nat.cast_pow, Nat.cast_ofNat] at this
    have hA : (1 : ℚ) ≤ a := by
      have : ((1 : Nat) : ℚ) ≤ (a : ℚ) := Nat.cast_le.2 (Nat.pos_of_ne_zero ha)
      rwa [Nat.cast_one] at this
    have h2 : (1 : ℚ) / 2 ^ 24 < a / b := by
      refine lt_of_lt_of_le (one_div_lt_one_div_of_lt hbq hB) ?_
      exact div_le_div_of_nonneg_right hA hbq.le
    have h3 : (0 : ℚ) < 1 / 2 ^ 24 := by norm_num
    rw [e, Nat.cast_zero, zero_div, zero_sub, abs_neg, abs_of_pos (by linarith), abs_of_neg (by linarith)] at h1
    linarith
  · rintro rfl
    have h1 := h.2 0 ⟨0, 0, rfl, by norm_num, by norm_num⟩
    rw [Nat.cast_zero, zero_div, zero_div, sub_zero, sub_zero, abs_zero] at h1
    have h2 := abs_eq_zero.1 (le_antisymm h1 (abs_nonneg _))
    rw [div_eq_zero_iff] at h2
    rcases h2 with h2 | h2
    · exact Nat.cast_eq_zero.1 h2
    · norm_num at h2

/-- Reciprocals of different ranks below 2^23 have different nearest numbers. -/
theorem nearest_rank {i j m m' : Nat} (hi : 0 < i) (hij : i < j) (hj : j < 2 ^ 23) (h : NearestSingle (1 / (i : ℚ)) m) (h' : NearestSingle (1 / (j : ℚ)) m') :
    m' < m := by
  have hiq : (1 : ℚ) ≤ i := by
    have : ((1 : Nat) : ℚ) ≤ (i : ℚ) := Nat.cast_le.2 hi
    rwa [Nat.cast_one] at this
  have hijq : (i : ℚ) + 1 ≤ j := by
    have : ((i + 1 : Nat) : ℚ) ≤ (j : ℚ) := Nat.cast_le.2 hij
    rwa [Nat.cast_add, Nat.cast_one] at this
  have hjq : (j : ℚ) < 2 ^ 23 := by
    have : (j : ℚ) < ((2 ^ 23 : Nat) : ℚ) := Nat.cast_lt.2 hj
    rwa [Nat.cast_pow, Nat.cast_ofNat] at this
  have hbound : ∀ n : ℚ, 1 ≤ n → n < 2 ^ 23 → 1 / 2 ^ 100 ≤ 1 / n ∧ 1 / n ≤ 2 := by
    intro n h1 h2
    refine ⟨one_div_le_one_div_of_le (by linarith) (h2.le.trans (by norm_num)), ?_⟩
    have : 1 / n ≤ 1 := by rw [div_le_one (by linarith)]; exact h1
    linarith
  obtain ⟨b1, b2⟩ := hbound i hiq (by linarith)
  obtain ⟨b3, b4⟩ := hbound j (by linarith) hjq
  have c1 := (abs_le.1 (nearest_relative b1 b2 h)).1
  have c2 := (abs_le.1 (nearest_relative b3 b4 h')).2
  set x : ℚ := 1 / (i : ℚ) with hx
  set z : ℚ := 1 / (j : ℚ) with hz
  have hx0 : 0 < x := by positivity
  have hz0 : 0 < z := by positivity
  have ex : x * i = 1 := one_div_mul_cancel (by linarith)
  have ez : z * j = 1 := one_div_mul_cancel (by linarith)
  -- the gap is `z * x * (j - i)`
  have hgap : z * x ≤ x - z := by
    have e : x - z = z * x * (j - i) := by
      have : z * x * (j - i) = x * (z * j) - z * (x * i) := by ring
      rw [this, ez, ex, mul_one, mul_one]
    rw [e]
    exact le_mul_of_one_le_right (by positivity) (by linarith)
  have hz23 : 1 / 2 ^ 23 < z := one_div_lt_one_div_of_lt (by linarith) hjq
  have hzx : 1 / 2 ^ 23 * x < z * x := mul_lt_mul_of_pos_right hz23 hx0
  have hle : z ≤ x := by
    have : 0 < z * x := by positivity
    linarith
  have hlt : (m' : ℚ) / 2 ^ 149 < (m : ℚ) / 2 ^ 149 := by
    have e1 : z / 2 ^ 24 ≤ x / 2 ^ 24 := div_le_div_of_nonneg_right hle (by norm_num)
    have e2 : 1 / 2 ^ 23 * x = x / 2 ^ 24 + x / 2 ^ 24 := by ring
    linarith
  rw [div_lt_div_iff_of_pos_right (by norm_num)] at hlt
  exact Nat.cast_lt.1 hlt

/-! ### MAP -/

theorem mapLoopFloat_append (l : List ℚ) (v : ℚ) : mapLoopFloat (l ++ [v]) =
    if v > 0 then ((mapLoopFloat l).1 + 1, (mapLoopFloat l).2.1 + 1,
      double ((mapLoopFloat l).2.2 + double ((((mapLoopFloat l).2.1 + 1 : Nat) : ℚ) / (((mapLoopFloat l).1 + 1 : Nat) : ℚ))))
    else ((mapLoopFloat l).1 + 1, (mapLoopFloat l).2.1, (mapLoopFloat l).2.2) := by
  simp [mapLoopFloat, List.foldl_append]

theorem mapLoopFloat_counts (l : List ℚ) : (mapLoopFloat l).1 = l.length ∧ (mapLoopFloat l).2.1 = l.countP (fun v => decide (0 < v)) := by
  induction l using List.reverseRecOn with
  | nil => exact ⟨rfl, rfl⟩
  | append_singleton l v ih =>
    rw [mapLoopFloat_append, List.countP_append]
    split <;> rename_i h <;> simp [ih.1, ih.2, h]

theorem double_relative {x : ℚ} (h : 1 / 2 ^ 100 ≤ x) : |double x - x| ≤ x / 2 ^ 53 := by
  have hx : 0 < x := lt_of_lt_of_le (by norm_num) h
  have h1 : (1 : ℚ) / 2 ^ 1000 ≤ 1 / 2 ^ 100 := one_div_le_one_div_of_le (by norm_num) (pow_le_pow_right₀ (by norm_num) (by norm_num))
  have := double_error (x := x) (by rw [abs_of_pos hx]; exact h1.trans h)
  rwa [abs_of_pos hx] at this

theorem mapLoopFloat_error {l : List ℚ} (hl : l.length ≤ 2 ^ 40) :
    |(mapLoopFloat l).2.2 - sumPrecisions l| ≤ ((1 + 1 / 2 ^ 53) ^ (l.length + 1) - 1) * sumPrecisions l ∧ 0 ≤ (mapLoopFloat l).2.2 := by
  induction l using List.reverseRecOn with
  | nil => simp [mapLoopFloat, sumPrecisions]
  | append_singleton l v ih =>
    rw [List.length_append, List.length_singleton] at hl
    obtain ⟨ih1, ih2⟩ := ih (by omega)
    obtain ⟨c1, c2⟩ := mapLoopFloat_counts l
    rw [mapLoopFloat_append, sumPrecisions_append, List.length_append, List.length_singleton, c1, c2]
    have hS := sumPrecisions_nonneg l
    have hP : (1 : ℚ) + 1 / 2 ^ 53 ≤ (1 + 1 / 2 ^ 53) ^ (l.length + 1) := by
      have : ((1 : ℚ) + 1 / 2 ^ 53) ^ 1 ≤ (1 + 1 / 2 ^ 53) ^ (l.length + 1) := pow_le_pow_right₀ (by norm_num) (by omega)
      rwa [pow_one] at this
    rw [pow_succ _ (l.length + 1)]
    generalize ((1 : ℚ) + 1 / 2 ^ 53) ^ (l.length + 1) = P at ih1 hP ⊢
    generalize (mapLoopFloat l).2.2 = s at ih1 ih2 ⊢
    generalize sumPrecisions l = S at ih1 hS ⊢
    by_cases hv : 0 < v
    · rw [if_pos hv, if_pos hv]
      have et : (((l.countP (fun v => decide (0 < v)) + 1 : Nat) : ℚ) / ((l.length + 1 : Nat) : ℚ)) =
          ((l.countP (fun v => decide (0 < v)) : ℚ) + 1) / ((l.length : ℚ) + 1) := by push_cast; rfl
      rw [et]
      have ht : 1 / 2 ^ 41 ≤ ((l.countP (fun v => decide (0 < v)) : ℚ) + 1) / ((l.length : ℚ) + 1) := by
        have h1 : ((l.length : ℚ) + 1) ≤ 2 ^ 40 := by
          have : ((l.length + 1 : Nat) : ℚ) ≤ ((2 ^ 40 : Nat) : ℚ) := Nat.cast_le.2 hl
          rwa [Nat.cast_add, Nat.cast_one, Nat.cast_pow, Nat.cast_ofNat] at this
        have h2 : (0 : ℚ) ≤ l.countP (fun v => decide (0 < v)) := Nat.cast_nonneg _
        have h3 : (0 : ℚ) ≤ l.length := Nat.cast_nonneg _
        rw [div_le_div_iff₀ (by norm_num) (by linarith)]
        have : (1 : ℚ) * 2 ^ 41 ≤ ((l.countP (fun v => decide (0 < v)) : ℚ) + 1) * 2 ^ 41 := mul_le_mul_of_nonneg_right (by linarith) (by norm_num)
        norm_num at this h1 ⊢
        linarith
      generalize ((l.countP (fun v => decide (0 < v)) : ℚ) + 1) / ((l.length : ℚ) + 1) = t at ht ⊢
      have h41 : (1 : ℚ) / 2 ^ 100 ≤ 1 / 2 ^ 41 := by norm_num
      have ht0 : 0 < t := lt_of_lt_of_le (by norm_num) ht
      have d1 := double_relative (h41.trans ht)
      have d1' := abs_le.1 d1
      have hhalf : t / 2 ^ 53 ≤ t / 2 := div_le_div_of_nonneg_left ht0.le (by norm_num) (by norm_num)
      have hsum : |s + double t - (S + t)| ≤ (P - 1) * (S + t) := by
        have e : s + double t - (S + t) = (s - S) + (double t - t) := by ring
        rw [e]
        refine (abs_add_le _ _).trans ?_
        have : (1 / 2 ^ 53) * t ≤ (P - 1) * t := mul_le_mul_of_nonneg_right (by linarith) ht0.le
        have e2 : t / 2 ^ 53 = 1 / 2 ^ 53 * t := by ring
        have e3 : (P - 1) * (S + t) = (P - 1) * S + (P - 1) * t := by ring
        rw [e3]
        linarith
      have h42 : (1 : ℚ) / 2 ^ 100 ≤ 1 / 2 ^ 41 / 2 := by norm_num
      have ht2 : 1 / 2 ^ 41 / 2 ≤ t / 2 := div_le_div_of_nonneg_right ht (by norm_num)
      have d2 := double_relative (x := s + double t) (by linarith)
      refine ⟨?_, double_nonneg (by linarith)⟩
      have e : double (s + double t) - (S + t) = (double (s + double t) - (s + double t)) + (s + double t - (S + t)) := by ring
      rw [e]
      refine (abs_add_le _ _).trans ?_
      have h2 : s + double t ≤ P * (S + t) := by
        have := (abs_le.1 hsum).2
        linarith
      have h3 : (s + double t) / 2 ^ 53 ≤ P * (S + t) / 2 ^ 53 := div_le_div_of_nonneg_right h2 (by norm_num)
      have e2 : (P * (1 + 1 / 2 ^ 53) - 1) * (S + t) = (P - 1) * (S + t) + P * (S + t) / 2 ^ 53 := by ring
      rw [e2]
      linarith
    · rw [if_neg hv, if_neg hv, add_zero]
      refine ⟨ih1.trans ?_, ih2⟩
      refine mul_le_mul_of_nonneg_right ?_ hS
      have : P * 1 ≤ P * (1 + 1 / 2 ^ 53) := mul_le_mul_of_nonneg_left (by norm_num) (by norm_num at hP; linarith)
      linarith

theorem double_nat {n : Nat} (h : n < 2 ^ 53) : double (n : ℚ) = n := by
  have hd : IsDouble (n : ℚ) := ⟨n, 0, by rw [abs_of_nonneg (Int.natCast_nonneg _)]; exact_mod_cast h, by norm_num, by norm_num, by simp⟩
  have hlt : (n : ℚ) < 2 ^ 1000 := by
    have h1 : (n : ℚ) < ((2 ^ 53 : Nat) : ℚ) := Nat.cast_lt.2 h
    rw [Nat.cast_pow, Nat.cast_ofNat] at h1
    exact h1.trans (pow_lt_pow_right₀ (by norm_num) (by norm_num))
  have := (double_spec (Nat.cast_nonneg n) hlt).2 _ hd
  rw [sub_self, abs_zero] at this
  exact sub_eq_zero.1 (abs_eq_zero.1 (le_antisymm this (abs_nonneg _)))

/-- When the relevant documents come first nothing is rounded. -/
theorem mapLoopFloat_ideal {l : List ℚ} (hl : l.length < 2 ^ 53) (h : l.Pairwise (fun a b => 0 < b → 0 < a)) :
    (mapLoopFloat l).2.2 = (l.countP (fun v => decide (0 < v)) : ℚ) := by
  induction l using List.reverseRecOn with
  | nil => simp [mapLoopFloat]
  | append_singleton l v ih =>
    rw [List.length_append, List.length_singleton] at hl
    have hpw := List.pairwise_append.1 h
    have ih' := ih (by omega) hpw.1
    obtain ⟨c1, c2⟩ := mapLoopFloat_counts l
    rw [mapLoopFloat_append, List.countP_append]
    by_cases hv : 0 < v
    · rw [if_pos hv, c1, c2, ih']
      have hall : l.countP (fun v => decide (0 < v)) = l.length := by
        rw [List.countP_eq_length]
        intro a ha
        exact decide_eq_true (hpw.2.2 a ha v List.mem_cons_self hv)
      rw [hall, div_self (Nat.cast_ne_zero.2 (by omega))]
      have e1 : double 1 = 1 := by
        have := double_nat (n := 1) (by norm_num)
        rwa [Nat.cast_one] at this
      have e2 : (l.length : ℚ) + 1 = ((l.length + 1 : Nat) : ℚ) := by push_cast; rfl
      rw [e1, e2, double_nat hl]
      simp [hv]
    · rw [if_neg hv, ih']
      simp [hv]

theorem pow_small {u : ℚ} (hu : 0 ≤ u) : ∀ k : Nat, 2 * (k : ℚ) * u ≤ 1 → (1 + u) ^ k ≤ 1 + 2 * k * u
  | 0, _ => by simp
  | k + 1, h => by
    push_cast at h ⊢
    have h1 : 2 * (k : ℚ) * u ≤ 1 := by
      have e : 2 * ((k : ℚ) + 1) * u = 2 * k * u + 2 * u := by ring
      linarith
    have ih := pow_small hu k h1
    rw [pow_succ _ k]
    have h2 : (1 + u) ^ k * (1 + u) ≤ (1 + 2 * k * u) * (1 + u) := mul_le_mul_of_nonneg_right ih (by linarith)
    have h3 : 2 * (k : ℚ) * u * u ≤ 1 * u := mul_le_mul_of_nonneg_right h1 hu
    have e : (1 + 2 * (k : ℚ) * u) * (1 + u) = 1 + 2 * k * u + u + 2 * k * u * u := by ring
    have e2 : 1 + 2 * ((k : ℚ) + 1) * u = 1 + 2 * k * u + 2 * u := by ring
    linarith

theorem sumPrecisions_lower {l : List ℚ} (h : ∃ v ∈ l, 0 < v) : 1 / (l.length : ℚ) ≤ sumPrecisions l := by
  induction l using List.reverseRecOn with
  | nil => obtain ⟨v, hv, _⟩ := h; cases hv
  | append_singleton l v ih =>
    rw [sumPrecisions_append, List.length_append, List.length_singleton]
    push_cast
    have hS := sumPrecisions_nonneg l
    have hl : (0 : ℚ) ≤ l.length := Nat.cast_nonneg _
    by_cases hv : 0 < v
    · rw [if_pos hv]
      have h1 : (1 : ℚ) / (l.length + 1) ≤ ((l.countP (fun v => decide (0 < v)) : ℚ) + 1) / (l.length + 1) := by
        refine div_le_div_of_nonneg_right ?_ (by linarith)
        have : (0 : ℚ) ≤ l.countP (fun v => decide (0 < v)) := Nat.cast_nonneg _
        linarith
      linarith
    · rw [if_neg hv, add_zero]
      obtain ⟨w, hw, hw0⟩ := h
      rcases List.mem_append.1 hw with hw | hw
      · refine le_trans ?_ (ih ⟨w, hw, hw0⟩)
        have : (0 : ℚ) < l.length := Nat.cast_pos.2 (List.length_pos_of_mem hw)
        exact one_div_le_one_div_of_le this (by linarith)
      · rw [List.mem_singleton.1 hw] at hw0
        exact absurd hw0 hv

/-- The stored quotient of a sum of precisions. -/
theorem map_error {l : List ℚ} {N : Nat} (hl : l.length ≤ 2 ^ 20) (hN : l.countP (fun v => decide (0 < v)) ≤ N) (hN20 : N ≤ 2 ^ 20) (h : ∃ v ∈ l, 0 < v) :
    ∃ m : Nat, toSingle (double ((mapLoopFloat l).2.2 / N)) = some (m : Int) ∧
      |(m : ℚ) / 2 ^ 149 - sumPrecisions l / N| ≤ 1 / 2 ^ 23 * (sumPrecisions l / N) := by
  obtain ⟨e1, e2⟩ := mapLoopFloat_error (l := l) (hl.trans (by norm_num))
  have hk : ((l.length + 1 : Nat) : ℚ) ≤ 2 ^ 20 + 1 := by
    have : ((l.length + 1 : Nat) : ℚ) ≤ ((2 ^ 20 + 1 : Nat) : ℚ) := Nat.cast_le.2 (by omega)
    refine this.trans (le_of_eq ?_)
    norm_num
  have hP := pow_small (u := 1 / 2 ^ 53) (by norm_num) (l.length + 1) (by norm_num at hk ⊢; linarith)
  have hP2 : ((1 : ℚ) + 1 / 2 ^ 53) ^ (l.length + 1) ≤ 1 + 1 / 2 ^ 31 := by
    refine hP.trans ?_
    norm_num at hk ⊢
    linarith
  have hP1 : (1 : ℚ) ≤ (1 + 1 / 2 ^ 53) ^ (l.length + 1) := one_le_pow₀ (by norm_num)
  clear hP
  generalize ((1 : ℚ) + 1 / 2 ^ 53) ^ (l.length + 1) = P at e1 hP1 hP2
  have hcount : 0 < l.countP (fun v => decide (0 < v)) := by
    obtain ⟨v, hv, hv0⟩ := h
    exact List.countP_pos_iff.2 ⟨v, hv, by simpa using hv0⟩
  have hNpos : (0 : ℚ) < N := Nat.cast_pos.2 (by omega)
  have hN' : (N : ℚ) ≤ 2 ^ 20 := by
    have : (N : ℚ) ≤ ((2 ^ 20 : Nat) : ℚ) := Nat.cast_le.2 hN20
    rwa [Nat.cast_pow, Nat.cast_ofNat] at this
  have hlen : (0 : ℚ) < l.length := by
    obtain ⟨v, hv, _⟩ := h
    exact Nat.cast_pos.2 (List.length_pos_of_mem hv)
  have hlen' : (l.length : ℚ) ≤ 2 ^ 20 := by
    have : (l.length : ℚ) ≤ ((2 ^ 20 : Nat) : ℚ) := Nat.cast_le.2 hl
    rwa [Nat.cast_pow, Nat.cast_ofNat] at this
  have hS1 : 1 / 2 ^ 20 ≤ sumPrecisions l := (one_div_le_one_div_of_le hlen hlen').trans (sumPrecisions_lower h)
  have hS2 : sumPrecisions l ≤ N := (sumPrecisions_le l).trans (Nat.cast_le.2 hN)
  generalize sumPrecisions l = T at e1 hS1 hS2 ⊢
  generalize (mapLoopFloat l).2.2 = w at e1 e2 ⊢
  have hT0 : 0 < T := lt_of_lt_of_le (by norm_num) hS1
  have hA1 : T / N ≤ 1 := by rw [div_le_one hNpos]; exact hS2
  have hA0 : 1 / 2 ^ 40 ≤ T / N := by
    rw [div_le_div_iff₀ (by norm_num) hNpos]
    rw [one_mul]
    have h1 : (1 / 2 ^ 20 : ℚ) * 2 ^ 40 ≤ T * 2 ^ 40 := mul_le_mul_of_nonneg_right hS1 (by norm_num)
    have e : (1 / 2 ^ 20 : ℚ) * 2 ^ 40 = 2 ^ 20 := by norm_num
    linarith
  have hx : |w / N - T / N| ≤ (P - 1) * (T / N) := by
    rw [div_sub_div_same, abs_div, abs_of_pos hNpos, ← mul_div_assoc]
    exact div_le_div_of_nonneg_right e1 hNpos.le
  generalize T / N = A at hA1 hA0 hx ⊢
  generalize w / (N : ℚ) = x at hx ⊢
  have hx' := abs_le.1 hx
  have hPA : (P - 1) * A ≤ 1 / 2 ^ 31 * A := mul_le_mul_of_nonneg_right (by linarith) (by norm_num at hA0; linarith)
  have hxlow : 1 / 2 ^ 100 ≤ x := by
    norm_num at hA0 hPA ⊢
    linarith
  have hd := double_relative hxlow
  have hd' := abs_le.1 hd
  have hx0 : 0 < x := lt_of_lt_of_le (by norm_num) hxlow
  have hdlow : 1 / 2 ^ 100 ≤ double x := by
    norm_num at hd' hA0 hPA ⊢
    linarith
  have hdhigh : double x ≤ 2 := by
    norm_num at hd' hA1 hA0 hPA ⊢
    linarith
  obtain ⟨m, hm1, hm2⟩ := toSingle_nearest (q := double x) ((by norm_num : (0 : ℚ) ≤ 1 / 2 ^ 100).trans hdlow) hdhigh
  refine ⟨m, hm1, ?_⟩
  have hm3 := abs_le.1 (nearest_relative hdlow hdhigh hm2)
  rw [abs_le]
  norm_num at hm3 hd' hA0 hPA hx' ⊢
  constructor <;> linarith

end Verif.Metrics
