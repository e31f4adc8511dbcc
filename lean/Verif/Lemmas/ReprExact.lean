/-
The single precision numbers that are changed when their shortest text is read in double precision: one number and its negative.

A decimal number n·10^K with at most eight digits can be moved to another single precision number only if it is extremely near, but not equal, to a
number M·2^(u-150) with M odd. For each K and u a convergent of the continued fraction of 10^K·2^(150-u) shows that there are no such n and M, with two
exceptions.
-/
import Verif.Lemmas.ReprText

namespace Verif.Decimal
open Svm Spec Binary32

/-- A convergent of the continued fraction of `a / b` with a denominator up to 20000000. -/
def convergent : Nat → Nat → Nat → Nat → Nat → Nat → Nat → Nat × Nat
  | 0, _, _, _, _, p, q => (p, q)
  | fuel + 1, a, b, p0, q0, p, q =>
    if b = 0 then (p, q)
    else if 20000000 < a / b * q + q0 then (p, q)
    else convergent fuel b (a % b) p q (a / b * p + p0) (a / b * q + q0)

/-- The numbers for which there is more to say. -/
def candidates : List (Nat × Int × Nat) := [(7038531, -32, 42), (14077062, -32, 43)]

/-- `p / q` shows that no multiple `n * A / B` with `n ≤ 2^24` is near an odd number. -/
def certOk (A B p q : Nat) (K : Int) (u : Nat) : Bool :=
  let E := (q * A - p * B) + (p * B - q * A)
  decide (0 < q) && decide (Nat.gcd p q = 1) && decide (2 ^ 24 * E * 244140625 + q * B ≤ B * 244140625) &&
    (decide (E = 0) || (List.range (B / (E * 244140625) + 1)).all (fun i =>
      decide (i % 2 = 0) || decide (p % 2 = 0) || decide (2 ^ 24 < i * q) || (decide (u ≠ 0) && decide (i * q * A < 2 ^ 24 * B)) ||
        decide (2 ^ 25 * B ≤ i * q * A) || decide ((i * q, K, u) ∈ candidates)))

def scaleUp (K : Int) : Nat := 10 ^ K.toNat * 2 ^ 150

def scaleDown (K : Int) (u : Nat) : Nat := 10 ^ (-K).toNat * 2 ^ u

def pairOk (K : Int) (u : Nat) : Bool :=
  decide (2 ^ 25 * scaleDown K u ≤ scaleUp K) || (decide (u ≠ 0) && decide (scaleUp K < scaleDown K u)) ||
    certOk (scaleUp K) (scaleDown K u) (convergent 40 (scaleUp K) (scaleDown K u) 0 1 1 0).1 (convergent 40 (scaleUp K) (scaleDown K u) 0 1 1 0).2 K u

theorem near_multiple {A B p q n M : Nat} (hB : 0 < B) (hq : 0 < q) (hpq : Nat.gcd p q = 1)
    (hc : (2 ^ 24 : Int) * |(q : Int) * A - p * B| * 244140625 + q * B ≤ B * 244140625) (hn : n ≤ 2 ^ 24)
    (he : |(n : Int) * A - M * B| * 244140625 < B) : ∃ a, n = a * q ∧ M = a * p := by
  have hB' : (0 : Int) < B := by exact_mod_cast hB
  have hq' : (0 : Int) < q := by exact_mod_cast hq
  have hn' : (n : Int) ≤ 2 ^ 24 := by exact_mod_cast hn
  have key : ((n : Int) * p - M * q) * B = q * (n * A - M * B) - n * (q * A - p * B) := by ring
  have habs : |(n : Int) * p - M * q| * B ≤ q * |(n : Int) * A - M * B| + 2 ^ 24 * |(q : Int) * A - p * B| := by
    calc |(n : Int) * p - M * q| * B = |((n : Int) * p - M * q) * B| := by rw [abs_mul, abs_of_pos hB']
      _ = |(q : Int) * (n * A - M * B) - n * (q * A - p * B)| := by rw [key]
      _ ≤ |(q : Int) * (n * A - M * B)| + |(n : Int) * (q * A - p * B)| := abs_sub _ _
      _ = q * |(n : Int) * A - M * B| + n * |(q : Int) * A - p * B| := by rw [abs_mul, abs_mul, abs_of_pos hq', abs_of_nonneg (Int.natCast_nonneg n)]
      _ ≤ _ := by
        have := mul_le_mul_of_nonneg_right hn' (abs_nonneg ((q : Int) * A - p * B))
        linarith
  have hlt : |(n : Int) * p - M * q| < 1 := by
    have h1 := mul_lt_mul_of_pos_left he hq'
    by_contra hcon
    rw [not_lt] at hcon
    have h2 := mul_le_mul_of_nonneg_right hcon hB'.le
    linarith
  have h0 : (n : Int) * p - M * q = 0 := by
    rw [← abs_eq_zero]
    have := abs_nonneg ((n : Int) * p - M * q)
    omega
  have h1 : n * p = M * q := by
    have : (n : Int) * p = M * q := by linarith
    exact_mod_cast this
  have hdvd : q ∣ n := by
    apply Nat.Coprime.dvd_of_dvd_mul_right (k := q) (n := p) (m := n)
    · exact (Nat.coprime_comm.1 hpq)
    · exact ⟨M, by rw [h1, mul_comm]⟩
  obtain ⟨a, ha⟩ := hdvd
  refine ⟨a, by rw [ha, mul_comm], ?_⟩
  subst ha
  have : M * q = a * p * q := by rw [← h1]; ring
  exact Nat.eq_of_mul_eq_mul_right hq this

theorem pairOk_sound {K : Int} {u n M : Nat} (h : pairOk K u = true) (hn0 : 0 < n) (hn : n ≤ 2 ^ 24) (hM : M % 2 = 1)
    (hne : n * scaleUp K ≠ M * scaleDown K u) (hlt : n * scaleUp K < 2 ^ 25 * scaleDown K u) (hge : u ≠ 0 → 2 ^ 24 * scaleDown K u ≤ n * scaleUp K)
    (he : |(n : Int) * scaleUp K - M * scaleDown K u| * 244140625 < scaleDown K u) : (n, K, u) ∈ candidates := by
  have hB : 0 < scaleDown K u := by unfold scaleDown; positivity
  unfold pairOk at h
  rw [Bool.or_eq_true, Bool.or_eq_true, decide_eq_true_eq, Bool.and_eq_true, decide_eq_true_eq, decide_eq_true_eq] at h
  generalize scaleUp K = A at *
  generalize scaleDown K u = B at *
  rcases h with (h | ⟨hu, h⟩) | h
  · exfalso
    have := Nat.mul_le_mul_right A hn0
    omega
  · exfalso
    have h1 := hge hu
    have h2 := Nat.mul_le_mul_right A hn
    omega
  · generalize (convergent 40 A B 0 1 1 0).1 = p at *
    generalize (convergent 40 A B 0 1 1 0).2 = q at *
    simp only [certOk, Bool.and_eq_true, Bool.or_eq_true, decide_eq_true_eq, List.all_eq_true, List.mem_range] at h
    obtain ⟨⟨⟨hq, hpq⟩, hc⟩, hall⟩ := h
    have hE : (((q * A - p * B) + (p * B - q * A) : Nat) : Int) = |(q : Int) * A - p * B| := by
      rcases le_total (q * A) (p * B) with h1 | h1
      · rw [Nat.sub_eq_zero_of_le h1, zero_add, Nat.cast_sub h1, abs_of_nonpos]
        · push_cast; ring
        · have : (q : Int) * A ≤ p * B := by exact_mod_cast h1
          omega
      · rw [Nat.sub_eq_zero_of_le h1, add_zero, Nat.cast_sub h1, abs_of_nonneg]
        · push_cast; ring
        · have : (p : Int) * B ≤ q * A := by exact_mod_cast h1
          omega
    generalize (q * A - p * B) + (p * B - q * A) = E at *
    have hc' : (2 ^ 24 : Int) * |(q : Int) * A - p * B| * 244140625 + q * B ≤ B * 244140625 := by
      rw [← hE]
      exact_mod_cast hc
    obtain ⟨a, rfl, rfl⟩ := near_multiple hB hq hpq hc' hn he
    have hea : |((a * q : Nat) : Int) * A - ((a * p : Nat) : Int) * B| = a * E := by
      rw [hE]
      have : ((a * q : Nat) : Int) * A - ((a * p : Nat) : Int) * B = a * ((q : Int) * A - p * B) := by push_cast; ring
      rw [this, abs_mul, abs_of_nonneg (Int.natCast_nonneg a)]
    rw [hea] at he
    have he' : a * E * 244140625 < B := by exact_mod_cast he
    rcases hall with hall | hall
    · exfalso
      subst hall
      rw [Nat.cast_zero, mul_zero, abs_eq_zero] at hea
      apply hne
      have : ((a * q : Nat) : Int) * A = ((a * p : Nat) : Int) * B := by linarith
      exact_mod_cast this
    · have hE0 : 0 < E := by
        rcases Nat.eq_zero_or_pos E with h0 | h0
        · exfalso
          rw [h0, Nat.cast_zero, mul_zero, abs_eq_zero] at hea
          apply hne
          have : ((a * q : Nat) : Int) * A = ((a * p : Nat) : Int) * B := by linarith
          exact_mod_cast this
        · exact h0
      have ha : a < B / (E * 244140625) + 1 := by
        have : a ≤ B / (E * 244140625) := by
          rw [Nat.le_div_iff_mul_le (by positivity)]
          rw [← mul_assoc]
          exact he'.le
        omega
      have hodd := Nat.odd_mul.1 (Nat.odd_iff.2 hM)
      rw [Nat.odd_iff, Nat.odd_iff] at hodd
      rcases hall a ha with ((((h | h) | h) | ⟨hu, h⟩) | h) | h
      · omega
      · omega
      · omega
      · have := hge hu
        omega
      · omega
      · exact h

theorem pairs_all : (List.range 93).all (fun k => (List.range 254).all (fun u => pairOk ((k : Int) - 53) u)) = true := by
  decide +kernel

theorem pairs_ok {K : Int} {u : Nat} (h1 : -53 ≤ K) (h2 : K ≤ 39) (hu : u < 254) : pairOk K u = true := by
  have h := pairs_all
  rw [List.all_eq_true] at h
  have h := h (K + 53).toNat (List.mem_range.2 (by omega))
  rw [List.all_eq_true] at h
  have h := h u (List.mem_range.2 hu)
  have e : (((K + 53).toNat : Nat) : Int) - 53 = K := by omega
  rw [e] at h
  exact h

/-! ### The printed number -/

theorem firstDigits_error {p : Nat} {v : ℚ} (hv : 0 < v) :
    |((firstDigits (p + 1) v).1 : ℚ) * 10 ^ ((firstDigits (p + 1) v).2 - p) - v| ≤ 10 ^ ((firstDigits (p + 1) v).2 - (p : Int)) / 2 := by
  have hten : (10 : ℚ) ≠ 0 := by norm_num
  obtain ⟨x, hx⟩ : ∃ x, x = Int.log 10 v := ⟨_, rfl⟩
  obtain ⟨y, hy⟩ : ∃ y, y = v * 10 ^ ((p : Int) - x) := ⟨_, rfl⟩
  have hpos' : (0 : ℚ) < 10 ^ (x - p) := zpow_pos (by norm_num) _
  have hy0 : 0 < y := by rw [hy]; exact mul_pos hv (zpow_pos (by norm_num) _)
  have hvy : v = y * 10 ^ (x - p) := by
    rw [hy, mul_assoc, ← zpow_add₀ hten]
    simp
  have hfd : firstDigits (p + 1) v = if (nearest y).toNat = 10 ^ (p + 1) then (10 ^ p, x + 1) else ((nearest y).toNat, x) := by
    unfold firstDigits
    simp only [← hx]
    have e : ((p + 1 : Nat) : Int) - 1 - x = (p : Int) - x := by push_cast; ring
    rw [e, ← hy, Nat.add_sub_cancel]
  have hnn : (0 : Int) ≤ nearest y := by
    have := (abs_le.1 (nearest_error y)).1
    have h1 : ((-1 : Int) : ℚ) < nearest y := by push_cast; linarith
    have h2 : (-1 : Int) < nearest y := by exact_mod_cast h1
    omega
  have hq : ((nearest y).toNat : ℚ) = (nearest y : ℚ) := by
    have : (((nearest y).toNat : Int) : ℚ) = (nearest y : ℚ) := by rw [Int.toNat_of_nonneg hnn]
    exact_mod_cast this
  have herr : |((nearest y).toNat : ℚ) * 10 ^ (x - p) - v| ≤ 10 ^ (x - p) / 2 := by
    have e : ((nearest y).toNat : ℚ) * 10 ^ (x - p) - v = ((nearest y : ℚ) - y) * 10 ^ (x - p) := by
      rw [hq]
      nth_rw 1 [hvy]
      ring
    rw [e, abs_mul, abs_of_pos hpos']
    have := mul_le_mul_of_nonneg_right (nearest_error y) hpos'.le
    linarith
  rw [hfd]
  split
  · rename_i heq
    rw [heq] at herr
    have e : (10 : ℚ) ^ (x + 1 - (p : Int)) = 10 * 10 ^ (x - (p : Int)) := by
      rw [show x + 1 - (p : Int) = 1 + (x - p) by ring, zpow_add₀ hten, zpow_one]
    have e' : ((10 ^ p : Nat) : ℚ) * 10 ^ (x + 1 - (p : Int)) = ((10 ^ (p + 1) : Nat) : ℚ) * 10 ^ (x - (p : Int)) := by
      rw [e]
      push_cast
      ring
    show |((10 ^ p : Nat) : ℚ) * 10 ^ (x + 1 - (p : Int)) - v| ≤ 10 ^ (x + 1 - (p : Int)) / 2
    rw [e', e]
    linarith
  · exact herr

theorem firstDigits_below {p : Nat} {v : ℚ} (hv : 0 < v) {b : Int} (hb : v < (10 : ℚ) ^ b) : (firstDigits p v).2 ≤ b := by
  have h1 : Int.log 10 v < b := by
    rw [← Int.lt_zpow_iff_log_lt (by norm_num) hv]
    exact_mod_cast hb
  unfold firstDigits
  simp only
  split
  · show Int.log 10 v + 1 ≤ b
    omega
  · exact h1.le

theorem scale_eq (K : Int) (u : Nat) : (scaleUp K : ℚ) = 2 * ((10 : ℚ) ^ K * 2 ^ 149 / 2 ^ u) * scaleDown K u := by
  have h10 : (10 : ℚ) ^ K.toNat = 10 ^ K * 10 ^ (-K).toNat := by
    rw [← zpow_natCast, ← zpow_natCast, ← zpow_add₀ (by norm_num)]
    congr 1
    omega
  have hu : (0 : ℚ) < 2 ^ u := by positivity
  unfold scaleUp scaleDown
  push_cast
  rw [h10]
  field_simp
  norm_num

/-- The one number which is changed. -/
def changed : Nat := 50228633449923608576

theorem printed_candidate {m : Nat} (hm : IsMagnitude m) (h0 : m ≠ 0) (hne : m ≠ changed)
    (h : printed m = (7038531 : Nat) * 10 ^ (-32 : Int) ∨ printed m = (14077062 : Nat) * 10 ^ (-32 : Int)) : False := by
  have hs := printed_single hm h0 false
  rcases h with h | h
  · rw [h] at hs
    have : single false (((7038531 : Nat) : ℚ) * 10 ^ (-32 : Int)) = .num false changed := by decide +kernel
    rw [this] at hs
    exact hne (Single.num.inj hs).2.symm
  · have hs' := hs
    rw [h] at hs'
    have : single false (((14077062 : Nat) : ℚ) * 10 ^ (-32 : Int)) = .num false 100457266899847217152 := by decide +kernel
    rw [this] at hs'
    have hm' := (Single.num.inj hs').2
    subst hm'
    exact absurd h (by decide +kernel)

/-- All other numbers are rounded to the same number directly and by way of double precision. -/
theorem printed_double {m : Nat} (hm : IsMagnitude m) (h0 : m ≠ 0) (hne : m ≠ changed) (neg : Bool) :
    single neg (double (printed m)) = single neg (printed m) := by
  have hv := magnitude_pos h0
  obtain ⟨h1, h2, -⟩ := firstDigits_spec (p := moreDigits m) hv
  have herr := firstDigits_error (p := moreDigits m) hv
  have hp8 := moreDigits_le m
  have hcand := printed_candidate hm h0 hne
  have hsingle := printed_single hm h0 false
  have hm277 := isMagnitude_lt hm
  have hx1 : (-45 : Int) ≤ (firstDigits (moreDigits m + 1) ((m : ℚ) / 2 ^ 149)).2 := by
    apply firstDigits_exponent hv
    have : (1 : ℚ) / 2 ^ 149 ≤ (m : ℚ) / 2 ^ 149 := by
      apply div_le_div_of_nonneg_right _ (by positivity)
      exact_mod_cast Nat.one_le_iff_ne_zero.2 h0
    refine le_trans ?_ this
    norm_num
  have hx2 : (firstDigits (moreDigits m + 1) ((m : ℚ) / 2 ^ 149)).2 ≤ 39 := by
    apply firstDigits_below hv
    have h3 : (m : ℚ) < 2 ^ 277 := by exact_mod_cast hm277
    rw [div_lt_iff₀ (by positivity)]
    refine lt_of_lt_of_le h3 ?_
    rw [show (277 : Nat) = 128 + 149 from rfl, pow_add]
    apply mul_le_mul_of_nonneg_right _ (by positivity)
    norm_num
  have hn0 : 0 < (firstDigits (moreDigits m + 1) ((m : ℚ) / 2 ^ 149)).1 := lt_of_lt_of_le (by positivity) h1
  have hpr : printed m = (firstDigits (moreDigits m + 1) (m / 2 ^ 149)).1 * 10 ^ ((firstDigits (moreDigits m + 1) (m / 2 ^ 149)).2 - moreDigits m) := rfl
  obtain ⟨K, hK⟩ : ∃ K, K = (firstDigits (moreDigits m + 1) ((m : ℚ) / 2 ^ 149)).2 - moreDigits m := ⟨_, rfl⟩
  rw [← hpr, ← hK] at herr
  rw [← hK] at hpr
  have hK1 : -53 ≤ K := by omega
  have hK2 : K ≤ 39 := by omega
  generalize (firstDigits (moreDigits m + 1) ((m : ℚ) / 2 ^ 149)).1 = n at *
  clear hx1 hx2 hK h1 h2 hp8
  generalize printed m = d at *
  have hn1 : (1 : ℚ) ≤ n := by exact_mod_cast hn0
  have hten : (0 : ℚ) < 10 ^ K := zpow_pos (by norm_num) _
  have hd0 : 0 < d := by rw [hpr]; exact mul_pos (by linarith) hten
  have hp149 : (0 : ℚ) < 2 ^ 149 := by positivity
  obtain ⟨X, hX⟩ : ∃ X, X = d * 2 ^ 149 := ⟨_, rfl⟩
  have hX0 : 0 < X := by rw [hX]; positivity
  -- the rounded number
  have hgrid : grid X < 2 ^ 277 ∧ grid X = m := by
    have hg0 : 0 ≤ grid X := by
      have := (grid_nonneg hX0.le).1
      unfold grid
      positivity
    unfold single Binary32.round at hsingle
    rw [← hX, abs_of_nonneg hg0] at hsingle
    by_cases hb : grid X < 2 ^ (128 + 149)
    · rw [if_pos hb] at hsingle
      have := (Single.num.inj hsingle).2
      exact ⟨hb, by omega⟩
    · rw [if_neg hb] at hsingle
      cases hsingle
  obtain ⟨hbig, hgm⟩ := hgrid
  have hp : (0 : ℚ) < 2 ^ ulp X := by positivity
  have hup := ulp_upper hX0.le
  have hXlt : X < 2 ^ 277 := by
    have := (grid_lt_iff hX0.le).1 hbig
    have h3 : (0 : ℚ) < 2 ^ 252 := by positivity
    generalize (2 : ℚ) ^ 277 = S at *
    generalize (2 : ℚ) ^ 252 = T at *
    linarith
  have hu254 : ulp X < 254 := by
    by_contra hcon
    have h3 := ulp_lower hX0.le (by omega)
    have h4 : (2 : ℚ) ^ 277 ≤ 2 ^ ulp X * 2 ^ 23 := by
      rw [← pow_add]
      exact pow_le_pow_right₀ (by norm_num) (by omega)
    exact absurd (h4.trans h3) (not_le.2 hXlt)
  have hd1000 : d < 2 ^ 1000 := by
    have h3 : d ≤ X := by
      rw [hX]
      exact le_mul_of_one_le_right hd0.le (one_le_pow₀ (by norm_num))
    exact lt_of_le_of_lt h3 (hXlt.trans_le (pow_le_pow_right₀ (by norm_num) (by norm_num)))
  have hdlow : (1 : ℚ) / 2 ^ 1000 ≤ d := by
    rw [hpr]
    have h3 : (10 : ℚ) ^ (-53 : Int) ≤ 10 ^ K := zpow_le_zpow_right₀ (by norm_num) hK1
    have h4 : (1 : ℚ) / 2 ^ 1000 ≤ 1 / 2 ^ 200 := one_div_le_one_div_of_le (by positivity) (pow_le_pow_right₀ (by norm_num) (by norm_num))
    have h5 : (1 : ℚ) / 2 ^ 200 ≤ 10 ^ (-53 : Int) := by norm_num
    calc (1 : ℚ) / 2 ^ 1000 ≤ 10 ^ K := h4.trans (h5.trans h3)
      _ ≤ n * 10 ^ K := le_mul_of_one_le_left hten.le hn1
  by_cases hmid : ∀ h : Int, (1 : ℚ) / 488281250 ≤ |X / 2 ^ ulp X - (h + 1 / 2)|
  · have hR : |double d * 2 ^ 149 - X| ≤ X / 2 ^ 53 := by
      have h1 := double_error (x := d) (by rw [abs_of_pos hd0]; exact hdlow)
      rw [abs_of_pos hd0] at h1
      have e : double d * 2 ^ 149 - X = (double d - d) * 2 ^ 149 := by rw [hX]; ring
      rw [e, abs_mul, abs_of_pos hp149, hX, mul_div_right_comm]
      exact mul_le_mul_of_nonneg_right h1 hp149.le
    have hround := round_stable hX0 hbig hR hmid
    unfold single
    rw [hround, hX]
  · push Not at hmid
    obtain ⟨h, hh⟩ := hmid
    obtain ⟨y, hy⟩ : ∃ y, y = X / 2 ^ ulp X := ⟨_, rfl⟩
    have hXy : X = y * 2 ^ ulp X := by rw [hy, div_mul_cancel₀ _ hp.ne']
    have hy24 : y < 2 ^ 24 := by
      rw [hy, div_lt_iff₀ hp, mul_comm]
      exact hup
    have hy0 : 0 < y := by rw [hy]; positivity
    rw [← hy] at hh
    have hh' := abs_lt.1 hh
    have hM0 : 0 ≤ h := by
      have : ((-1 : Int) : ℚ) < h := by push_cast; linarith
      have : (-1 : Int) < h := by exact_mod_cast this
      omega
    have hM24 : h < 2 ^ 24 := by
      have : (h : ℚ) < ((2 ^ 24 : Int) : ℚ) := by push_cast; linarith
      exact_mod_cast this
    by_cases heq : y = h + 1 / 2
    · -- exactly in the middle
      have hdbl : IsDouble d := by
        refine ⟨2 * h + 1, (ulp X : Int) - 150, ?_, by omega, by omega, ?_⟩
        · rw [abs_of_nonneg (by omega)]
          omega
        · have e : (2 : ℚ) ^ ((ulp X : Int) - 150) = 2 ^ ulp X / 2 ^ 150 := by
            rw [zpow_sub₀ (by norm_num), zpow_natCast, ← zpow_natCast (2 : ℚ) 150]
            norm_cast
          rw [e]
          push_cast
          rw [← mul_div_assoc, eq_div_iff (by positivity), show (150 : Nat) = 149 + 1 from rfl, pow_succ]
          linear_combination 2 * hXy - 2 * hX + 2 * 2 ^ ulp X * heq
      rw [double_exact hd0.le hd1000 hdbl]
    · exfalso
      -- the number of digits
      have hgy : (m : ℚ) = nearest y * 2 ^ ulp X := by
        have h3 : ((grid X : Int) : ℚ) = m := by rw [hgm]; push_cast; rfl
        rw [← h3, hy]
        unfold grid
        push_cast
        rfl
      have hdist : (1 : ℚ) / 2 - 1 / 488281250 ≤ |y - nearest y| := by
        have h3 := nearest_error y
        rcases le_or_gt (nearest y) h with h4 | h4
        · have h5 : (nearest y : ℚ) ≤ h := by exact_mod_cast h4
          exact le_trans (by linarith) (le_abs_self _)
        · have h5 : (h : ℚ) + 1 ≤ nearest y := by exact_mod_cast h4
          exact le_trans (by linarith) (neg_le_abs _)
      have hK10 : (1 - 1 / 244140625) * 2 ^ ulp X ≤ (10 : ℚ) ^ K * 2 ^ 149 := by
        have h3 : |d - (m : ℚ) / 2 ^ 149| * 2 ^ 149 = |y - nearest y| * 2 ^ ulp X := by
          have e : (d - (m : ℚ) / 2 ^ 149) * 2 ^ 149 = (y - nearest y) * 2 ^ ulp X := by
            rw [sub_mul, sub_mul, div_mul_cancel₀ _ hp149.ne', ← hX, ← hgy, ← hXy]
          rw [← abs_of_pos hp149, ← abs_mul, abs_of_pos hp149, e, abs_mul, abs_of_pos hp]
        have h4 := mul_le_mul_of_nonneg_right herr hp149.le
        have h5 := mul_le_mul_of_nonneg_right hdist hp.le
        rw [h3] at h4
        generalize (2 : ℚ) ^ 149 = S at *
        generalize (2 : ℚ) ^ ulp X = T at *
        linarith
      have hn24 : n ≤ 2 ^ 24 := by
        have h3 : (n : ℚ) * ((1 - 1 / 244140625) * 2 ^ ulp X) ≤ n * (10 ^ K * 2 ^ 149) := mul_le_mul_of_nonneg_left hK10 (by linarith)
        have h4 : (n : ℚ) * (10 ^ K * 2 ^ 149) = X := by rw [hX, hpr]; ring
        rw [h4] at h3
        have h5 : (n : ℚ) * (1 - 1 / 244140625) < 2 ^ 24 := by
          have h6 := lt_of_le_of_lt h3 hup
          have h7 : (n : ℚ) * (1 - 1 / 244140625) * 2 ^ ulp X < 2 ^ 24 * 2 ^ ulp X := by
            rw [mul_comm (2 ^ ulp X) ((2 : ℚ) ^ 24)] at h6
            rw [mul_assoc]
            exact h6
          exact lt_of_mul_lt_mul_right h7 hp.le
        have h6 : (n : ℚ) < ((2 ^ 24 + 1 : Nat) : ℚ) := by push_cast; linarith
        have h7 : n < 2 ^ 24 + 1 := by exact_mod_cast h6
        omega
      have hB0 : (0 : ℚ) < scaleDown K (ulp X) := by
        have : 0 < scaleDown K (ulp X) := by unfold scaleDown; positivity
        exact_mod_cast this
      have hA : (n : ℚ) * scaleUp K = 2 * y * scaleDown K (ulp X) := by
        rw [scale_eq K (ulp X), hy, hX, hpr]
        ring
      have hMh : ((2 * h + 1).toNat : Int) = 2 * h + 1 := Int.toNat_of_nonneg (by omega)
      have hMq : (((2 * h + 1).toNat : Nat) : ℚ) = 2 * h + 1 := by
        have : ((((2 * h + 1).toNat : Nat) : Int) : ℚ) = 2 * h + 1 := by rw [hMh]; push_cast; rfl
        exact_mod_cast this
      have hmem := pairOk_sound (K := K) (u := ulp X) (n := n) (M := (2 * h + 1).toNat) (pairs_ok hK1 hK2 hu254) hn0 hn24 (by omega) ?_ ?_ ?_ ?_
      · simp only [candidates, List.mem_cons, Prod.mk.injEq, List.not_mem_nil, or_false] at hmem
        rcases hmem with ⟨hn, hk, -⟩ | ⟨hn, hk, -⟩
        · exact hcand (.inl (by rw [hpr, hn, hk]))
        · exact hcand (.inr (by rw [hpr, hn, hk]))
      · intro hcon
        have h3 := congrArg (Nat.cast (R := ℚ)) hcon
        push_cast at h3
        rw [hA, hMq] at h3
        have := mul_right_cancel₀ hB0.ne' h3
        exact heq (by linarith)
      · have h3 : (n : ℚ) * scaleUp K < 2 ^ 25 * scaleDown K (ulp X) := by
          rw [hA]
          apply mul_lt_mul_of_pos_right _ hB0
          linarith
        rw [← Nat.cast_lt (α := ℚ)]
        push_cast
        exact h3
      · intro hu
        have h4 : (2 : ℚ) ^ 23 ≤ y := by
          rw [hy, le_div_iff₀ hp, mul_comm]
          exact ulp_lower hX0.le hu
        have h3 : (2 : ℚ) ^ 24 * scaleDown K (ulp X) ≤ n * scaleUp K := by
          rw [hA]
          apply mul_le_mul_of_nonneg_right _ hB0.le
          linarith
        rw [← Nat.cast_le (α := ℚ)]
        push_cast
        exact h3
      · have h3 : |(n : ℚ) * scaleUp K - ((2 * h + 1).toNat : Nat) * scaleDown K (ulp X)| * 244140625 < scaleDown K (ulp X) := by
          rw [hA, hMq, ← sub_mul, abs_mul, abs_of_pos hB0]
          have e : 2 * y - (2 * (h : ℚ) + 1) = 2 * (y - (h + 1 / 2)) := by ring
          rw [e, abs_mul, abs_of_pos (by norm_num : (0 : ℚ) < 2)]
          have h5 := mul_lt_mul_of_pos_right hh hB0
          linarith
        rw [← Int.cast_lt (R := ℚ)]
        push_cast
        exact h3

end Verif.Decimal
