/-
Lemmas on error bounds of printed and read numbers.
-/
import Verif.Spec.Digits
import Mathlib.Data.Int.Log
import Mathlib.Algebra.Order.Round
import Mathlib.Tactic.Positivity
import Mathlib.Tactic.NormNum
import Mathlib.Tactic.FieldSimp

namespace Verif
open Spec

theorem f32Nat_lt (k : Nat) : f32Nat k < 2 ^ 24 * 2 ^ (k / 2 ^ 23 - 1) := by
  unfold f32Nat
  have hm : k % 2 ^ 23 < 2 ^ 23 := Nat.mod_lt _ (by norm_num)
  split
  · rename_i h
    rw [h]
    norm_num at hm ⊢
    omega
  · apply Nat.mul_lt_mul_of_pos_right _ (by positivity)
    norm_num at hm ⊢
    omega

/-- The distance to the next float below. -/
theorem f32Nat_gap {j k : Nat} (h : j < k) : f32Nat k ≤ 2 ^ 25 * (f32Nat k - f32Nat j) := by
  obtain ⟨i, rfl⟩ : ∃ i, k = i + 1 := ⟨k - 1, by omega⟩
  have h1 := f32Nat_succ i
  have h2 : f32Nat j ≤ f32Nat i := f32Nat_strictMono.monotone (by omega)
  have h3 := f32Nat_lt (i + 1)
  have h4 : 2 ^ ((i + 1) / 2 ^ 23 - 1) ≤ 2 * 2 ^ (i / 2 ^ 23 - 1) := by
    rw [← Nat.pow_succ']
    apply Nat.pow_le_pow_right (by norm_num)
    have : (i + 1) / 2 ^ 23 ≤ i / 2 ^ 23 + 1 := by
      have : (i + 2 ^ 23) / 2 ^ 23 = i / 2 ^ 23 + 1 := Nat.add_div_right _ (by norm_num)
      rw [← this]
      exact Nat.div_le_div_right (by norm_num)
    omega
  have h5 : 2 ^ (i / 2 ^ 23 - 1) ≤ f32Nat (i + 1) - f32Nat j := by omega
  calc f32Nat (i + 1) ≤ 2 ^ 24 * 2 ^ ((i + 1) / 2 ^ 23 - 1) := h3.le
    _ ≤ 2 ^ 24 * (2 * 2 ^ (i / 2 ^ 23 - 1)) := Nat.mul_le_mul_left _ h4
    _ = 2 ^ 25 * 2 ^ (i / 2 ^ 23 - 1) := by rw [← Nat.mul_assoc, ← Nat.pow_succ]
    _ ≤ 2 ^ 25 * (f32Nat (i + 1) - f32Nat j) := Nat.mul_le_mul_left _ h5

theorem f32_gap_nonneg {k : Nat} {j : Int} (h : j ≠ k) : f32 k ≤ 2 ^ 25 * |f32 j - f32 k| := by
  rw [f32_of_nonneg]
  rcases lt_or_ge j 0 with hj | hj
  · have h1 : f32 j < 0 := by
      have := f32_lt.2 hj
      rwa [show f32 0 = 0 by decide] at this
    rw [abs_of_neg (by omega)]
    have : (0 : Int) ≤ f32Nat k := by omega
    omega
  · obtain ⟨j, rfl⟩ := Int.eq_ofNat_of_zero_le hj
    rw [f32_of_nonneg]
    rcases Nat.lt_or_gt_of_ne (show j ≠ k by omega) with hlt | hlt
    · have h1 := f32Nat_gap hlt
      have h2 := f32Nat_strictMono hlt
      rw [abs_of_neg (by omega)]
      omega
    · have h1 := f32Nat_gap hlt
      have h2 := f32Nat_strictMono hlt
      rw [abs_of_pos (by omega)]
      omega

/-- Different floats are at least the 2^-25th part apart. -/
theorem f32_gap {j k : Int} (h : j ≠ k) : |f32 k| ≤ 2 ^ 25 * |f32 j - f32 k| := by
  have hnn : ∀ k : Nat, 0 ≤ f32 (k : Int) := fun k => by rw [f32_of_nonneg]; omega
  rcases lt_or_ge k 0 with hk | hk
  · obtain ⟨n, rfl⟩ : ∃ n : Nat, k = -(n : Int) := ⟨k.natAbs, by omega⟩
    have := f32_gap_nonneg (k := n) (j := -j) (by omega)
    rw [f32_neg] at this
    rw [f32_neg, abs_neg, abs_of_nonneg (hnn n)]
    rwa [show f32 j - -f32 ↑n = -(-f32 j - f32 ↑n) by ring, abs_neg]
  · obtain ⟨n, rfl⟩ := Int.eq_ofNat_of_zero_le hk
    have := f32_gap_nonneg (k := n) (j := j) h
    rwa [abs_of_nonneg (hnn n)]

theorem f32Val_gap {j k : Int} (h : j ≠ k) : |f32Val k| ≤ 2 ^ 25 * |f32Val j - f32Val k| := by
  have := f32_gap h
  have hq : (|(f32 k : ℚ)|) ≤ 2 ^ 25 * |(f32 j : ℚ) - f32 k| := by exact_mod_cast this
  unfold f32Val
  rw [← sub_div, abs_div, abs_div, ← mul_div_assoc]
  exact div_le_div_of_nonneg_right hq (abs_nonneg _)

theorem f32Val_zero : f32Val 0 = 0 := by
  unfold f32Val
  rw [show f32 0 = 0 by decide]
  simp

theorem f32Val_ne_zero {k : Int} (h : k ≠ 0) : 1 / 2 ^ 149 ≤ |f32Val k| := by
  have h1 : f32 k ≠ 0 := by
    intro h0
    rw [← show f32 0 = 0 by decide] at h0
    exact h (f32_strictMono.injective h0)
  unfold f32Val
  rw [abs_div, abs_of_pos (show (0 : ℚ) < 2 ^ 149 by positivity)]
  apply div_le_div_of_nonneg_right _ (by positivity)
  have : 1 ≤ |f32 k| := Int.one_le_abs h1
  exact_mod_cast this

theorem f32Nat_max : f32Nat (255 * 2 ^ 23 - 1) = (2 ^ 24 - 1) * 2 ^ 253 := by
  unfold f32Nat
  norm_num

theorem f32Val_le {k : Int} (h : F32Finite k) : |f32Val k| ≤ 2 ^ 128 - 2 ^ 104 := by
  have h1 : |f32 k| ≤ (2 ^ 24 - 1) * 2 ^ 253 := by
    unfold F32Finite at h
    have hm := f32Nat_max
    have hle : ∀ n : Nat, n ≤ 255 * 2 ^ 23 - 1 → (f32Nat n : Int) ≤ (2 ^ 24 - 1) * 2 ^ 253 := by
      intro n hn
      have := f32Nat_strictMono.monotone hn
      rw [hm] at this
      have h2 : ((f32Nat n : Nat) : Int) ≤ (((2 ^ 24 - 1) * 2 ^ 253 : Nat) : Int) := by exact_mod_cast this
      refine h2.trans (le_of_eq ?_)
      norm_num
    rcases lt_or_ge k 0 with hk | hk
    · obtain ⟨n, rfl⟩ : ∃ n : Nat, k = -(n : Int) := ⟨k.natAbs, by omega⟩
      rw [f32_neg, abs_neg, f32_of_nonneg, abs_of_nonneg (by omega)]
      exact hle n (by norm_num at h ⊢; omega)
    · obtain ⟨n, rfl⟩ := Int.eq_ofNat_of_zero_le hk
      rw [f32_of_nonneg, abs_of_nonneg (by omega)]
      exact hle n (by norm_num at h ⊢; omega)
  unfold f32Val
  rw [abs_div, abs_of_pos (show (0 : ℚ) < 2 ^ 149 by positivity), div_le_iff₀ (by positivity)]
  have : |(f32 k : ℚ)| ≤ (2 ^ 24 - 1) * 2 ^ 253 := by exact_mod_cast h1
  refine this.trans (le_of_eq ?_)
  norm_num

/-- A number within the 2^-26th part of a float is narrowed to it, and only to it. -/
theorem narrows_unique {k : Int} {r : ℚ} (hk : F32Finite k) (h : |r - f32Val k| < |f32Val k| / 2 ^ 26 ∨ r = f32Val k) :
    Narrows r k ∧ ∀ k', Narrows r k' → k' = k := by
  have hle : |r - f32Val k| ≤ |f32Val k| / 2 ^ 26 := by
    rcases h with h | h
    · exact h.le
    · rw [h, sub_self, abs_zero]; positivity
  have hclose : ∀ j, j ≠ k → |f32Val k - r| < |f32Val j - r| := by
    intro j hj
    have hgap := f32Val_gap hj
    have htri : |f32Val j - f32Val k| ≤ |f32Val j - r| + |r - f32Val k| := abs_sub_le _ _ _
    rw [abs_sub_comm (f32Val k) r]
    rcases h with h | h
    · have : |f32Val k| / 2 ^ 26 * 2 ≤ |f32Val j - f32Val k| := by
        rw [show |f32Val k| / 2 ^ 26 * 2 = |f32Val k| / 2 ^ 25 by ring, div_le_iff₀ (by positivity)]
        linarith
      linarith
    · rw [h, sub_self, abs_zero]
      apply abs_pos.2
      intro h0
      have h1 : f32Val j = f32Val k := by linarith
      unfold f32Val at h1
      rw [div_left_inj' (by positivity)] at h1
      exact hj (f32_strictMono.injective (by exact_mod_cast h1))
  refine ⟨⟨hk, ?_, ?_⟩, ?_⟩
  · have hmax := f32Val_le hk
    have h1 : |r| ≤ |r - f32Val k| + |f32Val k| := by
      have := abs_add_le (r - f32Val k) (f32Val k)
      simpa using this
    have h2 : |r| ≤ |f32Val k| / 2 ^ 26 + |f32Val k| := by linarith
    have h3 : |f32Val k| / 2 ^ 26 ≤ (2 ^ 128 - 2 ^ 104) / 2 ^ 26 := div_le_div_of_nonneg_right hmax (by positivity)
    refine lt_of_le_of_lt (h2.trans (add_le_add h3 hmax)) ?_
    norm_num
  · intro j hj
    by_cases he : j = k
    · rw [he]
    · exact (hclose j he).le
  · intro k' hk'
    by_contra hne
    have h1 := hclose k' hne
    have h2 := hk'.2.2 k hk
    linarith

/-- Reading as double precision has a relative error of at most 2^-53 in the range considered. -/
theorem readsDouble_error {d r : ℚ} (h : ReadsDouble d r) (hlo : 1 / 2 ^ 200 ≤ |d|) (hhi : |d| ≤ 2 ^ 200) : |r - d| ≤ |d| / 2 ^ 53 := by
  have hpos : 0 < |d| := lt_of_lt_of_le (by positivity) hlo
  obtain ⟨e, he⟩ : ∃ e : Int, e = Int.log 2 |d| - 52 := ⟨_, rfl⟩
  have h1 : (2 : ℚ) ^ (e + 52) ≤ |d| := by
    have := Int.zpow_log_le_self (b := 2) (by norm_num) hpos
    rw [he, sub_add_cancel]
    exact_mod_cast this
  have h2 : |d| < (2 : ℚ) ^ (e + 53) := by
    have := Int.lt_zpow_succ_log_self (b := 2) (by norm_num) |d|
    rw [show e + 53 = Int.log 2 |d| + 1 by omega]
    exact_mod_cast this
  have hp : (0 : ℚ) < 2 ^ e := zpow_pos (by norm_num) _
  have he1 : e ≤ 148 := by
    have : (2 : ℚ) ^ (e + 52) ≤ 2 ^ (200 : Int) := h1.trans (by exact_mod_cast hhi)
    rw [zpow_le_zpow_iff_right₀ (by norm_num)] at this
    omega
  have he2 : -253 ≤ e := by
    have : (2 : ℚ) ^ (-200 : Int) < 2 ^ (e + 53) := by
      refine lt_of_le_of_lt ?_ h2
      refine le_trans (le_of_eq ?_) hlo
      rw [zpow_neg, one_div]
      norm_cast
    rw [zpow_lt_zpow_iff_right₀ (by norm_num)] at this
    omega
  have hx : |d / 2 ^ e - round (d / 2 ^ e)| ≤ 1 / 2 := abs_sub_round _
  have hxd : |(round (d / 2 ^ e) : ℚ) * 2 ^ e - d| ≤ 2 ^ e / 2 := by
    have : (round (d / 2 ^ e) : ℚ) * 2 ^ e - d = -((d / 2 ^ e - round (d / 2 ^ e)) * 2 ^ e) := by
      field_simp
      ring
    rw [this, abs_neg, abs_mul, abs_of_pos hp]
    calc |d / 2 ^ e - round (d / 2 ^ e)| * 2 ^ e ≤ 1 / 2 * 2 ^ e := mul_le_mul_of_nonneg_right hx hp.le
      _ = 2 ^ e / 2 := by ring
  have hm : |round (d / 2 ^ e)| ≤ 2 ^ 53 := by
    have h3 : |d / 2 ^ e| < 2 ^ 53 := by
      rw [abs_div, abs_of_pos hp, div_lt_iff₀ hp]
      rwa [zpow_add₀ (by norm_num), mul_comm] at h2
    have h4 : |(round (d / 2 ^ e) : ℚ)| < 2 ^ 53 + 1 := by
      have := abs_sub_abs_le_abs_sub ((round (d / 2 ^ e) : ℤ) : ℚ) (d / 2 ^ e)
      rw [abs_sub_comm] at this
      linarith
    have h5 : |round (d / 2 ^ e)| < 2 ^ 53 + 1 := by exact_mod_cast h4
    omega
  have hdbl : IsDouble ((round (d / 2 ^ e) : ℚ) * 2 ^ e) := by
    rcases lt_or_eq_of_le hm with hlt | heq
    · exact ⟨_, e, hlt, by omega, by omega, rfl⟩
    · rcases abs_choice (round (d / 2 ^ e)) with ha | ha
      · refine ⟨2 ^ 52, e + 1, by norm_num, by omega, by omega, ?_⟩
        rw [← ha, heq, zpow_add₀ (by norm_num)]
        push_cast
        ring
      · refine ⟨-2 ^ 52, e + 1, by norm_num, by omega, by omega, ?_⟩
        rw [show round (d / 2 ^ e) = -2 ^ 53 by omega, zpow_add₀ (by norm_num)]
        push_cast
        ring
  calc |r - d| ≤ 2 ^ e / 2 := (h.2 _ hdbl).trans hxd
    _ = 2 ^ (e + 52) / 2 ^ 53 := by
      rw [zpow_add₀ (by norm_num)]
      have : ((2 : ℚ) ^ (52 : Int)) = 2 ^ 52 := by norm_cast
      rw [this]
      ring
    _ ≤ |d| / 2 ^ 53 := div_le_div_of_nonneg_right h1 (by positivity)

/-- Nine digits have a relative error of at most 5e-9. -/
theorem prints_error {v d : ℚ} (h : Prints 9 v d) : |d - v| ≤ |v| / (2 * 10 ^ 8) := by
  rcases h with ⟨rfl, rfl⟩ | ⟨m, e, _, h1, _, h3⟩
  · simp
  · have hp : (0 : ℚ) < 10 ^ e := zpow_pos (by norm_num) _
    refine h3.trans ?_
    rw [div_le_div_iff₀ (by norm_num) (by norm_num)]
    have : (10 : ℚ) ^ (9 - 1 : Nat) = 10 ^ 8 := by norm_num
    rw [this] at h1
    linarith

end Verif
