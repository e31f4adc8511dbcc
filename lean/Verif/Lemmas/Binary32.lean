/-
Rounding errors of binary32 numbers.
-/
import Verif.Py.Binary32
import Verif.Lemmas.Rounding

namespace Verif.Binary32
open Spec Ensemble

theorem nearest_error (x : ℚ) : |(nearest x : ℚ) - x| ≤ 1 / 2 := by
  have h1 := Int.floor_le x
  have h2 := Int.lt_floor_add_one x
  unfold nearest
  simp only
  split
  · rw [abs_le]; constructor <;> linarith
  · split
    · push_cast; rw [abs_le]; constructor <;> linarith
    · split
      · rw [abs_le]; constructor <;> linarith
      · push_cast; rw [abs_le]; constructor <;> linarith

theorem nearest_int (n : Int) : nearest (n : ℚ) = n := by
  unfold nearest
  simp

theorem grid_zero {x : ℚ} (h : ulp x = 0) : |(grid x : ℚ) - x| ≤ 1 / 2 := by
  unfold grid
  rw [h]
  simpa using nearest_error x

theorem grid_error {x : ℚ} (h : ulp x ≠ 0) : |(grid x : ℚ) - x| ≤ 1 / 2 ^ 24 * |x| := by
  have hu : (ulp x : Int) = Int.log 2 |x| - 23 := by
    unfold ulp at h ⊢
    omega
  have hx : 0 < |x| := by
    rw [abs_pos]
    rintro rfl
    simp [ulp] at h
  have hlog : ((2 : ℕ) : ℚ) ^ Int.log 2 |x| ≤ |x| := Int.zpow_log_le_self (by norm_num) hx
  have hpow : (2 : ℚ) ^ ulp x * 2 ^ 23 = ((2 : ℕ) : ℚ) ^ Int.log 2 |x| := by
    have : Int.log 2 |x| = ((ulp x + 23 : ℕ) : Int) := by push_cast; omega
    rw [this, zpow_natCast, pow_add]
    norm_num
  have hp : (0 : ℚ) < 2 ^ ulp x := by positivity
  have e : (grid x : ℚ) - x = ((nearest (x / 2 ^ ulp x) : ℚ) - x / 2 ^ ulp x) * 2 ^ ulp x := by
    unfold grid
    push_cast
    field_simp
  rw [e, abs_mul, abs_of_pos hp]
  have := mul_le_mul_of_nonneg_right (nearest_error (x / 2 ^ ulp x)) hp.le
  refine this.trans ?_
  rw [← hpow] at hlog
  have : (1 : ℚ) / 2 * 2 ^ ulp x = 1 / 2 ^ 24 * (2 ^ ulp x * 2 ^ 23) := by ring
  rw [this]
  exact mul_le_mul_of_nonneg_left hlog (by norm_num)

/-- The value of a number. -/
noncomputable def num : Option Int → ℝ
  | some a => (a : ℝ) / 2 ^ 149
  | none => 0

theorem round_finite {x : ℚ} (h : (round x).isSome = true) : round x = some (grid x) := by
  unfold round at h ⊢
  split
  · rfl
  · rename_i hc
    rw [if_neg hc] at h
    cases h

theorem add_finite {a b : Option Int} (h : (add a b).isSome = true) : ∃ x y, a = some x ∧ b = some y ∧ add a b = some (grid ((x + y : Int) : ℚ)) := by
  cases a with
  | none => cases b <;> simp [add] at h
  | some x =>
    cases b with
    | none => simp [add] at h
    | some y =>
      refine ⟨x, y, rfl, rfl, ?_⟩
      exact round_finite h

theorem mul_finite {a b : Option Int} (h : (mul a b).isSome = true) :
    ∃ x y, a = some x ∧ b = some y ∧ mul a b = some (grid ((x * y : Int) / 2 ^ 149)) := by
  cases a with
  | none => cases b <;> simp [mul] at h
  | some x =>
    cases b with
    | none => simp [mul] at h
    | some y =>
      refine ⟨x, y, rfl, rfl, ?_⟩
      exact round_finite h

theorem cast_error {a : Int} {x c : ℚ} (h : |(a : ℚ) - x| ≤ c) : |(a : ℝ) - (x : ℝ)| ≤ (c : ℝ) := by
  have : ((|(a : ℚ) - x| : ℚ) : ℝ) ≤ (c : ℝ) := by exact_mod_cast h
  simpa using this

theorem rounded : Rounded ops (fun a => a.isSome = true) num (1 / 2 ^ 24) (1 / 2 ^ 150) where
  u_nonneg := by norm_num
  η_nonneg := by norm_num
  zero := by simp [ops, num]
  add := by
    intro a b h
    obtain ⟨x, y, rfl, rfl, e⟩ := add_finite h
    refine ⟨rfl, rfl, ?_⟩
    change |num (add (some x) (some y)) - _| ≤ _
    rw [e]
    simp only [num]
    have hg : |((grid ((x + y : Int) : ℚ) : Int) : ℝ) - ((x : ℝ) + y)| ≤ 1 / 2 ^ 24 * |(x : ℝ) + y| := by
      by_cases h0 : ulp ((x + y : Int) : ℚ) = 0
      · have : grid ((x + y : Int) : ℚ) = x + y := by
          unfold grid
          rw [h0, pow_zero, pow_zero, div_one, mul_one, nearest_int]
        rw [this]
        push_cast
        rw [sub_self, abs_zero]
        positivity
      · have := cast_error (grid_error h0)
        push_cast at this ⊢
        exact this
    have e1 : ((grid ((x + y : Int) : ℚ) : Int) : ℝ) / 2 ^ 149 - ((x : ℝ) / 2 ^ 149 + (y : ℝ) / 2 ^ 149) =
        (((grid ((x + y : Int) : ℚ) : Int) : ℝ) - ((x : ℝ) + y)) / 2 ^ 149 := by ring
    have e2 : (x : ℝ) / 2 ^ 149 + (y : ℝ) / 2 ^ 149 = ((x : ℝ) + y) / 2 ^ 149 := by ring
    rw [e1, e2, abs_div, abs_div, abs_of_pos (by positivity : (0 : ℝ) < 2 ^ 149), ← mul_div_assoc]
    exact div_le_div_of_nonneg_right hg (by positivity)
  mul := by
    intro a b h
    obtain ⟨x, y, rfl, rfl, e⟩ := mul_finite h
    refine ⟨rfl, rfl, ?_⟩
    change |num (mul (some x) (some y)) - _| ≤ _
    rw [e]
    simp only [num]
    have hg : |((grid ((x * y : Int) / 2 ^ 149) : Int) : ℝ) - (x : ℝ) * y / 2 ^ 149| ≤ 1 / 2 ^ 24 * |(x : ℝ) * y / 2 ^ 149| + 1 / 2 := by
      by_cases h0 : ulp (((x * y : Int) : ℚ) / 2 ^ 149) = 0
      · have := cast_error (grid_zero h0)
        push_cast at this ⊢
        have h1 : (0 : ℝ) ≤ 1 / 2 ^ 24 * |(x : ℝ) * y / 2 ^ 149| := by positivity
        linarith
      · have := cast_error (grid_error h0)
        push_cast at this ⊢
        linarith
    have e1 : ((grid ((x * y : Int) / 2 ^ 149) : Int) : ℝ) / 2 ^ 149 - (x : ℝ) / 2 ^ 149 * ((y : ℝ) / 2 ^ 149) =
        (((grid ((x * y : Int) / 2 ^ 149) : Int) : ℝ) - (x : ℝ) * y / 2 ^ 149) / 2 ^ 149 := by ring
    have e2 : (x : ℝ) / 2 ^ 149 * ((y : ℝ) / 2 ^ 149) = ((x : ℝ) * y / 2 ^ 149) / 2 ^ 149 := by ring
    rw [e1, e2, abs_div, abs_div ((x : ℝ) * y / 2 ^ 149), abs_of_pos (by positivity : (0 : ℝ) < 2 ^ 149)]
    have := div_le_div_of_nonneg_right hg (by positivity : (0 : ℝ) ≤ 2 ^ 149)
    refine this.trans (le_of_eq ?_)
    ring
  le := by
    intro a b ha hb
    obtain ⟨x, rfl⟩ := Option.isSome_iff_exists.1 ha
    obtain ⟨y, rfl⟩ := Option.isSome_iff_exists.1 hb
    simp only [ops, le, num, decide_eq_true_iff]
    rw [div_le_div_iff_of_pos_right (by positivity)]
    exact_mod_cast Iff.rfl
  isOne := by
    intro a h
    simp only [ops, decide_eq_true_iff] at h
    subst h
    simp only [num]
    push_cast
    norm_num
  isZero := by
    intro a h
    simp only [ops, decide_eq_true_iff] at h
    subst h
    simp [num]

/-- Nothing overflows up to the largest power of two times 1 - 2^-24. -/
theorem round_isSome {x : ℚ} (h : |x| ≤ (1 - 1 / 2 ^ 24) * 2 ^ 277) : (round x).isSome = true := by
  have hlt : |(grid x : ℚ)| < 2 ^ 277 := by
    have htri : |(grid x : ℚ)| ≤ |(grid x : ℚ) - x| + |x| := by
      have : (grid x : ℚ) = ((grid x : ℚ) - x) + x := by ring
      calc |(grid x : ℚ)| = |((grid x : ℚ) - x) + x| := by rw [← this]
        _ ≤ _ := abs_add_le _ _
    have hP : (2 : ℚ) ^ 25 ≤ 2 ^ 277 := pow_le_pow_right₀ (by norm_num) (by norm_num)
    generalize (2 : ℚ) ^ 277 = P at h hP ⊢
    by_cases h0 : ulp x = 0
    · have := grid_zero h0
      norm_num at h hP
      linarith
    · have := grid_error h0
      norm_num at h hP this
      linarith
  have hi : |grid x| < 2 ^ (128 + 149) := by
    have : ((|grid x| : Int) : ℚ) < ((2 ^ 277 : Int) : ℚ) := by
      push_cast
      exact hlt
    exact_mod_cast this
  unfold round
  rw [if_pos hi]
  rfl

theorem noOverflow : NoOverflow ops (fun a => a.isSome = true) num ((1 - 1 / 2 ^ 24) * 2 ^ 128) where
  zero := rfl
  add := by
    intro a b ha hb h
    obtain ⟨x, rfl⟩ := Option.isSome_iff_exists.1 ha
    obtain ⟨y, rfl⟩ := Option.isSome_iff_exists.1 hb
    apply round_isSome
    simp only [num] at h
    rw [← add_div, abs_div, abs_of_pos (by positivity : (0 : ℝ) < 2 ^ 149), div_le_iff₀ (by positivity)] at h
    have h2 : |(x : ℝ) + y| ≤ (1 - 1 / 2 ^ 24) * 2 ^ 277 := h.trans (le_of_eq (by rw [mul_assoc, ← pow_add]))
    have h3 : ((|((x + y : Int) : ℚ)| : ℚ) : ℝ) ≤ (((1 - 1 / 2 ^ 24) * 2 ^ 277 : ℚ) : ℝ) := by
      push_cast
      exact h2
    exact_mod_cast h3
  mul := by
    intro a b ha hb h
    obtain ⟨x, rfl⟩ := Option.isSome_iff_exists.1 ha
    obtain ⟨y, rfl⟩ := Option.isSome_iff_exists.1 hb
    apply round_isSome
    simp only [num] at h
    have e : (x : ℝ) / 2 ^ 149 * ((y : ℝ) / 2 ^ 149) = ((x : ℝ) * y / 2 ^ 149) / 2 ^ 149 := by ring
    rw [e, abs_div ((x : ℝ) * y / 2 ^ 149), abs_of_pos (by positivity : (0 : ℝ) < 2 ^ 149), div_le_iff₀ (by positivity)] at h
    have h2 : |(x : ℝ) * y / 2 ^ 149| ≤ (1 - 1 / 2 ^ 24) * 2 ^ 277 := h.trans (le_of_eq (by rw [mul_assoc, ← pow_add]))
    have h3 : ((|((x * y : Int) : ℚ) / 2 ^ 149| : ℚ) : ℝ) ≤ (((1 - 1 / 2 ^ 24) * 2 ^ 277 : ℚ) : ℝ) := by
      push_cast
      exact h2
    exact_mod_cast h3

end Verif.Binary32
