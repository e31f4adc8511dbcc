/-
Single precision arithmetic with signed zeros, infinities and NaN has small rounding errors; so have the numbers read from texts.
-/
import Verif.Lemmas.SingleOrder
import Verif.Lemmas.Binary32

namespace Verif.Decimal
open Spec Ensemble Binary32

/-- The number in units of 2^-149. -/
def toB : Single → Option Int
  | .num neg m => some (signed neg m)
  | _ => none

/-- Finite numbers. -/
def SingleFinite (a : Single) : Prop := (toB a).isSome = true

/-- The value of a finite number. -/
noncomputable def singleNum (a : Single) : ℝ := Binary32.num (toB a)

theorem grid_sign {x : ℚ} (h : x < 0) : grid x ≤ 0 := by
  have h1 : x / 2 ^ ulp x ≤ ((0 : Int) : ℚ) := by
    rw [Int.cast_zero]
    exact div_nonpos_of_nonpos_of_nonneg h.le (by positivity)
  have h2 : ((⌊x / 2 ^ ulp x⌋ : Int) : ℚ) ≤ x / 2 ^ ulp x := Int.floor_le _
  have h3 := (nearest_between h2 h1).2
  unfold grid
  exact mul_nonpos_of_nonpos_of_nonneg h3 (by positivity)

theorem grid_pos {x : ℚ} (h : 0 ≤ x) : 0 ≤ grid x := by
  have := (grid_nonneg h).1
  unfold grid
  positivity

theorem toB_rounded (neg : Bool) (x : ℚ) : toB (rounded neg x) = Binary32.round x := by
  unfold rounded
  by_cases h0 : x = 0
  · rw [if_pos h0, h0]
    cases neg <;> decide +kernel
  · rw [if_neg h0]
    unfold Binary32.round
    by_cases hg : |grid x| < 2 ^ (128 + 149)
    · simp only [if_pos hg, toB, signed]
      congr 1
      by_cases hx : x < 0
      · have := grid_sign hx
        rw [decide_eq_true hx, if_pos rfl]
        omega
      · have := grid_pos (not_lt.1 hx)
        rw [decide_eq_false hx, if_neg (by simp)]
        omega
    · simp only [if_neg hg, toB]

theorem toB_add (a b : Single) : toB (singleAdd a b) = Binary32.add (toB a) (toB b) := by
  cases a with
  | nan s => cases b <;> rfl
  | inf s =>
    cases b with
    | inf s' =>
      simp only [singleAdd]
      split <;> rfl
    | _ => rfl
  | num s m =>
    cases b with
    | num s' n => exact toB_rounded _ _
    | _ => rfl

theorem toB_mul (a b : Single) : toB (singleMul a b) = Binary32.mul (toB a) (toB b) := by
  cases a with
  | nan s => cases b <;> rfl
  | inf s =>
    cases b with
    | num s' n =>
      simp only [singleMul]
      split <;> rfl
    | _ => rfl
  | num s m =>
    cases b with
    | num s' n => exact toB_rounded _ _
    | inf s' =>
      simp only [singleMul]
      split <;> rfl
    | nan s' => rfl

theorem singleRounded : Rounded singleOps SingleFinite singleNum (1 / 2 ^ 24) (1 / 2 ^ 150) where
  u_nonneg := by norm_num
  η_nonneg := by norm_num
  zero := by simp [singleOps, singleNum, toB, signed, Binary32.num]
  add := by
    intro a b h
    have e : toB (singleOps.add a b) = Binary32.ops.add (toB a) (toB b) := toB_add a b
    unfold SingleFinite at h ⊢
    unfold singleNum
    rw [e] at h ⊢
    exact Binary32.rounded.add _ _ h
  mul := by
    intro a b h
    have e : toB (singleOps.mul a b) = Binary32.ops.mul (toB a) (toB b) := toB_mul a b
    unfold SingleFinite at h ⊢
    unfold singleNum
    rw [e] at h ⊢
    exact Binary32.rounded.mul _ _ h
  le := by
    intro a b ha hb
    have := Binary32.rounded.le (toB a) (toB b) ha hb
    unfold singleNum
    rw [← this]
    cases a with
    | num s m =>
      cases b with
      | num s' n => rfl
      | _ => simp [SingleFinite, toB] at hb
    | _ => simp [SingleFinite, toB] at ha
  isOne := by
    intro a h
    simp only [singleOps, decide_eq_true_iff] at h
    subst h
    simp only [singleNum, toB, signed, Binary32.num]
    push_cast
    norm_num
  isZero := by
    intro a h
    simp only [singleOps, decide_eq_true_iff] at h
    rcases h with rfl | rfl <;> simp [singleNum, toB, signed, Binary32.num]

theorem singleNoOverflow : NoOverflow singleOps SingleFinite singleNum ((1 - 1 / 2 ^ 24) * 2 ^ 128) where
  zero := rfl
  add := by
    intro a b ha hb h
    unfold SingleFinite
    rw [show toB (singleOps.add a b) = Binary32.ops.add (toB a) (toB b) from toB_add a b]
    exact Binary32.noOverflow.add _ _ ha hb h
  mul := by
    intro a b ha hb h
    unfold SingleFinite
    rw [show toB (singleOps.mul a b) = Binary32.ops.mul (toB a) (toB b) from toB_mul a b]
    exact Binary32.noOverflow.mul _ _ ha hb h

/-- A double is near the number, in absolute or in relative terms. -/
theorem double_near {q : ℚ} (h : 0 ≤ q) : |double q - q| ≤ q / 2 ^ 53 + 1 / 2 ^ 1000 := by
  have hpos : (0 : ℚ) ≤ 1 / 2 ^ 1000 := by positivity
  by_cases hc : 1 / 2 ^ 1000 ≤ q
  · have := double_error (x := q) (by rwa [abs_of_nonneg h])
    rw [abs_of_nonneg h] at this
    exact this.trans (le_add_of_nonneg_right hpos)
  · have hlt := not_le.1 hc
    have h1 : (1 : ℚ) / 2 ^ 1000 < 2 ^ 1000 := by
      rw [div_lt_iff₀ (by positivity), ← pow_add]
      exact one_lt_pow₀ (by norm_num) (by norm_num)
    have h2 := (double_spec h (hlt.trans h1)).2 0 ⟨0, 0, by norm_num, by norm_num, by norm_num, by norm_num⟩
    rw [zero_sub, abs_neg, abs_of_nonneg h] at h2
    exact (h2.trans hlt.le).trans (le_add_of_nonneg_left (div_nonneg h (by norm_num)))

theorem mag_near {q : ℚ} (h : 0 ≤ q) {m : Nat} (hm : mag q = some m) : |(m : ℚ) / 2 ^ 149 - q| ≤ (1 / 2 ^ 24 + 1 / 2 ^ 52) * q + 1 / 2 ^ 149 := by
  have hd := double_near h
  have hd0 := double_nonneg h
  have hp : (0 : ℚ) < 2 ^ 149 := by positivity
  have hX : 0 ≤ double q * 2 ^ 149 := mul_nonneg hd0 hp.le
  have hk : ((m : Nat) : ℚ) = ((grid (double q * 2 ^ 149) : Int) : ℚ) := by
    unfold mag Binary32.round at hm
    split at hm
    · simp only [Option.map_some, Option.some.injEq] at hm
      rw [← hm, ← Int.cast_natCast, Int.natAbs_of_nonneg (grid_pos hX)]
    · simp at hm
  have hg : |((grid (double q * 2 ^ 149) : Int) : ℚ) - double q * 2 ^ 149| ≤ 1 / 2 ^ 24 * (double q * 2 ^ 149) + 1 / 2 := by
    have hn : (0 : ℚ) ≤ 1 / 2 ^ 24 * (double q * 2 ^ 149) := mul_nonneg (by norm_num) hX
    by_cases h0 : ulp (double q * 2 ^ 149) = 0
    · exact (grid_zero h0).trans (le_add_of_nonneg_left hn)
    · have := grid_error h0
      rw [abs_of_nonneg hX] at this
      linarith
  have h1 : |(m : ℚ) / 2 ^ 149 - double q| ≤ 1 / 2 ^ 24 * double q + 1 / 2 ^ 150 := by
    rw [hk]
    have e : ((grid (double q * 2 ^ 149) : Int) : ℚ) / 2 ^ 149 - double q = (((grid (double q * 2 ^ 149) : Int) : ℚ) - double q * 2 ^ 149) / 2 ^ 149 := by
      rw [sub_div, mul_div_assoc, div_self hp.ne', mul_one]
    rw [e, abs_div, abs_of_pos hp, div_le_iff₀ hp]
    have e2 : (1 / 2 ^ 24 * double q + 1 / 2 ^ 150) * 2 ^ 149 = 1 / 2 ^ 24 * (double q * 2 ^ 149) + (1 / 2 : ℚ) := by
      rw [add_mul, mul_assoc]
      norm_num
    rw [e2]
    exact hg
  have hη : (1 : ℚ) / 2 ^ 1000 ≤ 1 / 2 ^ 160 := one_div_le_one_div_of_le (by positivity) (pow_le_pow_right₀ (by norm_num) (by norm_num))
  have hd' : |double q - q| ≤ q / 2 ^ 53 + 1 / 2 ^ 160 := hd.trans (by linarith)
  clear hd hη hg hX hk
  have h2 := abs_le.1 hd'
  have h3 := abs_le.1 h1
  rw [abs_le]
  norm_num at h2 h3 ⊢
  constructor <;> linarith

/-- A decimal number that is not too large is read with a small error. -/
theorem narrow_near {x : Signed} (h0 : 0 ≤ x.2) (hf : SingleFinite (narrow x)) :
    |singleNum (narrow x) - (exactValue x : ℝ)| ≤ (1 / 2 ^ 24 + 1 / 2 ^ 52) * |(exactValue x : ℝ)| + 1 / 2 ^ 149 := by
  obtain ⟨s, q⟩ := x
  simp only at h0
  rw [narrow_eq] at hf ⊢
  simp only at hf ⊢
  cases hm : mag q with
  | none => rw [hm] at hf; simp [SingleFinite, withSign, toB] at hf
  | some m =>
    have h1 := mag_near h0 hm
    have h2 : |(m : ℝ) / 2 ^ 149 - (q : ℝ)| ≤ (1 / 2 ^ 24 + 1 / 2 ^ 52) * (q : ℝ) + 1 / 2 ^ 149 := by
      have := (Rat.cast_le (K := ℝ)).2 h1
      rw [Rat.cast_abs] at this
      push_cast at this
      exact this
    have hq : (0 : ℝ) ≤ (q : ℝ) := by exact_mod_cast h0
    cases s
    · simp only [singleNum, withSign, toB, signed, Binary32.num, exactValue, Bool.false_eq_true, ↓reduceIte, abs_of_nonneg hq]
      simpa using h2
    · simp only [singleNum, withSign, toB, signed, Binary32.num, exactValue, ↓reduceIte]
      push_cast
      rw [abs_neg, abs_of_nonneg hq, neg_div, show -((m : ℝ) / 2 ^ 149) - -(q : ℝ) = -((m : ℝ) / 2 ^ 149 - q) by ring, abs_neg]
      exact h2

end Verif.Decimal
