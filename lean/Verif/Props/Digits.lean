/-
Property C12: nine significant digits preserve single precision numbers.
-/
import Verif.Lemmas.Digits

namespace Verif.Props
open Spec

/-- C12: every finite single precision number, printed with 9 significant digits, read as double precision number and narrowed, is the number
itself and no other. -/
theorem C12_nine_digits {k : Int} (hk : F32Finite k) {d r : ℚ} (hp : Prints 9 (f32Val k) d) (hr : ReadsDouble d r) :
    Narrows r k ∧ ∀ k', Narrows r k' → k' = k := by
  by_cases h0 : k = 0
  · subst h0
    rw [f32Val_zero] at hp
    have hd : d = 0 := by
      rcases hp with ⟨_, h⟩ | ⟨m, e, _, h1, _, _⟩
      · exact h
      · have : (0 : ℚ) < 10 ^ 8 * 10 ^ e := mul_pos (by norm_num) (zpow_pos (by norm_num) _)
        norm_num at h1
        linarith
    have hr0 : r = 0 := by
      have := hr.2 0 ⟨0, 0, by norm_num, by norm_num, by norm_num, by norm_num⟩
      rw [hd] at this
      simpa using this
    exact narrows_unique hk (.inr (by rw [hr0, f32Val_zero]))
  · have hlo := f32Val_ne_zero h0
    have hhi := f32Val_le hk
    have hpos : 0 < |f32Val k| := lt_of_lt_of_le (by positivity) hlo
    have hd := prints_error hp
    have htri : |d| ≤ |d - f32Val k| + |f32Val k| := by
      have := abs_add_le (d - f32Val k) (f32Val k)
      simpa using this
    have htri2 : |f32Val k| ≤ |d - f32Val k| + |d| := by
      have := abs_add_le (f32Val k - d) d
      rw [abs_sub_comm] at this
      simpa using this
    have hd2 : |d| ≤ 2 * |f32Val k| := by
      have : |f32Val k| / (2 * 10 ^ 8) ≤ |f32Val k| := div_le_self hpos.le (by norm_num)
      linarith
    have hd3 : |f32Val k| / 2 ≤ |d| := by
      have : |f32Val k| / (2 * 10 ^ 8) ≤ |f32Val k| / 2 := by
        apply div_le_div_of_nonneg_left hpos.le (by norm_num) (by norm_num)
      linarith
    have hr2 := readsDouble_error hr (by
      refine le_trans ?_ hd3
      refine le_trans ?_ (div_le_div_of_nonneg_right hlo (by norm_num))
      norm_num) (by
      refine hd2.trans ((mul_le_mul_of_nonneg_left hhi (by norm_num)).trans ?_)
      norm_num)
    refine narrows_unique hk (.inl ?_)
    have h1 : |r - f32Val k| ≤ |r - d| + |d - f32Val k| := abs_sub_le _ _ _
    have h2 : |d| / 2 ^ 53 ≤ 2 * |f32Val k| / 2 ^ 53 := div_le_div_of_nonneg_right hd2 (by positivity)
    have h3 : |f32Val k| / (2 * 10 ^ 8) + 2 * |f32Val k| / 2 ^ 53 < |f32Val k| / 2 ^ 26 := by
      rw [show |f32Val k| / (2 * 10 ^ 8) + 2 * |f32Val k| / 2 ^ 53 = |f32Val k| * (1 / (2 * 10 ^ 8) + 2 / 2 ^ 53) by ring,
        show |f32Val k| / 2 ^ 26 = |f32Val k| * (1 / 2 ^ 26) by ring]
      apply mul_lt_mul_of_pos_left _ hpos
      norm_num
    linarith

/-- The same for labels, which are read as single precision numbers at once. -/
theorem C12_nine_digits_label {k : Int} (hk : F32Finite k) {d : ℚ} (hp : Prints 9 (f32Val k) d) :
    Narrows d k ∧ ∀ k', Narrows d k' → k' = k := by
  apply narrows_unique hk
  have hd := prints_error hp
  by_cases h0 : |f32Val k| = 0
  · right
    rw [h0] at hd
    have : |d - f32Val k| = 0 := le_antisymm (by simpa using hd) (abs_nonneg _)
    have := abs_eq_zero.1 this
    linarith
  · left
    have hpos : 0 < |f32Val k| := lt_of_le_of_ne (abs_nonneg _) (Ne.symm h0)
    refine lt_of_le_of_lt hd ?_
    apply div_lt_div_of_pos_left hpos (by norm_num) (by norm_num)

/-- The value 2^40 = 1099511627776 is the float with ordinal 167 * 2^23. -/
theorem f32Val_2_40 : f32Val (167 * 2 ^ 23) = 2 ^ 40 := by
  unfold f32Val
  rw [show f32 (167 * 2 ^ 23) = 2 ^ 189 from by unfold f32 f32Nat; norm_num; simp only [Int.reduceToNat]; norm_num]
  norm_num

/-- The hypotheses of C12 hold for 2^40, printed as 1.09951163e12, which differs from it by 2224. -/
example : F32Finite (167 * 2 ^ 23) ∧ Prints 9 (f32Val (167 * 2 ^ 23)) 1099511630000 ∧ ReadsDouble 1099511630000 1099511630000 ∧
    f32Val (167 * 2 ^ 23) ≠ 1099511630000 := by
  refine ⟨⟨by norm_num, by norm_num⟩, .inr ⟨109951163, 4, ?_, ?_, ?_, ?_⟩, ⟨⟨1099511630000, 0, ?_, ?_, ?_, ?_⟩, ?_⟩, ?_⟩
  · norm_num
  · rw [f32Val_2_40]; norm_num [abs_of_pos]
  · rw [f32Val_2_40]; norm_num [abs_of_pos]
  · rw [f32Val_2_40]; norm_num [abs_of_pos]
  · norm_num
  · norm_num
  · norm_num
  · norm_num
  · intro x _; simp
  · rw [f32Val_2_40]; norm_num

/-- Eight digits would not be enough: 1000 + 2^-14 and 1000 + 2^-13 are both printed as 1000.0001. -/
theorem C12_eight_digits_not_enough : ∃ j k : Int, j ≠ k ∧ F32Finite j ∧ F32Finite k ∧
    Prints 8 (f32Val j) (10000001 / 10000) ∧ Prints 8 (f32Val k) (10000001 / 10000) := by
  have h1 : f32Val (136 * 2 ^ 23 + 7995393) = 1000 + 1 / 2 ^ 14 := by
    unfold f32Val
    rw [show f32 (136 * 2 ^ 23 + 7995393) = (2 ^ 23 + 7995393) * 2 ^ 135 from by unfold f32 f32Nat; norm_num; simp only [Int.reduceToNat]; norm_num]
    norm_num
  have h2 : f32Val (136 * 2 ^ 23 + 7995394) = 1000 + 1 / 2 ^ 13 := by
    unfold f32Val
    rw [show f32 (136 * 2 ^ 23 + 7995394) = (2 ^ 23 + 7995394) * 2 ^ 135 from by unfold f32 f32Nat; norm_num; simp only [Int.reduceToNat]; norm_num]
    norm_num
  have hz : (10 : ℚ) ^ (-4 : Int) = 1 / 10000 := by norm_num
  refine ⟨136 * 2 ^ 23 + 7995393, 136 * 2 ^ 23 + 7995394, by norm_num, ⟨by norm_num, by norm_num⟩, ⟨by norm_num, by norm_num⟩,
    .inr ⟨10000001, -4, ?_, ?_, ?_, ?_⟩, .inr ⟨10000001, -4, ?_, ?_, ?_, ?_⟩⟩
  all_goals rw [hz]
  all_goals first
    | (rw [h1]; norm_num [abs_of_pos]; done)
    | (rw [h2]; norm_num [abs_of_pos]; done)
    | (rw [h1]; norm_num [abs_of_pos, abs_le]; done)
    | (rw [h2]; norm_num [abs_of_pos, abs_le]; done)
    | (norm_num; done)

end Verif.Props
