/-
The bit arithmetic of the topological analysis.
-/
import Verif.Model.Topology
import Mathlib.Tactic.IntervalCases
import Mathlib.Tactic.NormNum
import Mathlib.Tactic.Ring

namespace Verif
open Ensemble

theorem msbMask_toNat {n : Nat} (h : n < 6) : (msbMask n).toNat = (2 ^ 2 ^ n - 1) <<< 2 ^ n := by
  interval_cases n <;> rfl

theorem msbShift_eq {n : Nat} (h : n < 6) : msbShift n = 2 ^ n := by
  interval_cases n <;> rfl

theorem and_high {v k : Nat} (h : v < 2 ^ (2 * k)) : v &&& ((2 ^ k - 1) <<< k) = (v >>> k) <<< k := by
  apply Nat.eq_of_testBit_eq
  intro i
  simp only [Nat.testBit_and, Nat.testBit_shiftLeft, Nat.testBit_two_pow_sub_one, Nat.testBit_shiftRight]
  by_cases hi : k ≤ i
  · simp only [hi, decide_true, Bool.true_and]
    rw [show k + (i - k) = i by omega]
    by_cases h2 : i - k < k
    · simp [h2]
    · have : v.testBit i = false := Nat.testBit_lt_two_pow (lt_of_lt_of_le h (Nat.pow_le_pow_right (by norm_num) (by omega)))
      simp [this]
  · simp [hi]

theorem or_multiple {r n : Nat} (h : 2 ^ (n + 1) ∣ r) : r ||| 2 ^ n = r + 2 ^ n := by
  obtain ⟨c, rfl⟩ := h
  have := Nat.two_pow_add_eq_or_of_lt (i := n + 1) (b := 2 ^ n) (Nat.pow_lt_pow_right (by norm_num) (by omega)) c
  exact this.symm

/-- The loop adds the position of the highest bit. -/
theorem msbLoop_spec : ∀ (n : Nat), n ≤ 6 → ∀ (v : Word) (r : Nat), 0 < v.toNat → v.toNat < 2 ^ 2 ^ n → v.toNat < 2 ^ 63 → 2 ^ n ∣ r →
    ∃ e, msbLoop n v r = r + e ∧ 2 ^ e ≤ v.toNat ∧ v.toNat < 2 ^ (e + 1)
  | 0, _, v, r, h0, h1, _, _ => ⟨0, rfl, by omega, by omega⟩
  | n + 1, hn, v, r, h0, h1, h2, hr => by
    have hand : (v &&& msbMask n).toNat = (v.toNat >>> 2 ^ n) <<< 2 ^ n := by
      rw [BitVec.toNat_and, msbMask_toNat (by omega)]
      apply and_high
      rwa [pow_succ, Nat.mul_comm] at h1
    have hiff : v &&& msbMask n ≠ 0 ↔ 2 ^ 2 ^ n ≤ v.toNat := by
      rw [Ne, ← BitVec.toNat_inj, hand, Nat.shiftRight_eq_div_pow, Nat.shiftLeft_eq]
      rw [show (0 : Word).toNat = 0 from rfl, Nat.mul_eq_zero]
      have hp : 0 < 2 ^ 2 ^ n := by positivity
      rw [Nat.div_eq_zero_iff]
      omega
    rw [msbLoop]
    by_cases hc : 2 ^ 2 ^ n ≤ v.toNat
    · rw [if_pos (hiff.2 hc), msbShift_eq (by omega), or_multiple hr]
      have hp : 0 < 2 ^ 2 ^ n := by positivity
      have hs : (v.sshiftRight (2 ^ n)).toNat = v.toNat / 2 ^ 2 ^ n := by
        rw [BitVec.toNat_sshiftRight_of_msb_false, Nat.shiftRight_eq_div_pow]
        rw [BitVec.msb_eq_false_iff_two_mul_lt]
        omega
      have hlt : v.toNat / 2 ^ 2 ^ n < 2 ^ 2 ^ n := by
        rw [Nat.div_lt_iff_lt_mul hp, ← Nat.pow_add, ← Nat.two_mul]
        rwa [pow_succ, Nat.mul_comm] at h1
      have hpos : 0 < v.toNat / 2 ^ 2 ^ n := Nat.div_pos hc hp
      obtain ⟨e, he1, he2, he3⟩ := msbLoop_spec n (by omega) (v.sshiftRight (2 ^ n)) (r + 2 ^ n) (by rw [hs]; exact hpos)
        (by rw [hs]; exact hlt) (by rw [hs]; exact lt_of_le_of_lt (Nat.div_le_self _ _) h2)
        (Nat.dvd_add (Nat.dvd_trans (Nat.pow_dvd_pow _ (by omega)) hr) (Nat.dvd_refl _))
      rw [hs] at he2 he3
      refine ⟨2 ^ n + e, by rw [he1]; omega, ?_, ?_⟩
      · rw [Nat.pow_add, Nat.mul_comm]
        exact (Nat.le_div_iff_mul_le hp).1 he2
      · rw [Nat.add_assoc, Nat.pow_add, Nat.mul_comm]
        exact (Nat.div_lt_iff_lt_mul hp).1 he3
    · rw [if_neg (fun hne => hc (hiff.1 hne))]
      exact msbLoop_spec n (by omega) v r h0 (by omega) h2 (Nat.dvd_trans (Nat.pow_dvd_pow _ (by omega)) hr)

/-- `most_significant_bit` is the logarithm below 2^63. -/
theorem mostSignificantBit_eq {v : Word} {e : Nat} (h1 : 2 ^ e ≤ v.toNat) (h2 : v.toNat < 2 ^ (e + 1)) (h3 : v.toNat < 2 ^ 63) :
    mostSignificantBit v = e := by
  have hp : 0 < 2 ^ e := by positivity
  obtain ⟨e', he, h4, h5⟩ := msbLoop_spec 6 le_rfl v 0 (by omega) (by
    have : (2 : Nat) ^ 63 ≤ 2 ^ 2 ^ 6 := Nat.pow_le_pow_right (by norm_num) (by norm_num)
    omega) h3 (Nat.dvd_zero _)
  unfold mostSignificantBit
  rw [he, Nat.zero_add]
  have a : e < e' + 1 := (Nat.pow_lt_pow_iff_right (by norm_num)).1 (lt_of_le_of_lt h1 h5)
  have b : e' < e + 1 := (Nat.pow_lt_pow_iff_right (by norm_num)).1 (lt_of_le_of_lt h4 h2)
  omega

/-- The word of a number. -/
theorem toNat_ofNat_lt {x : Nat} (h : x < 2 ^ 64) : (BitVec.ofNat 64 x).toNat = x := by
  rw [BitVec.toNat_ofNat, Nat.mod_eq_of_lt h]

theorem word_two_pow : ∀ n : Nat, (2 ^ n : Word) = BitVec.ofNat 64 (2 ^ n)
  | 0 => rfl
  | n + 1 => by
    rw [BitVec.pow_succ, word_two_pow n, Nat.pow_succ, BitVec.ofNat_mul]
    rfl

/-- The entry of a heap index: level and position. -/
theorem toEntry_heap {level pos n : Nat} (hl : level < 63) (hp : pos < 2 ^ level) :
    toEntry (BitVec.ofNat 64 (2 ^ level - 1 + pos), n) = ⟨level, pos, n⟩ := by
  have hpow : 0 < 2 ^ level := by positivity
  have hle : 2 ^ (level + 1) ≤ 2 ^ 63 := Nat.pow_le_pow_right (by norm_num) (by omega)
  have hsucc : 2 ^ (level + 1) = 2 * 2 ^ level := Nat.pow_succ'
  have h1 : (BitVec.ofNat 64 (2 ^ level - 1 + pos) + 1 : Word) = BitVec.ofNat 64 (2 ^ level + pos) := by
    apply BitVec.eq_of_toNat_eq
    rw [BitVec.toNat_add, toNat_ofNat_lt (by omega), toNat_ofNat_lt (by omega)]
    show (2 ^ level - 1 + pos + 1) % 2 ^ 64 = _
    rw [Nat.mod_eq_of_lt (by omega)]
    omega
  have h2 : mostSignificantBit (BitVec.ofNat 64 (2 ^ level + pos)) = level := by
    apply mostSignificantBit_eq <;> rw [toNat_ofNat_lt (by omega)] <;> omega
  unfold toEntry
  simp only
  rw [h1, h2]
  congr 1
  have h3 : (2 ^ level : Word) = BitVec.ofNat 64 (2 ^ level) := by
    exact word_two_pow level
  rw [h3, BitVec.toNat_sub, toNat_ofNat_lt (by omega), toNat_ofNat_lt (by omega)]
  rw [show 2 ^ 64 - 2 ^ level + (2 ^ level + pos) = pos + 2 ^ 64 by omega, Nat.add_mod_right, Nat.mod_eq_of_lt (by omega)]

end Verif
