/-
IEEE single precision numbers: finite values, their order, rounding and `nextafter`.

A finite float32 is given by its ordinal, an integer `k`: for `k ≥ 0` the number with the bit pattern `k`, for `k < 0` the negative of
the number with the bit pattern `-k`; the two zeros are identified. Values are integers in units of `2^-149`.
-/
import Mathlib.Algebra.Order.Group.Nat
import Mathlib.Tactic.Linarith
import Mathlib.Tactic.Ring

namespace Verif

/-- The value, in units of 2^-149, of the positive float with bit pattern `k`: exponent field `e = k / 2^23`, fraction `k % 2^23`; without
hidden bit if `e = 0`. -/
def f32Nat (k : Nat) : Nat :=
  if k / 2 ^ 23 = 0 then k % 2 ^ 23 else (2 ^ 23 + k % 2 ^ 23) * 2 ^ (k / 2 ^ 23 - 1)

/-- The value of the float with ordinal `k`, in units of 2^-149. -/
def f32 (k : Int) : Int := if 0 ≤ k then (f32Nat k.toNat : Int) else -(f32Nat (-k).toNat : Int)

/-- One, in units of 2^-149. -/
def f32One : Int := 2 ^ 149

/-- Finite floats: exponent field at most 254. -/
def F32Finite (k : Int) : Prop := -(255 * 2 ^ 23) < k ∧ k < 255 * 2 ^ 23

/-- `k` is the result of rounding the number `q` (in units of 2^-149) to nearest, ties to even. Only for numbers that round to a finite
float. -/
structure RoundsTo (q : Int) (k : Int) : Prop where
  finite : F32Finite k
  nearest : ∀ j, F32Finite j → |f32 k - q| ≤ |f32 j - q|
  even : ∀ j, F32Finite j → j ≠ k → |f32 k - q| = |f32 j - q| → k % 2 = 0

/-- `np.nextafter(t, d)` in single precision, for finite `t`, `d`. -/
def nextafter32 (t d : Int) : Int := if d < t then t - 1 else if t < d then t + 1 else t

theorem div_mod_mul_add (P e m : Nat) (h : m < P) : (e * P + m) / P = e ∧ (e * P + m) % P = m := by
  constructor
  · rw [Nat.mul_comm, Nat.mul_add_div (by omega), Nat.div_eq_of_lt h, Nat.add_zero]
  · rw [Nat.mul_comm, Nat.mul_add_mod, Nat.mod_eq_of_lt h]

/-- The gap above a positive float. -/
theorem f32Nat_succ (k : Nat) : f32Nat (k + 1) = f32Nat k + 2 ^ (k / 2 ^ 23 - 1) := by
  unfold f32Nat
  have hP : (2 : Nat) ≤ 2 ^ 23 := by norm_num
  generalize 2 ^ 23 = P at hP
  obtain ⟨e, m, hm, rfl⟩ : ∃ e m, m < P ∧ k = e * P + m :=
    ⟨k / P, k % P, Nat.mod_lt _ (by omega), by rw [Nat.mul_comm]; exact (Nat.div_add_mod k P).symm⟩
  obtain ⟨hd, hmod⟩ := div_mod_mul_add P e m hm
  rw [hd, hmod]
  by_cases hlast : m + 1 = P
  · have h0 : e * P + m + 1 = (e + 1) * P + 0 := by rw [Nat.add_assoc, hlast]; ring
    obtain ⟨hd1, hmod1⟩ := div_mod_mul_add P (e + 1) 0 (by omega)
    rw [h0, hd1, hmod1, if_neg (by omega)]
    cases e with
    | zero => rw [if_pos rfl]; simp; omega
    | succ e =>
      rw [if_neg (by omega)]
      subst hlast
      simp only [Nat.add_sub_cancel, pow_succ 2 e]
      ring
  · obtain ⟨hd1, hmod1⟩ := div_mod_mul_add P e (m + 1) (by omega)
    rw [Nat.add_assoc, hd1, hmod1]
    cases e with
    | zero => simp
    | succ e =>
      rw [if_neg (by omega), if_neg (by omega)]
      ring

theorem f32Nat_zero : f32Nat 0 = 0 := by decide

theorem f32Nat_strictMono : StrictMono f32Nat := by
  apply strictMono_nat_of_lt_succ
  intro k
  rw [f32Nat_succ]
  have : 0 < 2 ^ (k / 2 ^ 23 - 1) := Nat.pos_of_ne_zero (by positivity)
  omega

theorem f32_of_nonneg {k : Nat} : f32 (k : Int) = f32Nat k := by
  simp [f32]

theorem f32_neg (k : Int) : f32 (-k) = -f32 k := by
  rcases lt_trichotomy k 0 with h | h | h
  · rw [f32, f32, if_pos (by omega), if_neg (by omega), neg_neg]
  · subst h; decide
  · rw [f32, f32, if_neg (by omega), if_pos (by omega), neg_neg]

theorem f32_strictMono : StrictMono f32 := by
  intro a b hab
  rcases lt_or_ge a 0 with ha | ha
  · rcases lt_or_ge b 0 with hb | hb
    · rw [f32, f32, if_neg (by omega), if_neg (by omega)]
      have := f32Nat_strictMono (a := (-b).toNat) (b := (-a).toNat) (by omega)
      omega
    · rw [f32, f32, if_neg (by omega), if_pos hb]
      have := f32Nat_strictMono (a := 0) (b := (-a).toNat) (by omega)
      rw [f32Nat_zero] at this
      omega
  · rw [f32, f32, if_pos ha, if_pos (by omega)]
    have := f32Nat_strictMono (a := a.toNat) (b := b.toNat) (by omega)
    omega

theorem f32_lt {a b : Int} : f32 a < f32 b ↔ a < b := f32_strictMono.lt_iff_lt

theorem f32_le {a b : Int} : f32 a ≤ f32 b ↔ a ≤ b := f32_strictMono.le_iff_le

/-- The gap above the float `k`. -/
theorem f32_succ (k : Int) : f32 (k + 1) - f32 k = 2 ^ ((if 0 ≤ k then k.toNat else (-(k + 1)).toNat) / 2 ^ 23 - 1) := by
  rcases lt_or_ge k 0 with h | h
  · rw [if_neg (by omega)]
    obtain ⟨n, hn⟩ : ∃ n : Nat, k = -((n : Int) + 1) := ⟨(-(k + 1)).toNat, by omega⟩
    subst hn
    have e1 : (-(-((n : Int) + 1) + 1)).toNat = n := by omega
    have e2 : -((n : Int) + 1) + 1 = -(n : Int) := by omega
    rw [e1, e2, f32_neg, f32_neg]
    have e3 : f32 ((n : Int) + 1) = f32Nat (n + 1) := by
      have := f32_of_nonneg (k := n + 1)
      simpa using this
    rw [e3, f32_of_nonneg, f32Nat_succ]
    push_cast
    ring
  · rw [if_pos h]
    obtain ⟨n, rfl⟩ := Int.eq_ofNat_of_zero_le h
    have e3 : f32 ((n : Int) + 1) = f32Nat (n + 1) := by
      have := f32_of_nonneg (k := n + 1)
      simpa using this
    rw [e3, f32_of_nonneg, f32Nat_succ]
    push_cast
    simp

/-- Rounding is monotone. -/
theorem RoundsTo.mono {p q k l : Int} (hp : RoundsTo p k) (hq : RoundsTo q l) (h : p < q) : k ≤ l := by
  by_contra hcon
  push Not at hcon
  have h1 := hp.nearest l hq.finite
  have h2 := hq.nearest k hp.finite
  have h3 := f32_lt.2 hcon
  rcases abs_cases (f32 k - p) with ⟨e1, _⟩ | ⟨e1, _⟩ <;> rcases abs_cases (f32 l - p) with ⟨e2, _⟩ | ⟨e2, _⟩ <;>
    rcases abs_cases (f32 l - q) with ⟨e3, _⟩ | ⟨e3, _⟩ <;> rcases abs_cases (f32 k - q) with ⟨e4, _⟩ | ⟨e4, _⟩ <;>
    rw [e1, e2] at h1 <;> rw [e3, e4] at h2 <;> omega

/-- A float rounds to itself. -/
theorem roundsTo_self {k : Int} (h : F32Finite k) : RoundsTo (f32 k) k where
  finite := h
  nearest j _ := by simp
  even j _ hne heq := by
    simp only [sub_self, abs_zero] at heq
    have := (abs_eq_zero.1 heq.symm)
    exact (hne (f32_strictMono.injective (by omega))).elim

end Verif
