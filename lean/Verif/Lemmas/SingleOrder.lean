/-
The rounding of decimal numbers to single precision keeps their order.
-/
import Verif.Model.SingleOrder
import Verif.Spec.ExactNumbers
import Verif.Lemmas.ReprText

namespace Verif.Decimal
open Spec Binary32 Svm

/-- Nearest numbers of ordered numbers are ordered, if no nearest number is nearer. -/
theorem nearest_order {x y a b : ℚ} (hxy : x < y) (h1 : |a - x| ≤ |b - x|) (h2 : |b - y| ≤ |a - y|) : a ≤ b := by
  by_contra hc
  rw [not_le] at hc
  rcases abs_cases (a - x) with h | h <;> rcases abs_cases (b - x) with h' | h' <;> rcases abs_cases (b - y) with h'' | h'' <;>
    rcases abs_cases (a - y) with h''' | h''' <;> linarith

theorem double_mono {x y : ℚ} (hx : 0 ≤ x) (hxy : x ≤ y) (hy : y < 2 ^ 1000) : double x ≤ double y := by
  rcases hxy.lt_or_eq with h | rfl
  · obtain ⟨a1, a2⟩ := double_spec hx (h.trans hy)
    obtain ⟨b1, b2⟩ := double_spec (hx.trans hxy) hy
    exact nearest_order h (a2 _ b1) (b2 _ a1)
  · exact le_refl _

/-- The magnitude to which an absolute value is rounded, or none. -/
def mag (q : ℚ) : Option Nat := (Binary32.round (double q * 2 ^ 149)).map Int.natAbs

def withSign (neg : Bool) : Option Nat → Single
  | some m => .num neg m
  | none => .inf neg

theorem narrow_eq (p : Signed) : narrow p = withSign p.1 (mag p.2) := by
  unfold narrow mag single
  cases Binary32.round (double p.2 * 2 ^ 149) <;> rfl

theorem mag_zero : mag 0 = some 0 := by decide +kernel

theorem mag_mono {x y : ℚ} (hx : 0 ≤ x) (hxy : x ≤ y) : mag y = none ∨ ∃ m n, mag x = some m ∧ mag y = some n ∧ m ≤ n := by
  have hy := hx.trans hxy
  have key : ∀ q, single false q = withSign false ((Binary32.round (q * 2 ^ 149)).map Int.natAbs) := by
    intro q
    unfold single
    cases Binary32.round (q * 2 ^ 149) <;> rfl
  by_cases hbig : y < 2 ^ 1000
  swap
  · left
    have h1 := double_large (not_lt.1 hbig)
    have h2 := (single_spec false (double_nonneg hy)).2 (le_trans (by norm_num) h1)
    rw [key] at h2
    unfold mag
    revert h2
    cases Binary32.round (double y * 2 ^ 149) with
    | none => intro _; rfl
    | some k => intro h; simp [withSign] at h
  have hd := double_mono hx hxy hbig
  have hd0 := double_nonneg hx
  have hd1 := double_nonneg hy
  by_cases hlt : double y < 2 ^ 128 - 2 ^ 103
  swap
  · left
    have h2 := (single_spec false hd1).2 (not_lt.1 hlt)
    rw [key] at h2
    unfold mag
    revert h2
    cases Binary32.round (double y * 2 ^ 149) with
    | none => intro _; rfl
    | some k => intro h; simp [withSign] at h
  right
  obtain ⟨m, hm, hm1, hm2⟩ := (single_spec false hd0).1 (hd.trans_lt hlt)
  obtain ⟨n, hn, hn1, hn2⟩ := (single_spec false hd1).1 hlt
  have get : ∀ {q : ℚ} {k : Nat}, single false (double q) = .num false k → mag q = some k := by
    intro q k h
    rw [key] at h
    unfold mag
    revert h
    cases Binary32.round (double q * 2 ^ 149) with
    | none => intro h; simp [withSign] at h
    | some j => intro h; simp only [Option.map_some, withSign, Single.num.injEq, true_and] at h; rw [Option.map_some, h]
  refine ⟨m, n, get hm, get hn, ?_⟩
  rcases hd.lt_or_eq with h | h
  · have h3 := nearest_order h (hm2 _ hn1) (hn2 _ hm1)
    have hp : (0 : ℚ) < 2 ^ 149 := by positivity
    rw [div_le_div_iff_of_pos_right hp] at h3
    exact Nat.cast_le.1 h3
  · rw [h, hn] at hm
    simp only [Single.num.injEq, true_and] at hm
    omega

/-- Absolute values up to the largest finite number stay finite. -/
theorem mag_finite {x : ℚ} (hx : 0 ≤ x) (h : x ≤ 2 ^ 128 - 2 ^ 104) : ∃ m, mag x = some m := by
  have hb : (2 ^ 128 - 2 ^ 104 : ℚ) < 2 ^ 1000 := lt_trans (by norm_num : _ < (2 : ℚ) ^ 128) (pow_lt_pow_right₀ (by norm_num) (by norm_num))
  have hv : double (2 ^ 128 - 2 ^ 104) = 2 ^ 128 - 2 ^ 104 := by
    refine double_exact (by norm_num) hb ⟨2 ^ 24 - 1, 104, by norm_num, by norm_num, by norm_num, ?_⟩
    norm_num
  have h1 : double x ≤ 2 ^ 128 - 2 ^ 104 := by
    rw [← hv]
    exact double_mono hx h hb
  obtain ⟨m, hm, -⟩ := (single_spec false (double_nonneg hx)).1 (h1.trans_lt (by norm_num))
  unfold single at hm
  unfold mag
  revert hm
  cases Binary32.round (double x * 2 ^ 149) with
  | none => intro h; simp at h
  | some k => intro _; exact ⟨_, rfl⟩

/-- Single precision numbers stay what they are. -/
theorem mag_exact {m : Nat} (hm : IsMagnitude m) : mag ((m : ℚ) / 2 ^ 149) = some m := by
  have h0 : (0 : ℚ) ≤ (m : ℚ) / 2 ^ 149 := div_nonneg (Nat.cast_nonneg _) (by positivity)
  have hb : (m : ℚ) / 2 ^ 149 < 2 ^ 1000 := by
    rw [div_lt_iff₀ (by positivity), ← pow_add]
    have h1 := isMagnitude_lt hm
    have h2 : (m : ℚ) < 2 ^ 277 := by
      have : ((m : Nat) : ℚ) < ((2 ^ 277 : Nat) : ℚ) := Nat.cast_lt.2 h1
      rwa [Nat.cast_pow, Nat.cast_ofNat] at this
    exact h2.trans (pow_lt_pow_right₀ (by norm_num) (by norm_num))
  have hd : IsDouble ((m : ℚ) / 2 ^ 149) := by
    obtain ⟨k, e, rfl, hk, he⟩ := hm
    refine ⟨k, (e : Int) - 149, ?_, by omega, by omega, ?_⟩
    · rw [abs_of_nonneg (Int.natCast_nonneg _)]
      omega
    · rw [Nat.cast_mul, Nat.cast_pow, Nat.cast_ofNat, zpow_sub₀ (by norm_num), Int.cast_natCast, zpow_natCast, mul_div_assoc]
      rfl
  unfold mag
  rw [double_exact h0 hb hd, div_mul_cancel₀ _ (by positivity), round_near hm (by rw [sub_self, abs_zero]; exact div_nonneg (Nat.cast_nonneg _) (by norm_num))]
  rfl

/-- Ordered numbers are ordered after rounding. -/
theorem narrow_le {x t : Signed} (hx : 0 ≤ x.2) (ht : 0 ≤ t.2) (h : exactValue x ≤ exactValue t) : singleLe (narrow x) (narrow t) = true := by
  obtain ⟨a, x⟩ := x
  obtain ⟨b, t⟩ := t
  simp only [narrow_eq, exactValue] at hx ht h ⊢
  cases a <;> cases b <;> simp only [Bool.false_eq_true, ↓reduceIte] at h
  · rcases mag_mono hx h with h1 | ⟨m, n, h1, h2, h3⟩
    · rw [h1]
      cases mag x <;> rfl
    · rw [h1, h2]
      simpa [singleLe, withSign, signed] using h3
  · have hx0 : x = 0 := by linarith
    have ht0 : t = 0 := by linarith
    rw [hx0, ht0, mag_zero]
    decide
  · cases mag x <;> cases mag t <;> simp [singleLe, withSign, signed]
  · rcases mag_mono ht (neg_le_neg_iff.1 h) with h1 | ⟨m, n, h1, h2, h3⟩
    · rw [h1]
      cases mag t <;> rfl
    · rw [h1, h2]
      simpa [singleLe, withSign, signed] using h3

theorem same_of_le {x y : Single} (h1 : singleLe x y = true) (h2 : singleLe y x = true) : SameSingle x y := by
  cases x with
  | nan a => simp [singleLe] at h1
  | inf a =>
    cases y with
    | nan b => cases a <;> simp [singleLe] at h1
    | inf b => cases a <;> cases b <;> simp [singleLe] at h1 h2 <;> exact .inr (.inl ⟨_, rfl, rfl⟩)
    | num b n => cases a <;> simp [singleLe] at h1 h2
  | num a m =>
    cases y with
    | nan b => simp [singleLe] at h1
    | inf b => cases b <;> simp [singleLe] at h1 h2
    | num b n =>
      simp only [singleLe, decide_eq_true_eq] at h1 h2
      have h := le_antisymm h1 h2
      cases a <;> cases b <;> simp only [signed, Bool.false_eq_true, ↓reduceIte] at h
      · have : m = n := by omega
        subst this
        exact .inl ⟨m, .inl rfl, rfl⟩
      · have : m = 0 ∧ n = 0 := by omega
        obtain ⟨rfl, rfl⟩ := this
        exact .inr (.inr ⟨⟨_, rfl⟩, _, rfl⟩)
      · have : m = 0 ∧ n = 0 := by omega
        obtain ⟨rfl, rfl⟩ := this
        exact .inr (.inr ⟨⟨_, rfl⟩, _, rfl⟩)
      · have : m = n := by omega
        subst this
        exact .inl ⟨m, .inr rfl, rfl⟩

theorem le_of_same {x y : Single} (h : SameSingle x y) : singleLe x y = true := by
  rcases h with ⟨m, rfl | rfl, rfl⟩ | ⟨s, rfl, rfl⟩ | ⟨⟨s, rfl⟩, s', rfl⟩
  · simp [singleLe]
  · simp [singleLe]
  · cases s <;> rfl
  · cases s <;> cases s' <;> decide

/-- The exact value of a decimal text is unique. -/
theorem exactFloat_iff {s : List Char} {p : Signed} : exactFloat s = some p ↔ DecimalText s p.1 p.2 := by
  unfold exactFloat
  have uniq : ∀ {p p' : Signed}, DecimalText s p.1 p.2 → DecimalText s p'.1 p'.2 → p = p' := by
    intro p p' h h'
    have e1 := decimal_scan h (rest := []) (by simp [Ends])
    have e2 := decimal_scan h' (rest := []) (by simp [Ends])
    rw [List.append_nil] at e1 e2
    have e3 := Option.some.inj (e1.2.1.symm.trans e2.2.1)
    exact Prod.ext (e1.1.symm.trans e2.1) (congrArg Prod.fst e3)
  constructor
  · intro h
    split at h
    · rename_i he
      rw [← Option.some.inj h]
      exact he.choose_spec
    · cases h
  · intro h
    have he : ∃ p : Signed, DecimalText s p.1 p.2 := ⟨p, h⟩
    rw [dif_pos he, uniq he.choose_spec h]

end Verif.Decimal
