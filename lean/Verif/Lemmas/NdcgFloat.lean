/-
Rounding errors of DCG.
-/
import Verif.Model.NdcgFloat
import Verif.Spec.NdcgFloat
import Verif.Lemmas.Pairwise
import Verif.Lemmas.ReprText
import Verif.Lemmas.SingleOrder
import Mathlib.Tactic.Linarith
import Mathlib.Tactic.FieldSimp

namespace Verif.Metrics
open Spec Decimal Ensemble Binary32

theorem double_zero : double 0 = 0 := by decide +kernel

/-- Sums of numbers that are not tiny: the relative error of every addition is at most 2^-53. -/
theorem doubleSum_error {d : Nat} {l : List ℚ} {s : ℚ} (h : SumTree doubleOps d l s) (hd : (1 + 1 / 2 ^ 53 : ℚ) ^ d ≤ 3 / 2)
    (hl : ∀ a ∈ l, a = 0 ∨ 1 / 2 ^ 100 ≤ a) : (l.sum = 0 ∨ 1 / 2 ^ 100 ≤ l.sum) ∧ |s - l.sum| ≤ ((1 + 1 / 2 ^ 53) ^ d - 1) * l.sum := by
  have hP : ∀ d : Nat, (1 : ℚ) ≤ (1 + 1 / 2 ^ 53) ^ d := fun d => one_le_pow₀ (by norm_num)
  have h100 : (0 : ℚ) < 1 / 2 ^ 100 := by norm_num
  induction h with
  | zero d => simp [doubleOps]
  | one d a =>
    have ha := hl a List.mem_cons_self
    have ha0 : 0 ≤ a := by rcases ha with h | h <;> linarith
    rw [List.sum_singleton, sub_self, abs_zero]
    exact ⟨ha, mul_nonneg (by linarith [hP d]) ha0⟩
  | @add d l l' l'' a b _ _ hp iha ihb =>
    have hd' : (1 + 1 / 2 ^ 53 : ℚ) ^ d ≤ 3 / 2 := (pow_le_pow_right₀ (by norm_num) (Nat.le_succ d)).trans hd
    obtain ⟨a1, a2⟩ := iha hd' (fun x hx => hl x (hp.mem_iff.1 (List.mem_append_left _ hx)))
    obtain ⟨b1, b2⟩ := ihb hd' (fun x hx => hl x (hp.mem_iff.1 (List.mem_append_right _ hx)))
    rw [← hp.sum_eq, List.sum_append]
    have hPd := hP d
    rw [pow_succ _ d]
    generalize (1 + 1 / 2 ^ 53 : ℚ) ^ d = P at hd' hPd a2 b2 ⊢
    generalize l.sum = A at a1 a2 ⊢
    generalize l'.sum = B at b1 b2 ⊢
    have hA : 0 ≤ A := by rcases a1 with h | h <;> linarith
    have hB : 0 ≤ B := by rcases b1 with h | h <;> linarith
    have hsum : |a + b - (A + B)| ≤ (P - 1) * (A + B) := by
      have e : a + b - (A + B) = (a - A) + (b - B) := by ring
      rw [e]
      refine (abs_add_le _ _).trans ?_
      linarith
    by_cases h0 : A + B = 0
    · rw [h0, mul_zero, sub_zero] at hsum
      have hab : a + b = 0 := abs_eq_zero.1 (le_antisymm hsum (abs_nonneg _))
      refine ⟨.inl h0, ?_⟩
      show |double (a + b) - (A + B)| ≤ _
      rw [hab, h0, double_zero]
      simp
    · have hAB : 1 / 2 ^ 100 ≤ A + B := by
        rcases a1 with h | h
        · rcases b1 with h' | h'
          · exact absurd (by linarith) h0
          · linarith
        · linarith
      refine ⟨.inr hAB, ?_⟩
      show |double (a + b) - (A + B)| ≤ _
      have hle : (P - 1) * (A + B) ≤ 1 / 2 * (A + B) := mul_le_mul_of_nonneg_right (by linarith) (by linarith)
      have h1 := abs_le.1 hsum
      have hpos : 0 < a + b := by linarith
      have hbig : 1 / 2 ^ 1000 ≤ |a + b| := by
        have : (1 : ℚ) / 2 ^ 1000 ≤ 1 / 2 ^ 101 := one_div_le_one_div_of_le (by norm_num) (pow_le_pow_right₀ (by norm_num) (by norm_num))
        rw [abs_of_pos hpos]
        refine this.trans ?_
        have e : (1 : ℚ) / 2 ^ 101 = 1 / 2 * (1 / 2 ^ 100) := by norm_num
        rw [e]
        linarith
      have hr := double_error hbig
      rw [abs_of_pos hpos] at hr
      have e : double (a + b) - (A + B) = (double (a + b) - (a + b)) + (a + b - (A + B)) := by ring
      rw [e]
      refine (abs_add_le _ _).trans ?_
      have h2 : a + b ≤ P * (A + B) := by linarith
      have h3 : (a + b) / 2 ^ 53 ≤ P * (A + B) / 2 ^ 53 := div_le_div_of_nonneg_right h2 (by norm_num)
      have e2 : (P * (1 + 1 / 2 ^ 53) - 1) * (A + B) = (P - 1) * (A + B) + P * (A + B) / 2 ^ 53 := by ring
      rw [e2]
      linarith

theorem logb_bounds {k : Nat} (h2 : 2 ≤ k) : 1 ≤ Real.logb 2 k ∧ Real.logb 2 k ≤ k := by
  have hk : (2 : ℝ) ≤ k := by exact_mod_cast h2
  constructor
  · rw [Real.le_logb_iff_rpow_le (by norm_num) (by linarith), Real.rpow_one]
    exact hk
  · rw [Real.logb_le_iff_le_rpow (by norm_num) (by linarith), Real.rpow_natCast]
    exact_mod_cast (Nat.lt_two_pow_self (n := k)).le

/-- One quotient. -/
theorem term_error {log2 : Nat → ℚ} (hlog : AccurateLog log2) (g : Nat) {k : Nat} (h2 : 2 ≤ k) (hk : k ≤ 2 ^ 60) :
    (double ((g : ℚ) / log2 k) = 0 ∨ 1 / 2 ^ 100 ≤ double ((g : ℚ) / log2 k)) ∧
    |((double ((g : ℚ) / log2 k) : ℚ) : ℝ) - g / Real.logb 2 k| ≤ g / Real.logb 2 k / 2 ^ 48 := by
  by_cases hg : g = 0
  · subst hg
    rw [Nat.cast_zero, zero_div, double_zero]
    simp
  have hg1 : (1 : ℝ) ≤ g := by exact_mod_cast Nat.one_le_iff_ne_zero.2 hg
  obtain ⟨l1, l2⟩ := logb_bounds h2
  have l3 : Real.logb 2 k ≤ 2 ^ 60 := l2.trans (by exact_mod_cast hk)
  have hL := hlog k h2
  generalize Real.logb 2 k = t at l1 l2 l3 hL ⊢
  generalize log2 k = L at hL ⊢
  have hL' := abs_le.1 hL
  have hL0 : t / 2 ≤ (L : ℝ) := by
    norm_num at hL'
    linarith
  have hLp : (0 : ℝ) < L := by linarith
  have ht : (0 : ℝ) < t := by linarith
  have hq : |((g / L : ℚ) : ℝ) - g / t| ≤ g / t / 2 ^ 49 := by
    push_cast
    have e : (g : ℝ) / L - g / t = g / t * ((t - L) / L) := by field_simp
    rw [e, abs_mul, abs_of_pos (by positivity : (0 : ℝ) < g / t), div_eq_mul_one_div (g / t : ℝ) (2 ^ 49)]
    refine mul_le_mul_of_nonneg_left ?_ (by positivity)
    rw [abs_div, abs_of_pos hLp, div_le_iff₀ hLp, abs_sub_comm]
    refine hL.trans ?_
    norm_num
    linarith
  have hgt : (1 : ℝ) / 2 ^ 60 ≤ g / t := by
    rw [div_le_div_iff₀ (by norm_num) ht]
    have : (1 : ℝ) * 2 ^ 60 ≤ g * 2 ^ 60 := mul_le_mul_of_nonneg_right hg1 (by norm_num)
    linarith
  have hq' := abs_le.1 hq
  have hqlow : (1 : ℝ) / 2 ^ 61 ≤ ((g / L : ℚ) : ℝ) := by
    norm_num at hq' hgt ⊢
    linarith
  have hqlow' : (1 : ℚ) / 2 ^ 61 ≤ g / L := by
    have : (((1 : ℚ) / 2 ^ 61 : ℚ) : ℝ) ≤ ((g / L : ℚ) : ℝ) := by
      push_cast at hqlow ⊢
      exact hqlow
    exact_mod_cast this
  have hqpos : (0 : ℚ) < g / L := lt_of_lt_of_le (by norm_num) hqlow'
  have hbig : 1 / 2 ^ 1000 ≤ |(g / L : ℚ)| := by
    have : (1 : ℚ) / 2 ^ 1000 ≤ 1 / 2 ^ 61 := one_div_le_one_div_of_le (by norm_num) (pow_le_pow_right₀ (by norm_num) (by norm_num))
    rw [abs_of_pos hqpos]
    exact this.trans hqlow'
  have hr := double_error hbig
  rw [abs_of_pos hqpos] at hr
  generalize (g / L : ℚ) = q at hq' hqlow hqlow' hqpos hr ⊢
  have hr' := abs_le.1 hr
  refine ⟨.inr ?_, ?_⟩
  · norm_num at hr' hqlow' ⊢
    linarith
  · have hrR : |((double q : ℚ) : ℝ) - q| ≤ q / 2 ^ 53 := by
      have : ((|double q - q| : ℚ) : ℝ) ≤ ((q / 2 ^ 53 : ℚ) : ℝ) := by exact_mod_cast hr
      push_cast at this
      exact this
    have h1 := abs_le.1 hrR
    rw [abs_le]
    generalize ((double q : ℚ) : ℝ) = D at h1 ⊢
    generalize (q : ℝ) = q' at hq' h1 ⊢
    generalize (g / t : ℝ) = T at hq' hgt ⊢
    norm_num at hq' h1 hgt ⊢
    constructor <;> linarith

/-- All quotients. -/
theorem terms_error {log2 : Nat → ℚ} (hlog : AccurateLog log2) : ∀ (gs ks : List Nat), (∀ k ∈ ks, 2 ≤ k ∧ k ≤ 2 ^ 60) →
    (∀ a ∈ List.zipWith (fun (g : Nat) k => double ((g : ℚ) / log2 k)) gs ks, a = 0 ∨ 1 / 2 ^ 100 ≤ a) ∧
    0 ≤ (List.zipWith (fun (g k : Nat) => (g : ℝ) / Real.logb 2 k) gs ks).sum ∧
    |(((List.zipWith (fun (g : Nat) k => double ((g : ℚ) / log2 k)) gs ks).sum : ℚ) : ℝ) - (List.zipWith (fun (g k : Nat) => (g : ℝ) / Real.logb 2 k) gs ks).sum| ≤
      (List.zipWith (fun (g k : Nat) => (g : ℝ) / Real.logb 2 k) gs ks).sum / 2 ^ 48
  | [], ks, _ => by simp
  | g :: gs, [], _ => by simp
  | g :: gs, k :: ks, h => by
    obtain ⟨i1, i2, i3⟩ := terms_error hlog gs ks (fun k' hk' => h k' (List.mem_cons_of_mem _ hk'))
    obtain ⟨h2, hk⟩ := h k List.mem_cons_self
    obtain ⟨t1, t2⟩ := term_error hlog g h2 hk
    have t3 : (0 : ℝ) ≤ g / Real.logb 2 k := div_nonneg (Nat.cast_nonneg _) (by linarith [(logb_bounds h2).1])
    refine ⟨?_, ?_, ?_⟩
    · intro a ha
      rw [List.zipWith_cons_cons] at ha
      rcases List.mem_cons.1 ha with rfl | ha
      · exact t1
      · exact i1 a ha
    · rw [List.zipWith_cons_cons, List.sum_cons]
      linarith
    · rw [List.zipWith_cons_cons, List.zipWith_cons_cons, List.sum_cons, List.sum_cons, Rat.cast_add, add_div]
      have e : ∀ a b c d : ℝ, a + b - (c + d) = (a - c) + (b - d) := fun a b c d => by ring
      rw [e]
      exact (abs_add_le _ _).trans (add_le_add t2 i3)

/-- The exact sum. -/
noncomputable def exactDcg (gs : List Nat) : ℝ := (List.zipWith (fun (g k : Nat) => (g : ℝ) / Real.logb 2 k) gs (List.range' 2 gs.length)).sum

/-- The computed sum. -/
def computedDcg (log2 : Nat → ℚ) (gs : List Nat) : ℚ :=
  pairwiseSum doubleOps (List.zipWith (fun (g : Nat) k => double ((g : ℚ) / log2 k)) gs (List.range' 2 gs.length))

theorem exactDcg_nonneg (gs : List Nat) : 0 ≤ exactDcg gs := by
  apply List.sum_nonneg
  intro a ha
  obtain ⟨i, hi, rfl⟩ := List.mem_iff_getElem.1 ha
  rw [List.getElem_zipWith]
  refine div_nonneg (Nat.cast_nonneg _) ?_
  rw [List.getElem_range']
  exact zero_le_one.trans (logb_bounds (by omega)).1

theorem dcg_error {log2 : Nat → ℚ} (hlog : AccurateLog log2) {gs : List Nat} (hn : gs.length ≤ 2 ^ 40) :
    |(computedDcg log2 gs : ℝ) - exactDcg gs| ≤ exactDcg gs / 2 ^ 45 := by
  obtain ⟨h1, h2, h3⟩ := terms_error hlog gs (List.range' 2 gs.length) (by
    intro k hk
    rw [List.mem_range'_1] at hk
    constructor
    · exact hk.1
    · have := hk.2
      omega)
  have hP : (1 + 1 / 2 ^ 53 : ℚ) ^ (25 + 40) ≤ 1 + 1 / 2 ^ 46 := by norm_num
  have htree := pairwiseSum_sum (ops := doubleOps) 40 (l := List.zipWith (fun (g : Nat) k => double ((g : ℚ) / log2 k)) gs (List.range' 2 gs.length)) (by
    rw [List.length_zipWith, List.length_range', Nat.min_self]
    omega)
  obtain ⟨h4, h5⟩ := doubleSum_error htree (hP.trans (by norm_num)) h1
  unfold computedDcg
  show _ ≤ (List.zipWith (fun (g k : Nat) => (g : ℝ) / Real.logb 2 k) gs (List.range' 2 gs.length)).sum / 2 ^ 45
  unfold exactDcg
  generalize pairwiseSum doubleOps (List.zipWith (fun (g : Nat) k => double ((g : ℚ) / log2 k)) gs (List.range' 2 gs.length)) = D at h5 ⊢
  generalize (List.zipWith (fun (g : Nat) k => double ((g : ℚ) / log2 k)) gs (List.range' 2 gs.length)).sum = T at h3 h4 h5
  generalize (List.zipWith (fun (g k : Nat) => (g : ℝ) / Real.logb 2 k) gs (List.range' 2 gs.length)).sum = E at h2 h3 ⊢
  have hT : 0 ≤ T := by
    rcases h4 with h | h
    · rw [h]
    · exact le_trans (by norm_num) h
  have h6 : |D - T| ≤ 1 / 2 ^ 46 * T := h5.trans (mul_le_mul_of_nonneg_right (by linarith) hT)
  have h7 : |(D : ℝ) - T| ≤ 1 / 2 ^ 46 * T := by
    have : ((|D - T| : ℚ) : ℝ) ≤ ((1 / 2 ^ 46 * T : ℚ) : ℝ) := by exact_mod_cast h6
    push_cast at this
    exact this
  have h8 := abs_le.1 h7
  have h9 := abs_le.1 h3
  rw [abs_le]
  norm_num at h8 h9 ⊢
  constructor <;> linarith

theorem exact_bounds : ∀ (gs ks : List Nat), (∀ k ∈ ks, 2 ≤ k ∧ k ≤ 2 ^ 60) → (∀ g ∈ gs, g ≤ 2 ^ 24) →
    ((List.zipWith (fun (g k : Nat) => (g : ℝ) / Real.logb 2 k) gs ks).sum = 0 ∨
      1 / 2 ^ 60 ≤ (List.zipWith (fun (g k : Nat) => (g : ℝ) / Real.logb 2 k) gs ks).sum) ∧
    (List.zipWith (fun (g k : Nat) => (g : ℝ) / Real.logb 2 k) gs ks).sum ≤ gs.length * 2 ^ 24
  | [], ks, _, _ => by simp
  | g :: gs, [], _, _ => by
    simp only [List.zipWith_nil_right, List.sum_nil, true_or, true_and]
    positivity
  | g :: gs, k :: ks, h, hg => by
    obtain ⟨i1, i2⟩ := exact_bounds gs ks (fun k' hk' => h k' (List.mem_cons_of_mem _ hk')) (fun g' hg' => hg g' (List.mem_cons_of_mem _ hg'))
    obtain ⟨h2, hk⟩ := h k List.mem_cons_self
    obtain ⟨l1, l2⟩ := logb_bounds h2
    have l3 : Real.logb 2 k ≤ 2 ^ 60 := l2.trans (by exact_mod_cast hk)
    have hg24 : (g : ℝ) ≤ 2 ^ 24 := by exact_mod_cast hg g List.mem_cons_self
    have hg0 : (0 : ℝ) ≤ g := Nat.cast_nonneg _
    rw [List.zipWith_cons_cons, List.sum_cons, List.length_cons]
    have t1 : (g : ℝ) / Real.logb 2 k ≤ 2 ^ 24 := (div_le_self hg0 l1).trans hg24
    have t2 : (g : ℝ) / Real.logb 2 k = 0 ∨ 1 / 2 ^ 60 ≤ (g : ℝ) / Real.logb 2 k := by
      by_cases h0 : g = 0
      · left
        rw [h0, Nat.cast_zero, zero_div]
      · right
        have hg1 : (1 : ℝ) ≤ g := by exact_mod_cast Nat.one_le_iff_ne_zero.2 h0
        rw [div_le_div_iff₀ (by norm_num) (by linarith)]
        have : (1 : ℝ) * 2 ^ 60 ≤ g * 2 ^ 60 := mul_le_mul_of_nonneg_right hg1 (by norm_num)
        linarith
    have hpos : (0 : ℝ) < 1 / 2 ^ 60 := by norm_num
    generalize (g : ℝ) / Real.logb 2 k = T at t1 t2 ⊢
    generalize (List.zipWith (fun (g k : Nat) => (g : ℝ) / Real.logb 2 k) gs ks).sum = A at i1 i2 ⊢
    push_cast
    refine ⟨?_, by linarith⟩
    rcases i1 with i1 | i1 <;> rcases t2 with t2 | t2
    · left; linarith
    · right; linarith
    · right; linarith
    · right; linarith

theorem exactDcg_bounds {gs : List Nat} (hn : gs.length ≤ 2 ^ 40) (hg : ∀ g ∈ gs, g ≤ 2 ^ 24) : (exactDcg gs = 0 ∨ 1 / 2 ^ 60 ≤ exactDcg gs) ∧ exactDcg gs ≤ 2 ^ 64 := by
  obtain ⟨h1, h2⟩ := exact_bounds gs (List.range' 2 gs.length) (by
    intro k hk
    rw [List.mem_range'_1] at hk
    constructor
    · exact hk.1
    · have := hk.2
      omega) hg
  refine ⟨h1, h2.trans ?_⟩
  have : (gs.length : ℝ) ≤ 2 ^ 40 := by exact_mod_cast hn
  refine (mul_le_mul_of_nonneg_right this (by norm_num)).trans ?_
  norm_num

/-- A number that is not tiny or huge, in single precision: 24 bits and an exponent. -/
theorem toSingle_form {x : ℚ} (h1 : 1 / 2 ^ 100 ≤ x) (h2 : x ≤ 2 ^ 100) :
    ∃ (n : Int) (u : Nat), 2 ^ 23 ≤ n ∧ toSingle x = some (n * 2 ^ u) ∧ |x * 2 ^ 149 / 2 ^ u - n| ≤ 1 / 2 := by
  have hx : 0 ≤ x * 2 ^ 149 := mul_nonneg (le_trans (by norm_num) h1) (by norm_num)
  have hu : ulp (x * 2 ^ 149) ≠ 0 := by
    intro h0
    have := ulp_upper hx
    rw [h0, pow_zero, one_mul] at this
    have h3 : (1 : ℚ) / 2 ^ 100 * 2 ^ 149 ≤ x * 2 ^ 149 := mul_le_mul_of_nonneg_right h1 (by norm_num)
    norm_num at h3 this
    linarith
  refine ⟨_, ulp (x * 2 ^ 149), (grid_nonneg hx).2.2 hu, ?_, ?_⟩
  · refine round_finite (round_isSome ?_)
    rw [abs_of_nonneg hx]
    have h3 : x * 2 ^ 149 ≤ 2 ^ 100 * 2 ^ 149 := mul_le_mul_of_nonneg_right h2 (by norm_num)
    refine h3.trans ?_
    rw [← pow_add]
    have h4 : (2 : ℚ) ^ (100 + 149) ≤ 1 / 2 * 2 ^ 277 := by
      rw [one_div, inv_mul_eq_div, le_div_iff₀ (by norm_num), ← pow_succ]
      exact pow_le_pow_right₀ (by norm_num) (by norm_num)
    refine h4.trans (mul_le_mul_of_nonneg_right (by norm_num) (by positivity))
  · rw [abs_sub_comm]
    exact nearest_error _

/-- The quotient of the computed scores, with the ideal score in single precision. -/
theorem ratio_error {X I : ℝ} {x i d : ℚ} (hx : |(x : ℝ) - X| ≤ X / 2 ^ 45) (hi : |(i : ℝ) - I| ≤ I / 2 ^ 45) (hX : X = 0 ∨ 1 / 2 ^ 60 ≤ X)
    (hI : 1 / 2 ^ 60 ≤ I) (hI2 : I ≤ 2 ^ 64) : |(ratioFloat d x (toSingle i) : ℝ) - X / I| ≤ X / I / 2 ^ 23 := by
  have hi' := abs_le.1 hi
  have i1 : (1 : ℚ) / 2 ^ 100 ≤ i := by
    have : (((1 : ℚ) / 2 ^ 100 : ℚ) : ℝ) ≤ (i : ℝ) := by
      push_cast
      norm_num at hi' hI ⊢
      linarith
    exact_mod_cast this
  have i2 : i ≤ (2 : ℚ) ^ 100 := by
    have : (i : ℝ) ≤ (((2 : ℚ) ^ 100 : ℚ) : ℝ) := by
      push_cast
      norm_num at hi' hI2 ⊢
      linarith
    exact_mod_cast this
  obtain ⟨n, u, hn, hs, hy⟩ := toSingle_form i1 i2
  have hn0 : (0 : ℚ) < n := by
    have : (0 : Int) < n := lt_of_lt_of_le (by norm_num) hn
    exact_mod_cast this
  have hnq : (2 : ℚ) ^ 23 ≤ n := by exact_mod_cast hn
  have hU : (0 : ℚ) < 2 ^ u := by positivity
  rw [hs]
  have hne : n * 2 ^ u ≠ 0 := by
    have : 0 < n := by exact_mod_cast hn0
    positivity
  unfold ratioFloat
  simp only [if_pos hne]
  set s : ℚ := ((n * 2 ^ u : Int) : ℚ) / 2 ^ 149 with hsdef
  have hseq : s = n * (2 ^ u / 2 ^ 149) := by
    rw [hsdef]
    push_cast
    ring
  have hw : (0 : ℚ) < 2 ^ u / 2 ^ 149 := by positivity
  have hsi : |s - i| ≤ s / 2 ^ 24 := by
    have e : s - i = -((i * 2 ^ 149 / 2 ^ u - n) * (2 ^ u / 2 ^ 149)) := by
      rw [hseq]
      field_simp
      ring
    rw [e, abs_neg, abs_mul, abs_of_pos hw, hseq]
    have h1 : |i * 2 ^ 149 / 2 ^ u - n| * (2 ^ u / 2 ^ 149) ≤ 1 / 2 * (2 ^ u / 2 ^ 149) := mul_le_mul_of_nonneg_right hy hw.le
    have h2 : (2 : ℚ) ^ 23 * (2 ^ u / 2 ^ 149) ≤ n * (2 ^ u / 2 ^ 149) := mul_le_mul_of_nonneg_right hnq hw.le
    generalize (2 ^ u / 2 ^ 149 : ℚ) = w at h1 h2 ⊢
    generalize (n : ℚ) * w = z at h2 ⊢
    norm_num at h2 ⊢
    linarith
  have hspos : 0 < s := by
    rw [hseq]
    positivity
  clear_value s
  have hsi' : |(s : ℝ) - i| ≤ s / 2 ^ 24 := by
    have : ((|s - i| : ℚ) : ℝ) ≤ ((s / 2 ^ 24 : ℚ) : ℝ) := by exact_mod_cast hsi
    push_cast at this
    exact this
  have hsR : (0 : ℝ) < s := by exact_mod_cast hspos
  have hIpos : (0 : ℝ) < I := lt_of_lt_of_le (by norm_num) hI
  have hsi'' := abs_le.1 hsi'
  have hIs : I ≤ 2 * s := by
    norm_num at hi' hsi'' ⊢
    linarith
  have hsI : (s : ℝ) ≤ 2 * I := by
    norm_num at hi' hsi'' ⊢
    linarith
  have hX0 : 0 ≤ X := by
    rcases hX with h | h
    · rw [h]
    · exact le_trans (by norm_num) h
  have hquot : |((x / s : ℚ) : ℝ) - X / I| ≤ X / I * (1 / 2 ^ 43 + 1 / 2 ^ 24) := by
    push_cast
    have e : (x : ℝ) / s - X / I = ((x - X) * I - X * (s - i) - X * (i - I)) / (s * I) := by
      field_simp
      ring
    rw [e, abs_div, abs_of_pos (by positivity : (0 : ℝ) < s * I), div_le_iff₀ (by positivity)]
    have a1 : |((x : ℝ) - X) * I - X * (s - i) - X * (i - I)| ≤ X / 2 ^ 45 * I + X * (s / 2 ^ 24) + X * (I / 2 ^ 45) := by
      have b1 : |((x : ℝ) - X) * I| ≤ X / 2 ^ 45 * I := by
        rw [abs_mul, abs_of_pos hIpos]
        exact mul_le_mul_of_nonneg_right hx hIpos.le
      have b2 : |X * ((s : ℝ) - i)| ≤ X * (s / 2 ^ 24) := by
        rw [abs_mul, abs_of_nonneg hX0]
        exact mul_le_mul_of_nonneg_left hsi' hX0
      have b3 : |X * ((i : ℝ) - I)| ≤ X * (I / 2 ^ 45) := by
        rw [abs_mul, abs_of_nonneg hX0]
        exact mul_le_mul_of_nonneg_left hi hX0
      refine (abs_sub _ _).trans (add_le_add ((abs_sub _ _).trans (add_le_add b1 b2)) b3)
    refine a1.trans ?_
    have e2 : X / I * (1 / 2 ^ 43 + 1 / 2 ^ 24) * ((s : ℝ) * I) = X * s / 2 ^ 43 + X * s / 2 ^ 24 := by
      field_simp
    rw [e2]
    have b4 : X * I ≤ X * (2 * s) := mul_le_mul_of_nonneg_left hIs hX0
    have e3 : X / 2 ^ 45 * I + X * ((s : ℝ) / 2 ^ 24) + X * (I / 2 ^ 45) = X * I / 2 ^ 44 + X * s / 2 ^ 24 := by ring
    rw [e3]
    have e4 : X * (s : ℝ) / 2 ^ 43 = X * (2 * s) / 2 ^ 44 := by ring
    rw [e4]
    have := div_le_div_of_nonneg_right b4 (by norm_num : (0 : ℝ) ≤ 2 ^ 44)
    linarith
  rcases hX with hX | hX
  · rw [hX] at hx hquot ⊢
    have hx0 : (x : ℝ) = 0 := by
      rw [zero_div, sub_zero] at hx
      exact abs_eq_zero.1 (le_antisymm hx (abs_nonneg _))
    have hx0' : x = 0 := by exact_mod_cast hx0
    rw [hx0', zero_div, double_zero]
    simp
  · have hXI : 1 / 2 ^ 124 ≤ X / I := by
      rw [le_div_iff₀ hIpos]
      norm_num at hX hI2 ⊢
      linarith
    have hquot' := abs_le.1 hquot
    have hq0 : (1 : ℝ) / 2 ^ 125 ≤ ((x / s : ℚ) : ℝ) := by
      generalize X / I = r at hXI hquot'
      norm_num at hXI hquot' ⊢
      linarith
    have hq1 : (1 : ℚ) / 2 ^ 125 ≤ x / s := by
      have : (((1 : ℚ) / 2 ^ 125 : ℚ) : ℝ) ≤ ((x / s : ℚ) : ℝ) := by
        push_cast at hq0 ⊢
        exact hq0
      exact_mod_cast this
    have hqpos : (0 : ℚ) < x / s := lt_of_lt_of_le (by norm_num) hq1
    have hbig : 1 / 2 ^ 1000 ≤ |(x / s : ℚ)| := by
      have : (1 : ℚ) / 2 ^ 1000 ≤ 1 / 2 ^ 125 := one_div_le_one_div_of_le (by norm_num) (pow_le_pow_right₀ (by norm_num) (by norm_num))
      rw [abs_of_pos hqpos]
      exact this.trans hq1
    have hr := double_error hbig
    rw [abs_of_pos hqpos] at hr
    have hrR : |((double (x / s) : ℚ) : ℝ) - ((x / s : ℚ) : ℝ)| ≤ ((x / s : ℚ) : ℝ) / 2 ^ 53 := by
      have : ((|double (x / s) - x / s| : ℚ) : ℝ) ≤ ((x / s / 2 ^ 53 : ℚ) : ℝ) := by exact_mod_cast hr
      rw [Rat.cast_abs, Rat.cast_sub, Rat.cast_div (x / s)] at this
      push_cast at this ⊢
      exact this
    have h1 := abs_le.1 hrR
    rw [abs_le]
    generalize ((double (x / s) : ℚ) : ℝ) = D at h1 ⊢
    generalize ((x / s : ℚ) : ℝ) = q at h1 hquot' hq0
    generalize X / I = r at hquot' hXI ⊢
    norm_num at h1 hquot' hXI ⊢
    constructor <;> linarith

theorem ulp_eq {x : ℚ} {u : Nat} (h1 : 2 ^ (u + 23) ≤ x) (h2 : x < 2 ^ (u + 24)) : ulp x = u := by
  have hx : 0 < x := lt_of_lt_of_le (by positivity) h1
  have a1 : ((u + 23 : Nat) : Int) ≤ Int.log 2 x := by
    rw [← Int.zpow_le_iff_le_log (by norm_num) hx, zpow_natCast]
    exact_mod_cast h1
  have a2 : Int.log 2 x < ((u + 24 : Nat) : Int) := by
    rw [← Int.lt_zpow_iff_log_lt (by norm_num) hx, zpow_natCast]
    exact_mod_cast h2
  unfold ulp
  rw [abs_of_pos hx]
  omega

theorem toSingle_eq {x : ℚ} {u : Nat} {n : Int} (hu : u + 24 ≤ 276) (h1 : 2 ^ (u + 23) ≤ x * 2 ^ 149) (h2 : x * 2 ^ 149 < 2 ^ (u + 24))
    (hn : nearest (x * 2 ^ 149 / 2 ^ u) = n) : toSingle x = some (n * 2 ^ u) := by
  have hx : 0 < x * 2 ^ 149 := lt_of_lt_of_le (by positivity) h1
  unfold toSingle
  rw [round_finite (round_isSome ?_)]
  · unfold grid
    rw [ulp_eq h1 h2, hn]
  · rw [abs_of_pos hx]
    refine h2.le.trans ?_
    have h4 : (2 : ℚ) ^ (u + 24) ≤ 1 / 2 * 2 ^ 277 := by
      rw [one_div, inv_mul_eq_div, le_div_iff₀ (by norm_num), ← pow_succ]
      exact pow_le_pow_right₀ (by norm_num) (by omega)
    refine h4.trans (mul_le_mul_of_nonneg_right (by norm_num) (by positivity))

/-- Numbers as close to 1 as the quotient of a number and its single precision value. -/
theorem toSingle_one {r : ℚ} (h1 : 1 - 1 / 2 ^ 24 ≤ r) (h2 : r ≤ 1 + 1 / 2 ^ 24) : toSingle r = some singleOne ∨ toSingle r = some belowOne := by
  by_cases hr : 1 ≤ r
  · left
    have hn : nearest (r * 2 ^ 149 / 2 ^ 126) = 2 ^ 23 := by
      have e : r * 2 ^ 149 / 2 ^ 126 = r * 2 ^ 23 := by
        rw [mul_div_assoc]
        norm_num
      rw [e]
      have hf : ⌊r * 2 ^ 23⌋ = 2 ^ 23 := by
        rw [Int.floor_eq_iff]
        norm_num at h2 hr ⊢
        constructor <;> linarith
      unfold nearest
      simp only [hf]
      norm_num at h2 hr ⊢
      intro h3
      linarith
    rw [toSingle_eq (u := 126) (by norm_num) (by norm_num at hr ⊢; linarith) (by norm_num at h2 ⊢; linarith) hn]
    rfl
  · have hn : nearest (r * 2 ^ 149 / 2 ^ 125) = 2 ^ 24 - 1 ∨ nearest (r * 2 ^ 149 / 2 ^ 125) = 2 ^ 24 := by
      have e : r * 2 ^ 149 / 2 ^ 125 = r * 2 ^ 24 := by
        rw [mul_div_assoc]
        norm_num
      rw [e]
      obtain ⟨a, b⟩ := nearest_between (y := r * 2 ^ 24) (a := 2 ^ 24 - 1) (b := 2 ^ 24) (by norm_num at h1 ⊢; linarith) (by norm_num at hr ⊢; linarith)
      omega
    rw [not_le] at hr
    rcases hn with hn | hn
    · right
      rw [toSingle_eq (u := 125) (by norm_num) (by norm_num at h1 ⊢; linarith) (by norm_num at hr ⊢; linarith) hn]
      rfl
    · left
      rw [toSingle_eq (u := 125) (by norm_num) (by norm_num at h1 ⊢; linarith) (by norm_num at hr ⊢; linarith) hn]
      rfl

/-- The quotient of a number and its single precision value. -/
theorem ratio_same {i d : ℚ} (i1 : 1 / 2 ^ 100 ≤ i) (i2 : i ≤ 2 ^ 100) :
    toSingle (ratioFloat d i (toSingle i)) = some singleOne ∨ toSingle (ratioFloat d i (toSingle i)) = some belowOne := by
  obtain ⟨n, u, hn, hs, hy⟩ := toSingle_form i1 i2
  have hn0 : (0 : ℚ) < n := by
    have : (0 : Int) < n := lt_of_lt_of_le (by norm_num) hn
    exact_mod_cast this
  have hnq : (2 : ℚ) ^ 23 ≤ n := by exact_mod_cast hn
  have hU : (0 : ℚ) < 2 ^ u := by positivity
  rw [hs]
  have hne : n * 2 ^ u ≠ 0 := by
    have : 0 < n := by exact_mod_cast hn0
    positivity
  unfold ratioFloat
  simp only [if_pos hne]
  have e : i / (((n * 2 ^ u : Int) : ℚ) / 2 ^ 149) = i * 2 ^ 149 / 2 ^ u / n := by
    push_cast
    field_simp
  rw [e]
  have hy' := abs_le.1 hy
  generalize i * 2 ^ 149 / 2 ^ u = y at hy' ⊢
  have hb : (1 + 1 / 2 ^ 24 : ℚ) < 2 ^ 1000 := lt_trans (by norm_num : _ < (2 : ℚ) ^ 128) (pow_lt_pow_right₀ (by norm_num) (by norm_num))
  have l1 : 1 - 1 / 2 ^ 24 ≤ y / n := by
    rw [le_div_iff₀ hn0]
    norm_num at hnq hy' ⊢
    linarith
  have l2 : y / n ≤ 1 + 1 / 2 ^ 24 := by
    rw [div_le_iff₀ hn0]
    norm_num at hnq hy' ⊢
    linarith
  have e1 : double (1 - 1 / 2 ^ 24) = 1 - 1 / 2 ^ 24 := by decide +kernel
  have e2 : double (1 + 1 / 2 ^ 24) = 1 + 1 / 2 ^ 24 := by decide +kernel
  have m1 := double_mono (by norm_num) l1 (l2.trans_lt hb)
  have m2 := double_mono (le_trans (by norm_num) l1) l2 hb
  rw [e1] at m1
  rw [e2] at m2
  exact toSingle_one m1 m2

end Verif.Metrics
