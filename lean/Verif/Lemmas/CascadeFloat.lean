/-
Rounding errors of the loops of ERR and Pfound, and of the sum of RBP.
-/
import Verif.Spec.CascadeFloat
import Verif.Model.CascadeFloat
import Verif.Lemmas.CountFloat
import Verif.Lemmas.Gain
import Verif.Lemmas.Pairwise

namespace Verif.Metrics
open Spec Decimal

theorem tiny_le (k : Nat) (h : k ≤ 1000) : (1 : ℚ) / 2 ^ 1000 ≤ 1 / 2 ^ k :=
  one_div_le_one_div_of_le (by positivity) (pow_le_pow_right₀ (by norm_num) h)

theorem double_unit {q : ℚ} (h0 : 0 ≤ q) (h1 : q ≤ 1) : |double q - q| ≤ 1 / 2 ^ 52 := by
  have h := double_near h0
  have ht := tiny_le 53 (by norm_num)
  generalize (1 : ℚ) / 2 ^ 1000 = t at h ht
  norm_num at h ht ⊢
  linarith

theorem double_four {q : ℚ} (h0 : 0 ≤ q) (h1 : q ≤ 4) : |double q - q| ≤ 3 * (1 / 2 ^ 52) := by
  have h := double_near h0
  have ht := tiny_le 53 (by norm_num)
  generalize (1 : ℚ) / 2 ^ 1000 = t at h ht
  norm_num at h ht ⊢
  linarith

theorem double_one : double 1 = 1 := by
  have := double_nat (n := 1) (by norm_num)
  simpa using this

theorem one_lt_big : (1 : ℚ) < 2 ^ 1000 := one_lt_pow₀ (by norm_num) (by norm_num)

theorem double_le_one {q : ℚ} (h0 : 0 ≤ q) (h1 : q ≤ 1) : double q ≤ 1 := by
  have := double_mono h0 h1 one_lt_big
  rwa [double_one] at this

/-- The exact loop. -/
def cascQ (w : Nat → ℚ) : Nat → ℚ → ℚ → List ℚ → ℚ
  | _, _, e, [] => e
  | i, p, e, u :: us => cascQ w (i + 1) (p * (1 - u)) (e + p * u * w i) us

/-- The loop with rounding. -/
def cascFloat (term : Nat → ℚ → ℚ → ℚ) : Nat → ℚ → ℚ → List ℚ → ℚ
  | _, _, e, [] => e
  | i, p, e, u :: us => cascFloat term (i + 1) (double (p * (1 - u))) (double (e + term i p u)) us

theorem casc_error {w : Nat → ℚ} {term : Nat → ℚ → ℚ → ℚ} {N : Nat} {τ : ℚ} (hτ : 0 ≤ τ) (hN : (N : ℚ) * (τ + 3 * (1 / 2 ^ 52)) ≤ 1)
    (hw : ∀ i, 0 ≤ w i ∧ w i ≤ 1)
    (hterm : ∀ i, i < N → ∀ p' p u, 0 ≤ p' → p' ≤ 1 → 0 ≤ p → p ≤ 1 → |p' - p| ≤ (i : ℚ) * (1 / 2 ^ 52) → 0 ≤ u → u ≤ 1 →
      0 ≤ term i p' u ∧ term i p' u ≤ 1 ∧ |term i p' u - p * u * w i| ≤ τ) :
    ∀ (us : List ℚ) (i : Nat) (p' p e' e : ℚ), (∀ u ∈ us, 0 ≤ u ∧ u ≤ 1) → i + us.length ≤ N → 0 ≤ p' → p' ≤ 1 → 0 ≤ p → 0 ≤ e → e + p ≤ 1 →
      |p' - p| ≤ (i : ℚ) * (1 / 2 ^ 52) → 0 ≤ e' → |e' - e| ≤ (i : ℚ) * (τ + 3 * (1 / 2 ^ 52)) →
      |cascFloat term i p' e' us - cascQ w i p e us| ≤ ((i + us.length : Nat) : ℚ) * (τ + 3 * (1 / 2 ^ 52)) ∧ 0 ≤ cascFloat term i p' e' us ∧
        0 ≤ cascQ w i p e us ∧ cascQ w i p e us ≤ 1 := by
  intro us
  induction us with
  | nil =>
    intro i p' p e' e _ _ _ _ hp he hep _ he' hee
    exact ⟨by simpa [cascFloat, cascQ] using hee, he', he, by show e ≤ 1; linarith⟩
  | cons u us ih =>
    intro i p' p e' e hu hl hp0 hp1 hp he hep hpp he' hee
    rw [List.length_cons] at hl
    obtain ⟨u0, u1⟩ := hu u List.mem_cons_self
    have hpl : p ≤ 1 := by linarith
    obtain ⟨t0, t1, t2⟩ := hterm i (by omega) p' p u hp0 hp1 hp hpl hpp u0 u1
    have hq0 : 0 ≤ p' * (1 - u) := mul_nonneg hp0 (by linarith)
    have hq1 : p' * (1 - u) ≤ 1 := mul_le_one₀ hp1 (by linarith) (by linarith)
    have hd := double_unit hq0 hq1
    have hi : (i : ℚ) * (τ + 3 * (1 / 2 ^ 52)) ≤ 1 := by
      refine le_trans (mul_le_mul_of_nonneg_right ?_ (by positivity)) hN
      exact_mod_cast (by omega : i ≤ N)
    have hwu : p * u * w i ≤ p * u := by
      have := mul_le_mul_of_nonneg_left (hw i).2 (mul_nonneg hp u0)
      linarith
    have hwu0 : 0 ≤ p * u * w i := mul_nonneg (mul_nonneg hp u0) (hw i).1
    have hee' := abs_le.1 hee
    have he4 : e' + term i p' u ≤ 4 := by linarith
    have hd2 := double_four (add_nonneg he' t0) he4
    have key := ih (i + 1) (double (p' * (1 - u))) (p * (1 - u)) (double (e' + term i p' u)) (e + p * u * w i) (fun v hv => hu v (List.mem_cons_of_mem _ hv))
      (by omega) (double_nonneg hq0) (double_le_one hq0 hq1) (mul_nonneg hp (by linarith)) (by linarith) (by linarith) ?_ (double_nonneg (add_nonneg he' t0)) ?_
    · refine ⟨?_, key.2⟩
      have e1 : i + (u :: us).length = i + 1 + us.length := by rw [List.length_cons]; omega
      rw [e1]
      exact key.1
    · have e1 : double (p' * (1 - u)) - p * (1 - u) = (double (p' * (1 - u)) - p' * (1 - u)) + (p' - p) * (1 - u) := by ring
      rw [e1]
      refine (abs_add_le _ _).trans ?_
      have h1 : |(p' - p) * (1 - u)| ≤ (i : ℚ) * (1 / 2 ^ 52) := by
        rw [abs_mul, abs_of_nonneg (by linarith : 0 ≤ 1 - u)]
        calc |p' - p| * (1 - u) ≤ |p' - p| * 1 := mul_le_mul_of_nonneg_left (by linarith) (abs_nonneg _)
          _ ≤ _ := by rw [mul_one]; exact hpp
      push_cast
      linarith
    · have e1 : double (e' + term i p' u) - (e + p * u * w i) = (double (e' + term i p' u) - (e' + term i p' u)) + ((e' - e) + (term i p' u - p * u * w i)) := by ring
      rw [e1]
      refine (abs_add_le _ _).trans ?_
      have h1 := abs_add_le (e' - e) (term i p' u - p * u * w i)
      push_cast
      linarith

/-- Starting with the loops of the model. -/
theorem casc_error_start {w : Nat → ℚ} {term : Nat → ℚ → ℚ → ℚ} {N : Nat} {τ : ℚ} (hτ : 0 ≤ τ) (hN : (N : ℚ) * (τ + 3 * (1 / 2 ^ 52)) ≤ 1)
    (hw : ∀ i, 0 ≤ w i ∧ w i ≤ 1)
    (hterm : ∀ i, i < N → ∀ p' p u, 0 ≤ p' → p' ≤ 1 → 0 ≤ p → p ≤ 1 → |p' - p| ≤ (i : ℚ) * (1 / 2 ^ 52) → 0 ≤ u → u ≤ 1 →
      0 ≤ term i p' u ∧ term i p' u ≤ 1 ∧ |term i p' u - p * u * w i| ≤ τ) {us : List ℚ} (hu : ∀ u ∈ us, 0 ≤ u ∧ u ≤ 1) (hl : us.length ≤ N) :
    |cascFloat term 0 1 0 us - cascQ w 0 1 0 us| ≤ (N : ℚ) * (τ + 3 * (1 / 2 ^ 52)) ∧ 0 ≤ cascFloat term 0 1 0 us ∧
      0 ≤ cascQ w 0 1 0 us ∧ cascQ w 0 1 0 us ≤ 1 := by
  have h := casc_error hτ hN hw hterm us 0 1 1 0 0 hu (by omega) (by norm_num) (by norm_num) (by norm_num) (by norm_num) (by norm_num) (by simp) (by norm_num)
    (by simp)
  refine ⟨h.1.trans (mul_le_mul_of_nonneg_right ?_ (by positivity)), h.2⟩
  rw [Nat.zero_add]
  exact_mod_cast hl

/-! ### Terms -/

/-- The term of ERR. -/
def errTerm (i : Nat) (p u : ℚ) : ℚ := double (p * double (u / ((i : ℚ) + 1)))

theorem errTerm_error {i : Nat} {p' p u : ℚ} (hp0 : 0 ≤ p') (hp1 : p' ≤ 1) (hpp : |p' - p| ≤ (i : ℚ) * (1 / 2 ^ 52)) (hu0 : 0 ≤ u)
    (hu1 : u ≤ 1) : 0 ≤ errTerm i p' u ∧ errTerm i p' u ≤ 1 ∧ |errTerm i p' u - p * u * (1 / ((i : ℚ) + 1))| ≤ 3 * (1 / 2 ^ 52) := by
  have hi : (0 : ℚ) < (i : ℚ) + 1 := by positivity
  have hq0 : 0 ≤ u / ((i : ℚ) + 1) := by positivity
  have hqi : u / ((i : ℚ) + 1) ≤ 1 / ((i : ℚ) + 1) := div_le_div_of_nonneg_right hu1 hi.le
  have h1i : 1 / ((i : ℚ) + 1) ≤ 1 := by
    rw [div_le_one hi]
    have := Nat.cast_nonneg (α := ℚ) i
    linarith
  have hq1 := hqi.trans h1i
  have d1 := double_unit hq0 hq1
  have dq0 := double_nonneg hq0
  have dq1 := double_le_one hq0 hq1
  have hm0 := mul_nonneg hp0 dq0
  have hm1 : p' * double (u / ((i : ℚ) + 1)) ≤ 1 := mul_le_one₀ hp1 dq0 dq1
  have d2 := double_unit hm0 hm1
  refine ⟨double_nonneg hm0, double_le_one hm0 hm1, ?_⟩
  unfold errTerm
  have e1 : double (p' * double (u / ((i : ℚ) + 1))) - p * u * (1 / ((i : ℚ) + 1)) =
      (double (p' * double (u / ((i : ℚ) + 1))) - p' * double (u / ((i : ℚ) + 1))) +
      (p' * (double (u / ((i : ℚ) + 1)) - u / ((i : ℚ) + 1)) + (p' - p) * (u / ((i : ℚ) + 1))) := by ring
  rw [e1]
  have a1 : |p' * (double (u / ((i : ℚ) + 1)) - u / ((i : ℚ) + 1))| ≤ 1 / 2 ^ 52 := by
    rw [abs_mul, abs_of_nonneg hp0]
    calc p' * |double (u / ((i : ℚ) + 1)) - u / ((i : ℚ) + 1)| ≤ 1 * |double (u / ((i : ℚ) + 1)) - u / ((i : ℚ) + 1)| :=
          mul_le_mul_of_nonneg_right hp1 (abs_nonneg _)
      _ ≤ _ := by rw [one_mul]; exact d1
  have a2 : |(p' - p) * (u / ((i : ℚ) + 1))| ≤ 1 / 2 ^ 52 := by
    rw [abs_mul, abs_of_nonneg hq0]
    calc |p' - p| * (u / ((i : ℚ) + 1)) ≤ ((i : ℚ) * (1 / 2 ^ 52)) * (1 / ((i : ℚ) + 1)) := mul_le_mul hpp hqi hq0 (by positivity)
      _ = (i : ℚ) / ((i : ℚ) + 1) * (1 / 2 ^ 52) := by ring
      _ ≤ 1 * (1 / 2 ^ 52) := by
        refine mul_le_mul_of_nonneg_right ?_ (by positivity)
        rw [div_le_one hi]
        linarith
      _ = _ := one_mul _
  refine (abs_add_le _ _).trans ?_
  have a3 := abs_add_le (p' * (double (u / ((i : ℚ) + 1)) - u / ((i : ℚ) + 1))) ((p' - p) * (u / ((i : ℚ) + 1)))
  linarith

/-- The term of Pfound. -/
def pfoundTerm (pw : Nat → ℚ) (i : Nat) (p u : ℚ) : ℚ := double (double (p * u) * pw i)

theorem pfoundTerm_error {a : ℚ} {pw : Nat → ℚ} (ha0 : 0 ≤ a) (ha1 : a ≤ 1) (hpw : AccuratePower a pw) {N i : Nat} (hi : i ≤ N) {p' p u : ℚ} (hp0 : 0 ≤ p')
    (hp1 : p' ≤ 1) (hpp : |p' - p| ≤ (i : ℚ) * (1 / 2 ^ 52)) (hu0 : 0 ≤ u) (hu1 : u ≤ 1) :
    0 ≤ pfoundTerm pw i p' u ∧ pfoundTerm pw i p' u ≤ 1 ∧ |pfoundTerm pw i p' u - p * u * a ^ i| ≤ ((N : ℚ) + 3) * (1 / 2 ^ 52) := by
  obtain ⟨w0, w1, w2⟩ := hpw i
  have hq0 : 0 ≤ p' * u := mul_nonneg hp0 hu0
  have hq1 : p' * u ≤ 1 := mul_le_one₀ hp1 hu0 hu1
  have d1 := double_unit hq0 hq1
  have dq0 := double_nonneg hq0
  have dq1 := double_le_one hq0 hq1
  have hm0 := mul_nonneg dq0 w0
  have hm1 : double (p' * u) * pw i ≤ 1 := mul_le_one₀ dq1 w0 w1
  have d2 := double_unit hm0 hm1
  have ai0 : 0 ≤ a ^ i := pow_nonneg ha0 i
  have ai1 : a ^ i ≤ 1 := pow_le_one₀ ha0 ha1
  refine ⟨double_nonneg hm0, double_le_one hm0 hm1, ?_⟩
  unfold pfoundTerm
  have e1 : double (double (p' * u) * pw i) - p * u * a ^ i = (double (double (p' * u) * pw i) - double (p' * u) * pw i) +
      ((double (p' * u) - p' * u) * pw i + (p' * u * (pw i - a ^ i) + (p' - p) * (u * a ^ i))) := by ring
  rw [e1]
  have a1 : |(double (p' * u) - p' * u) * pw i| ≤ 1 / 2 ^ 52 := by
    rw [abs_mul, abs_of_nonneg w0]
    calc _ ≤ |double (p' * u) - p' * u| * 1 := mul_le_mul_of_nonneg_left w1 (abs_nonneg _)
      _ ≤ _ := by rw [mul_one]; exact d1
  have a2 : |p' * u * (pw i - a ^ i)| ≤ 1 / 2 ^ 52 := by
    rw [abs_mul, abs_of_nonneg hq0]
    calc _ ≤ 1 * |pw i - a ^ i| := mul_le_mul_of_nonneg_right hq1 (abs_nonneg _)
      _ ≤ _ := by rw [one_mul]; exact w2
  have a3 : |(p' - p) * (u * a ^ i)| ≤ (N : ℚ) * (1 / 2 ^ 52) := by
    rw [abs_mul, abs_of_nonneg (mul_nonneg hu0 ai0)]
    calc _ ≤ |p' - p| * 1 := mul_le_mul_of_nonneg_left (mul_le_one₀ hu1 ai0 ai1) (abs_nonneg _)
      _ ≤ (i : ℚ) * (1 / 2 ^ 52) := by rw [mul_one]; exact hpp
      _ ≤ _ := mul_le_mul_of_nonneg_right (by exact_mod_cast hi) (by positivity)
  have b1 := abs_add_le (p' * u * (pw i - a ^ i)) ((p' - p) * (u * a ^ i))
  have b2 := abs_add_le ((double (p' * u) - p' * u) * pw i) (p' * u * (pw i - a ^ i) + (p' - p) * (u * a ^ i))
  refine (abs_add_le _ _).trans ?_
  rw [add_mul]
  linarith

/-! ### Sums -/

theorem doubleSum_abs {d : Nat} {l : List ℚ} {s : ℚ} (h : SumTree doubleOps d l s) (hl : ∀ a ∈ l, 0 ≤ a) :
    0 ≤ s ∧ |s - l.sum| ≤ ((1 + 1 / 2 ^ 53) ^ d - 1) * l.sum + 4 ^ d * (1 / 2 ^ 1000) := by
  have hη : (0 : ℚ) ≤ 1 / 2 ^ 1000 := by positivity
  have hnear : ∀ {q : ℚ}, 0 ≤ q → |double q - q| ≤ q / 2 ^ 53 + 1 / 2 ^ 1000 := fun h => double_near h
  generalize (1 : ℚ) / 2 ^ 1000 = η at hη hnear ⊢
  have hP : ∀ d : Nat, (1 : ℚ) ≤ (1 + 1 / 2 ^ 53) ^ d := fun d => one_le_pow₀ (by norm_num)
  induction h with
  | zero d => exact ⟨le_refl _, by simp [doubleOps]; positivity⟩
  | one d a =>
    have ha := hl a List.mem_cons_self
    refine ⟨ha, ?_⟩
    have h1 : 0 ≤ ((1 + 1 / 2 ^ 53 : ℚ) ^ d - 1) * [a].sum := mul_nonneg (by have := hP d; linarith) (by simpa using ha)
    have h2 : 0 ≤ (4 : ℚ) ^ d * η := by positivity
    rw [List.sum_singleton, sub_self, abs_zero] at *
    linarith
  | @add d l l' l'' a b _ _ hp iha ihb =>
    obtain ⟨a0, a1⟩ := iha (fun x hx => hl x (hp.mem_iff.1 (List.mem_append_left _ hx)))
    obtain ⟨b0, b1⟩ := ihb (fun x hx => hl x (hp.mem_iff.1 (List.mem_append_right _ hx)))
    have hs : l''.sum = l.sum + l'.sum := by rw [← hp.sum_eq, List.sum_append]
    have hab := add_nonneg a0 b0
    refine ⟨double_nonneg hab, ?_⟩
    have hr := hnear hab
    show |double (a + b) - l''.sum| ≤ _
    rw [hs, pow_succ _ d, pow_succ _ d]
    have hPd := hP d
    have h4 : (1 : ℚ) ≤ 4 ^ d := one_le_pow₀ (by norm_num)
    generalize (1 + 1 / 2 ^ 53 : ℚ) ^ d = P at *
    generalize (4 : ℚ) ^ d = F at *
    have e1 : double (a + b) - (l.sum + l'.sum) = (double (a + b) - (a + b)) + ((a - l.sum) + (b - l'.sum)) := by ring
    rw [e1]
    have c1 := abs_add_le (double (a + b) - (a + b)) ((a - l.sum) + (b - l'.sum))
    have c2 := abs_add_le (a - l.sum) (b - l'.sum)
    have a2 := (abs_le.1 a1).2
    have b2 := (abs_le.1 b1).2
    have hFη : η ≤ F * η := by
      have := mul_le_mul_of_nonneg_right h4 hη
      linarith
    have e2 : (P * (1 + 1 / 2 ^ 53) - 1) * (l.sum + l'.sum) + F * 4 * η =
        ((P - 1) * l.sum + F * η) + ((P - 1) * l'.sum + F * η) + ((P * l.sum + P * l'.sum) / 2 ^ 53 + 2 * (F * η)) := by ring
    rw [e2]
    have e3 : (a + b) / 2 ^ 53 ≤ (P * l.sum + P * l'.sum) / 2 ^ 53 + F * η := by
      norm_num
      linarith
    linarith

/-- The error of the computed RBP. -/
theorem rbp_error {p : ℚ} (hp0 : 0 ≤ p) (hp1 : p ≤ 1) {S S' s : ℚ} {d n : Nat} (hn : n ≤ 2 ^ 20) (hd : d ≤ 64) (hSn : S ≤ n)
    (hS1 : (1 - p) * S ≤ 1) (hS0' : 0 ≤ S') (hSS : |S' - S| ≤ (n : ℚ) * (1 / 2 ^ 52)) (hs0 : 0 ≤ s)
    (hs : |s - S'| ≤ ((1 + 1 / 2 ^ 53) ^ d - 1) * S' + 4 ^ d * (1 / 2 ^ 1000)) :
    0 ≤ double (double (1 - p) * s) ∧ |double (double (1 - p) * s) - (1 - p) * S| ≤ 1 / 2 ^ 30 := by
  have hq0 : 0 ≤ 1 - p := by linarith
  have hnq : (n : ℚ) ≤ 1048576 := by
    have h1 : (n : ℚ) ≤ ((2 ^ 20 : Nat) : ℚ) := Nat.cast_le.2 hn
    rw [Nat.cast_pow, Nat.cast_ofNat] at h1
    have h2 : (2 : ℚ) ^ 20 = 1048576 := by norm_num
    rwa [h2] at h1
  have hP : (1 + 1 / 2 ^ 53 : ℚ) ^ d - 1 ≤ 1 / 2 ^ 46 := by
    have hdq : (d : ℚ) ≤ 64 := by exact_mod_cast hd
    have := pow_small (u := 1 / 2 ^ 53) (by positivity) d (by norm_num; linarith)
    norm_num at this ⊢
    linarith
  have hP0 : 0 ≤ (1 + 1 / 2 ^ 53 : ℚ) ^ d - 1 := by
    have : (1 : ℚ) ≤ (1 + 1 / 2 ^ 53) ^ d := one_le_pow₀ (by norm_num)
    linarith
  have hB : (4 : ℚ) ^ d * (1 / 2 ^ 1000) ≤ 1 / 2 ^ 800 := by
    have h1 : (4 : ℚ) ^ d ≤ 4 ^ 64 := pow_le_pow_right₀ (by norm_num) hd
    have h2 : (4 : ℚ) ^ 64 = 2 ^ 128 := by norm_num
    have h3 : (2 : ℚ) ^ 1000 = 2 ^ 128 * (2 ^ 72 * 2 ^ 800) := by rw [← pow_add, ← pow_add]
    have h4 : (0 : ℚ) < 2 ^ 800 := by positivity
    rw [h2] at h1
    rw [h3]
    generalize (2 : ℚ) ^ 800 = T at *
    rw [mul_one_div, div_le_div_iff₀ (by positivity) h4, one_mul]
    have h5 : (1 : ℚ) ≤ 2 ^ 72 := one_le_pow₀ (by norm_num)
    have h6 := mul_le_mul_of_nonneg_right h1 h4.le
    have h7 : (2 : ℚ) ^ 128 * T ≤ 2 ^ 128 * (2 ^ 72 * T) := by
      refine mul_le_mul_of_nonneg_left ?_ (by positivity)
      have := mul_le_mul_of_nonneg_right h5 h4.le
      rwa [one_mul] at this
    exact h6.trans h7
  have hB2 : (1 : ℚ) / 2 ^ 800 ≤ 1 / 2 ^ 100 := one_div_le_one_div_of_le (by positivity) (pow_le_pow_right₀ (by norm_num) (by norm_num))
  replace hs := hs.trans (add_le_add (mul_le_mul_of_nonneg_right hP hS0') (hB.trans hB2))
  clear hB hB2 hP hP0
  have hc := double_near hq0
  have hc0 := double_nonneg hq0
  have hm0 := mul_nonneg hc0 hs0
  have hx := double_near hm0
  refine ⟨double_nonneg hm0, ?_⟩
  have ht := tiny_le 100 (by norm_num)
  generalize double (double (1 - p) * s) = x at *
  generalize double (1 - p) = c at *
  have hη : (0 : ℚ) ≤ 1 / 2 ^ 1000 := by positivity
  generalize (1 : ℚ) / 2 ^ 1000 = η at *
  -- bounds of the sums
  have hS'S := abs_le.1 hSS
  have hsS' := abs_le.1 hs
  have hn52 : (n : ℚ) * (1 / 2 ^ 52) ≤ 1 / 2 ^ 32 := by norm_num; linarith
  have hS'n : S' ≤ 2097152 := by
    have : (1 : ℚ) / 2 ^ 32 ≤ 1 := by norm_num
    linarith
  have hsn : s ≤ 4194304 := by
    have : (1 : ℚ) / 2 ^ 46 * S' + 1 / 2 ^ 100 ≤ 1048576 := by norm_num; linarith
    linarith
  -- the scaled errors
  have k1 : |(1 - p) * (S' - S)| ≤ 1 / 2 ^ 32 := by
    rw [abs_mul, abs_of_nonneg hq0]
    have := mul_le_mul (by linarith : 1 - p ≤ 1) hSS (abs_nonneg _) (by norm_num)
    linarith
  have k1' := abs_le.1 k1
  have hS'2 : (1 - p) * S' ≤ 2 := by
    have e : (1 - p) * S' = (1 - p) * S + (1 - p) * (S' - S) := by ring
    have : (1 : ℚ) / 2 ^ 32 ≤ 1 := by norm_num
    linarith
  have k2 : |(1 - p) * (s - S')| ≤ 1 / 2 ^ 44 := by
    rw [abs_mul, abs_of_nonneg hq0]
    have h1 := mul_le_mul_of_nonneg_left hs hq0
    have e : (1 - p) * (1 / 2 ^ 46 * S' + 1 / 2 ^ 100) = (1 / 2 ^ 46) * ((1 - p) * S') + (1 - p) * (1 / 2 ^ 100) := by ring
    have h2 : (1 - p) * (1 / 2 ^ 100) ≤ 1 / 2 ^ 100 := by
      have := mul_le_mul_of_nonneg_right (by linarith : 1 - p ≤ 1) (by positivity : (0 : ℚ) ≤ 1 / 2 ^ 100)
      linarith
    rw [e] at h1
    norm_num at h1 h2 ⊢
    linarith
  have k2' := abs_le.1 k2
  have hqs : (1 - p) * s ≤ 3 := by
    have e : (1 - p) * s = (1 - p) * S' + (1 - p) * (s - S') := by ring
    have : (1 : ℚ) / 2 ^ 44 ≤ 1 := by norm_num
    linarith
  have k3 : |(c - (1 - p)) * s| ≤ 1 / 2 ^ 50 := by
    rw [abs_mul, abs_of_nonneg hs0]
    have h1 := mul_le_mul_of_nonneg_right hc hs0
    have e : ((1 - p) / 2 ^ 53 + η) * s = ((1 - p) * s) / 2 ^ 53 + η * s := by ring
    have h2 : η * s ≤ 1 / 2 ^ 100 * 4194304 := mul_le_mul ht hsn hs0 (by positivity)
    rw [e] at h1
    norm_num at h1 h2 ⊢
    linarith
  have k3' := abs_le.1 k3
  have hcs : c * s ≤ 4 := by
    have e : c * s = (1 - p) * s + (c - (1 - p)) * s := by ring
    have : (1 : ℚ) / 2 ^ 50 ≤ 1 := by norm_num
    linarith
  have k4 : |x - c * s| ≤ 1 / 2 ^ 50 := by
    refine hx.trans ?_
    norm_num at ht ⊢
    linarith
  have e : x - (1 - p) * S = (x - c * s) + ((c - (1 - p)) * s + ((1 - p) * (s - S') + (1 - p) * (S' - S))) := by ring
  rw [e]
  have c1 := abs_add_le (x - c * s) ((c - (1 - p)) * s + ((1 - p) * (s - S') + (1 - p) * (S' - S)))
  have c2 := abs_add_le ((c - (1 - p)) * s) ((1 - p) * (s - S') + (1 - p) * (S' - S))
  have c3 := abs_add_le ((1 - p) * (s - S')) ((1 - p) * (S' - S))
  have hk : (1 : ℚ) / 2 ^ 50 + (1 / 2 ^ 50 + (1 / 2 ^ 44 + 1 / 2 ^ 32)) ≤ 1 / 2 ^ 30 := by norm_num
  linarith

/-! ### Storing -/

/-- Numbers from 0 to 1 with a small error are stored as numbers from 0 to 1. -/
theorem stored_unit {x X : ℚ} (h0 : 0 ≤ x) (hX : X ≤ 1) (hx : |x - X| ≤ 1 / 2 ^ 28) :
    ∃ m : Nat, toSingle x = some (m : Int) ∧ m ≤ 2 ^ 149 ∧ |(m : ℚ) / 2 ^ 149 - X| ≤ 1 / 2 ^ 24 := by
  have hx' := abs_le.1 hx
  have hx2 : x ≤ 2 := by
    have : (1 : ℚ) / 2 ^ 28 ≤ 1 := by norm_num
    linarith
  obtain ⟨m, hm, hnear⟩ := toSingle_nearest h0 hx2
  have hclose : |(m : ℚ) / 2 ^ 149 - x| ≤ 1 / 2 ^ 25 := by
    by_cases h1 : x ≤ 1
    · exact nearest_close h0 h1 hnear
    · have h2 := hnear.2 (2 ^ 149) one_magnitude
      rw [one_cast] at h2
      refine h2.trans ?_
      rw [abs_of_neg (by linarith)]
      have : (1 : ℚ) / 2 ^ 28 ≤ 1 / 2 ^ 25 := by norm_num
      linarith
  refine ⟨m, hm, ?_, ?_⟩
  · by_cases h1 : 1 - 1 / 2 ^ 24 ≤ x
    · have h2 : x ≤ 1 + 1 / 2 ^ 24 := by
        have : (1 : ℚ) / 2 ^ 28 ≤ 1 / 2 ^ 24 := by norm_num
        linarith
      rcases toSingle_one h1 h2 with h | h
      · rw [hm, Option.some.injEq] at h
        have : m = 2 ^ 149 := by
          unfold singleOne at h
          exact_mod_cast h
        exact this.le
      · rw [hm, Option.some.injEq] at h
        unfold belowOne at h
        have : (m : Int) ≤ ((2 ^ 149 : Nat) : Int) := by
          rw [h]
          norm_num
        exact_mod_cast this
    · have h2 := (abs_le.1 hclose).2
      have h3 : (m : ℚ) / 2 ^ 149 ≤ 1 := by
        have : (1 : ℚ) / 2 ^ 25 ≤ 1 / 2 ^ 24 := by norm_num
        linarith
      rw [div_le_one (by positivity)] at h3
      have h4 : (m : ℚ) ≤ ((2 ^ 149 : Nat) : ℚ) := by
        rw [Nat.cast_pow, Nat.cast_ofNat]
        exact h3
      exact Nat.cast_le.1 h4
  · have e : (m : ℚ) / 2 ^ 149 - X = ((m : ℚ) / 2 ^ 149 - x) + (x - X) := by ring
    rw [e]
    refine (abs_add_le _ _).trans ?_
    have : (1 : ℚ) / 2 ^ 25 + 1 / 2 ^ 28 ≤ 1 / 2 ^ 24 := by norm_num
    linarith

end Verif.Metrics
