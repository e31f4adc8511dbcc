/-
Rounding errors of sums and scores.
-/
import Verif.Spec.Rounding
import Verif.Lemmas.Ensemble
import Mathlib.Algebra.BigOperators.Group.List.Basic
import Mathlib.Tactic.Linarith
import Mathlib.Tactic.Ring
import Mathlib.Tactic.Positivity

namespace Verif.Ensemble
open Spec
variable {F : Type} {ops : FloatOps F} {finite : F → Prop} {num : F → ℝ} {u η : ℝ}

theorem abs_sum_le (l : List ℝ) : |l.sum| ≤ (l.map (fun x => |x|)).sum := by
  induction l with
  | nil => simp
  | cons x l ih =>
    rw [List.sum_cons, List.map_cons, List.sum_cons]
    exact (abs_add_le _ _).trans (by linarith)

theorem sum_abs_nonneg (l : List ℝ) : 0 ≤ (l.map (fun x => |x|)).sum := (abs_nonneg _).trans (abs_sum_le l)

theorem one_le_pow (hu : 0 ≤ u) (d : Nat) : 1 ≤ (1 + u) ^ d := one_le_pow₀ (by linarith)

/-- The error of an addition of two numbers with errors. -/
theorem add_error {x y s t E G u : ℝ} (hu : 0 ≤ u) {r : ℝ} (h : |r - (x + y)| ≤ u * |x + y|) (hx : |x - s| ≤ E) (hy : |y - t| ≤ G) :
    |r - (s + t)| ≤ (1 + u) * (E + G) + u * |s + t| := by
  have h1 : |x + y - (s + t)| ≤ E + G := by
    have : x + y - (s + t) = (x - s) + (y - t) := by ring
    rw [this]
    exact (abs_add_le _ _).trans (by linarith)
  have h2 : |x + y| ≤ E + G + |s + t| := by
    have : x + y = (x + y - (s + t)) + (s + t) := by ring
    rw [this]
    exact (abs_add_le _ _).trans (by linarith)
  have h3 : |r - (s + t)| ≤ |r - (x + y)| + |x + y - (s + t)| := by
    have : r - (s + t) = (r - (x + y)) + (x + y - (s + t)) := by ring
    rw [this]
    exact abs_add_le _ _
  have h4 : u * |x + y| ≤ u * (E + G + |s + t|) := mul_le_mul_of_nonneg_left h2 hu
  linarith

/-- The error of a sum. -/
theorem sumTree_error (hr : Rounded ops finite num u η) {d : Nat} {l : List F} {s : F} (h : SumTree ops d l s) (hf : finite s) :
    (∀ a ∈ l, finite a) ∧ |num s - (l.map num).sum| ≤ ((1 + u) ^ d - 1) * (l.map (fun a => |num a|)).sum := by
  induction h with
  | zero d => simp [hr.zero]
  | one d a =>
    refine ⟨by simpa using hf, ?_⟩
    simp only [List.map_cons, List.map_nil, List.sum_cons, List.sum_nil, add_zero, sub_self, abs_zero]
    exact mul_nonneg (by linarith [one_le_pow hr.u_nonneg d]) (abs_nonneg _)
  | @add d l l' l'' a b _ _ hp iha ihb =>
    obtain ⟨fa, fb, h⟩ := hr.add a b hf
    obtain ⟨fl, ha⟩ := iha fa
    obtain ⟨fl', hb⟩ := ihb fb
    refine ⟨fun x hx => ?_, ?_⟩
    · rcases List.mem_append.1 (hp.mem_iff.2 hx) with hx | hx
      · exact fl x hx
      · exact fl' x hx
    · rw [← (hp.map num).sum_eq, ← (hp.map (fun a => |num a|)).sum_eq, List.map_append, List.map_append, List.sum_append, List.sum_append]
      have h1 := add_error hr.u_nonneg h ha hb
      have h2 : |(l.map num).sum + (l'.map num).sum| ≤ (l.map (fun a => |num a|)).sum + (l'.map (fun a => |num a|)).sum := by
        have e1 := abs_sum_le (l.map num)
        have e2 := abs_sum_le (l'.map num)
        rw [List.map_map] at e1 e2
        exact (abs_add_le _ _).trans (add_le_add e1 e2)
      have h3 := mul_le_mul_of_nonneg_left h2 hr.u_nonneg
      rw [pow_succ]
      nlinarith [h1, h3]

theorem foldl_sumTree_aux (cs : List F) : ∀ (d : Nat) (done : List F) (acc : F), SumTree ops d done acc →
    SumTree ops (d + cs.length) (done ++ cs) (cs.foldl ops.add acc) := by
  induction cs with
  | nil => intro d done acc h; simpa using h
  | cons c cs ih =>
    intro d done acc h
    have h1 : SumTree ops (d + 1) (done ++ [c]) (ops.add acc c) := .add h (.one d c) (List.Perm.refl _)
    have h2 := ih (d + 1) (done ++ [c]) (ops.add acc c) h1
    rw [List.append_assoc, List.singleton_append, Nat.add_right_comm] at h2
    simpa [Nat.add_assoc] using h2

/-- The additions of the loop over the trees. -/
theorem foldl_sumTree (cs : List F) : SumTree ops cs.length cs (cs.foldl ops.add ops.zero) := by
  simpa using foldl_sumTree_aux cs 0 [] ops.zero (.zero 0)

/-! ### Trees -/

theorem value_toReal (hr : Rounded ops finite num u η) {row : List F} (hrow : ∀ x ∈ row, finite x) : ∀ (t : Spec.Tree F),
    (∀ x ∈ t.thresholds, finite x) → (∀ f ∈ t.features, f < row.length) →
    (t.toReal num).value (goesLeft (fun a b => decide (a ≤ b)) (row.map num)) = num (t.value (goesLeft ops.le row)) := by
  intro t
  induction t with
  | leaf v => intros; rfl
  | node f t l r ihl ihr =>
    intro ht hf
    have hlt : f < row.length := hf f (by simp [Spec.Tree.features])
    have e : goesLeft (fun a b => decide (a ≤ b)) (row.map num) f (num t) = goesLeft ops.le row f t := by
      unfold goesLeft
      rw [List.getElem?_map, List.getElem?_eq_getElem hlt]
      simp only [Option.map_some]
      have := hr.le row[f] t (hrow _ (List.getElem_mem hlt)) (ht t (by simp [Spec.Tree.thresholds]))
      rw [Bool.eq_iff_iff, this, decide_eq_true_iff]
    have hl := ihl (fun x hx => ht x (by simp [Spec.Tree.thresholds, hx])) (fun x hx => hf x (by simp [Spec.Tree.features, hx]))
    have hr' := ihr (fun x hx => ht x (by simp [Spec.Tree.thresholds, hx])) (fun x hx => hf x (by simp [Spec.Tree.features, hx]))
    rw [Spec.Tree.toReal, Spec.Tree.value, Spec.Tree.value, e]
    split
    · exact hl
    · exact hr'

/-- The products and their exact values. -/
theorem products_error (hr : Rounded ops finite num u η) (ps : List (F × F)) (hf : ∀ p ∈ ps, finite (ops.mul p.1 p.2)) :
    |(ps.map (fun p => num (ops.mul p.1 p.2))).sum - (ps.map (fun p => num p.1 * num p.2)).sum| ≤
        u * (ps.map (fun p => |num p.1 * num p.2|)).sum + ps.length * η ∧
      (ps.map (fun p => |num (ops.mul p.1 p.2)|)).sum ≤ (1 + u) * (ps.map (fun p => |num p.1 * num p.2|)).sum + ps.length * η := by
  induction ps with
  | nil => simp
  | cons p ps ih =>
    obtain ⟨h1, h2⟩ := ih (fun q hq => hf q (List.mem_cons_of_mem _ hq))
    obtain ⟨-, -, h⟩ := hr.mul p.1 p.2 (hf p List.mem_cons_self)
    simp only [List.map_cons, List.sum_cons, List.length_cons, Nat.cast_add, Nat.cast_one]
    constructor
    · have e : num (ops.mul p.1 p.2) + (ps.map (fun p => num (ops.mul p.1 p.2))).sum - (num p.1 * num p.2 + (ps.map (fun p => num p.1 * num p.2)).sum)
          = (num (ops.mul p.1 p.2) - num p.1 * num p.2) +
            ((ps.map (fun p => num (ops.mul p.1 p.2))).sum - (ps.map (fun p => num p.1 * num p.2)).sum) := by ring
      rw [e]
      refine (abs_add_le _ _).trans ?_
      linarith
    · have e : |num (ops.mul p.1 p.2)| ≤ |num (ops.mul p.1 p.2) - num p.1 * num p.2| + |num p.1 * num p.2| := by
        have : num (ops.mul p.1 p.2) = (num (ops.mul p.1 p.2) - num p.1 * num p.2) + num p.1 * num p.2 := by ring
        calc |num (ops.mul p.1 p.2)| = |(num (ops.mul p.1 p.2) - num p.1 * num p.2) + num p.1 * num p.2| := by rw [← this]
          _ ≤ _ := abs_add_le _ _
      linarith

/-- The sum of the rounded products. -/
theorem dot_error (hr : Rounded ops finite num u η) (ps : List (F × F)) {d : Nat} {s : F}
    (hs : SumTree ops d (ps.map (fun p => ops.mul p.1 p.2)) s) (hf : finite s) :
    |num s - (ps.map (fun p => num p.1 * num p.2)).sum| ≤
      ((1 + u) ^ (d + 1) - 1) * (ps.map (fun p => |num p.1 * num p.2|)).sum + (1 + u) ^ d * (ps.length * η) := by
  obtain ⟨h1, h2⟩ := sumTree_error hr hs hf
  obtain ⟨h3, h4⟩ := products_error hr ps (fun p hp => h1 _ (List.mem_map_of_mem hp))
  rw [List.map_map, List.map_map] at h2
  have h5 := mul_le_mul_of_nonneg_left h4 (by linarith [one_le_pow hr.u_nonneg d] : 0 ≤ (1 + u) ^ d - 1)
  have e : num s - (ps.map (fun p => num p.1 * num p.2)).sum = (num s - (ps.map (fun p => num (ops.mul p.1 p.2))).sum) +
      ((ps.map (fun p => num (ops.mul p.1 p.2))).sum - (ps.map (fun p => num p.1 * num p.2)).sum) := by ring
  rw [e]
  refine (abs_add_le _ _).trans ?_
  have h6 : |num s - (ps.map (fun p => num (ops.mul p.1 p.2))).sum| ≤
      ((1 + u) ^ d - 1) * (ps.map (fun p => |num (ops.mul p.1 p.2)|)).sum := h2
  rw [pow_succ]
  nlinarith [h3, h5, h6]

/-- The error of a product of a number with error and a given number. -/
theorem mul_error {r x s L E u η : ℝ} (hu : 0 ≤ u) (h : |r - x * L| ≤ u * |x * L| + η) (hx : |x - s| ≤ E) :
    |r - s * L| ≤ (1 + u) * (|L| * E) + u * |s * L| + η := by
  have h1 : |x * L - s * L| ≤ |L| * E := by
    have : x * L - s * L = L * (x - s) := by ring
    rw [this, abs_mul]
    exact mul_le_mul_of_nonneg_left hx (abs_nonneg _)
  have h2 : |x * L| ≤ |L| * E + |s * L| := by
    have : x * L = (x * L - s * L) + s * L := by ring
    calc |x * L| = |(x * L - s * L) + s * L| := by rw [← this]
      _ ≤ _ := (abs_add_le _ _).trans (by linarith)
  have h3 : |r - s * L| ≤ |r - x * L| + |x * L - s * L| := by
    have : r - s * L = (r - x * L) + (x * L - s * L) := by ring
    rw [this]
    exact abs_add_le _ _
  have h4 := mul_le_mul_of_nonneg_left h2 hu
  linarith

/-- One score, after learning rate and base score (rt_ensemble.py 340-349). -/
def adjustOne (ops : FloatOps F) (lr : F) (bs : Option F) (v : F) : F :=
  let v := if ops.isOne lr then v else ops.mul v lr
  match bs with
  | none => v
  | some b => if ops.isZero b then v else ops.add v b

theorem adjust_yPred_map (ops : FloatOps F) (lr : F) (bs : Option F) (s : Scored F) : (adjust ops lr bs s).yPred = s.yPred.map (adjustOne ops lr bs) := by
  unfold adjust adjustOne
  cases bs with
  | none => by_cases h : ops.isOne lr <;> simp [h]
  | some b =>
    by_cases h : ops.isOne lr <;> by_cases h' : ops.isZero b <;> simp [h, h']

theorem adjustOne_error (hr : Rounded ops finite num u η) (lr : F) (bs : Option F) {s : F} {S A B : ℝ} {k : Nat} (hSA : |S| ≤ A) (hB : 0 ≤ B)
    (hs : finite s → |num s - S| ≤ ((1 + u) ^ k - 1) * A + B) (hf : finite (adjustOne ops lr bs s)) :
    |num (adjustOne ops lr bs s) - ((bs.elim 0 num) + num lr * S)| ≤
      ((1 + u) ^ (k + 2) - 1) * (|bs.elim 0 num| + |num lr| * A) + (1 + u) ^ 2 * (|num lr| * B + η) := by
  have hu := hr.u_nonneg
  have hη := hr.η_nonneg
  have hA : 0 ≤ A := (abs_nonneg _).trans hSA
  have hpk := one_le_pow hu k
  have hLA : 0 ≤ |num lr| * A := mul_nonneg (abs_nonneg _) hA
  have hLB : 0 ≤ |num lr| * B := mul_nonneg (abs_nonneg _) hB
  set v : F := if ops.isOne lr then s else ops.mul s lr with hv
  -- after the learning rate
  have step1 : finite v → |num v - num lr * S| ≤ ((1 + u) ^ (k + 1) - 1) * (|num lr| * A) + (1 + u) * (|num lr| * B) + η := by
    intro hfv
    by_cases h1 : ops.isOne lr
    · rw [if_pos h1] at hv
      rw [hv] at hfv ⊢
      have hL := hr.isOne lr h1
      rw [hL] at hLA hLB ⊢
      rw [abs_one] at hLA hLB ⊢
      have := hs hfv
      rw [pow_succ]
      have e1 : 0 ≤ (1 + u) ^ k * u * A := by positivity
      have e2 : 0 ≤ u * B := by positivity
      rw [one_mul]
      nlinarith
    · rw [if_neg h1] at hv
      rw [hv] at hfv ⊢
      obtain ⟨f1, -, h⟩ := hr.mul s lr hfv
      have h2 := mul_error hu h (hs f1)
      have h3 : |S * num lr| ≤ |num lr| * A := by
        rw [abs_mul, mul_comm]
        exact mul_le_mul_of_nonneg_left hSA (abs_nonneg _)
      have h4 := mul_le_mul_of_nonneg_left h3 hu
      rw [mul_comm (num lr) S, pow_succ]
      nlinarith
  have hpk1 : (1 + u) ^ (k + 2) = (1 + u) ^ (k + 1) * (1 + u) := pow_succ _ _
  have hpk2 := one_le_pow hu (k + 1)
  have weak : ∀ {x : ℝ}, |x| ≤ ((1 + u) ^ (k + 1) - 1) * (|num lr| * A) + (1 + u) * (|num lr| * B) + η →
      |x| ≤ ((1 + u) ^ (k + 2) - 1) * (|num lr| * A) + (1 + u) ^ 2 * (|num lr| * B + η) := by
    intro x hx
    refine hx.trans ?_
    have e1 : 0 ≤ (1 + u) ^ (k + 1) * u * (|num lr| * A) := by positivity
    have e2 : 0 ≤ (1 + u) * u * (|num lr| * B) := by positivity
    have e3 : 0 ≤ (2 * u + u ^ 2) * η := by positivity
    rw [hpk1]
    nlinarith
  cases bs with
  | none =>
    have e : adjustOne ops lr none s = v := rfl
    rw [e] at hf ⊢
    simp only [Option.elim_none, zero_add, abs_zero]
    exact weak (step1 hf)
  | some b =>
    have e : adjustOne ops lr (some b) s = if ops.isZero b then v else ops.add v b := rfl
    rw [e] at hf ⊢
    simp only [Option.elim_some]
    by_cases h1 : ops.isZero b
    · rw [if_pos h1] at hf ⊢
      rw [hr.isZero b h1, zero_add, abs_zero, zero_add]
      exact weak (step1 hf)
    · rw [if_neg h1] at hf ⊢
      obtain ⟨f1, -, h⟩ := hr.add v b hf
      have h2 := add_error (t := num b) (G := 0) hu h (step1 f1) (by simp)
      have h3 : |num lr * S + num b| ≤ |num lr| * A + |num b| := by
        refine (abs_add_le _ _).trans ?_
        rw [abs_mul]
        have := mul_le_mul_of_nonneg_left hSA (abs_nonneg (num lr))
        linarith
      have h4 := mul_le_mul_of_nonneg_left h3 hu
      rw [add_comm (num b)]
      refine h2.trans ?_
      have e2 : 0 ≤ ((1 + u) ^ (k + 2) - 1 - u) * |num b| := by
        apply mul_nonneg _ (abs_nonneg _)
        rw [hpk1]
        nlinarith
      have e3 : 0 ≤ (1 + u) * u * η := by positivity
      rw [hpk1] at e2 ⊢
      nlinarith

/-! ### Overflow -/

theorem abs_le_of_error {x s E : ℝ} (h : |x - s| ≤ E) : |x| ≤ E + |s| := by
  have : x = (x - s) + s := by ring
  calc |x| = |(x - s) + s| := by rw [← this]
    _ ≤ _ := (abs_add_le _ _).trans (by linarith)

theorem sumTree_size (hr : Rounded ops finite num u η) {d : Nat} {l : List F} {s : F} (h : SumTree ops d l s) (hf : finite s) :
    |num s| ≤ (1 + u) ^ d * (l.map (fun a => |num a|)).sum := by
  have h1 := abs_le_of_error (sumTree_error hr h hf).2
  have h2 := abs_sum_le (l.map num)
  rw [List.map_map] at h2
  have h3 : |(l.map num).sum| ≤ (l.map (fun a => |num a|)).sum := h2
  linarith

/-- A sum is finite if the absolute values are small enough. -/
theorem sumTree_finite (hr : Rounded ops finite num u η) {M : ℝ} (ho : NoOverflow ops finite num M) {d : Nat} {l : List F} {s : F}
    (h : SumTree ops d l s) (hl : ∀ a ∈ l, finite a) (hM : (1 + u) ^ d * (l.map (fun a => |num a|)).sum ≤ M) : finite s := by
  induction h with
  | zero d => exact ho.zero
  | one d a => exact hl a List.mem_cons_self
  | @add d l l' l'' a b ha hb hp iha ihb =>
    have hsum : (l''.map (fun a => |num a|)).sum = (l.map (fun a => |num a|)).sum + (l'.map (fun a => |num a|)).sum := by
      rw [← (hp.map (fun a => |num a|)).sum_eq, List.map_append, List.sum_append]
    have n1 : 0 ≤ (l.map (fun a => |num a|)).sum := by
      have := sum_abs_nonneg (l.map num)
      rwa [List.map_map] at this
    have n2 : 0 ≤ (l'.map (fun a => |num a|)).sum := by
      have := sum_abs_nonneg (l'.map num)
      rwa [List.map_map] at this
    have hu := hr.u_nonneg
    have hpd : 0 ≤ (1 + u) ^ d := by positivity
    rw [hsum, pow_succ] at hM
    have hM' : (1 + u) ^ d * ((l.map (fun a => |num a|)).sum + (l'.map (fun a => |num a|)).sum) ≤ M := by
      have : 0 ≤ (1 + u) ^ d * ((l.map (fun a => |num a|)).sum + (l'.map (fun a => |num a|)).sum) * u := by positivity
      nlinarith
    have p1 := mul_nonneg hpd n1
    have p2 := mul_nonneg hpd n2
    have fa := iha (fun x hx => hl x (hp.mem_iff.1 (List.mem_append_left _ hx))) (by linarith)
    have fb := ihb (fun x hx => hl x (hp.mem_iff.1 (List.mem_append_right _ hx))) (by linarith)
    refine ho.add a b fa fb ((abs_add_le _ _).trans ?_)
    have s1 := sumTree_size hr ha fa
    have s2 := sumTree_size hr hb fb
    linarith

theorem mem_sum_le {l : List ℝ} (h : ∀ x ∈ l, 0 ≤ x) {x : ℝ} (hx : x ∈ l) : x ≤ l.sum := List.single_le_sum h x hx

/-- The sum of the products is finite and not too large. -/
theorem dot_finite (hr : Rounded ops finite num u η) {M : ℝ} (ho : NoOverflow ops finite num M) (ps : List (F × F))
    (hps : ∀ p ∈ ps, finite p.1 ∧ finite p.2) {d : Nat} {s : F} (hs : SumTree ops d (ps.map (fun p => ops.mul p.1 p.2)) s)
    (hM : (1 + u) ^ (d + 1) * ((ps.map (fun p => |num p.1 * num p.2|)).sum + ps.length * η) ≤ M) :
    finite s ∧ |num s| ≤ (1 + u) ^ (d + 1) * ((ps.map (fun p => |num p.1 * num p.2|)).sum + ps.length * η) := by
  have hu := hr.u_nonneg
  have hη := hr.η_nonneg
  set S := (ps.map (fun p => |num p.1 * num p.2|)).sum with hS
  have hS0 : 0 ≤ S := List.sum_nonneg (by
    intro x hx
    obtain ⟨p, -, rfl⟩ := List.mem_map.1 hx
    exact abs_nonneg _)
  have hN : 0 ≤ (ps.length : ℝ) * η := by positivity
  have hSM : S ≤ M := by
    have h1 := one_le_pow hu (d + 1)
    nlinarith
  have hfin : ∀ p ∈ ps, finite (ops.mul p.1 p.2) := by
    intro p hp
    refine ho.mul _ _ (hps p hp).1 (hps p hp).2 (le_trans ?_ hSM)
    apply mem_sum_le
    · intro x hx
      obtain ⟨p, -, rfl⟩ := List.mem_map.1 hx
      exact abs_nonneg _
    · exact List.mem_map_of_mem (f := fun p : F × F => |num p.1 * num p.2|) hp
  have h2 := (products_error hr ps hfin).2
  have hle : (1 + u) ^ d * ((ps.map (fun p => ops.mul p.1 p.2)).map (fun a => |num a|)).sum ≤ (1 + u) ^ (d + 1) * (S + ps.length * η) := by
    rw [List.map_map]
    have hpd : 0 ≤ (1 + u) ^ d := by positivity
    have h3 := mul_le_mul_of_nonneg_left h2 hpd
    refine le_trans h3 ?_
    rw [pow_succ, mul_assoc]
    apply mul_le_mul_of_nonneg_left _ hpd
    nlinarith
  have hf := sumTree_finite hr ho hs (by
    intro a ha
    obtain ⟨p, hp, rfl⟩ := List.mem_map.1 ha
    exact hfin p hp) (hle.trans hM)
  exact ⟨hf, (sumTree_size hr hs hf).trans hle⟩

/-- The score is finite. -/
theorem adjustOne_finite (hr : Rounded ops finite num u η) {M : ℝ} (ho : NoOverflow ops finite num M) {lr : F} (hlr : finite lr) {bs : Option F}
    (hbs : ∀ b ∈ bs, finite b) {s : F} {T : ℝ} (hf : finite s) (hs : |num s| ≤ T)
    (hM : (1 + u) * (|num lr| * T) + η + |bs.elim 0 num| ≤ M) : finite (adjustOne ops lr bs s) := by
  have hu := hr.u_nonneg
  have hη := hr.η_nonneg
  have hT : 0 ≤ T := (abs_nonneg _).trans hs
  have hLT : 0 ≤ |num lr| * T := mul_nonneg (abs_nonneg _) hT
  have huLT : 0 ≤ u * (|num lr| * T) := mul_nonneg hu hLT
  have hb0 : 0 ≤ |bs.elim 0 num| := abs_nonneg _
  set v : F := if ops.isOne lr then s else ops.mul s lr with hv
  have hfv : finite v ∧ |num v| ≤ (1 + u) * (|num lr| * T) + η := by
    by_cases h1 : ops.isOne lr
    · rw [if_pos h1] at hv
      rw [hv]
      refine ⟨hf, ?_⟩
      have hL := hr.isOne lr h1
      rw [hL, abs_one, one_mul] at huLT ⊢
      nlinarith
    · rw [if_neg h1] at hv
      have hab : |num s * num lr| ≤ |num lr| * T := by
        rw [abs_mul, mul_comm]
        exact mul_le_mul_of_nonneg_left hs (abs_nonneg _)
      have hfm : finite (ops.mul s lr) := ho.mul s lr hf hlr (by nlinarith)
      rw [hv]
      refine ⟨hfm, ?_⟩
      have h := abs_le_of_error (hr.mul s lr hfm).2.2
      nlinarith
  cases bs with
  | none => exact hfv.1
  | some b =>
    have e : adjustOne ops lr (some b) s = if ops.isZero b then v else ops.add v b := rfl
    rw [e]
    by_cases h1 : ops.isZero b
    · rw [if_pos h1]; exact hfv.1
    · rw [if_neg h1]
      refine ho.add v b hfv.1 (hbs b rfl) ((abs_add_le _ _).trans ?_)
      simp only [Option.elim_some] at hM
      linarith [hfv.2]

/-- Numbers of the form (1 + u)^k - 1. -/
theorem pow_le_gamma {u : ℝ} (hu : 0 ≤ u) : ∀ (k : Nat), k * u < 1 → (1 + u) ^ k - 1 ≤ k * u / (1 - k * u) := by
  intro k hk
  have h : ∀ k : Nat, k * u < 1 → (1 + u) ^ k * (1 - k * u) ≤ 1 := by
    intro k
    induction k with
    | zero => intro _; simp
    | succ k ih =>
      intro hk
      push_cast at hk
      have h0 := ih (by nlinarith)
      have hp : 0 ≤ (1 + u) ^ k := by positivity
      rw [pow_succ]
      push_cast
      have : (1 + u) ^ k * (1 + u) * (1 - (k + 1) * u) = (1 + u) ^ k * (1 - k * u) - (1 + u) ^ k * ((k + 1) * u ^ 2) := by ring
      rw [this]
      have : 0 ≤ (1 + u) ^ k * ((k + 1) * u ^ 2) := by positivity
      linarith
  have hpos : 0 < 1 - k * u := by linarith
  rw [le_div_iff₀ hpos]
  have := h k hk
  nlinarith

end Verif.Ensemble
