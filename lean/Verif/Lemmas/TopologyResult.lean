/-
Sums over levels, and sums of powers.
-/
import Verif.Model.TopologyResult
import Verif.Spec.TopologyResult
import Verif.Props.PlotShape
import Mathlib.Algebra.BigOperators.Intervals
import Mathlib.Algebra.BigOperators.Ring.List
import Mathlib.Tactic.Linarith
import Mathlib.Tactic.Ring

namespace Verif
open Ensemble Spec Finset
variable {F : Type}

theorem inLevel_eq (incl : Bool) (t : Spec.Tree F) : ∀ n, ∑ p ∈ range (2 ^ n), (if t.hasNode incl n p then 1 else 0) = t.inLevel incl n := by
  induction t with
  | leaf v =>
    intro n
    cases n with
    | zero => simp [Tree.hasNode, Tree.nodeAt, Tree.inLevel, Tree.isInner]
    | succ n => simp [Tree.hasNode, Tree.nodeAt, Tree.inLevel]
  | node f th l r ihl ihr =>
    intro n
    cases n with
    | zero => simp [Tree.hasNode, Tree.nodeAt, Tree.inLevel, Tree.isInner]
    | succ n =>
      rw [pow_succ, mul_two, sum_range_add]
      simp only [Tree.inLevel]
      rw [← ihl n, ← ihr n]
      congr 1
      · refine sum_congr rfl fun p hp => ?_
        rw [hasNode_node, if_pos (mem_range.1 hp)]
      · refine sum_congr rfl fun p _ => ?_
        have hge : ¬ (2 ^ n + p < 2 ^ n) := by omega
        rw [hasNode_node, if_neg hge, Nat.add_sub_cancel_left]

theorem having_level (incl : Bool) (fo : Forest F) (n : Nat) : ∑ p ∈ range (2 ^ n), Forest.having incl fo n p = Forest.inLevel incl fo n := by
  unfold Forest.inLevel
  split
  · next h => subst h; simp [Forest.having]
  · next h =>
    unfold Forest.having
    simp only [h, false_and, if_false]
    induction fo with
    | nil => simp
    | cons p fo ih =>
      simp only [List.countP_cons, List.map_cons, List.sum_cons]
      rw [sum_add_distrib, ih, inLevel_eq, Nat.add_comm]

theorem inLevel_pos (t : Spec.Tree F) : ∀ n, (0 < t.inLevel true n ↔ n ≤ t.height) ∧ (0 < t.inLevel false n ↔ n < t.height) := by
  induction t with
  | leaf v => intro n; cases n <;> simp [Tree.inLevel, Spec.Tree.height]
  | node f th l r ihl ihr =>
    intro n
    cases n with
    | zero => simp [Tree.inLevel, Spec.Tree.height]
    | succ n =>
      have h1 := ihl n
      have h2 := ihr n
      simp only [Tree.inLevel, Spec.Tree.height]
      omega

theorem inLevel_total (t : Spec.Tree F) : ∀ R, t.height < R → ∑ n ∈ range R, t.inLevel true n = t.numNodes := by
  induction t with
  | leaf v =>
    intro R h
    obtain ⟨R, rfl⟩ := Nat.exists_eq_succ_of_ne_zero (Nat.ne_of_gt (Nat.zero_lt_of_lt h))
    rw [Nat.succ_eq_add_one, sum_range_succ']
    simp [Tree.inLevel, Spec.Tree.numNodes]
  | node f th l r ihl ihr =>
    intro R h
    obtain ⟨R, rfl⟩ := Nat.exists_eq_succ_of_ne_zero (Nat.ne_of_gt (Nat.zero_lt_of_lt h))
    simp only [Spec.Tree.height] at h
    rw [Nat.succ_eq_add_one, sum_range_succ']
    simp only [Tree.inLevel, Spec.Tree.numNodes]
    rw [sum_add_distrib, ihl R (by omega), ihr R (by omega)]
    omega

/-- The entries of a row, added up position by position. -/
theorem row_sum (row N : Nat) : ∀ top : List Entry, (∀ e ∈ top, e.row = row → e.col < N) →
    ∑ p ∈ range N, cell top row p = ((top.filter (fun e => e.row = row)).map Entry.count).sum
  | [], _ => by simp [cell]
  | e :: top, h => by
    have ih := row_sum row N top (fun e' he' => h e' (by simp [he']))
    have hc : ∀ p, cell (e :: top) row p = (if e.row = row ∧ e.col = p then e.count else 0) + cell top row p := by
      intro p
      unfold cell
      rw [List.filter_cons]
      by_cases hp : e.row = row ∧ e.col = p
      · simp [hp]
      · rw [if_neg (by simpa using hp), if_neg hp, Nat.zero_add]
    simp only [hc]
    rw [sum_add_distrib, ih, List.filter_cons]
    by_cases hr : e.row = row
    · simp only [hr, true_and, decide_true, if_true, List.map_cons, List.sum_cons]
      rw [sum_ite_eq, if_pos (mem_range.2 (h e (by simp) hr))]
    · simp [hr]

/-! ### Sums of powers -/

theorem powSum_cons (x : Nat) (l : List Nat) (c : ℝ) (k : Nat) : powSum (x :: l) c k = ((x : ℝ) - c) ^ k + powSum l c k := by simp [powSum]

theorem powSum_one (c : ℝ) : ∀ l : List Nat, powSum l c 1 = (l.sum : ℝ) - c * l.length
  | [] => by simp [powSum]
  | x :: l => by
    rw [powSum_cons, powSum_one c l]
    push_cast [List.sum_cons, List.length_cons]
    ring

/-- Changing the point from which the squares are measured. -/
theorem powSum_shift (c d : ℝ) : ∀ l : List Nat, powSum l d 2 = powSum l c 2 + 2 * (c - d) * powSum l c 1 + l.length * (c - d) ^ 2
  | [] => by simp [powSum]
  | x :: l => by
    rw [powSum_cons, powSum_cons, powSum_cons, powSum_shift c d l]
    push_cast [List.length_cons]
    ring

theorem powSum_even_nonneg (l : List Nat) (c : ℝ) (k : Nat) : 0 ≤ powSum l c (2 * k) := by
  refine List.sum_nonneg fun y hy => ?_
  obtain ⟨x, -, rfl⟩ := List.mem_map.1 hy
  rw [pow_mul]
  positivity

theorem powSum_two_zero (c : ℝ) : ∀ l : List Nat, powSum l c 2 = 0 ↔ ∀ x ∈ l, (x : ℝ) = c
  | [] => by simp [powSum]
  | x :: l => by
    have h1 := powSum_even_nonneg l c 1
    have h2 : 0 ≤ ((x : ℝ) - c) ^ 2 := by positivity
    rw [powSum_cons, List.forall_mem_cons, ← powSum_two_zero c l]
    constructor
    · intro h
      have h3 : ((x : ℝ) - c) ^ 2 = 0 := by linarith
      exact ⟨by have := pow_eq_zero_iff (two_ne_zero) |>.1 h3; linarith, by linarith⟩
    · rintro ⟨h3, h4⟩
      rw [h4, h3]
      ring

theorem pairSum_eq {l : List Nat} {c : ℝ} (h : IsMean l c) : pairSum l = 2 * l.length * powSum l c 2 := by
  have h1 : powSum l c 1 = 0 := by rw [powSum_one, ← h]; ring
  have h2 : ∀ x : Nat, (l.map (fun y : Nat => ((x : ℝ) - y) ^ 2)).sum = powSum l c 2 + l.length * ((x : ℝ) - c) ^ 2 := by
    intro x
    have : l.map (fun y : Nat => ((x : ℝ) - y) ^ 2) = l.map (fun y : Nat => ((y : ℝ) - x) ^ 2) := by
      refine List.map_congr_left fun y _ => ?_
      ring
    rw [this]
    have h3 := powSum_shift c x l
    rw [h1] at h3
    unfold powSum at h3 ⊢
    rw [h3]
    ring
  unfold pairSum
  simp only [h2]
  have : ∀ (k : List Nat) (A B : ℝ), (k.map (fun x : Nat => A + B * ((x : ℝ) - c) ^ 2)).sum = k.length * A + B * powSum k c 2 := by
    intro k A B
    induction k with
    | nil => simp [powSum]
    | cons x k ih =>
      rw [List.map_cons, List.sum_cons, ih, powSum_cons]
      push_cast [List.length_cons]
      ring
  rw [this]
  ring

/-- `(Σ d³)² ≤ (Σ d²) (Σ d⁴)` less the part of the mean: for every `s` the sum of `(d² - s d - q)²` is not negative. -/
theorem powSum_square (c s q : ℝ) : ∀ l : List Nat,
    0 ≤ powSum l c 4 - 2 * s * powSum l c 3 + (s ^ 2 - 2 * q) * powSum l c 2 + 2 * s * q * powSum l c 1 + l.length * q ^ 2
  | [] => by simp [powSum]
  | x :: l => by
    have ih := powSum_square c s q l
    have h : 0 ≤ (((x : ℝ) - c) ^ 2 - s * ((x : ℝ) - c) - q) ^ 2 := by positivity
    simp only [powSum_cons]
    push_cast [List.length_cons]
    have e : (((x : ℝ) - c) ^ 2 - s * ((x : ℝ) - c) - q) ^ 2 = ((x : ℝ) - c) ^ 4 - 2 * s * ((x : ℝ) - c) ^ 3 +
      (s ^ 2 - 2 * q) * ((x : ℝ) - c) ^ 2 + 2 * s * q * ((x : ℝ) - c) ^ 1 + q ^ 2 := by ring
    linarith

/-- Numbers between two bounds have squares that are not larger than those of the bounds. -/
theorem powSum_between (c lo hi : ℝ) : ∀ l : List Nat, (∀ x ∈ l, lo ≤ (x : ℝ) ∧ (x : ℝ) ≤ hi) →
    powSum l c 2 ≤ (lo + hi - 2 * c) * powSum l c 1 + l.length * ((hi - c) * (c - lo))
  | [], _ => by simp [powSum]
  | x :: l, h => by
    have ih := powSum_between c lo hi l (fun y hy => h y (by simp [hy]))
    obtain ⟨h1, h2⟩ := h x (by simp)
    simp only [powSum_cons]
    push_cast [List.length_cons]
    have h3 : 0 ≤ (hi - x) * (x - lo) := mul_nonneg (by linarith) (by linarith)
    have e : ((x : ℝ) - c) ^ 2 = (lo + hi - 2 * c) * ((x : ℝ) - c) ^ 1 + (hi - c) * (c - lo) - (hi - x) * (x - lo) := by ring
    linarith

end Verif
