/-
Lemmas on the specification of feature importance.
-/
import Verif.Spec.Feature
import Mathlib.Algebra.BigOperators.Group.List.Basic
import Mathlib.Algebra.Order.BigOperators.Group.List
import Mathlib.Algebra.Order.Field.Basic
import Mathlib.Tactic.Ring
import Mathlib.Tactic.Linarith
import Mathlib.Tactic.FieldSimp
import Mathlib.Tactic.Positivity

namespace Verif
open Spec
variable {K : Type} [Field K] [LinearOrder K] {left : Nat → K → Nat → Bool} {y : Nat → K}

theorem mean_perm {D E : List Nat} (h : D.Perm E) : mean y D = mean y E := by
  unfold mean
  rw [(h.map y).sum_eq, h.length_eq]

theorem sse_perm {D E : List Nat} (h : D.Perm E) : sse y D = sse y E := by
  unfold sse
  rw [mean_perm h, (h.map _).sum_eq]

theorem goLeft_perm {D E : List Nat} (h : D.Perm E) (f : Nat) (t : K) : (goLeft left f t D).Perm (goLeft left f t E) := h.filter _
theorem goRight_perm {D E : List Nat} (h : D.Perm E) (f : Nat) (t : K) : (goRight left f t D).Perm (goRight left f t E) := h.filter _

theorem gains_perm (t : Spec.Tree K) : ∀ {D E : List Nat}, D.Perm E → gains left y t D = gains left y t E := by
  induction t with
  | leaf v => intros; rfl
  | node f th l r ihl ihr =>
    intro D E h
    rw [gains, gains, sse_perm h, sse_perm (goLeft_perm h f th), sse_perm (goRight_perm h f th), ihl (goLeft_perm h f th),
      ihr (goRight_perm h f th)]

theorem fitted_perm (t : Spec.Tree K) : ∀ {D E : List Nat}, D.Perm E → fitted left y t D = fitted left y t E := by
  induction t with
  | leaf v => intro D E h; funext d; rw [fitted, fitted, mean_perm h]
  | node f th l r ihl ihr =>
    intro D E h
    funext d
    rw [fitted, fitted, ihl (goLeft_perm h f th), ihr (goRight_perm h f th)]

theorem visitedFeatures_perm (t : Spec.Tree K) : ∀ {D E : List Nat}, D.Perm E → visitedFeatures left t D = visitedFeatures left t E := by
  induction t with
  | leaf v => intros; rfl
  | node f th l r ihl ihr =>
    intro D E h
    rw [visitedFeatures, visitedFeatures, (goLeft_perm h f th).length_eq, (goRight_perm h f th).length_eq, ihl (goLeft_perm h f th),
      ihr (goRight_perm h f th)]

theorem noEmptyLeft_perm (t : Spec.Tree K) : ∀ {D E : List Nat} {s : Nat}, D.Perm E → NoEmptyLeft left t D s → NoEmptyLeft left t E s := by
  induction t with
  | leaf v => intros; trivial
  | node f th l r ihl ihr =>
    intro D E s h hn
    have hL := goLeft_perm (left := left) h f th
    have hR := goRight_perm (left := left) h f th
    obtain ⟨h1, h2, h3⟩ := hn
    refine ⟨fun hs he => h1 hs (by rw [he] at hL; exact hL.eq_nil), fun h4 => ihl hL (h2 (by rw [hL.length_eq]; exact h4)), fun h4 => ?_⟩
    rw [← hL.length_eq]
    exact ihr hR (h3 (by rw [hR.length_eq]; exact h4))

theorem split_perm (f : Nat) (th : K) (D : List Nat) : (goLeft left f th D ++ goRight left f th D).Perm D := by
  unfold goLeft goRight
  exact List.filter_append_perm _ D

section ordered
variable [IsStrictOrderedRing K]

theorem mean_mul {D : List Nat} : mean y D * D.length = (D.map y).sum := by
  unfold mean
  rcases Nat.eq_zero_or_pos D.length with h | h
  · rw [List.length_eq_zero_iff.1 h]
    simp
  · have : (D.length : K) ≠ 0 := by exact_mod_cast h.ne'
    field_simp

theorem sum_sub_const_sq (D : List Nat) (c : K) :
    (D.map (fun d => (y d - c) ^ 2)).sum = (D.map (fun d => y d ^ 2)).sum - 2 * c * (D.map y).sum + c ^ 2 * D.length := by
  induction D with
  | nil => simp
  | cons a D ih =>
    simp only [List.map_cons, List.sum_cons, List.length_cons, ih]
    push_cast
    ring

/-- The mean is the best constant. -/
theorem sum_sq_const (D : List Nat) (c : K) : (D.map (fun d => (y d - c) ^ 2)).sum = sse y D + (mean y D - c) ^ 2 * D.length := by
  unfold sse
  rw [sum_sub_const_sq, sum_sub_const_sq, ← mean_mul (y := y)]
  ring

theorem sse_nonneg (D : List Nat) : 0 ≤ sse y D := by
  unfold sse
  apply List.sum_nonneg
  intro x hx
  rw [List.mem_map] at hx
  obtain ⟨d, _, rfl⟩ := hx
  positivity

/-- Splitting documents does not increase the error. -/
theorem sse_split (f : Nat) (th : K) (D : List Nat) : sse y (goLeft left f th D) + sse y (goRight left f th D) ≤ sse y D := by
  have h : sse y D = ((goLeft left f th D).map (fun d => (y d - mean y D) ^ 2)).sum + ((goRight left f th D).map (fun d => (y d - mean y D) ^ 2)).sum := by
    conv_lhs => unfold sse
    rw [← ((split_perm (left := left) f th D).map _).sum_eq, List.map_append, List.sum_append]
  rw [h, sum_sq_const, sum_sq_const]
  have h1 : 0 ≤ (mean y (goLeft left f th D) - mean y D) ^ 2 * (goLeft left f th D).length := by positivity
  have h2 : 0 ≤ (mean y (goRight left f th D) - mean y D) ^ 2 * (goRight left f th D).length := by positivity
  linarith

theorem gains_nonneg (t : Spec.Tree K) : ∀ (D : List Nat), ∀ g ∈ gains left y t D, 0 ≤ g.2 := by
  induction t with
  | leaf v => intro D g hg; simp [gains] at hg
  | node f th l r ihl ihr =>
    intro D g hg
    rw [gains, List.mem_cons, List.mem_append] at hg
    rcases hg with rfl | hg | hg
    · have := sse_split (left := left) (y := y) f th D
      simp only
      linarith
    · exact ihl _ g hg
    · exact ihr _ g hg

theorem sse_small {D : List Nat} (h : D.length ≤ 1) : sse y D = 0 := by
  match D, h with
  | [], _ => rfl
  | [d], _ => simp [sse, mean]

/-- Nodes reached by at most one document have no gain. -/
theorem gains_small (t : Spec.Tree K) : ∀ {D : List Nat}, D.length ≤ 1 → ∀ g ∈ gains left y t D, g.2 = 0 := by
  induction t with
  | leaf v => intro D _ g hg; simp [gains] at hg
  | node f th l r ihl ihr =>
    intro D hD g hg
    have h1 : (goLeft left f th D).length ≤ 1 := (List.length_filter_le _ _).trans hD
    have h2 : (goRight left f th D).length ≤ 1 := (List.length_filter_le _ _).trans hD
    rw [gains, List.mem_cons, List.mem_append] at hg
    rcases hg with rfl | hg | hg
    · simp [sse_small hD, sse_small h1, sse_small h2]
    · exact ihl h1 g hg
    · exact ihr h2 g hg

theorem fitted_single (t : Spec.Tree K) (d : Nat) : fitted left y t [d] d = y d := by
  induction t with
  | leaf v => simp [fitted, mean]
  | node f th l r ihl ihr =>
    rw [fitted]
    by_cases h : left f th d = true
    · rw [if_pos h]
      have : goLeft left f th [d] = [d] := by simp [goLeft, h]
      rw [this, ihl]
    · rw [if_neg h]
      have : goRight left f th [d] = [d] := by simp [goRight, h]
      rw [this, ihr]

end ordered

theorem importance_append (a b : List (Nat × K)) (n f : Nat) : importance (a ++ b) n f = importance a n f + importance b n f := by
  unfold importance
  rw [List.filter_append, List.map_append, List.sum_append, add_div]

theorem importance_zero {a : List (Nat × K)} (h : ∀ g ∈ a, g.2 = 0) (n f : Nat) : importance a n f = 0 := by
  unfold importance
  have : ((a.filter (fun g => g.1 = f)).map (·.2)).sum = 0 := by
    apply List.sum_eq_zero
    intro x hx
    rw [List.mem_map] at hx
    obtain ⟨g, hg, rfl⟩ := hx
    exact h g (List.mem_filter.1 hg).1
  rw [this, zero_div]

theorem importance_cons (f0 : Nat) (v : K) (a : List (Nat × K)) (n f : Nat) :
    importance ((f0, v) :: a) n f = (if f = f0 then v / n else 0) + importance a n f := by
  unfold importance
  by_cases h : f = f0
  · rw [List.filter_cons_of_pos (by simp [h]), if_pos h, List.map_cons, List.sum_cons, add_div]
  · rw [List.filter_cons_of_neg (by simpa using Ne.symm h), if_neg h, zero_add]

end Verif
