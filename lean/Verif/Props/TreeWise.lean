/-
Properties C53 (tree-wise performance) and C58 (average contribution).
-/
import Verif.Lemmas.Effectiveness
import Verif.Lemmas.Statistical
import Mathlib.Algebra.BigOperators.Ring.List
import Mathlib.Algebra.Order.Field.Rat
import Mathlib.Algebra.Order.BigOperators.Group.List
import Mathlib.Tactic.NormNum

namespace Verif.Props
open Eff Spec

/-! ### C53 -/

section
variable {K V : Type} [AddCommMonoid K]

/-- C53: for a step between 1 and the number of trees, the metric is evaluated on the scores of exactly the first `k` trees, for the
multiples `k` of `step` and for all trees. -/
theorem C53_prefixes_partial (metric : List K → Except PyErr V) {step n : Nat} (h0 : 0 < step) (hn : step ≤ n) (partials : List (List K)) :
    treeWiseModel metric step n partials = (treeCounts step n).mapM (fun k => metric (prefixScores k partials)) :=
  treeWiseModel_spec metric h0 hn partials

/-- C53: the last point is the whole ensemble. -/
theorem C53_last {step n : Nat} (h0 : 0 < step) (hn : step ≤ n) (partials : List (List K)) (hr : ∀ r ∈ partials, r.length = n) :
    (treeCounts step n).getLast? = some n ∧ prefixScores n partials = partials.map List.sum := by
  constructor
  · unfold treeCounts
    have hdm := Nat.div_add_mod n step
    split
    · rename_i hz
      obtain ⟨q, hq⟩ : ∃ q, n / step = q + 1 := ⟨n / step - 1, by have := Nat.div_pos hn h0; omega⟩
      rw [List.append_nil, hq, List.range_succ, List.map_append]
      rw [hq, hz] at hdm
      simp only [List.map_cons, List.map_nil, List.getLast?_concat]
      rw [Nat.mul_comm]
      exact congrArg some hdm
    · exact List.getLast?_concat
  · unfold prefixScores
    apply List.map_congr_left
    intro r h
    rw [List.take_of_length_le (by rw [hr r h])]

theorem foldl_max_const {α : Type} {n : Nat} {f : α → Nat} : ∀ {l : List α} {a : Nat}, (∀ x ∈ l, f x = n) → a ≤ n → l ≠ [] → l.foldl (fun m x => max m (f x)) a = n
  | [x], a, h, ha, _ => by
    have := h x List.mem_cons_self
    simp only [List.foldl_cons, List.foldl_nil]
    omega
  | x :: z :: l, a, h, ha, _ => by
    rw [List.foldl_cons]
    have := h x List.mem_cons_self
    exact foldl_max_const (fun u hu => h u (List.mem_cons_of_mem _ hu)) (by omega) (by simp)

/-- C53: for models of the same number of trees the points are labelled with the numbers of trees, and no cell is missing. -/
theorem C53_labels_partial (metric : List K → V) {step n : Nat} (h0 : 0 < step) (hn : step ≤ n) (models : List (Nat × List (List K)))
    (hne : models ≠ []) (hm : ∀ x ∈ models, x.1 = n) :
    treeWise (fun s => .ok (metric s)) step models = .ok ((treeCounts step n).map (fun (k : Nat) => (k : Int)),
      models.map (fun x => (treeCounts step n).map (fun k => some (metric (prefixScores k x.2))))) := by
  unfold treeWise
  simp only
  rw [foldl_max_const hm (Nat.zero_le _) hne, treeSteps_spec h0 hn]
  have hmap : ∀ (ks : List Nat) (p : List (List K)), ks.mapM (fun k => (Except.ok (metric (prefixScores k p)) : Except PyErr V)) =
      .ok (ks.map (fun k => metric (prefixScores k p))) := by
    intro ks p
    induction ks with
    | nil => rfl
    | cons k ks ih => rw [List.mapM_cons, ih]; rfl
  have hdata : models.mapM (fun x => do
        let vs ← treeWiseModel (fun s => (Except.ok (metric s) : Except PyErr V)) step x.1 x.2
        fillRow ((treeCounts step n).map (fun (k : Nat) => (k : Int) - 1)).length vs) =
      .ok (models.map (fun x => (treeCounts step n).map (fun k => some (metric (prefixScores k x.2))))) := by
    clear hne
    induction models with
    | nil => rfl
    | cons x models ih =>
      rw [List.mapM_cons, ih (fun u hu => hm u (List.mem_cons_of_mem _ hu)), hm x List.mem_cons_self, treeWiseModel_spec _ h0 hn, hmap]
      show (Bind.bind (m := Except PyErr) (fillRow _ _) _) = _
      unfold fillRow
      rw [if_pos (by simp)]
      simp only [List.length_map, Nat.sub_self, List.replicate_zero, List.append_nil, List.map_map]
      rfl
  show (Bind.bind (m := Except PyErr) (models.mapM _) _) = _
  rw [hdata]
  show Except.ok _ = _
  simp [Function.comp_def]

end

/-- C53 is violated: with a smaller model beside a larger one, the last point of the smaller model is labelled with a number of trees that
it does not have. The model of 3 trees is evaluated with 2 and 3 trees, the labels say 2 and 4. -/
theorem C53_violated_labels : treeWise (K := Nat) (fun s => .ok s) 2 [(5, [[1, 1, 1, 1, 1]]), (3, [[1, 1, 1]])] =
    .ok ([2, 4, 5], [[some [2], some [4], some [5]], [some [2], some [3], none]]) := by
  decide +kernel

/-- C53 is violated: a step larger than the number of trees is an `IndexError`. -/
theorem C53_violated_large_step {K V : Type} [AddCommMonoid K] (metric : List K → Except PyErr V) {step n : Nat} (h : n < step) (partials : List (List K)) :
    treeWiseModel metric step n partials = .error .indexError := by
  unfold treeWiseModel treeSteps pyRange
  rw [if_neg (by omega), if_pos (by omega)]
  have : (((n : Int) - (step - 1) + step - 1) / step).toNat = 0 := by
    rw [show (n : Int) - (step - 1) + step - 1 = n by ring, Int.ediv_eq_zero_of_lt (by omega) (by omega)]
    rfl
  rw [this]
  rfl

example : treeCounts 2 5 = [2, 4, 5] ∧ treeCounts 2 4 = [2, 4] ∧
    treeWiseModel (K := Nat) (fun s => .ok s) 2 5 [[1, 2, 3, 4, 5], [5, 0, 0, 1, 0]] = .ok [[3, 5], [10, 6], [15, 6]] := by
  decide +kernel

/-! ### C58 -/

variable {K : Type} [Field K] [LinearOrder K] [IsStrictOrderedRing K]

/-- Column `t` of a matrix with rows of length `n`. -/
theorem filterMap_abs_col {n t : Nat} (ht : t < n) : ∀ (partials : List (List K)), (∀ r ∈ partials, r.length = n) →
    partials.filterMap (fun r => r[t]?.map (fun x => |x|)) = partials.map (fun r => |r.getD t 0|)
  | [], _ => rfl
  | r :: partials, h => by
    have hr := h r List.mem_cons_self
    rw [List.filterMap_cons, List.getElem?_eq_getElem (by omega), filterMap_abs_col ht partials (fun u hu => h u (List.mem_cons_of_mem _ hu))]
    simp [List.getD, List.getElem?_eq_getElem (show t < r.length by omega)]

/-- C58: the contribution of tree `t` is the mean over the documents of the absolute partial score. -/
theorem C58_mean {maxTrees n t : Nat} (ht : t < n) (partials : List (List K)) (hne : partials ≠ []) (hr : ∀ r ∈ partials, r.length = n) :
    (avgContribution maxTrees n partials)[t]? = some (some ((partials.map (fun r => |r.getD t 0|)).sum / (partials.length : K))) := by
  unfold avgContribution
  rw [List.getElem?_append_left (by simpa using ht), List.getElem?_map, List.getElem?_range ht, Option.map_some, filterMap_abs_col ht partials hr]
  unfold meanNaN
  rw [if_neg (by simpa using hne), List.length_map]

/-- C58: for the trees that a smaller model does not have, the contribution is missing. -/
theorem C58_missing {maxTrees n t : Nat} (ht : n ≤ t) (ht2 : t < maxTrees) (partials : List (List K)) :
    (avgContribution maxTrees n partials)[t]? = some none := by
  unfold avgContribution
  rw [List.getElem?_append_right (by simpa using ht)]
  simp only [List.length_map, List.length_range]
  rw [List.getElem?_replicate, if_pos (by omega)]

/-- C58: the contribution is zero exactly if the tree gives 0 to each document. -/
theorem C58_zero {maxTrees n t : Nat} (ht : t < n) (partials : List (List K)) (hne : partials ≠ []) (hr : ∀ r ∈ partials, r.length = n) :
    (avgContribution maxTrees n partials)[t]? = some (some 0) ↔ ∀ r ∈ partials, r[t]? = some 0 := by
  rw [C58_mean ht partials hne hr]
  have hpos : (partials.length : K) ≠ 0 := by
    have := List.length_pos_iff.2 hne
    exact_mod_cast (by omega)
  simp only [Option.some.injEq, div_eq_zero_iff, hpos, or_false]
  rw [show (partials.map (fun r => |r.getD t 0|)).sum = 0 ↔ ∀ x ∈ partials.map (fun r => |r.getD t 0|), x = 0 from
    ⟨fun h => (sum_eq_zero_iff_nonneg _ (by simp)).1 h, fun h => List.sum_eq_zero h⟩]
  simp only [List.mem_map, forall_exists_index, and_imp, forall_apply_eq_imp_iff₂, abs_eq_zero]
  apply forall₂_congr
  intro r h
  have hl := hr r h
  simp [List.getD, List.getElem?_eq_getElem (show t < r.length by omega)]

theorem sum_range_swap {n : Nat} (f : Nat → List K → K) : ∀ (partials : List (List K)),
    ((List.range n).map (fun t => (partials.map (f t)).sum)).sum = (partials.map (fun r => ((List.range n).map (fun t => f t r)).sum)).sum
  | [] => by simp
  | r :: partials => by
    simp only [List.map_cons, List.sum_cons, List.sum_map_add, sum_range_swap f partials]

theorem abs_sum_le (xs : List K) : |xs.sum| ≤ (xs.map (fun x => |x|)).sum := by
  induction xs with
  | nil => simp
  | cons x xs ih =>
    simp only [List.sum_cons, List.map_cons]
    exact (abs_add_le _ _).trans (by linarith)

/-- C58: the contributions of the trees add up to at least the mean absolute score. -/
theorem C58_bound {n : Nat} (partials : List (List K)) (hne : partials ≠ []) (hr : ∀ r ∈ partials, r.length = n) :
    (partials.map (fun r => |r.sum|)).sum / (partials.length : K) ≤ ((avgContribution n n partials).map (fun c => c.getD 0)).sum := by
  have hpos : (0 : K) < (partials.length : K) := by
    have := List.length_pos_iff.2 hne
    exact_mod_cast this
  have e : (avgContribution n n partials).map (fun c => c.getD 0) =
      (List.range n).map (fun t => (partials.map (fun r => |r.getD t 0|)).sum * (partials.length : K)⁻¹) := by
    unfold avgContribution
    rw [Nat.sub_self, List.replicate_zero, List.append_nil, List.map_map]
    apply List.map_congr_left
    intro t ht
    have ht := List.mem_range.1 ht
    simp only [Function.comp_apply]
    rw [filterMap_abs_col ht partials hr]
    unfold meanNaN
    rw [if_neg (by simpa using hne), List.length_map, Option.getD_some, div_eq_mul_inv]
  rw [e, List.sum_map_mul_right, ← div_eq_mul_inv, sum_range_swap (fun t r => |r.getD t 0|)]
  apply div_le_div_of_nonneg_right _ hpos.le
  apply List.sum_le_sum
  intro r h
  have hl := hr r h
  have : (List.range n).map (fun t => |r.getD t 0|) = r.map (fun x => |x|) := by
    apply List.ext_getElem
    · simp [hl]
    · intro i h1 h2
      have : i < r.length := by simpa using h2
      simp [List.getD, List.getElem?_eq_getElem this]
  rw [this]
  exact abs_sum_le r

example : avgContribution 3 2 ([[1, -2], [3, 0]] : List (List ℚ)) = [some 2, some 1, none] ∧ (∀ r ∈ ([[1, -2], [3, 0]] : List (List ℚ)), r.length = 2) := by
  decide +kernel

end Verif.Props
