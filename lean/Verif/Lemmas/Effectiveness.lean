/-
Lemmas on the tree-wise analyses.
-/
import Verif.Model.Effectiveness
import Verif.Spec.Effectiveness
import Mathlib.Tactic.Ring
import Mathlib.Algebra.Order.BigOperators.Group.List
import Mathlib.Algebra.Order.Field.Basic

namespace Verif
open Eff Spec

theorem treeSteps_spec {step n : Nat} (h0 : 0 < step) (hn : step ≤ n) :
    treeSteps step n = .ok ((treeCounts step n).map (fun (k : Nat) => (k : Int) - 1)) := by
  have hq : 0 < n / step := Nat.div_pos hn h0
  have e : pyRange ((step : Int) - 1) n step = .ok ((List.range (n / step)).map (fun (i : Nat) => ((i : Int) + 1) * step - 1)) := by
    unfold pyRange
    rw [if_neg (by omega), if_pos (by omega)]
    have : ((n : Int) - (step - 1) + step - 1) / step = ((n / step : Nat) : Int) := by
      rw [show (n : Int) - (step - 1) + step - 1 = n by ring]
      norm_cast
    rw [this, Int.toNat_natCast]
    congr 1
    apply List.map_congr_left
    intro i _
    ring
  unfold treeSteps
  rw [e]
  obtain ⟨q, hq'⟩ : ∃ q, n / step = q + 1 := ⟨n / step - 1, by omega⟩
  have hl : ((List.range (n / step)).map (fun (i : Nat) => ((i : Int) + 1) * step - 1)).getLast? = some (((q : Int) + 1) * step - 1) := by
    rw [hq', List.range_succ]
    simp
  show (match ((List.range (n / step)).map (fun (i : Nat) => ((i : Int) + 1) * step - 1)).getLast? with
    | none => Except.error PyErr.indexError
    | some last => pure (if last ≠ (n : Int) - 1 then _ ++ [(n : Int) - 1] else _)) = _
  rw [hl]
  have hdm := Nat.div_add_mod n step
  rw [hq'] at hdm
  have hcast : (((q : Int) + 1) * step - 1 = (n : Int) - 1) ↔ n % step = 0 := by
    have : ((step * (q + 1) + n % step : Nat) : Int) = n := by exact_mod_cast hdm
    push_cast at this
    constructor
    · intro h
      have h2 : ((n % step : Nat) : Int) = 0 := by push_cast; nlinarith
      exact_mod_cast h2
    · intro h
      have h2 : ((n : Int) % (step : Int)) = 0 := by exact_mod_cast h
      rw [h2] at this
      linarith
  unfold treeCounts
  have em : (List.range (n / step)).map (fun (i : Nat) => ((i : Int) + 1) * step - 1) =
      ((List.range (n / step)).map (fun i => (i + 1) * step)).map (fun (k : Nat) => (k : Int) - 1) := by
    rw [List.map_map]
    apply List.map_congr_left
    intro i _
    simp
  by_cases hz : n % step = 0
  · simp only [hcast.2 hz, ne_eq, not_true_eq_false, if_false, hz, if_true, List.append_nil]
    rw [em]
    rfl
  · simp only [ne_eq, hcast, hz, not_false_eq_true, if_true, if_false]
    rw [em, List.map_append]
    rfl

theorem treeCounts_length {step n : Nat} : (treeCounts step n).length = n / step + (if n % step = 0 then 0 else 1) := by
  unfold treeCounts
  split <;> simp [*]

theorem treeCounts_get {step n : Nat} (h0 : 0 < step) {j k : Nat} (h : (treeCounts step n)[j]? = some k) :
    j * step ≤ k ∧ (j + 1 < (treeCounts step n).length → k = (j + 1) * step) ∧ k ≤ n := by
  have hdm := Nat.div_add_mod n step
  rw [treeCounts_length]
  unfold treeCounts at h
  by_cases hj : j < n / step
  · rw [List.getElem?_append_left (by simpa using hj)] at h
    simp only [List.getElem?_map, List.getElem?_range hj, Option.map_some, Option.some.injEq] at h
    have := Nat.mul_le_mul_left step hj
    rw [Nat.succ_eq_add_one, Nat.mul_comm step] at this
    have hn : j * step ≤ (j + 1) * step := Nat.mul_le_mul_right _ (by omega)
    refine ⟨by omega, fun _ => h.symm, by omega⟩
  · rw [List.getElem?_append_right (by simpa using hj)] at h
    simp only [List.length_map, List.length_range] at h
    by_cases hz : n % step = 0
    · rw [if_pos hz] at h
      simp at h
    · rw [if_neg hz] at h ⊢
      have hj2 : j = n / step := by
        by_contra hne
        rw [List.getElem?_eq_none (by simp; omega)] at h
        cases h
      subst hj2
      rw [Nat.sub_self] at h
      simp only [List.getElem?_cons_zero, Option.some.injEq] at h
      subst h
      refine ⟨Nat.div_mul_le_self _ _, by omega, le_refl _⟩

section
variable {K V : Type} [AddCommMonoid K]

theorem take_sum_slice {i k : Nat} (h : i ≤ k) (r : List K) : (r.take i).sum + (slice i k r).sum = (r.take k).sum := by
  unfold slice
  conv_rhs => rw [← List.take_append_drop i (r.take k), List.sum_append, List.take_take, Nat.min_eq_left h]

theorem treeWiseLoop_spec (metric : List K → Except PyErr V) (step : Nat) (partials : List (List K)) : ∀ (ks : List Nat) (idx : Nat),
    (∀ j k, ks[j]? = some k → (idx + j) * step ≤ k ∧ (j + 1 < ks.length → k = (idx + j + 1) * step)) →
    treeWiseLoop metric step partials idx (ks.map (fun (k : Nat) => (k : Int) - 1)) (prefixScores (idx * step) partials) =
      ks.mapM (fun k => metric (prefixScores k partials))
  | [], idx, h => rfl
  | k :: ks, idx, h => by
    rw [List.map_cons, treeWiseLoop, List.mapM_cons]
    obtain ⟨h1, h2⟩ := h 0 k rfl
    have e : List.zipWith (· + ·) (prefixScores (idx * step) partials)
        (partials.map (fun r => (slice ((idx : Int) * step).toNat ((k : Int) - 1 + 1).toNat r).sum)) = prefixScores k partials := by
      unfold prefixScores
      rw [List.zipWith_map, List.zipWith_self]
      apply List.map_congr_left
      intro r _
      have e1 : ((idx : Int) * step).toNat = idx * step := by
        rw [show (idx : Int) * step = ((idx * step : Nat) : Int) by push_cast; rfl, Int.toNat_natCast]
      have e2 : ((k : Int) - 1 + 1).toNat = k := by omega
      rw [e1, e2]
      exact take_sum_slice (by simpa using h1) r
    simp only [e]
    congr 1
    funext v
    match ks, h, h2 with
    | [], _, _ => rfl
    | k' :: ks, h, h2 =>
      have hk : k = (idx + 1) * step := by simpa using h2 (by simp)
      have ih := treeWiseLoop_spec metric step partials (k' :: ks) (idx + 1) (by
        intro j u hj
        have := h (j + 1) u (by simpa using hj)
        refine ⟨by rw [show idx + 1 + j = idx + (j + 1) by omega]; exact this.1, ?_⟩
        intro hlt
        rw [show idx + 1 + j + 1 = idx + (j + 1) + 1 by omega]
        exact this.2 (by simpa using hlt))
      rw [← hk] at ih
      rw [ih]

theorem prefixScores_zero (partials : List (List K)) : List.replicate partials.length 0 = prefixScores 0 partials := by
  simp [prefixScores]

theorem treeWiseModel_spec (metric : List K → Except PyErr V) {step n : Nat} (h0 : 0 < step) (hn : step ≤ n) (partials : List (List K)) :
    treeWiseModel metric step n partials = (treeCounts step n).mapM (fun k => metric (prefixScores k partials)) := by
  unfold treeWiseModel
  rw [treeSteps_spec h0 hn]
  show treeWiseLoop metric step partials 0 _ _ = _
  rw [prefixScores_zero]
  have := treeWiseLoop_spec metric step partials (treeCounts step n) 0 (by
    intro j k hj
    have := treeCounts_get h0 hj
    rw [Nat.zero_add]
    exact ⟨this.1, this.2.1⟩)
  rw [Nat.zero_mul] at this
  exact this

end

end Verif
