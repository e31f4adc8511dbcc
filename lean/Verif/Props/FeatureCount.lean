/-
Property C46: the counters of features have 16 bits.
-/
import Verif.Props.Feature
import Verif.Props.QuickRank

namespace Verif.Props
open Ensemble Spec

/-- A tree with one split. -/
def oneSplit : Spec.Tree ℚ := .node 0 1 (.leaf 0) (.leaf 0)

/-- C46 is violated for 65536 trees that split by the same feature: its count is 0. -/
theorem C46_violated_count : ∃ (m : Ensemble ℚ) (fo : Forest ℚ), FeatureOk fo m [[0]] 1 ∧ (fo.flatMap (·.1.features)).count 0 = 2 ^ 16 ∧
    ∃ imp, featureImportance m [0] 1 1 [0] = .ok (imp, [0]) := by
  have hmem : ∀ p ∈ List.replicate (2 ^ 16) (oneSplit, (1 : ℚ)), p = (oneSplit, 1) := fun p hp => List.eq_of_mem_replicate hp
  obtain ⟨m, -, hr⟩ := C37_load (0 : ℚ) (-1) (1 / 2) (List.replicate (2 ^ 16) (oneSplit, (1 : ℚ)))
    (by intro p hp f hf; rw [hmem p hp] at hf; simp [oneSplit, Spec.Tree.features] at hf; omega) 0 0 0 1 none none
  have hr : Represents m (List.replicate (2 ^ 16) (oneSplit, (1 : ℚ))) := by
    rw [Option.elim_none, List.take_length] at hr
    exact hr
  have hok : FeatureOk (List.replicate (2 ^ 16) (oneSplit, (1 : ℚ))) m [[0]] 1 := by
    refine ⟨hr, by simp, by simp, by simp, by simp, ?_, ?_, ?_, ?_⟩
    · rw [hr.nNodes, Forest.numNodes, List.map_replicate, List.sum_replicate]
      simp [oneSplit, Spec.Tree.numNodes]
    · intro p hp; rw [hmem p hp]; rfl
    · intro p hp f hf; rw [hmem p hp] at hf; simp [oneSplit, Spec.Tree.features] at hf; omega
    · intro p hp; rw [hmem p hp]; exact ⟨fun _ => by decide +kernel, fun _ => trivial, fun _ => trivial⟩
  refine ⟨m, _, hok, ?_, ?_⟩
  · rw [List.flatMap_replicate, List.count_flatten, List.map_replicate, List.sum_replicate]
    simp [oneSplit, Spec.Tree.features]
  · have h := C46_importance_partial hok (fun _ => 0)
    have e : (forestVisited (leftOf [[(0 : ℚ)]]) (List.range 1) (List.replicate (2 ^ 16) (oneSplit, (1 : ℚ)))).count 0 = 2 ^ 16 := by
      rw [forestVisited, List.flatMap_replicate, List.count_flatten, List.map_replicate, List.sum_replicate]
      have : visitedFeatures (leftOf [[(0 : ℚ)]]) oneSplit (List.range 1) = [0] := by decide +kernel
      rw [this]
      simp
    have h2 : ∀ l : List Nat, l.count 0 = 2 ^ 16 → (List.range 1).map (fun f => l.count f % 2 ^ 16) = [0] := by
      intro l hl
      simp [hl]
    have h3 := h
    simp only [List.length_singleton, List.length_cons, List.length_nil, Nat.zero_add] at h3
    rw [h2 _ e] at h3
    exact ⟨_, h3⟩

end Verif.Props
