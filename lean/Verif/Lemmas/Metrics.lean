/-
Lemmas on the specification of the metrics and on the loops of the model.
-/
import Verif.Lemmas.Ranking
import Mathlib.Tactic.Ring
import Mathlib.Tactic.FieldSimp
import Mathlib.Tactic.Positivity
import Mathlib.Algebra.Order.BigOperators.Group.Finset

namespace Verif
open Spec Metrics

section field
variable {K : Type} [Field K]

theorem weightedGain_nil (w : Nat → K) (g : K → K) : weightedGain w g [] = 0 := by
  simp [weightedGain]

theorem weightedGain_cons (w : Nat → K) (g : K → K) (a : K) (l : List K) :
    weightedGain w g (a :: l) = w 0 * g a + weightedGain (fun i => w (i + 1)) g l := by
  simp [weightedGain, Fin.sum_univ_succ]

theorem weightedGain_append (w : Nat → K) (g : K → K) (l l' : List K) :
    weightedGain w g (l ++ l') = weightedGain w g l + weightedGain (fun i => w (i + l.length)) g l' := by
  induction l generalizing w with
  | nil => simp [weightedGain_nil]
  | cons a l ih =>
    rw [List.cons_append, weightedGain_cons, weightedGain_cons, ih]
    simp only [List.length_cons, add_assoc]

theorem sum_zipWith_mul (w : Nat → K) (g : K → K) (l : List K) :
    (List.zipWith (· * ·) (l.map g) ((List.range l.length).map w)).sum = weightedGain w g l := by
  induction l generalizing w with
  | nil => simp [weightedGain_nil]
  | cons a l ih =>
    rw [weightedGain_cons, List.length_cons, List.range_succ_eq_map, ← ih]
    simp [List.map_map, Function.comp_def, mul_comm]

variable [LinearOrder K] [IsStrictOrderedRing K]

theorem weightedGain_nonneg {w : Nat → K} {g : K → K} {l : List K} (hw : ∀ i, 0 ≤ w i)
    (hg : ∀ v ∈ l, 0 ≤ g v) : 0 ≤ weightedGain w g l := by
  apply Finset.sum_nonneg
  intro i _
  exact mul_nonneg (hw _) (hg _ (List.getElem_mem _))

theorem weightedGain_le_weightedGain {w : Nat → K} {g g' : K → K} {l : List K} (hw : ∀ i, 0 ≤ w i)
    (hg : ∀ v ∈ l, g v ≤ g' v) : weightedGain w g l ≤ weightedGain w g' l := by
  apply Finset.sum_le_sum
  intro i _
  exact mul_le_mul_of_nonneg_left (hg _ (List.getElem_mem _)) (hw _)

theorem geom_weightedGain (p : K) (l : List K) :
    (1 - p) * weightedGain (fun i => p ^ i) (fun _ => 1) l = 1 - p ^ l.length := by
  induction l using List.reverseRecOn with
  | nil => simp [weightedGain_nil]
  | append_singleton l a ih =>
    rw [weightedGain_append, mul_add, ih, weightedGain_cons, weightedGain_nil]
    simp [pow_succ]
    ring

/-! ### Counting -/

theorem nRelevant_le_length (t : K) (l : List K) : nRelevant t l ≤ l.length := List.countP_le_length

theorem nRelevant_eq_filter (t : K) (l : List K) :
    (l.filter (fun v => decide (v ≥ t))).length = nRelevant t l := by
  simp [nRelevant, List.countP_eq_length_filter]

theorem nRelevant_retrieved_le {y : List K} {S : Type} [LE S] {s : List S} {r : List (K × S)} (t : K)
    (h : y.length = s.length) (hr : IsRanking (y.zip s) r) (c : Option Nat) :
    nRelevant t (retrieved c r) ≤ nRelevant t y := by
  unfold nRelevant
  rw [← (labels_perm h hr).countP_eq]
  exact (retrieved_sublist_labels c).countP_le

/-! ### Reciprocal rank -/

omit [IsStrictOrderedRing K] [Field K] in
theorem mrrRank_spec [Field K] (t : K) (y : List K) : ∀ (idx : List Nat) (i0 : Nat), (∀ i ∈ idx, i < y.length) →
    match mrrRank t y i0 idx with
    | some r => i0 ≤ r ∧ IsFirstRelevant t (gather y idx) (r - i0)
    | none => ∀ v ∈ gather y idx, v < t
  | [], i0, _ => by simp [mrrRank, gather]
  | i :: idx, i0, h => by
    have hi : i < y.length := h i (by simp)
    have ih := mrrRank_spec t y idx (i0 + 1) (fun j hj => h j (by simp [hj]))
    rw [gather_cons y i idx hi]
    simp only [mrrRank, List.getElem?_eq_getElem hi]
    by_cases hv : y[i] ≥ t
    · simp only [hv, ↓reduceIte, le_refl, Nat.sub_self, true_and]
      exact ⟨⟨y[i], by simp, hv⟩, by simp⟩
    · simp only [hv, ↓reduceIte]
      cases hr : mrrRank t y (i0 + 1) idx with
      | none =>
        rw [hr] at ih
        intro v hvm
        rcases List.mem_cons.1 hvm with rfl | hvm
        · exact not_le.1 hv
        · exact ih v hvm
      | some r =>
        rw [hr] at ih
        obtain ⟨h1, ⟨v, hv1, hv2⟩, h3⟩ := ih
        refine ⟨by omega, ⟨v, ?_, hv2⟩, ?_⟩
        · obtain ⟨m, rfl⟩ : ∃ m, r = i0 + 1 + m := ⟨r - (i0 + 1), by omega⟩
          have : i0 + 1 + m - i0 = m + 1 := by omega
          rw [this, List.getElem?_cons_succ]
          simpa using hv1
        · intro k hk w hw
          cases k with
          | zero => simp at hw; subst hw; exact not_le.1 hv
          | succ k => exact h3 k (by omega) w (by simpa using hw)

omit [Field K] [IsStrictOrderedRing K] in
theorem isFirstRelevant_unique {t : K} {l : List K} {r r' : Nat} (h : IsFirstRelevant t l r)
    (h' : IsFirstRelevant t l r') : r = r' := by
  rcases Nat.lt_trichotomy r r' with hlt | heq | hlt
  · obtain ⟨v, hv, htv⟩ := h.1
    exact absurd htv (not_le.2 (h'.2 r hlt v hv))
  · exact heq
  · obtain ⟨v, hv, htv⟩ := h'.1
    exact absurd htv (not_le.2 (h.2 r' hlt v hv))

/-! ### Average precision -/

theorem mapLoop_append (l : List K) (v : K) :
    mapLoop (l ++ [v]) =
      (if v > 0 then ((mapLoop l).1 + 1, (mapLoop l).2.1 + 1,
        (mapLoop l).2.2 + (((mapLoop l).2.1 + 1 : Nat) : K) / (((mapLoop l).1 + 1 : Nat) : K))
      else ((mapLoop l).1 + 1, (mapLoop l).2.1, (mapLoop l).2.2)) := by
  simp [mapLoop, List.foldl_append]

theorem mapLoop_fst (l : List K) : (mapLoop l).1 = l.length := by
  induction l using List.reverseRecOn with
  | nil => rfl
  | append_singleton l v ih => rw [mapLoop_append]; split <;> simp [ih]

theorem mapLoop_count (l : List K) : (mapLoop l).2.1 = l.countP (fun v => decide (0 < v)) := by
  induction l using List.reverseRecOn with
  | nil => rfl
  | append_singleton l v ih => rw [mapLoop_append, List.countP_append]; split <;> rename_i h <;> simp [ih, h]

theorem sumPrecisions_append (l : List K) (v : K) :
    sumPrecisions (l ++ [v]) = sumPrecisions l +
      (if 0 < v then (l.countP (fun v => decide (0 < v)) + 1 : K) / ((l.length : K) + 1) else 0) := by
  unfold sumPrecisions
  have hlen : (l ++ [v]).length = l.length + 1 := by simp
  rw [← Equiv.sum_comp (finCongr hlen.symm), Fin.sum_univ_castSucc]
  congr 1
  · apply Finset.sum_congr rfl
    intro i _
    have h1 : (l ++ [v])[(i : Nat)]'(by simp) = l[(i : Nat)] := List.getElem_append_left i.2
    simp only [finCongr_apply, Fin.val_cast, Fin.val_castSucc, Fin.getElem_fin, h1]
    rw [List.take_append_of_le_length (by omega)]
  · simp only [finCongr_apply, Fin.val_cast, Fin.val_last, Fin.getElem_fin]
    have h2 : (l ++ [v])[l.length]'(by simp) = v := by simp
    simp only [h2]
    rw [List.take_of_length_le (by simp), List.countP_append]
    split <;> rename_i h <;> simp [h]

theorem mapLoop_sum (l : List K) : (mapLoop l).2.2 = sumPrecisions l := by
  induction l using List.reverseRecOn with
  | nil => simp [mapLoop, sumPrecisions]
  | append_singleton l v ih =>
    rw [mapLoop_append, sumPrecisions_append]
    by_cases h : 0 < v
    · simp [h, ih, mapLoop_count, mapLoop_fst]
    · simp [h, ih]

/-- The sum of precisions is at most the number of relevant documents. -/
theorem sumPrecisions_le (l : List K) : sumPrecisions l ≤ (l.countP (fun v => decide (0 < v)) : K) := by
  induction l using List.reverseRecOn with
  | nil => simp [sumPrecisions]
  | append_singleton l v ih =>
    rw [sumPrecisions_append, List.countP_append]
    by_cases h : 0 < v
    · simp only [h, ↓reduceIte, decide_true, List.countP_cons_of_pos, List.countP_nil, zero_add, Nat.cast_add,
        Nat.cast_one]
      apply add_le_add ih
      rw [div_le_one (by positivity)]
      have : l.countP (fun v => decide (0 < v)) ≤ l.length := List.countP_le_length
      exact_mod_cast Nat.succ_le_succ this
    · simp [h, ih]

theorem sumPrecisions_nonneg (l : List K) : 0 ≤ sumPrecisions l := by
  apply Finset.sum_nonneg
  intro i _
  split <;> positivity

end field
end Verif
