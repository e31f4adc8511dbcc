/-
Lemmas about the randomization test and about bias and variance.
-/
import Verif.Model.Statistical
import Verif.Spec.Statistical
import Verif.Lemmas.Dataset2
import Mathlib.Algebra.Order.BigOperators.Group.List
import Mathlib.Tactic.FieldSimp
import Mathlib.Tactic.Ring

namespace Verif
open Stat Spec
variable {K : Type} [Field K] [LinearOrder K] [IsStrictOrderedRing K]

theorem exchange_sums : ∀ (a b : List K) (sel : List Bool), a.length = b.length → sel.length = a.length →
    (exchange a b sel).1.sum = a.sum - (maskSelect a sel).sum + (maskSelect b sel).sum ∧
    (exchange a b sel).2.sum = b.sum - (maskSelect b sel).sum + (maskSelect a sel).sum := by
  intro a
  induction a with
  | nil =>
    intro b sel h1 h2
    have hb : b = [] := List.length_eq_zero_iff.1 (by simpa using h1.symm)
    subst hb
    simp [exchange, maskSelect]
  | cons x a ih =>
    intro b sel h1 h2
    match b, sel, h1, h2 with
    | z :: b, s :: sel, h1, h2 =>
      obtain ⟨i1, i2⟩ := ih b sel (by simpa using h1) (by simpa using h2)
      simp only [exchange] at i1 i2
      cases s <;>
      · simp only [exchange, List.zip_cons_cons, List.zipWith_cons_cons, List.sum_cons, i1, i2, maskSelect, List.filter_cons, if_true, if_false,
          Bool.false_eq_true, List.map_cons]
        constructor <;> ring

theorem exchange_length (a b : List K) (sel : List Bool) (h1 : a.length = b.length) (h2 : sel.length = a.length) :
    (exchange a b sel).1.length = a.length ∧ (exchange a b sel).2.length = a.length := by
  simp [exchange, h1, h2]

theorem swapDelta_eq (a b : List K) (sel : List Bool) (h1 : a.length = b.length) (h2 : sel.length = a.length) :
    swapDelta a b sel = meanDiff (exchange a b sel) := by
  obtain ⟨e1, e2⟩ := exchange_sums a b sel h1 h2
  obtain ⟨l1, l2⟩ := exchange_length a b sel h1 h2
  unfold swapDelta meanDiff
  rw [e1, e2, l1, l2]

theorem randStep_fold (best worst : List K) (D : K) : ∀ (sels : List (List Bool)) (p : K × K),
    sels.foldl (randStep best worst D) p =
      (p.1 + (sels.countP (fun s => decide (swapDelta best worst s ≥ D)) : Nat), p.2 + (sels.countP (fun s => decide (|swapDelta best worst s| ≥ |D|)) : Nat)) := by
  intro sels
  induction sels with
  | nil => intro p; simp
  | cons s sels ih =>
    intro p
    rw [List.foldl_cons, ih, List.countP_cons, List.countP_cons]
    unfold randStep
    simp only [decide_eq_true_eq, Prod.mk.injEq]
    constructor
    · split <;> push_cast <;> ring
    · split <;> push_cast <;> ring

theorem randomization_bestFirst (a b : List K) (sels : List (List Bool)) (hs : sels ≠ []) (hl : a.length = b.length) (hne : a ≠ []) :
    randomization a b sels = .ok
      ((sels.countP (fun s => decide (swapDelta (bestFirst a b).1 (bestFirst a b).2 s ≥ meanDiff (bestFirst a b))) : Nat) / (sels.length : K),
       (sels.countP (fun s => decide (|swapDelta (bestFirst a b).1 (bestFirst a b).2 s| ≥ |meanDiff (bestFirst a b)|)) : Nat) / (sels.length : K)) := by
  unfold randomization
  rw [if_neg hs, if_neg (by simpa using hl), if_neg hne]
  simp only
  rw [randStep_fold]
  simp only [zero_add]
  unfold bestFirst meanDiff
  by_cases h : npMean a < npMean b
  · rw [if_pos h, if_pos h, if_pos (by simpa [npMean] using h)]
    rfl
  · rw [if_neg h, if_neg h, if_neg (by simpa [npMean] using h)]
    rfl

theorem bestFirst_nonneg (a b : List K) : 0 ≤ meanDiff (bestFirst a b) := by
  unfold bestFirst meanDiff
  split
  · rename_i h
    simp only
    linarith
  · rename_i h
    simp only
    push Not at h
    linarith

theorem bestFirst_lengths {a b : List K} (h : a.length = b.length) :
    (bestFirst a b).1.length = a.length ∧ (bestFirst a b).2.length = a.length := by
  unfold bestFirst
  split <;> simp [h]

theorem maskSelect_not_sum : ∀ (a : List K) (sel : List Bool), sel.length = a.length →
    (maskSelect a (sel.map (!·))).sum = a.sum - (maskSelect a sel).sum := by
  intro a
  induction a with
  | nil => intro sel _; simp [maskSelect]
  | cons x a ih =>
    intro sel h
    match sel, h with
    | s :: sel, h =>
      have := ih sel (by simpa using h)
      simp only [maskSelect] at this
      cases s <;> simp [maskSelect, this] <;> ring

/-- Exchanging the other queries instead changes the sign of the difference. -/
theorem swapDelta_not (a b : List K) (sel : List Bool) (h1 : a.length = b.length) (h2 : sel.length = a.length) :
    swapDelta a b (sel.map (!·)) = - swapDelta a b sel := by
  unfold swapDelta
  simp only
  rw [maskSelect_not_sum a sel h2, maskSelect_not_sum b sel (by omega)]
  ring

theorem allSels_length : ∀ (n : Nat), ∀ s ∈ allSels n, s.length = n := by
  intro n
  induction n with
  | zero => simp [allSels]
  | succ n ih =>
    intro s hs
    simp only [allSels, List.mem_append, List.mem_map] at hs
    rcases hs with ⟨t, ht, rfl⟩ | ⟨t, ht, rfl⟩ <;> simp [ih t ht]

theorem allSels_not (n : Nat) : ((allSels n).map (fun s => s.map (!·))).Perm (allSels n) := by
  induction n with
  | zero => simp [allSels]
  | succ n ih =>
    have e : ((allSels (n + 1)).map (fun s => s.map (!·))) =
        ((allSels n).map (fun s => s.map (!·))).map (true :: ·) ++ ((allSels n).map (fun s => s.map (!·))).map (false :: ·) := by
      simp [allSels, Function.comp_def]
    rw [e]
    refine List.perm_append_comm.trans ?_
    rw [allSels]
    exact (ih.map _).append (ih.map _)

theorem allSels_count (n : Nat) : (allSels n).length = 2 ^ n := by
  induction n with
  | zero => rfl
  | succ n ih => simp [allSels, ih]; ring

/-- For a positive difference, the two sides exclude each other. -/
theorem countP_abs (f : List Bool → K) {D : K} (hD : 0 < D) (sels : List (List Bool)) :
    sels.countP (fun s => decide (|f s| ≥ |D|)) = sels.countP (fun s => decide (f s ≥ D)) + sels.countP (fun s => decide (- f s ≥ D)) := by
  induction sels with
  | nil => rfl
  | cons s sels ih =>
    rw [List.countP_cons, List.countP_cons, List.countP_cons, ih]
    have key : (|f s| ≥ |D|) ↔ (f s ≥ D ∨ - f s ≥ D) := by
      rw [abs_of_pos hD, ge_iff_le, le_abs]
    have hex : ¬ (f s ≥ D ∧ - f s ≥ D) := by
      rintro ⟨h1, h2⟩
      linarith
    by_cases h1 : f s ≥ D <;> by_cases h2 : - f s ≥ D
    · exact absurd ⟨h1, h2⟩ hex
    all_goals (simp [key, h1, h2]; try omega)

theorem row_decomp (r : List K) (h : r ≠ []) (t : K) :
    (r.map (fun s => (s - t) ^ 2)).sum = r.length * (npMean r - t) ^ 2 + (r.map (fun s => (s - npMean r) ^ 2)).sum := by
  have hl : (r.length : K) ≠ 0 := by
    have := List.length_pos_iff.2 h
    exact_mod_cast (by omega)
  have hm : npMean r * r.length = r.sum := by
    unfold npMean
    field_simp
  have key : ∀ (l : List K) (c : K), (l.map (fun s => (s - c) ^ 2)).sum = (l.map (fun s => s ^ 2)).sum - 2 * c * l.sum + l.length * c ^ 2 := by
    intro l c
    induction l with
    | nil => simp
    | cons x l ih =>
      simp only [List.map_cons, List.sum_cons, List.length_cons, ih]
      push_cast
      ring
  rw [key, key, ← hm]
  ring

theorem flatten_zipWith_length {β : Type} (f : K → β → K) {n : Nat} : ∀ (scores : List (List K)) (target : List β), scores.length = target.length →
    (∀ r ∈ scores, r.length = n) → (List.zipWith (fun r t => r.map (fun s => f s t)) scores target).flatten.length = scores.length * n := by
  intro scores
  induction scores with
  | nil => intro target _ _; simp
  | cons r scores ih =>
    intro target h1 h2
    match target, h1 with
    | t :: target, h1 =>
      rw [List.zipWith_cons_cons, List.flatten_cons, List.length_append, ih target (by simpa using h1) (fun r hr => h2 r (by simp [hr])),
        List.length_map, h2 r (by simp), List.length_cons]
      ring

theorem total_decomp {n : Nat} (hn : 0 < n) : ∀ (scores : List (List K)) (target : List K), scores.length = target.length →
    (∀ r ∈ scores, r.length = n) →
    (List.zipWith (fun r t => r.map (fun s => (s - t) ^ 2)) scores target).flatten.sum =
      (n : K) * (List.zipWith (fun p t => (p - t) ^ 2) (scores.map npMean) target).sum +
      (List.zipWith (fun r p => r.map (fun s => (s - p) ^ 2)) scores (scores.map npMean)).flatten.sum := by
  intro scores
  induction scores with
  | nil => intro target _ _; simp
  | cons r scores ih =>
    intro target h1 h2
    match target, h1 with
    | t :: target, h1 =>
      have hr := h2 r (by simp)
      simp only [List.zipWith_cons_cons, List.flatten_cons, List.sum_append, List.map_cons, List.sum_cons,
        ih target (by simpa using h1) (fun r hr => h2 r (by simp [hr]))]
      rw [row_decomp r (by intro h0; simp [h0] at hr; omega) t, hr]
      ring

theorem flatten_sum_nonneg (scores : List (List K)) : ∀ (p : List K),
    ∀ x ∈ (List.zipWith (fun r p => r.map (fun s => (s - p) ^ 2)) scores p).flatten, 0 ≤ x := by
  induction scores with
  | nil => intro p x hx; simp at hx
  | cons r scores ih =>
    intro p x hx
    match p, hx with
    | [], hx => simp at hx
    | t :: p, hx =>
      rw [List.zipWith_cons_cons, List.flatten_cons, List.mem_append] at hx
      rcases hx with hx | hx
      · obtain ⟨s, _, rfl⟩ := List.mem_map.1 hx
        exact sq_nonneg _
      · exact ih p x hx

theorem sum_eq_zero_iff_nonneg : ∀ (l : List K), (∀ x ∈ l, 0 ≤ x) → (l.sum = 0 ↔ ∀ x ∈ l, x = 0) := by
  intro l
  induction l with
  | nil => simp
  | cons x l ih =>
    intro h
    have h1 := h x (by simp)
    have h2 : 0 ≤ l.sum := List.sum_nonneg (fun z hz => h z (by simp [hz]))
    rw [List.sum_cons, List.forall_mem_cons, ← ih (fun z hz => h z (by simp [hz]))]
    constructor
    · intro h0
      constructor <;> linarith
    · rintro ⟨h3, h4⟩
      rw [h3, h4, add_zero]

/-- All entries of a row are its mean exactly if they are equal. -/
theorem row_const (r : List K) : (∀ s ∈ r, s = npMean r) ↔ ∀ s ∈ r, ∀ s' ∈ r, s = s' := by
  constructor
  · intro h s hs s' hs'
    rw [h s hs, h s' hs']
  · intro h s hs
    have hsum : r.sum = r.length * s := by
      rw [List.sum_eq_card_nsmul r s (fun x hx => h x hx s hs), nsmul_eq_mul]
    have hl : (r.length : K) ≠ 0 := by
      have := List.length_pos_of_mem hs
      exact_mod_cast (by omega)
    unfold npMean
    rw [hsum]
    field_simp

theorem variance_zero : ∀ (scores : List (List K)),
    (∀ x ∈ (List.zipWith (fun r p => r.map (fun s => (s - p) ^ 2)) scores (scores.map npMean)).flatten, x = 0) ↔
      ∀ r ∈ scores, ∀ s ∈ r, ∀ s' ∈ r, s = s' := by
  intro scores
  induction scores with
  | nil => simp
  | cons r scores ih =>
    rw [List.map_cons, List.zipWith_cons_cons, List.flatten_cons, List.forall_mem_append, ih, List.forall_mem_cons, ← row_const r]
    apply and_congr_left
    intro _
    constructor
    · intro h s hs
      have := h _ (List.mem_map_of_mem (f := fun s => (s - npMean r) ^ 2) hs)
      have := pow_eq_zero_iff (n := 2) (by norm_num) |>.1 this
      linarith
    · intro h x hx
      obtain ⟨s, hs, rfl⟩ := List.mem_map.1 hx
      rw [h s hs]
      ring

end Verif
