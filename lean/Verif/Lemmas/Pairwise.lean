/-
The order of additions of the pairwise summation.
-/
import Verif.Model.MeanFloat
import Verif.Spec.Rounding
import Verif.Lemmas.Rounding

namespace Verif
open Spec Ensemble Metrics
variable {F : Type} {ops : FloatOps F}

theorem Spec.SumTree.mono {d d' : Nat} {l : List F} {s : F} (h : SumTree ops d l s) (hd : d ≤ d') : SumTree ops d' l s := by
  induction h generalizing d' with
  | zero d => exact .zero d'
  | one d a => exact .one d' a
  | @add d l l' l'' a b _ _ hp iha ihb =>
    obtain ⟨e, rfl⟩ : ∃ e, d' = e + 1 := ⟨d' - 1, by omega⟩
    exact .add (iha (by omega)) (ihb (by omega)) hp

theorem Spec.SumTree.perm {d : Nat} {l l' : List F} {s : F} (h : SumTree ops d l s) (hp : l.Perm l') : SumTree ops d l' s := by
  cases h with
  | zero d => cases List.Perm.nil_eq hp; exact .zero d
  | one d a => cases List.perm_singleton.1 hp.symm; exact .one d _
  | add ha hb h => exact .add ha hb (h.trans hp)

/-- Columns of numbers that are added up. -/
theorem zipWith_sums {k : Nat} {r xs : List F} {cols : List (List F)} (h : List.Forall₂ (fun a c => SumTree ops k c a) r cols) (hl : xs.length = r.length) :
    ∃ cols', List.Forall₂ (fun a c => SumTree ops (k + 1) c a) (List.zipWith ops.add r xs) cols' ∧ cols'.flatten.Perm (cols.flatten ++ xs) := by
  induction h generalizing xs with
  | nil =>
    cases List.length_eq_zero_iff.1 hl
    exact ⟨[], .nil, by simp⟩
  | @cons a c r cols ha _ ih =>
    cases xs with
    | nil => simp at hl
    | cons x xs =>
      obtain ⟨cols', h1, h2⟩ := ih (by simpa using hl)
      refine ⟨(c ++ [x]) :: cols', .cons (.add ha (.one k x) (List.Perm.refl _)) h1, ?_⟩
      simp only [List.flatten_cons, List.append_assoc, List.singleton_append]
      refine List.Perm.append_left c ?_
      refine (List.Perm.cons x h2).trans ?_
      rw [← List.cons_append]
      exact List.perm_middle.symm.trans (by simp)

theorem eightSums_sums : ∀ (n : Nat) {l r : List F} {k : Nat} {cols : List (List F)}, l.length / 8 = n →
    List.Forall₂ (fun a c => SumTree ops k c a) r cols → r.length = 8 →
    ∃ cols', List.Forall₂ (fun a c => SumTree ops (k + n) c a) (eightSums ops r l).1 cols' ∧ (eightSums ops r l).1.length = 8 ∧
      (cols'.flatten ++ (eightSums ops r l).2).Perm (cols.flatten ++ l) ∧ (eightSums ops r l).2.length < 8 := by
  intro n
  induction n with
  | zero =>
    intro l r k cols hl h hr
    have : l.length < 8 := by omega
    rw [eightSums, if_neg (by omega)]
    exact ⟨cols, h, hr, List.Perm.refl _, this⟩
  | succ n ih =>
    intro l r k cols hl h hr
    have h8 : 8 ≤ l.length := by omega
    obtain ⟨cols1, h1, h2⟩ := zipWith_sums (xs := l.take 8) h (by simp [hr]; omega)
    obtain ⟨cols2, h3, h4, h5, h6⟩ := ih (l := l.drop 8) (r := List.zipWith ops.add r (l.take 8)) (by simp; omega) h1 (by simp [hr]; omega)
    rw [eightSums, if_pos h8]
    refine ⟨cols2, by rw [show k + (n + 1) = k + 1 + n by omega]; exact h3, h4, h5.trans ?_, h6⟩
    refine (h2.append_right _).trans ?_
    rw [List.append_assoc, List.take_append_drop]

theorem addEight_sum {k : Nat} {r : List F} {cols : List (List F)} (h : List.Forall₂ (fun a c => SumTree ops k c a) r cols) (hr : r.length = 8) :
    SumTree ops (k + 3) cols.flatten (addEight ops r) := by
  match r, hr, h with
  | [a0, a1, a2, a3, a4, a5, a6, a7], _, .cons h0 (.cons h1 (.cons h2 (.cons h3 (.cons h4 (.cons h5 (.cons h6 (.cons h7 .nil))))))) =>
    refine .add (.add (.add h0 h1 (List.Perm.refl _)) (.add h2 h3 (List.Perm.refl _)) (List.Perm.refl _))
      (.add (.add h4 h5 (List.Perm.refl _)) (.add h6 h7 (List.Perm.refl _)) (List.Perm.refl _)) ?_
    simp [List.append_assoc]

theorem forall₂_singletons (l : List F) : List.Forall₂ (fun a c => SumTree ops 0 c a) l (l.map (fun a => [a])) := by
  induction l with
  | nil => exact .nil
  | cons a l ih => exact .cons (.one 0 a) ih

theorem blockSum_sum {l : List F} (hl : l.length ≤ 128) : SumTree ops 25 l (blockSum ops l) := by
  unfold blockSum
  split
  · exact (foldl_sumTree l).mono (by omega)
  · rename_i h8
    obtain ⟨cols, h1, h2, h3, h4⟩ := eightSums_sums ((l.drop 8).length / 8) (l := l.drop 8) (ops := ops) rfl (forall₂_singletons (l.take 8)) (by simp; omega)
    have h5 := foldl_sumTree_aux (ops := ops) (eightSums ops (l.take 8) (l.drop 8)).2 _ _ _ (addEight_sum h1 h2)
    refine Spec.SumTree.mono (d := 0 + (l.drop 8).length / 8 + 3 + (eightSums ops (l.take 8) (l.drop 8)).2.length) (h5.perm (h3.trans ?_)) ?_
    · rw [show (List.map (fun a => [a]) (l.take 8)).flatten = l.take 8 by induction l.take 8 <;> simp_all, List.take_append_drop]
    · simp only [List.length_drop]
      omega

/-- The depth of the pairwise summation grows with the logarithm of the number of numbers. -/
theorem pairwiseSum_sum : ∀ (e : Nat) {l : List F}, l.length ≤ 112 * 2 ^ e + 16 → SumTree ops (25 + e) l (pairwiseSum ops l) := by
  intro e
  induction e with
  | zero =>
    intro l hl
    rw [pairwiseSum, if_pos (by omega)]
    exact blockSum_sum (by omega)
  | succ e ih =>
    intro l hl
    rw [pairwiseSum]
    split
    · rename_i h
      exact (blockSum_sum h).mono (by omega)
    · rename_i h
      rw [pow_succ] at hl
      refine .add (ih (l := l.take (firstPart l.length)) ?_) (ih (l := l.drop (firstPart l.length)) ?_) ?_
      · simp only [List.length_take, firstPart]
        omega
      · simp only [List.length_drop, firstPart]
        omega
      · rw [List.take_append_drop]

end Verif
