/-
Lemmas: feature importance computed by levels and by the efficient implementation agree for the mean squared error.
-/
import Verif.Lemmas.FeatureGeneric
import Mathlib.Algebra.BigOperators.Group.Finset.Basic

namespace Verif
open Ensemble Spec
variable {K : Type} [Field K] [LinearOrder K] {left : Nat → K → Nat → Bool}

/-- Reduction of the squared error by the split of a node. -/
def reductionOf (left : Nat → K → Nat → Bool) (y : Nat → K) : Spec.Tree K × List Nat → List (Nat × K)
  | (.leaf _, _) => []
  | (.node f t _ _, D) => [(f, sse y D - (sse y (goLeft left f t D) + sse y (goRight left f t D)))]

theorem levels_gains {y : Nat → K} (h : Nat) : ∀ (t : Spec.Tree K) (D : List Nat), t.height ≤ h →
    ((List.range h).flatMap (fun k => (frontier left k t D).flatMap (reductionOf left y))).Perm (gains left y t D) := by
  induction h with
  | zero =>
    intro t D ht
    cases t with
    | leaf v => simp [gains]
    | node f th l r => simp [Spec.Tree.height] at ht
  | succ h ih =>
    intro t D ht
    cases t with
    | leaf v => simp [frontier, gains]
    | node f th l r =>
      simp only [Spec.Tree.height] at ht
      rw [List.range_succ_eq_map, List.flatMap_cons, List.flatMap_map, gains]
      simp only [frontier, List.flatMap_cons, List.flatMap_nil, List.append_nil, reductionOf, List.singleton_append, List.flatMap_append]
      refine List.Perm.cons _ ?_
      refine (List.flatMap_append_perm _ _ _).symm.trans ?_
      exact (ih l _ (by omega)).append (ih r _ (by omega))

/-- The documents of a node at depth `k` are predicted by their mean in the tree cut at depth `k`. -/
theorem fitted_frontier {y : Nat → K} (k : Nat) : ∀ (t : Spec.Tree K) (D : List Nat), ∀ p ∈ frontier left k t D, ∀ d ∈ p.2,
    fitted left y (t.trunc k) D d = mean y p.2 := by
  induction k with
  | zero =>
    intro t D p hp d hd
    cases t with
    | leaf v => simp [frontier] at hp
    | node f th l r =>
      simp only [frontier, List.mem_singleton] at hp
      subst hp
      rfl
  | succ k ih =>
    intro t D p hp d hd
    cases t with
    | leaf v => simp [frontier] at hp
    | node f th l r =>
      rw [frontier, List.mem_append] at hp
      rw [Spec.Tree.trunc, fitted]
      rcases hp with hp | hp
      · rw [if_pos (List.mem_filter.1 (frontier_docs k _ _ p hp d hd)).2]
        exact ih _ _ p hp d hd
      · have : ¬ left f th d = true := by simpa using (List.mem_filter.1 (frontier_docs k _ _ p hp d hd)).2
        rw [if_neg this]
        exact ih _ _ p hp d hd

theorem frontier_nodup (k : Nat) : ∀ (t : Spec.Tree K) (D : List Nat), D.Nodup → ∀ p ∈ frontier left k t D, p.2.Nodup := by
  induction k with
  | zero =>
    intro t D hD p hp
    cases t with
    | leaf v => simp [frontier] at hp
    | node f th l r =>
      simp only [frontier, List.mem_singleton] at hp
      subst hp
      exact hD
  | succ k ih =>
    intro t D hD p hp
    cases t with
    | leaf v => simp [frontier] at hp
    | node f th l r =>
      rw [frontier, List.mem_append] at hp
      rcases hp with hp | hp
      · exact ih _ _ (hD.filter _) p hp
      · exact ih _ _ (hD.filter _) p hp

theorem sum_range_of_zero {n : Nat} {D : List Nat} (hD : D.Nodup) (hlt : ∀ d ∈ D, d < n) (g : Nat → K) (h0 : ∀ d, d ∉ D → g d = 0) :
    ((List.range n).map g).sum = (D.map g).sum := by
  rw [← List.sum_toFinset g List.nodup_range, ← List.sum_toFinset g hD]
  symm
  apply Finset.sum_subset
  · intro d hd
    simpa using hlt d (by simpa using hd)
  · intro d _ hd
    exact h0 d (by simpa using hd)

/-- The mean squared error of the scores `s` for the labels `lab`. -/
def mseOf (n : Nat) (lab : Nat → K) (s : List K) : K :=
  (List.zipWith (fun l x => (l - x) ^ 2) ((List.range n).map lab) s).sum / n

theorem mseOf_view (n : Nat) (lab s : Nat → K) : mseOf n lab ((List.range n).map s) = ((List.range n).map (fun d => (lab d - s d) ^ 2)).sum / n := by
  unfold mseOf
  rw [zipWith_range]

theorem sum_map_sub (g h : Nat → K) : ∀ (l : List Nat), (l.map g).sum - (l.map h).sum = (l.map (fun d => g d - h d)).sum
  | [] => by simp
  | a :: l => by
    simp only [List.map_cons, List.sum_cons, ← sum_map_sub g h l]
    ring

/-- For the mean squared error the gain of a node is its reduction of the squared error divided by the number of documents. -/
theorem gainOf_mse {n : Nat} {lab P p : Nat → K} {x : Spec.Tree K × List Nat} (hnd : x.2.Nodup) (hlt : ∀ d ∈ x.2, d < n)
    (hp : ∀ d ∈ x.2, p d = mean (fun d => lab d - P d) x.2) :
    gainOf (mseOf n lab) left n (fun d => lab d - P d) P p x = (reductionOf left (fun d => lab d - P d) x).map (fun (g : Nat × K) => (g.1, g.2 / (n : K))) := by
  obtain ⟨t, D⟩ := x
  cases t with
  | leaf v => rfl
  | node f th l r =>
    simp only [gainOf, splitOf, reductionOf, List.map_cons, List.map_nil, List.cons.injEq, Prod.mk.injEq, true_and, and_true]
    unfold view
    rw [mseOf_view, mseOf_view, ← sub_div, sum_map_sub]
    congr 1
    simp only at hnd hlt hp
    rw [sum_range_of_zero hnd hlt]
    · rw [((split_perm (left := left) f th D).map _).sum_eq.symm, List.map_append, List.sum_append]
      have hL : ((goLeft left f th D).map (fun d => (lab d - (p d + P d)) ^ 2 -
          (lab d - (splitPred (fun d => lab d - P d) ⟨f, goLeft left f th D, goRight left f th D⟩ p d + P d)) ^ 2)).sum =
          ((goLeft left f th D).map (fun d => (lab d - P d - mean (fun d => lab d - P d) D) ^ 2)).sum - sse (fun d => lab d - P d) (goLeft left f th D) := by
        unfold sse
        rw [sum_map_sub]
        congr 1
        apply List.map_congr_left
        intro d hd
        rw [hp d (List.mem_of_mem_filter hd), splitPred, if_pos hd]
        ring
      have hR : ((goRight left f th D).map (fun d => (lab d - (p d + P d)) ^ 2 -
          (lab d - (splitPred (fun d => lab d - P d) ⟨f, goLeft left f th D, goRight left f th D⟩ p d + P d)) ^ 2)).sum =
          ((goRight left f th D).map (fun d => (lab d - P d - mean (fun d => lab d - P d) D) ^ 2)).sum - sse (fun d => lab d - P d) (goRight left f th D) := by
        unfold sse
        rw [sum_map_sub]
        congr 1
        apply List.map_congr_left
        intro d hd
        have hnl : d ∉ goLeft left f th D := by
          intro h2
          have e1 := (List.mem_filter.1 hd).2
          have e2 := (List.mem_filter.1 h2).2
          simp [e2] at e1
        rw [hp d (List.mem_of_mem_filter hd), splitPred, if_neg hnl, if_pos hd]
        ring
      rw [hL, hR]
      have hD : sse (fun d => lab d - P d) D = ((goLeft left f th D).map (fun d => (lab d - P d - mean (fun d => lab d - P d) D) ^ 2)).sum +
          ((goRight left f th D).map (fun d => (lab d - P d - mean (fun d => lab d - P d) D) ^ 2)).sum := by
        unfold sse
        rw [((split_perm (left := left) f th D).map _).sum_eq.symm, List.map_append, List.sum_append]
      rw [hD]
      ring
    · intro d hd
      have h1 : d ∉ goLeft left f th D := fun h => hd (List.mem_of_mem_filter h)
      have h2 : d ∉ goRight left f th D := fun h => hd (List.mem_of_mem_filter h)
      rw [splitPred, if_neg h1, if_neg h2]
      ring

theorem treeGains_mse (n : Nat) (lab P : Nat → K) (t : Spec.Tree K) :
    (treeGains (mseOf n lab) left n (fun d => lab d - P d) P t).Perm
      ((gains left (fun d => lab d - P d) t (List.range n)).map (fun (g : Nat × K) => (g.1, g.2 / (n : K)))) := by
  refine List.Perm.trans (List.Perm.of_eq ?_) ((levels_gains (left := left) (y := fun d => lab d - P d) t.height t (List.range n) le_rfl).map _)
  unfold treeGains
  rw [List.map_flatMap]
  apply List.flatMap_congr
  intro k _
  rw [levelGains_eq, List.map_flatMap]
  apply List.flatMap_congr
  intro x hx
  exact gainOf_mse (frontier_nodup k _ _ List.nodup_range x hx) (fun d hd => List.mem_range.1 (frontier_docs k _ _ x hx d hd))
    (fun d hd => fitted_frontier k _ _ x hx d hd)

theorem forestMetricGains_mse (n : Nat) (lab : Nat → K) : ∀ (fo : Forest K) (P : Nat → K),
    (forestMetricGains (mseOf n lab) left n lab fo P).Perm
      ((forestGains left (List.range n) fo (fun d => lab d - P d)).map (fun (g : Nat × K) => (g.1, g.2 / (n : K))))
  | [], _ => by simp [forestMetricGains, forestGains]
  | (t, w) :: fo, P => by
    rw [forestMetricGains, forestGains, List.map_append]
    refine (treeGains_mse n lab P t).append ?_
    have := forestMetricGains_mse n lab fo (fun d => P d + fitted left (fun d => lab d - P d) t (List.range n) d * w)
    refine this.trans (List.Perm.of_eq ?_)
    congr 2
    funext d
    ring

/-- The totals agree with the importances of the efficient implementation. -/
theorem totalOf_mse (n : Nat) (lab : Nat → K) (fo : Forest K) (f : Nat) :
    totalOf (forestMetricGains (mseOf n lab) left n lab fo (fun _ => 0)) f = importance (forestGains left (List.range n) fo lab) n f := by
  have h := forestMetricGains_mse (left := left) n lab fo (fun _ => 0)
  simp only [sub_zero] at h
  unfold totalOf importance
  rw [((h.filter (fun g => decide (g.1 = f))).map (·.2)).sum_eq]
  generalize forestGains left (List.range n) fo lab = gs
  clear h
  induction gs with
  | nil => simp
  | cons g gs ih =>
    by_cases hg : g.1 = f
    · simp only [List.map_cons, List.filter_cons, hg, decide_true, if_true, List.sum_cons, ih, add_div]
    · simp only [List.map_cons, List.filter_cons, hg, decide_false, Bool.false_eq_true, if_false, ih]

end Verif
