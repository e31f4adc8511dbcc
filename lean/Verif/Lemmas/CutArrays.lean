/-
Lemmas for files of LightGBM that have been cut off: loading only depends on the lengths of the arrays.
-/
import Verif.Lemmas.LoadArrays
import Verif.Spec.CutArrays

namespace Verif.CutArrays
open Spec Ensemble
variable {F : Type}

/-- The lists of a tree fit together. -/
structure Fits (a : ArrTree F) : Prop where
  thresholds : a.thresholds.length = a.features.length
  left : a.left.length = a.features.length
  right : a.right.length = a.features.length
  small : SmallArr a

/-- There are `N` nodes and `T` trees. -/
structure Room (s : ArrState F) (N T : Nat) : Prop where
  nodes : NodeLen s.m N
  root : s.m.root.length = T
  weight : s.m.weight.length = T
  trees : s.m.nTrees = T

def size (a : ArrTree F) : Nat := a.features.length + a.leaves.length

def sizes (as : List (ArrTree F)) : Nat := (as.map size).sum

theorem tree_ok (one : F) {s : ArrState F} {a : ArrTree F} {N T k : Nat} (h : Room s N T) (ha : Fits a) (hk : k < T)
    (hN : s.rootNode + (s.numLeaves + s.numSplits) + size a ≤ N) :
    ∃ s', List.foldlM (lgbStep one) s (.tree k :: a.lgbLines) = .ok s' ∧ Room s' N T ∧ s'.m.weight = s.m.weight.set k one ∧
      s'.rootNode + (s'.numLeaves + s'.numSplits) = s.rootNode + (s.numLeaves + s.numSplits) + size a ∧
      s'.m = Ensemble.writeArr { s.m with root := s.m.root.set k ((s.rootNode + (s.numLeaves + s.numSplits) : Nat) : Int), weight := s.m.weight.set k one } a
        (s.rootNode + (s.numLeaves + s.numSplits)) := by
  unfold size at *
  set base := s.rootNode + (s.numLeaves + s.numSplits) with hbase
  refine ⟨⟨Ensemble.writeArr { s.m with root := s.m.root.set k (base : Int), weight := s.m.weight.set k one } a base, k, base, a.leaves.length,
    a.features.length, some a.features.length⟩, ?_, ⟨writeArr_len ⟨h.nodes.left, h.nodes.right, h.nodes.value, h.nodes.feature⟩, ?_, ?_, h.trees⟩, rfl,
    by simp only; omega, rfl⟩
  · have h1 := ha.thresholds
    have h2 := ha.left
    have h3 := ha.right
    simp only [List.foldlM_cons, List.foldlM_nil, ArrTree.lgbLines, lgbStep, ← hbase,
      setRoot_ok _ (show k < s.m.root.length by rw [h.root]; exact hk), bind, Except.bind, pure, Except.pure]
    rw [writeFrom_feature _ _ _ (by simp only [h.nodes.feature]; omega) ha.small]
    simp only
    rw [writeFrom_value _ _ _ (by simp only [h.nodes.value]; omega)]
    simp only
    rw [writeFrom_left _ _ _ _ (by simp only [h.nodes.left]; omega)]
    simp only
    rw [writeFrom_right _ _ _ _ (by simp only [h.nodes.right]; omega)]
    simp only
    rw [writeFrom_value _ _ _ (by simp only [length_overwrite, h.nodes.value]; omega)]
    simp only
    rw [setWeight_ok _ (by simp only [h.weight]; exact hk)]
    rfl
  · simp only [Ensemble.writeArr, List.length_set, h.root]
  · simp only [Ensemble.writeArr, List.length_set, h.weight]

theorem forest_ok (one : F) {N T : Nat} : ∀ (as : List (ArrTree F)) (k : Nat) (s : ArrState F), Room s N T → (∀ a ∈ as, Fits a) → k + as.length ≤ T →
    s.rootNode + (s.numLeaves + s.numSplits) + sizes as ≤ N →
    ∃ s', List.foldlM (lgbStep one) s (lgbForest k as) = .ok s' ∧ Room s' N T ∧
      s'.m.weight = overwrite s.m.weight k (List.replicate as.length one) ∧
      s'.rootNode + (s'.numLeaves + s'.numSplits) = s.rootNode + (s.numLeaves + s.numSplits) + sizes as
  | [], _, s, h, _, _, _ => ⟨s, rfl, h, rfl, rfl⟩
  | a :: as, k, s, h, ha, hk, hN => by
    rw [List.length_cons] at hk
    have hs : sizes (a :: as) = size a + sizes as := by simp [sizes]
    rw [hs] at hN
    obtain ⟨s1, e1, r1, w1, b1, _⟩ := tree_ok one (k := k) h (ha a (by simp)) (by omega) (by omega)
    obtain ⟨s2, e2, r2, w2, b2⟩ := forest_ok one as (k + 1) s1 r1 (fun b hb => ha b (by simp [hb])) (by omega) (by omega)
    refine ⟨s2, ?_, r2, ?_, by omega⟩
    · rw [lgbForest, ← List.cons_append, List.foldlM_append, e1]
      exact e2
    · rw [w2, w1]
      rfl

/-- The beginning of a tree without its last line. -/
theorem begun_ok (one : F) {s : ArrState F} {a : ArrTree F} {N T k j : Nat} (h : Room s N T) (ha : Fits a) (hk : k < T) (hj : j < 7)
    (hN : 2 ≤ j → s.rootNode + (s.numLeaves + s.numSplits) + size a ≤ N) :
    ∃ s', List.foldlM (lgbStep one) s (.tree k :: a.lgbLines.take j) = .ok s' ∧ s'.m.weight = s.m.weight ∧ s'.m.nTrees = T := by
  have h1 := ha.thresholds
  have h2 := ha.left
  have h3 := ha.right
  unfold size at hN
  set base := s.rootNode + (s.numLeaves + s.numSplits) with hbase
  have hr := setRoot_ok (m := s.m) (i := k) (base : Int) (by rw [h.root]; exact hk)
  have ht := h.trees
  match j, hj, hN with
  | 0, _, _ =>
    simp only [List.foldlM_cons, List.foldlM_nil, List.take_zero, lgbStep, ← hbase, hr, bind, Except.bind, pure, Except.pure]
    exact ⟨_, rfl, rfl, ht⟩
  | 1, _, _ =>
    simp only [List.foldlM_cons, List.foldlM_nil, ArrTree.lgbLines, List.take_succ_cons, List.take_zero, lgbStep, ← hbase, hr, bind, Except.bind, pure,
      Except.pure]
    exact ⟨_, rfl, rfl, ht⟩
  | 2, _, hN =>
    have hN := hN (by omega)
    simp only [List.foldlM_cons, List.foldlM_nil, ArrTree.lgbLines, List.take_succ_cons, List.take_zero, lgbStep, ← hbase, hr, bind, Except.bind, pure,
      Except.pure]
    rw [writeFrom_feature _ _ _ (by simp only [h.nodes.feature]; omega) ha.small]
    exact ⟨_, rfl, rfl, ht⟩
  | 3, _, hN =>
    have hN := hN (by omega)
    simp only [List.foldlM_cons, List.foldlM_nil, ArrTree.lgbLines, List.take_succ_cons, List.take_zero, lgbStep, ← hbase, hr, bind, Except.bind, pure,
      Except.pure]
    rw [writeFrom_feature _ _ _ (by simp only [h.nodes.feature]; omega) ha.small]
    simp only
    rw [writeFrom_value _ _ _ (by simp only [h.nodes.value]; omega)]
    exact ⟨_, rfl, rfl, ht⟩
  | 4, _, hN =>
    have hN := hN (by omega)
    simp only [List.foldlM_cons, List.foldlM_nil, ArrTree.lgbLines, List.take_succ_cons, List.take_zero, lgbStep, ← hbase, hr, bind, Except.bind, pure,
      Except.pure]
    rw [writeFrom_feature _ _ _ (by simp only [h.nodes.feature]; omega) ha.small]
    simp only
    rw [writeFrom_value _ _ _ (by simp only [h.nodes.value]; omega)]
    simp only
    rw [writeFrom_left _ _ _ _ (by simp only [h.nodes.left]; omega)]
    exact ⟨_, rfl, rfl, ht⟩
  | 5, _, hN =>
    have hN := hN (by omega)
    simp only [List.foldlM_cons, List.foldlM_nil, ArrTree.lgbLines, List.take_succ_cons, List.take_zero, lgbStep, ← hbase, hr, bind, Except.bind, pure,
      Except.pure]
    rw [writeFrom_feature _ _ _ (by simp only [h.nodes.feature]; omega) ha.small]
    simp only
    rw [writeFrom_value _ _ _ (by simp only [h.nodes.value]; omega)]
    simp only
    rw [writeFrom_left _ _ _ _ (by simp only [h.nodes.left]; omega)]
    simp only
    rw [writeFrom_right _ _ _ _ (by simp only [h.nodes.right]; omega)]
    exact ⟨_, rfl, rfl, ht⟩
  | 6, _, hN =>
    have hN := hN (by omega)
    simp only [List.foldlM_cons, List.foldlM_nil, ArrTree.lgbLines, List.take_succ_cons, List.take_zero, lgbStep, ← hbase, hr, bind, Except.bind, pure,
      Except.pure]
    rw [writeFrom_feature _ _ _ (by simp only [h.nodes.feature]; omega) ha.small]
    simp only
    rw [writeFrom_value _ _ _ (by simp only [h.nodes.value]; omega)]
    simp only
    rw [writeFrom_left _ _ _ _ (by simp only [h.nodes.left]; omega)]
    simp only
    rw [writeFrom_right _ _ _ _ (by simp only [h.nodes.right]; omega)]
    simp only
    rw [writeFrom_value _ _ _ (by simp only [length_overwrite, h.nodes.value]; omega)]
    exact ⟨_, rfl, rfl, ht⟩

/-- The beginnings of the lines of a model: some trees, and perhaps the beginning of another one. -/
theorem forest_prefix : ∀ (as : List (ArrTree F)) (k : Nat) (p : List (LgbLine F)), p <+: lgbForest k as →
    ∃ bs, (∀ b ∈ bs, b ∈ as) ∧ (p = lgbForest k bs ∨ ∃ a ∈ as, ∃ j < 7, p = lgbForest k bs ++ .tree (k + bs.length) :: a.lgbLines.take j)
  | [], _, p, h => ⟨[], by simp, .inl (List.prefix_nil.1 h)⟩
  | a :: as, k, p, h => by
    rw [lgbForest] at h
    match p, h with
    | [], _ => exact ⟨[], by simp, .inl rfl⟩
    | x :: p, h =>
      obtain ⟨rfl, h'⟩ := List.cons_prefix_cons.1 h
      rcases Nat.lt_or_ge p.length 7 with hp | hp
      · refine ⟨[], by simp, .inr ⟨a, by simp, p.length, hp, ?_⟩⟩
        have hp' := List.prefix_iff_eq_take.1 h'
        rw [List.take_append_of_le_length (by simp only [ArrTree.lgbLines, List.length_cons, List.length_nil]; omega)] at hp'
        simp only [lgbForest, List.nil_append, List.length_nil, Nat.add_zero, List.cons.injEq, true_and]
        exact hp'
      · have hp' := List.prefix_iff_eq_take.1 h'
        rw [List.take_append, List.take_of_length_le (by simp only [ArrTree.lgbLines, List.length_cons, List.length_nil]; omega)] at hp'
        obtain ⟨bs, hbs, hq⟩ := forest_prefix as (k + 1) _ (List.take_prefix (p.length - a.lgbLines.length) _)
        refine ⟨a :: bs, fun b hb => (List.mem_cons.1 hb).elim (fun e => by simp [e]) (fun hb => List.mem_cons_of_mem _ (hbs b hb)), ?_⟩
        rcases hq with hq | ⟨c, hc, j, hj, hq⟩
        · left
          rw [hp', hq]
          rfl
        · refine .inr ⟨c, by simp [hc], j, hj, ?_⟩
          rw [hp', hq, lgbForest, List.length_cons, show k + (bs.length + 1) = k + 1 + bs.length by omega]
          simp

theorem begun_append (p q : List (LgbLine F)) : begunTrees (p ++ q) = begunTrees p + begunTrees q := by simp [begunTrees]

theorem ended_append (p q : List (LgbLine F)) : endedTrees (p ++ q) = endedTrees p + endedTrees q := by simp [endedTrees]

theorem counts_forest : ∀ (as : List (ArrTree F)) (k : Nat), begunTrees (lgbForest k as) = as.length ∧ endedTrees (lgbForest k as) = as.length ∧
    lgbCount (lgbForest k as) = (as.length, sizes as)
  | [], _ => ⟨rfl, rfl, rfl⟩
  | a :: as, k => by
    obtain ⟨h1, h2, h3⟩ := counts_forest as (k + 1)
    simp only [begunTrees, endedTrees, lgbCount, Prod.mk.injEq] at h1 h2 h3
    simp only [begunTrees, endedTrees, lgbCount, lgbForest, ArrTree.lgbLines, List.map_cons, List.map_append, List.sum_cons, List.sum_append, h1, h2, h3.2,
      sizes, size, List.length_cons, List.map_nil, List.sum_nil, Prod.mk.injEq]
    refine ⟨by omega, by omega, by omega, by omega⟩

theorem counts_begun (a : ArrTree F) (k : Nat) {j : Nat} (hj : j < 7) : begunTrees (.tree k :: a.lgbLines.take j) = 1 ∧
    endedTrees (.tree k :: a.lgbLines.take j) = 0 ∧ (lgbCount (.tree k :: a.lgbLines.take j)).1 = 1 ∧
    (2 ≤ j → (lgbCount (.tree k :: a.lgbLines.take j)).2 = size a) := by
  match j, hj with
  | 0, _ | 1, _ | 2, _ | 3, _ | 4, _ | 5, _ | 6, _ => simp [begunTrees, endedTrees, lgbCount, ArrTree.lgbLines, size, Nat.add_comm]

theorem count_append (p q : List (LgbLine F)) : lgbCount (p ++ q) = ((lgbCount p).1 + (lgbCount q).1, (lgbCount p).2 + (lgbCount q).2) := by
  simp [lgbCount]

theorem begun_filter (ls : List (LgbLine F)) : begunTrees (ls.filter lgbRelevant) = begunTrees ls := by
  induction ls with
  | nil => rfl
  | cons l ls ih =>
    simp only [begunTrees] at ih
    by_cases hl : lgbRelevant l = true
    · simp only [List.filter_cons, hl, if_true, begunTrees, List.map_cons, List.sum_cons, ih]
    · simp only [List.filter_cons, hl, begunTrees, List.map_cons, List.sum_cons]
      cases l <;> simp_all [lgbRelevant]

theorem ended_filter (ls : List (LgbLine F)) : endedTrees (ls.filter lgbRelevant) = endedTrees ls := by
  induction ls with
  | nil => rfl
  | cons l ls ih =>
    simp only [endedTrees] at ih
    by_cases hl : lgbRelevant l = true
    · simp only [List.filter_cons, hl, if_true, endedTrees, List.map_cons, List.sum_cons, ih]
    · simp only [List.filter_cons, hl, endedTrees, List.map_cons, List.sum_cons]
      cases l <;> simp_all [lgbRelevant]

theorem overwrite_replicate (one zero : F) : ∀ (c d k : Nat) (pre : List F), pre.length = k →
    overwrite (pre ++ List.replicate (c + d) zero) k (List.replicate c one) = pre ++ (List.replicate c one ++ List.replicate d zero)
  | 0, d, k, pre, _ => by simp [overwrite]
  | c + 1, d, k, pre, h => by
    have := overwrite_replicate one zero c d (k + 1) (pre ++ [one]) (by simp [h])
    rw [List.replicate_succ, overwrite, show c + 1 + d = (c + d) + 1 by omega, List.replicate_succ, List.set_append_right _ _ (by omega), h,
      Nat.sub_self, List.set_cons_zero, ← List.singleton_append, ← List.append_assoc, this]
    simp

end Verif.CutArrays
