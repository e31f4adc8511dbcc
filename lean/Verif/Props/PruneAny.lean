/-
Property C112: asking for any integer number of trees.
-/
import Verif.Model.PruneAny
import Verif.Props.Scoring

namespace Verif.Props
open Spec Ensemble

variable {F : Type} {m : Ensemble F} {fo : Forest F}

theorem toCut_arrays (m : Ensemble F) : m.toCut.arrays = m := rfl

theorem cut_prune_nat (m : Ensemble F) (n : Nat) {m' : Cut F}
    (e : Cut.prune m.toCut n = .ok m') : 0 ≤ m'.nTrees ∧ Ensemble.prune m n = .ok m'.arrays := by
  unfold Cut.prune at e
  unfold Ensemble.prune
  by_cases hn : n ≥ m.nTrees
  · rw [if_pos (by simpa [toCut] using hn)] at e
    cases e
    exact ⟨by simp [toCut], by rw [if_pos hn]; rfl⟩
  · rw [if_neg (by simpa [toCut] using hn)] at e
    rw [if_neg hn]
    cases hg : pyGet m.root (n : Int) with
    | error x => simp [toCut, hg, bind, Except.bind] at e
    | ok start =>
      simp only [toCut, hg, bind, Except.bind, pure, Except.pure, Except.ok.injEq] at e ⊢
      subst e
      exact ⟨by simp, by simp [Cut.arrays, pyTake]⟩

/-- C112 for numbers of trees that are not negative: the copy has the first `n` trees (all, if there are not more), says so in
`n_trees`, and its arrays are those of these trees, so that C29, C30, C34 and C36 give its scores and statistics. -/
theorem C112_nonneg_partial (h : Represents m fo) {n : Int} (hn : 0 ≤ n) :
    ∃ m', Cut.copy m.toCut (some n) = .ok m' ∧ m'.nTrees = min n fo.length ∧
      Represents m'.arrays (fo.take n.toNat) := by
  obtain ⟨k, rfl⟩ := Int.eq_ofNat_of_zero_le hn
  obtain ⟨m1, h1, h2⟩ := C35_prune h k
  have hex : ∃ m', Cut.prune m.toCut (k : Int) = .ok m' := by
    unfold Cut.prune
    split
    · exact ⟨_, rfl⟩
    · rename_i hlt
      unfold Ensemble.prune at h1
      rw [if_neg (by simpa [toCut] using hlt)] at h1
      cases hg : pyGet m.root (k : Int) with
      | error x => simp [hg, bind, Except.bind] at h1
      | ok start => simp [toCut, hg, bind, Except.bind, pure, Except.pure]
  obtain ⟨m', h3⟩ := hex
  obtain ⟨h4, h5⟩ := cut_prune_nat m k h3
  rw [h1] at h5
  cases h5
  refine ⟨m', h3, ?_, by simpa using h2⟩
  have h6 := h2.nTrees
  simp only [Cut.arrays, List.length_take] at h6
  omega

/-- C112: nothing is cut without a number. -/
theorem C112_none (m : Cut F) : Cut.copy m none = .ok m := rfl

theorem pyGet_neg_root (h : Represents m fo) {j : Nat} (hj : 0 < j) (hjl : j ≤ fo.length) :
    pyGet m.root (-(j : Int)) = .ok ((treeStart fo (fo.length - j) : Nat) : Int) := by
  have hl : m.root.length = fo.length := by rw [h.root]; simp
  unfold pyGet
  have h1 : ¬(0 : Int) ≤ -(j : Int) := by omega
  have h2 : (0 : Int) ≤ -(j : Int) + (m.root.length : Int) := by omega
  have h3 : (-(j : Int) + (m.root.length : Int)).toNat = fo.length - j := by omega
  simp only [if_neg h1, if_pos h2, h3]
  have h4 : m.root[fo.length - j]? = some ((treeStart fo (fo.length - j) : Nat) : Int) := by
    rw [h.root, List.getElem?_map, List.getElem?_range (by omega)]
    rfl
  rw [h4]

/-- C112: for `n = -j`, `j` at most the number of trees, the copy is made and says that it has `-j` trees, but its arrays are those
of the trees without the last `j`. -/
theorem C112_negative (h : Represents m fo) {j : Nat} (hj : 0 < j) (hjl : j ≤ fo.length) :
    ∃ m', Cut.copy m.toCut (some (-(j : Int))) = .ok m' ∧ m'.nTrees = -(j : Int) ∧
      Represents { m'.arrays with nTrees := fo.length - j } (fo.take (fo.length - j)) := by
  have hlt : ¬(-(j : Int)) ≥ m.toCut.nTrees := by
    simp only [toCut]
    omega
  obtain ⟨m1, h1, h2⟩ := C35_prune h (fo.length - j)
  have hr : m.root.length = fo.length := by rw [h.root]; simp
  have hw : m.weight.length = fo.length := by rw [h.weight]; simp
  refine ⟨_, by
    simp only [Cut.copy, Cut.prune, if_neg hlt]
    simp only [toCut, pyGet_neg_root h hj hjl, bind, Except.bind, pure, Except.pure]
    rfl, rfl, ?_⟩
  unfold Ensemble.prune at h1
  rw [if_neg (by rw [h.nTrees]; omega)] at h1
  have hlt' : fo.length - j < fo.length := by omega
  have hroot := h.root_get (List.getElem?_eq_getElem hlt')
  simp only [pyGet_ok hroot, bind, Except.bind, pure, Except.pure, Except.ok.injEq] at h1
  subst h1
  have e1 : pyTake (-(j : Int)) m.root = m.root.take (fo.length - j) := by
    unfold pyTake
    rw [if_neg (by omega), hr]
    simp
  have e2 : pyTake (-(j : Int)) m.weight = m.weight.take (fo.length - j) := by
    unfold pyTake
    rw [if_neg (by omega), hw]
    simp
  simp only [Cut.arrays, e1, e2]
  exact h2

/-- C112: more trees less than there are: `IndexError`, and there is no copy. -/
theorem C112_below (h : Represents m fo) {n : Int} (hn : n < -(fo.length : Int)) :
    Cut.copy m.toCut (some n) = .error .indexError := by
  have hl : m.root.length = fo.length := by rw [h.root]; simp
  have h1 : ¬n ≥ m.toCut.nTrees := by simp only [toCut]; omega
  have h2 : ¬(0 : Int) ≤ n := by omega
  have h3 : ¬(0 : Int) ≤ n + (m.root.length : Int) := by omega
  simp only [Cut.copy, Cut.prune, if_neg h1]
  simp only [toCut, pyGet, if_neg h2, if_neg h3, bind, Except.bind]

theorem featureCheck_only (a b : Ensemble F) (h : a.feature = b.feature) (nf : Nat) :
    featureCheck a nf = featureCheck b nf := by
  unfold featureCheck
  rw [h]

/-- C112, the violation for all models: a copy with `n = -j` that keeps at least one tree is scored without an error, and every
document gets the base score, whatever the trees are. No row of the data is looked at. -/
theorem C112_negative_scores {K : Type} [Field K] [LinearOrder K] {m : Ensemble K} {fo : Forest K} (h : Represents m fo)
    {j : Nat} (hj : 0 < j) (hjl : j < fo.length) {X : List (List K)} {nf : Nat} (hf : ∀ p ∈ fo, ∀ f ∈ p.1.features, f < nf)
    (lr : K) (bs : Option K) :
    ∃ m' r, Cut.copy m.toCut (some (-(j : Int))) = .ok m' ∧ Cut.score (exactOps K) m' lr bs false X nf = .ok r ∧
      r.yPred = X.map (fun _ => baseOf bs) := by
  obtain ⟨m', h1, h2, h3⟩ := C112_negative h hj hjl.le
  have hne : fo.take (fo.length - j) ≠ [] := by
    intro h0
    have := congrArg List.length h0
    simp only [List.length_take, List.length_nil] at this
    omega
  have hc : featureCheck m'.arrays nf = .ok () := by
    rw [featureCheck_only m'.arrays { m'.arrays with nTrees := fo.length - j } rfl]
    rcases C31_memory_safe (exactOps K) h3 hne (X := []) (nf := nf) (by simp) lr bs false with
      ⟨_, p, hp, f, hf', hle⟩ | ⟨⟨r, hr⟩, _⟩
    · have := hf p (List.mem_of_mem_take hp) f hf'
      omega
    · unfold scoreFresh at hr
      cases hcc : featureCheck { m'.arrays with nTrees := fo.length - j } nf with
      | error e => rw [hcc] at hr; cases hr
      | ok u => rfl
  have ht : m'.nTrees.toNat = 0 := by omega
  have hraw : rawScore (exactOps K) m'.arrays false X = .ok ⟨X.map (fun _ => (0 : K)), none, none⟩ := by
    have hb : basicScoring (exactOps K) m'.arrays X = .ok (X.map (fun _ => (0 : K))) := by
      have : (fun row => basicRow (exactOps K) m'.arrays row (List.range m'.arrays.nTrees) (exactOps K).zero) =
          fun _ => (pure (0 : K) : Except PyErr K) := by
        funext row
        simp only [Cut.arrays, ht, List.range_zero, basicRow]
        rfl
      unfold basicScoring
      rw [this]
      induction X with
      | nil => rfl
      | cons x X ih => rw [List.mapM_cons, ih]; rfl
    simp only [rawScore, hb, bind, Except.bind, pure, Except.pure]
    rfl
  refine ⟨m', _, h1, by
    simp only [Cut.score, hc, hraw, bind, Except.bind, Bool.false_eq_true, false_and, if_false]
    rfl, ?_⟩
  rw [adjust_yPred]
  simp

/-- C112: the detailed score and the statistics of such a copy raise `ValueError` (unless the features do not fit, which is
reported first). -/
theorem C112_negative_detailed (ops : FloatOps F) (h : Represents m fo) {j : Nat} (hj : 0 < j) (hjl : j < fo.length)
    {X : List (List F)} {nf : Nat} (lr : F) (bs : Option F) :
    ∃ m', Cut.copy m.toCut (some (-(j : Int))) = .ok m' ∧
      (Cut.score ops m' lr bs true X nf = .error .valueError ∨ Cut.score ops m' lr bs true X nf = .error .runtimeError) ∧
      m'.numLeaves = .error .valueError ∧ m'.numNodes = .error .valueError ∧ m'.heightTrees = .error .valueError := by
  obtain ⟨m', h1, h2, h3⟩ := C112_negative h hj hjl.le
  have hneg : m'.nTrees < 0 := by omega
  refine ⟨m', h1, ?_, by simp [Cut.numLeaves, hneg], by simp [Cut.numNodes, hneg], by simp [Cut.heightTrees, hneg]⟩
  unfold Cut.score
  cases hc : featureCheck m'.arrays nf with
  | ok u => left; simp [bind, Except.bind, hneg]
  | error e =>
    simp only [bind, Except.bind]
    unfold featureCheck at hc
    split at hc
    · cases hc; exact Or.inl rfl
    · split at hc
      · cases hc; exact Or.inr rfl
      · cases hc

/-- C112: copies without any tree, `n = 0` and `n` = minus the number of trees: every score raises `ValueError`. -/
theorem C112_no_tree_left (ops : FloatOps F) (h : Represents m fo) (hne : fo ≠ []) {n : Int}
    (hn : n = 0 ∨ n = -(fo.length : Int)) {X : List (List F)} {nf : Nat} (lr : F) (bs : Option F) (detailed : Bool) :
    ∃ m', Cut.copy m.toCut (some n) = .ok m' ∧ Cut.score ops m' lr bs detailed X nf = .error .valueError := by
  have hpos : 0 < fo.length := List.length_pos_iff.2 hne
  have key : ∀ m' : Cut F, ∀ a : Nat, Represents { m'.arrays with nTrees := a } [] →
      Cut.score ops m' lr bs detailed X nf = .error .valueError := by
    intro m' a h3
    have h4 : m'.feature = [] := by
      have h5 := h3.feature_len
      rw [h3.nNodes] at h5
      simpa [Forest.numNodes, Cut.arrays] using h5
    have hc : featureCheck m'.arrays nf = .error .valueError := by simp [featureCheck, Cut.arrays, h4]
    simp [Cut.score, hc, bind, Except.bind]
  rcases hn with rfl | rfl
  · obtain ⟨m', h1, _, h3⟩ := C112_nonneg_partial h (le_refl (0 : Int))
    refine ⟨m', h1, key m' m'.arrays.nTrees ?_⟩
    simpa using h3
  · obtain ⟨m', h1, _, h3⟩ := C112_negative h hpos (le_refl _)
    refine ⟨m', h1, key m' 0 ?_⟩
    simpa using h3

/-- C112: a copy with a negative number of trees cannot be turned into a working one by copying: asked for any number of trees
that is not smaller than its own, and so for every number of trees, it is returned as it is. -/
theorem C112_copy_again (m : Cut F) {n : Int} (hn : m.nTrees < 0) (h : 0 ≤ n) : Cut.copy m (some n) = .ok m := by
  simp only [Cut.copy, Cut.prune]
  rw [if_pos (by omega)]
  rfl

/-- C112 is violated: the first tree of the model gives the document 10, the copy with -1 trees is made and scored, the number of
its trees is -1 and the score is 0. -/
theorem C112_violated : ∃ m', Cut.copy ens0.toCut (some (-1)) = .ok m' ∧ m'.nTrees = -1 ∧ m'.weight = [2] ∧
    (Cut.score (exactOps ℚ) m' 1 none false [[1, 4]] 2).map Scored.yPred = .ok [0] ∧
    (do (Cut.score (exactOps ℚ) (← Cut.copy ens0.toCut (some 1)) 1 none false [[1, 4]] 2).map Scored.yPred) =
      .ok [10] := by
  refine ⟨⟨-1, 5, [0], [2], [1, -1, 3, -1, -1], [2, -1, 4, -1, -1], [1 / 2, 1, 3, -2, 5], [0, -1, 1, -1, -1]⟩, ?_, rfl, rfl, ?_, ?_⟩ <;>
    decide +kernel

example : Represents ens0 forest0 ∧ (0 < 1 ∧ 1 < forest0.length) ∧ ∀ p ∈ forest0, ∀ f ∈ p.1.features, f < 2 := by
  exact ⟨ens0_represents, by decide +kernel, by decide +kernel⟩

example : Cut.copy ens0.toCut (some (-3)) = .error .indexError :=
  C112_below ens0_represents (by decide +kernel)

end Verif.Props
