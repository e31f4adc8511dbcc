/-
Properties C29, C30, C31, C34, C35, C36: scoring, pruning and statistics of ensembles.
-/
import Verif.Lemmas.TreeStats
import Mathlib.Tactic.Linarith

namespace Verif.Props
open Spec Ensemble

/-! ### A concrete ensemble: two trees of different shape -/

def forest0 : Forest ℚ :=
  [(.node 0 (1 / 2) (.leaf 1) (.node 1 3 (.leaf (-2)) (.leaf 5)), 2), (.leaf 7, 1)]

def ens0 : Ensemble ℚ where
  nTrees := 2
  nNodes := 6
  root := [0, 5]
  weight := [2, 1]
  left := [1, -1, 3, -1, -1, -1]
  right := [2, -1, 4, -1, -1, -1]
  value := [1 / 2, 1, 3, -2, 5, 7]
  feature := [0, -1, 1, -1, -1, -1]

theorem ens0_represents : Represents ens0 forest0 where
  nTrees := rfl
  nNodes := rfl
  left_len := rfl
  right_len := rfl
  value_len := rfl
  feature_len := rfl
  weight := rfl
  root := by decide +kernel
  trees := by
    intro k t w hk
    match k with
    | 0 =>
      simp only [forest0, List.getElem?_cons_zero, Option.some.injEq, Prod.mk.injEq] at hk
      obtain ⟨rfl, rfl⟩ := hk
      refine ⟨[0, 1, 2, 3, 4], ?_, by decide +kernel⟩
      exact .node (l := 1) (r := 2) (sl := [1]) (sr := [2, 3, 4]) rfl rfl rfl rfl (.leaf rfl rfl rfl rfl)
        (.node (l := 3) (r := 4) (sl := [3]) (sr := [4]) rfl rfl rfl rfl (.leaf rfl rfl rfl rfl) (.leaf rfl rfl rfl rfl))
    | 1 =>
      simp only [forest0, List.getElem?_cons_succ, List.getElem?_cons_zero, Option.some.injEq, Prod.mk.injEq] at hk
      obtain ⟨rfl, rfl⟩ := hk
      exact ⟨[5], .leaf rfl rfl rfl rfl, by decide +kernel⟩
    | k + 2 => simp [forest0] at hk

section scoring
variable {F : Type} (ops : FloatOps F) {m : Ensemble F} {fo : Forest F} {X : List (List F)} {nf : Nat}

theorem features_lt_of_check (h : Represents m fo) (hc : featureCheck m nf = .ok ()) :
    ∀ p ∈ fo, ∀ f ∈ p.1.features, f < nf := by
  intro p hp f hf
  obtain ⟨k, hk⟩ := List.mem_iff_getElem?.1 hp
  obtain ⟨s, hs, _⟩ := h.trees k p.1 p.2 hk
  have hmem := hs.features_mem f hf
  rcases featureCheck_iff (m := m) (nf := nf) (by intro h0; rw [h0] at hmem; cases hmem) with ⟨_, h2⟩ | ⟨h1, _⟩
  · have := h2 _ hmem; omega
  · rw [hc] at h1; cases h1

/-! ### C29 -/

/-- C29: for every ensemble that represents a forest, scoring ends and gives each row the sum, in the order of the trees, of
tree weight times the value of the leaf reached by going left iff feature value `<=` threshold. `ops` are arbitrary float
operations. -/
theorem C29_score (h : Represents m fo) (hX : ∀ row ∈ X, row.length = nf) (hc : featureCheck m nf = .ok ()) :
    basicScoring ops m X =
      .ok (X.map (fun row => (Forest.contributions ops.mul (goesLeft ops.le row) fo).foldl ops.add ops.zero)) := by
  apply mapM_ok
  intro row hrow
  have hf : ∀ p ∈ fo, ∀ f ∈ p.1.features, f < row.length := by
    rw [hX row hrow]; exact features_lt_of_check h hc
  have := basicRow_eq ops h row hf fo.length 0 ops.zero (by omega)
  rw [h.nTrees, List.range_eq_range', this, List.drop_zero]

/-- C29, with exact numbers: the score is the weighted sum. -/
theorem C29_score_exact {K : Type} [Field K] [LinearOrder K] {m : Ensemble K} {fo : Forest K} {X : List (List K)}
    (h : Represents m fo) (hX : ∀ row ∈ X, row.length = nf) (hc : featureCheck m nf = .ok ()) :
    basicScoring (exactOps K) m X =
      .ok (X.map (fun row => (fo.map (fun p => p.1.value (fun f t => goesLeft (fun a b => decide (a ≤ b)) row f t) * p.2)).sum)) := by
  rw [C29_score (exactOps K) h hX hc]
  congr 1
  apply List.map_congr_left
  intro row _
  exact (List.sum_eq_foldl ..).symm

/-- C29: the hypotheses are met, and the value on two rows is as computed by hand. -/
example : Represents ens0 forest0 ∧ featureCheck ens0 2 = .ok () ∧
    basicScoring (exactOps ℚ) ens0 [[0, 9], [1, 4]] = .ok [9, 17] :=
  ⟨ens0_represents, by decide +kernel, by decide +kernel⟩

/-! ### C30 -/

/-- C30: the partial score of row `i` and tree `k` is the contribution of tree `k` to row `i`, and the reported leaf is the node of
tree `k` at which the row leaves the tree: a leaf, between the root of tree `k` and the next root. -/
theorem C30_detailed (h : Represents m fo) (hX : ∀ row ∈ X, row.length = nf) (hc : featureCheck m nf = .ok ()) :
    ∃ leaves, detailedScoring ops m X =
        .ok (leaves, X.map (fun row => Forest.contributions ops.mul (goesLeft ops.le row) fo)) ∧
      leaves.length = X.length ∧
      ∀ (i : Nat) row, X[i]? = some row → ∃ ls, leaves[i]? = some ls ∧ ls.length = fo.length ∧
        ∀ (k : Nat) t w, fo[k]? = some (t, w) → ∃ s e : _, Encodes m (treeStart fo k) t s ∧
          s[t.exitPos (goesLeft ops.le row)]? = some e ∧ ls[k]? = some ((e : Nat) : Int) ∧
          treeStart fo k ≤ e ∧ e < treeStart fo k + t.numNodes ∧ isLeafNode m e = .ok true := by
  classical
  have hf : ∀ row ∈ X, ∀ p ∈ fo, ∀ f ∈ p.1.features, f < row.length := by
    intro row hrow; rw [hX row hrow]; exact features_lt_of_check h hc
  -- choose the cells of a row
  have hrow : ∀ row ∈ X, ∃ cs : List (Int × F), (List.range m.nTrees).mapM (detailedCell ops m row) = .ok cs ∧
      cs.map (·.2) = Forest.contributions ops.mul (goesLeft ops.le row) fo ∧
      ∀ (k : Nat) t w, fo[k]? = some (t, w) → ∃ s e : _, Encodes m (treeStart fo k) t s ∧
          s[t.exitPos (goesLeft ops.le row)]? = some e ∧ (cs.map (·.1))[k]? = some ((e : Nat) : Int) ∧
          treeStart fo k ≤ e ∧ e < treeStart fo k + t.numNodes ∧ isLeafNode m e = .ok true := by
    intro row hr
    have hcell : ∀ k, ∃ c : Int × F, k < fo.length → detailedCell ops m row k = .ok c ∧
        ∀ t w, fo[k]? = some (t, w) → c.2 = ops.mul (t.value (goesLeft ops.le row)) w ∧
          ∃ s e : _, Encodes m (treeStart fo k) t s ∧
          s[t.exitPos (goesLeft ops.le row)]? = some e ∧ c.1 = ((e : Nat) : Int) ∧
          treeStart fo k ≤ e ∧ e < treeStart fo k + t.numNodes ∧ isLeafNode m e = .ok true := by
      intro k
      by_cases hk : k < fo.length
      · obtain ⟨⟨t, w⟩, hp⟩ : ∃ p, fo[k] = p := ⟨_, rfl⟩
        have hget : fo[k]? = some (t, w) := by rw [List.getElem?_eq_getElem hk, hp]
        obtain ⟨s, hs, hperm⟩ := h.trees k t w hget
        obtain ⟨e, h1, h2, h3, h4⟩ := detailedCell_eq ops h row (hf row hr) hget hs
        have hmem : e ∈ List.range' (treeStart fo k) t.numNodes := hperm.mem_iff.1 (List.mem_of_getElem? h1)
        rw [List.mem_range'_1] at hmem
        refine ⟨_, fun _ => ⟨h4, fun t' w' ht' => ?_⟩⟩
        rw [hget] at ht'
        cases ht'
        refine ⟨rfl, s, e, hs, h1, rfl, hmem.1, hmem.2, ?_⟩
        simp [isLeafNode, pyGet_ok h2, pyGet_ok h3, bind, Except.bind, pure, Except.pure]
      · exact ⟨(0, ops.zero), fun h => (hk h).elim⟩
    choose c hcs using hcell
    refine ⟨(List.range m.nTrees).map c, mapM_ok (fun k hk => ?_), ?_, ?_⟩
    · rw [List.mem_range, h.nTrees] at hk
      exact (hcs k hk).1
    · apply List.ext_getElem?
      intro k
      simp only [List.map_map, List.getElem?_map, Forest.contributions, h.nTrees]
      by_cases hk : k < fo.length
      · obtain ⟨⟨t, w⟩, hp⟩ : ∃ p, fo[k] = p := ⟨_, rfl⟩
        have hget : fo[k]? = some (t, w) := by rw [List.getElem?_eq_getElem hk, hp]
        rw [List.getElem?_range hk, hget]
        simp [((hcs k hk).2 t w hget).1]
      · rw [List.getElem?_eq_none_iff.2 (by simpa using hk), List.getElem?_eq_none_iff.2 (by simpa using hk)]
        rfl
    · intro k t w hk
      have hlt : k < fo.length := (List.getElem?_eq_some_iff.1 hk).1
      obtain ⟨_, s, e, h1, h2, h3, h4⟩ := (hcs k hlt).2 t w hk
      refine ⟨s, e, h1, h2, ?_, h4⟩
      simp [h.nTrees, List.getElem?_range hlt, h3]
  have hall : ∃ cells, X.mapM (fun row => (List.range m.nTrees).mapM (detailedCell ops m row)) = .ok cells ∧
      cells.map (·.map (·.2)) = X.map (fun row => Forest.contributions ops.mul (goesLeft ops.le row) fo) ∧
      cells.length = X.length ∧
      ∀ (i : Nat) row, X[i]? = some row → ∃ cs, cells[i]? = some cs ∧
        ∀ (k : Nat) t w, fo[k]? = some (t, w) → ∃ s e : _, Encodes m (treeStart fo k) t s ∧
          s[t.exitPos (goesLeft ops.le row)]? = some e ∧ (cs.map (·.1))[k]? = some ((e : Nat) : Int) ∧
          treeStart fo k ≤ e ∧ e < treeStart fo k + t.numNodes ∧ isLeafNode m e = .ok true := by
    clear hX hf
    induction X with
    | nil => exact ⟨[], rfl, rfl, rfl, by simp⟩
    | cons row X ih =>
      obtain ⟨cs, h1, h2, h3⟩ := hrow row (by simp)
      obtain ⟨cells, h4, h5, h6, h7⟩ := ih (fun row hr => hrow row (by simp [hr]))
      refine ⟨cs :: cells, ?_, by simp [h2, h5], by simp [h6], ?_⟩
      · rw [List.mapM_cons, h1, h4]; rfl
      · intro i row' hi
        cases i with
        | zero => simp at hi; subst hi; exact ⟨cs, by simp, h3⟩
        | succ i => simpa using h7 i row' (by simpa using hi)
  obtain ⟨cells, h1, h2, h3, h4⟩ := hall
  refine ⟨cells.map (·.map (·.1)), ?_, by simp [h3], ?_⟩
  · simp only [detailedScoring, h1, bind, Except.bind, pure, Except.pure, h2]
  · intro i row hi
    obtain ⟨cs, h5, h6⟩ := h4 i row hi
    refine ⟨cs.map (·.1), by simp [h5], ?_, h6⟩
    have hl := congrArg (fun l => (l[i]?).map List.length) h2
    simp only [List.getElem?_map, h5, hi, Option.map_some, List.length_map, Forest.contributions,
      Option.some.injEq] at hl
    simpa using hl

/-- C30: the rows of the partial score matrix sum to the predictions of basic scoring (exact numbers), and the detailed call
returns these sums as predictions. -/
theorem C30_same_prediction {K : Type} [Field K] [LinearOrder K] {m : Ensemble K} {fo : Forest K} {X : List (List K)}
    (h : Represents m fo) (hX : ∀ row ∈ X, row.length = nf) (hc : featureCheck m nf = .ok ()) :
    ∃ y part leaves, rawScore (exactOps K) m false X = .ok ⟨y, none, none⟩ ∧
      rawScore (exactOps K) m true X = .ok ⟨y, some part, some leaves⟩ ∧ part.map List.sum = y := by
  obtain ⟨leaves, hd, _⟩ := C30_detailed (exactOps K) h hX hc
  have hb := C29_score (exactOps K) h hX hc
  refine ⟨_, X.map (fun row => Forest.contributions (exactOps K).mul (goesLeft (exactOps K).le row) fo), leaves,
    by simp only [rawScore, Bool.false_eq_true, ↓reduceIte, hb, bind, Except.bind]; rfl, ?_, ?_⟩
  · simp only [rawScore, ↓reduceIte, hd, bind, Except.bind, pure, Except.pure, List.map_map, Except.ok.injEq,
      Scored.mk.injEq, and_true]
    apply List.map_congr_left
    intro row _
    exact List.sum_eq_foldl ..
  · rw [List.map_map]
    apply List.map_congr_left
    intro row _
    exact List.sum_eq_foldl ..

/-! ### C31 -/

/-- C31: on a well-formed model and a matrix with `nf` columns, `score` either raises the feature mismatch error before any
traversal, or returns: the checked reads never leave an array (`undefinedBehaviour`) and the traversal ends. -/
theorem C31_memory_safe (h : Represents m fo) (hne : fo ≠ []) (hX : ∀ row ∈ X, row.length = nf) (lr : F) (bs : Option F)
    (detailed : Bool) :
    (scoreFresh ops m lr bs detailed X nf = .error .runtimeError ∧ ∃ p ∈ fo, ∃ f ∈ p.1.features, nf ≤ f) ∨
    ((∃ r, scoreFresh ops m lr bs detailed X nf = .ok r) ∧ ∀ p ∈ fo, ∀ f ∈ p.1.features, f < nf) := by
  have hfne : m.feature ≠ [] := by
    intro h0
    obtain ⟨p, fo', rfl⟩ := List.exists_cons_of_ne_nil hne
    have := h.feature_len
    rw [h0, h.nNodes] at this
    have hp := Tree.numNodes_pos p.1
    simp only [List.length_nil, Forest.numNodes, List.map_cons, List.sum_cons] at this
    omega
  rcases featureCheck_iff (m := m) (nf := nf) hfne with ⟨hc, _⟩ | ⟨hc, f, hf, hle⟩
  · right
    refine ⟨?_, features_lt_of_check h hc⟩
    cases detailed with
    | false =>
      refine ⟨_, by simp only [scoreFresh, hc, rawScore, Bool.false_eq_true, ↓reduceIte, C29_score ops h hX hc, bind,
        Except.bind]; rfl⟩
    | true =>
      obtain ⟨leaves, hd, _⟩ := C30_detailed ops h hX hc
      exact ⟨_, by simp only [scoreFresh, hc, rawScore, ↓reduceIte, hd, bind, Except.bind]; rfl⟩
  · left
    refine ⟨by simp only [scoreFresh, hc, bind, Except.bind], ?_⟩
    obtain ⟨j, hj⟩ := List.mem_iff_getElem?.1 hf
    have hjlt : j < m.nNodes := by rw [← h.feature_len]; exact (List.getElem?_eq_some_iff.1 hj).1
    obtain ⟨k, t, w, hk, _, _, hcase⟩ := h.node_cases hjlt
    rcases hcase with ⟨_, _, h3⟩ | ⟨_, _, g, _, _, h3, h4⟩
    · rw [h3] at hj; cases hj; omega
    · rw [h3] at hj; cases hj
      exact ⟨(t, w), List.mem_of_getElem? hk, g, h4, by omega⟩

/-- C31: a model with a split on a missing feature is always rejected. -/
theorem C31_missing_feature_rejected (h : Represents m fo) (hX : ∀ row ∈ X, row.length = nf) (lr : F) (bs : Option F)
    (detailed : Bool) (hmiss : ∃ p ∈ fo, ∃ f ∈ p.1.features, nf ≤ f) :
    scoreFresh ops m lr bs detailed X nf = .error .runtimeError := by
  obtain ⟨p, hp, f, hf, hle⟩ := hmiss
  rcases C31_memory_safe ops h (List.ne_nil_of_mem hp) hX lr bs detailed with ⟨h1, _⟩ | ⟨_, h2⟩
  · exact h1
  · have := h2 p hp f hf; omega

/-- Both cases of C31 occur. -/
example : scoreFresh (exactOps ℚ) ens0 1 none false [[0]] 1 = .error .runtimeError ∧
    scoreFresh (exactOps ℚ) ens0 1 none false [[0, 9]] 2 = .ok ⟨[9], none, none⟩ := by
  decide +kernel

end scoring

/-! ### C34 -/

section C34
variable {K : Type} [Field K] [LinearOrder K] {m : Ensemble K} {fo : Forest K} {X : List (List K)} {nf : Nat}

/-- base score as a number: absent means 0. -/
def baseOf (bs : Option K) : K := bs.getD 0

omit [LinearOrder K] in
theorem sum_addFirst [LinearOrder K] (b : K) : ∀ l : List K, l ≠ [] → (addFirst (exactOps K) b l).sum = l.sum + b
  | [], h => (h rfl).elim
  | x :: xs, _ => by simp only [addFirst, List.sum_cons, exactOps]; ring

theorem adjust_yPred (lr : K) (bs : Option K) (s : Scored K) :
    (adjust (exactOps K) lr bs s).yPred = s.yPred.map (fun v => baseOf bs + lr * v) := by
  unfold adjust
  by_cases h1 : lr = 1
  · simp only [exactOps, h1, decide_true, ↓reduceIte, one_mul]
    cases bs with
    | none => simp [baseOf]
    | some b =>
      by_cases hb : b = 0
      · simp [baseOf, hb]
      · simp only [hb, decide_false, Bool.false_eq_true, ↓reduceIte, baseOf, Option.getD_some]
        exact List.map_congr_left (fun v _ => add_comm _ _)
  · simp only [exactOps, h1, decide_false, Bool.false_eq_true, ↓reduceIte]
    cases bs with
    | none => simp only [baseOf, Option.getD_none, zero_add]; exact List.map_congr_left (fun v _ => mul_comm _ _)
    | some b =>
      by_cases hb : b = 0
      · simp only [hb, decide_true, ↓reduceIte, baseOf, Option.getD_some, zero_add]
        exact List.map_congr_left (fun v _ => mul_comm _ _)
      · simp only [hb, decide_false, Bool.false_eq_true, ↓reduceIte, baseOf, Option.getD_some, List.map_map]
        exact List.map_congr_left (fun v _ => by simp only [Function.comp_apply]; ring)

theorem sum_map_mul_right' (l : List K) (c : K) : (l.map (fun v => v * c)).sum = l.sum * c := by
  induction l with
  | nil => simp
  | cons a l ih => simp [ih, add_mul]

theorem adjust_partial (lr : K) (bs : Option K) {y : List K} {part : List (List K)} {leaves : Option (List (List Int))}
    (hp : ∀ r ∈ part, r ≠ []) :
    ∃ part', (adjust (exactOps K) lr bs ⟨y, some part, leaves⟩).partialY = some part' ∧
      part'.map List.sum = part.map (fun r => baseOf bs + lr * r.sum) ∧
      part'.map List.tail = part.map (fun r => r.tail.map (fun v => lr * v)) ∧
      part'.map List.head? = part.map (fun r => r.head?.map (fun v => baseOf bs + lr * v)) := by
  have hsum : ∀ b : K, ∀ l : List K, l ≠ [] → (addFirst (exactOps K) b l).sum = l.sum + b := sum_addFirst
  unfold adjust
  by_cases h1 : lr = 1
  · simp only [exactOps, h1, decide_true, ↓reduceIte, one_mul]
    cases bs with
    | none => exact ⟨part, rfl, by simp [baseOf], by simp, by simp [baseOf]⟩
    | some b =>
      by_cases hb : b = 0
      · simp only [hb, decide_true, ↓reduceIte]
        exact ⟨part, rfl, by simp [baseOf], by simp, by simp [baseOf]⟩
      · simp only [hb, decide_false, Bool.false_eq_true, ↓reduceIte, Option.map_some]
        refine ⟨_, rfl, ?_, ?_, ?_⟩
        · rw [List.map_map]
          exact List.map_congr_left (fun r hr => by
            have := hsum b r (hp r hr)
            simp only [exactOps] at this
            simp only [Function.comp_apply, this, baseOf, Option.getD_some]; ring)
        · rw [List.map_map]
          exact List.map_congr_left (fun r hr => by cases r <;> simp [addFirst])
        · rw [List.map_map]
          exact List.map_congr_left (fun r hr => by cases r <;> simp [addFirst, baseOf, add_comm])
  · simp only [exactOps, h1, decide_false, Bool.false_eq_true, ↓reduceIte, Option.map_some]
    cases bs with
    | none =>
      refine ⟨_, rfl, ?_, ?_, ?_⟩
      · rw [List.map_map]
        exact List.map_congr_left (fun r _ => by
          simp only [Function.comp_apply, sum_map_mul_right', baseOf, Option.getD_none]; ring)
      · rw [List.map_map]
        exact List.map_congr_left (fun r hr => by cases r <;> simp [mul_comm])
      · rw [List.map_map]
        exact List.map_congr_left (fun r hr => by cases r <;> simp [baseOf, mul_comm])
    | some b =>
      by_cases hb : b = 0
      · simp only [hb, decide_true, ↓reduceIte]
        refine ⟨_, rfl, ?_, ?_, ?_⟩
        · rw [List.map_map]
          exact List.map_congr_left (fun r _ => by
            simp only [Function.comp_apply, sum_map_mul_right', baseOf, Option.getD_some]; ring)
        · rw [List.map_map]
          exact List.map_congr_left (fun r hr => by cases r <;> simp [mul_comm])
        · rw [List.map_map]
          exact List.map_congr_left (fun r hr => by cases r <;> simp [baseOf, mul_comm])
      · simp only [hb, decide_false, Bool.false_eq_true, ↓reduceIte, Option.map_some]
        refine ⟨_, rfl, ?_, ?_, ?_⟩
        · rw [List.map_map, List.map_map]
          exact List.map_congr_left (fun r hr => by
            have := hsum b (r.map (fun v => v * lr)) (by simpa using hp r hr)
            simp only [exactOps] at this
            simp only [Function.comp_apply, this, sum_map_mul_right', baseOf, Option.getD_some]; ring)
        · rw [List.map_map, List.map_map]
          exact List.map_congr_left (fun r hr => by cases r <;> simp [addFirst, mul_comm])
        · rw [List.map_map, List.map_map]
          exact List.map_congr_left (fun r hr => by cases r <;> simp [addFirst, baseOf, mul_comm, add_comm])

/-- C34: with exact numbers, `score` returns `base_score + learning_rate * (sum of the tree contributions)` for each row, in both
modes (an absent base score counts 0). -/
theorem C34_score (h : Represents m fo) (hne : fo ≠ []) (hX : ∀ row ∈ X, row.length = nf)
    (hf : ∀ p ∈ fo, ∀ f ∈ p.1.features, f < nf) (lr : K) (bs : Option K) (detailed : Bool) :
    ∃ r, scoreFresh (exactOps K) m lr bs detailed X nf = .ok r ∧
      r.yPred = X.map (fun row => baseOf bs + lr *
        (fo.map (fun p => p.1.value (goesLeft (fun a b => decide (a ≤ b)) row) * p.2)).sum) := by
  have hc : featureCheck m nf = .ok () := by
    rcases C31_memory_safe (exactOps K) h hne hX lr bs false with ⟨_, p, hp, f, hf', hle⟩ | ⟨⟨r, hr⟩, _⟩
    · have := hf p hp f hf'; omega
    · unfold scoreFresh at hr
      cases hcc : featureCheck m nf with
      | error e => rw [hcc] at hr; cases hr
      | ok u => rfl
  obtain ⟨y, part, leaves, h1, h2, _⟩ := C30_same_prediction h hX hc
  have hy : y = X.map (fun row => (fo.map (fun p =>
      p.1.value (goesLeft (fun a b => decide (a ≤ b)) row) * p.2)).sum) := by
    have := C29_score_exact h hX hc
    simp only [rawScore, Bool.false_eq_true, ↓reduceIte, this, bind, Except.bind, pure, Except.pure, Except.ok.injEq,
      Scored.mk.injEq, and_true] at h1
    exact h1.symm
  cases detailed with
  | false =>
    refine ⟨_, by simp only [scoreFresh, hc, h1, bind, Except.bind]; rfl, ?_⟩
    rw [adjust_yPred, hy, List.map_map]
    rfl
  | true =>
    refine ⟨_, by simp only [scoreFresh, hc, h2, bind, Except.bind]; rfl, ?_⟩
    rw [adjust_yPred, hy, List.map_map]
    rfl

/-- C34: in detailed mode the partial scores of each row sum to the returned score; each is `learning_rate` times the contribution
of the tree, with the base score added to that of the first tree. -/
theorem C34_partial_scores (h : Represents m fo) (hne : fo ≠ []) (hX : ∀ row ∈ X, row.length = nf)
    (hf : ∀ p ∈ fo, ∀ f ∈ p.1.features, f < nf) (lr : K) (bs : Option K) :
    ∃ r part, scoreFresh (exactOps K) m lr bs true X nf = .ok r ∧ r.partialY = some part ∧ part.map List.sum = r.yPred ∧
      part.map List.tail = X.map (fun row => (Forest.contributions (· * ·)
        (goesLeft (fun a b => decide (a ≤ b)) row) fo).tail.map (fun v => lr * v)) ∧
      part.map List.head? = X.map (fun row => (Forest.contributions (· * ·)
        (goesLeft (fun a b => decide (a ≤ b)) row) fo).head?.map (fun v => baseOf bs + lr * v)) := by
  have hc : featureCheck m nf = .ok () := by
    rcases C31_memory_safe (exactOps K) h hne hX lr bs false with ⟨_, p, hp, f, hf', hle⟩ | ⟨⟨r, hr⟩, _⟩
    · have := hf p hp f hf'; omega
    · unfold scoreFresh at hr
      cases hcc : featureCheck m nf with
      | error e => rw [hcc] at hr; cases hr
      | ok u => rfl
  obtain ⟨leaves, hd, _⟩ := C30_detailed (exactOps K) h hX hc
  have hp : ∀ r ∈ X.map (fun row => Forest.contributions (exactOps K).mul (goesLeft (exactOps K).le row) fo), r ≠ [] := by
    intro r hr
    obtain ⟨row, _, rfl⟩ := List.mem_map.1 hr
    simpa [Forest.contributions] using hne
  have hraw : rawScore (exactOps K) m true X = .ok ⟨(X.map (fun row => Forest.contributions (exactOps K).mul
      (goesLeft (exactOps K).le row) fo)).map List.sum, some (X.map (fun row => Forest.contributions (exactOps K).mul
      (goesLeft (exactOps K).le row) fo)), some leaves⟩ := by
    simp only [rawScore, ↓reduceIte, hd, bind, Except.bind, pure, Except.pure]
    rfl
  obtain ⟨part', h1, h2, h3, h4⟩ := adjust_partial lr bs (y := (X.map (fun row => Forest.contributions (exactOps K).mul
      (goesLeft (exactOps K).le row) fo)).map List.sum) (leaves := some leaves) hp
  refine ⟨_, part', by simp only [scoreFresh, hc, hraw, bind, Except.bind]; rfl, h1, ?_, ?_, ?_⟩
  · rw [h2, adjust_yPred]
    simp only [List.map_map]
    rfl
  · rw [h3, List.map_map]; rfl
  · rw [h4, List.map_map]; rfl

/-- An instance with learning rate 1/2 and base score 3. -/
example : scoreFresh (exactOps ℚ) ens0 (1 / 2) (some 3) true [[1, 4]] 2 =
    .ok ⟨[23 / 2], some [[8, 7 / 2]], some [[4, 5]]⟩ := by decide +kernel

end C34

/-! ### C35 -/

section C35
variable {F : Type} {m : Ensemble F} {fo : Forest F}

/-- C35: pruning to `n` trees succeeds and gives a well-formed ensemble of the first `n` trees with their weights (all trees if
there are at most `n`). Scores of the pruned model are then given by C29 and C34 for `fo.take n`. -/
theorem C35_prune (h : Represents m fo) (n : Nat) :
    ∃ m', prune m n = .ok m' ∧ Represents m' (fo.take n) := prune_represents h n

/-- C35: nothing changes if `n` is at least the number of trees. -/
theorem C35_prune_all (h : Represents m fo) {n : Nat} (hn : fo.length ≤ n) : prune m n = .ok m := by
  unfold prune
  rw [if_pos (by rw [h.nTrees]; exact hn)]
  rfl

/-- C35: the score of the pruned model, with exact numbers. The feature check is that of the original model or weaker. -/
theorem C35_prune_score {K : Type} [Field K] [LinearOrder K] {m : Ensemble K} {fo : Forest K} {X : List (List K)} {nf : Nat}
    (h : Represents m fo) {n : Nat} (hn : 0 < n) (hne : fo ≠ []) (hX : ∀ row ∈ X, row.length = nf)
    (hf : ∀ p ∈ fo, ∀ f ∈ p.1.features, f < nf) (lr : K) (bs : Option K) (detailed : Bool) :
    ∃ m' r, prune m n = .ok m' ∧ scoreFresh (exactOps K) m' lr bs detailed X nf = .ok r ∧
      r.yPred = X.map (fun row => baseOf bs + lr *
        ((fo.take n).map (fun p => p.1.value (goesLeft (fun a b => decide (a ≤ b)) row) * p.2)).sum) := by
  obtain ⟨m', h1, h2⟩ := C35_prune h n
  have hne' : fo.take n ≠ [] := by
    obtain ⟨p, fo', rfl⟩ := List.exists_cons_of_ne_nil hne
    obtain ⟨k, rfl⟩ := Nat.exists_eq_succ_of_ne_zero hn.ne'
    simp
  obtain ⟨r, h3, h4⟩ := C34_score h2 hne' hX (fun p hp => hf p (List.mem_of_mem_take hp)) lr bs detailed
  exact ⟨m', r, h1, h3, h4⟩

example : ∃ m', prune ens0 1 = .ok m' ∧ Represents m' [forest0[0]] ∧ m'.nNodes = 5 := by
  obtain ⟨m', h1, h2⟩ := C35_prune ens0_represents 1
  exact ⟨m', h1, h2, h2.nNodes⟩

end C35

/-! ### C36 -/

section C36
variable {F : Type} {m : Ensemble F} {fo : Forest F}

theorem mapM_trees {β : Type} (h : Represents m fo) (f : Nat → Except PyErr β) (g : Spec.Tree F → β)
    (hfg : ∀ (k : Nat) t w, fo[k]? = some (t, w) → f k = .ok (g t)) :
    (List.range m.nTrees).mapM f = .ok (fo.map (fun p => g p.1)) := by
  have := mapM_range (f := f) (fo.map (fun p => g p.1)) (by
    intro j b hb
    rw [List.getElem?_map] at hb
    cases hj : fo[j]? with
    | none => rw [hj] at hb; cases hb
    | some p =>
      rw [hj] at hb
      cases hb
      exact hfg j p.1 p.2 hj)
  rwa [List.length_map, ← h.nTrees] at this

/-- C36: `num_leaves` gives the number of leaves of each tree. -/
theorem C36_num_leaves (h : Represents m fo) : numLeaves m = .ok (fo.map (fun p => p.1.numLeaves)) := by
  apply mapM_trees h _ (fun t => t.numLeaves)
  intro k t w hk
  obtain ⟨s, hs, hp⟩ := h.trees k t w hk
  simp only [pyGet_ok (h.root_get hk), nextRoot_eq h hk, bind, Except.bind, pure, Except.pure, Int.toNat_natCast,
    Except.ok.injEq]
  rw [slice_countP _ t.numNodes (treeStart fo k) m.left (by rw [h.left_len]; exact h.numNodes_le hk),
    ← hs.count_leaves, hp.countP_eq]
  apply List.countP_congr
  intro j _
  cases m.left[j]? <;> simp

/-- C36: `num_nodes` gives the number of nodes of each tree, which is `2 * leaves - 1`. -/
theorem C36_num_nodes (h : Represents m fo) : numNodes m = .ok (fo.map (fun p => (p.1.numNodes : Int))) ∧
    ∀ p ∈ fo, p.1.numNodes = 2 * p.1.numLeaves - 1 := by
  refine ⟨?_, fun p _ => Tree.numNodes_eq _⟩
  apply mapM_trees h _ (fun t => (t.numNodes : Int))
  intro k t w hk
  simp only [pyGet_ok (h.root_get hk), nextRoot_eq h hk, bind, Except.bind, pure, Except.pure, Except.ok.injEq]
  omega

/-- C36: `height_trees` gives the height of each tree. -/
theorem C36_height (h : Represents m fo) : heightTrees m = .ok (fo.map (fun p => p.1.height)) := by
  apply mapM_trees h _ (fun t => t.height)
  intro k t w hk
  obtain ⟨s, hs, _⟩ := h.trees k t w hk
  have hfuel : t.height < m.left.length + 1 := by
    have := Tree.height_lt_numNodes t
    have := h.numNodes_le hk
    rw [h.left_len]; omega
  simp only [pyGet_ok (h.root_get hk), bind, Except.bind, heightNode_encodes hs _ _ hfuel, Nat.zero_add]

/-- C36: `max_leaves` is the largest number of leaves of a tree. -/
theorem C36_max_leaves (h : Represents m fo) (hne : fo ≠ []) :
    ∃ n, maxLeaves m = .ok n ∧ (∃ p ∈ fo, p.1.numLeaves = n) ∧ ∀ p ∈ fo, p.1.numLeaves ≤ n := by
  have key : ∀ (l : List Nat) (a : Nat), (l.foldl max a = a ∨ l.foldl max a ∈ l) ∧ a ≤ l.foldl max a ∧
      ∀ x ∈ l, x ≤ l.foldl max a := by
    intro l
    induction l with
    | nil => simp
    | cons b l ih =>
      intro a
      obtain ⟨h1, h2, h3⟩ := ih (max a b)
      rw [List.foldl_cons]
      refine ⟨?_, by omega, ?_⟩
      · rcases h1 with h1 | h1
        · rw [h1]; rcases max_choice a b with h | h <;> simp [h]
        · exact Or.inr (by simp [h1])
      · intro x hx
        rcases List.mem_cons.1 hx with rfl | hx
        · omega
        · exact h3 x hx
  obtain ⟨p, fo', rfl⟩ := List.exists_cons_of_ne_nil hne
  unfold maxLeaves
  simp only [C36_num_leaves h, bind, Except.bind, List.map_cons, pure, Except.pure]
  obtain ⟨h1, h2, h3⟩ := key (fo'.map (fun p => p.1.numLeaves)) p.1.numLeaves
  refine ⟨_, rfl, ?_, ?_⟩
  · rcases h1 with h1 | h1
    · exact ⟨p, by simp, h1.symm⟩
    · obtain ⟨q, hq, hq'⟩ := List.mem_map.1 h1
      exact ⟨q, by simp [hq], hq'⟩
  · intro q hq
    rcases List.mem_cons.1 hq with rfl | hq
    · exact h2
    · exact h3 _ (List.mem_map.2 ⟨q, hq, rfl⟩)

/-- C36: each node is in exactly the tree of its index range; `is_leaf_node` holds iff both children are absent, and a node that is
not a leaf has two children. -/
theorem C36_is_leaf (h : Represents m fo) {i : Nat} (hi : i < m.nNodes) :
    (isLeafNode m i = .ok true ∧ m.left[i]? = some (-1) ∧ m.right[i]? = some (-1)) ∨
    (isLeafNode m i = .ok false ∧ ∃ l r : Nat, m.left[i]? = some (l : Int) ∧ m.right[i]? = some (r : Int) ∧
      l < m.nNodes ∧ r < m.nNodes) := by
  obtain ⟨k, t, w, hk, h1, h2⟩ := h.node_in_tree hi
  obtain ⟨s, hs, hp⟩ := h.trees k t w hk
  have hm : i ∈ s := by
    rw [hp.mem_iff, List.mem_range'_1]
    exact ⟨h1, h2⟩
  rcases hs.node_cases i hm with ⟨h3, h4, _⟩ | ⟨l, r, f, h3, h4, _, _, h5, h6⟩
  · left
    exact ⟨by simp [isLeafNode, pyGet_ok h3, pyGet_ok h4, bind, Except.bind, pure, Except.pure], h3, h4⟩
  · right
    have hne : (l : Int) ≠ -1 := by omega
    refine ⟨by simp [isLeafNode, pyGet_ok h3, bind, Except.bind, pure, Except.pure, hne], l, r, h3, h4, ?_, ?_⟩
    · rw [← h.left_len]; exact hs.mem_lt l h5
    · rw [← h.left_len]; exact hs.mem_lt r h6

/-- C36 on the concrete ensemble. -/
example : numLeaves ens0 = .ok [3, 1] ∧ numNodes ens0 = .ok [5, 1] ∧ heightTrees ens0 = .ok [2, 0] ∧
    maxLeaves ens0 = .ok 3 := by decide +kernel

end C36
end Verif.Props
