/-
Property C69: the scores of a model read from a file are those of the trees in the file.
-/
import Verif.Props.QuickRank
import Verif.Props.LoadArrays
import Verif.Props.LoadCoreml

namespace Verif.Props
open Spec Ensemble

/-- The prediction of trees with weights for a row: a test is true if the value of the feature is at most the threshold. -/
def predict {K : Type} [Field K] [LinearOrder K] (base rate : K) (fo : Forest K) (row : List K) : K :=
  base + rate * (fo.map (fun p => p.1.value (goesLeft (fun a b => decide (a ≤ b)) row) * p.2)).sum

section exact
variable {K : Type} [Field K] [LinearOrder K]

/-- From the arrays to the scores. -/
theorem scores_of_loaded {load : Except PyErr (Loaded K)} {m : Ensemble K} {fo : Forest K} {lr : K} {bs : Option K} {n : Nat}
    (hload : load = .ok ⟨m, lr, bs⟩) (h : Represents m (fo.take n)) (hn : 0 < n) (hne : fo ≠ []) {X : List (List K)} {nf : Nat}
    (hX : ∀ row ∈ X, row.length = nf) (hf : ∀ p ∈ fo, ∀ f ∈ p.1.features, f < nf) (detailed : Bool) :
    ∃ l r, load = .ok l ∧ scoreFresh (exactOps K) l.arrays l.learningRate l.baseScore detailed X nf = .ok r ∧
      r.yPred = X.map (predict (bs.getD 0) lr (fo.take n)) := by
  have hne' : fo.take n ≠ [] := by
    obtain ⟨p, fo', rfl⟩ := List.exists_cons_of_ne_nil hne
    obtain ⟨k, rfl⟩ := Nat.exists_eq_succ_of_ne_zero hn.ne'
    simp
  obtain ⟨r, h1, h2⟩ := C34_score h hne' hX (fun p hp => hf p (List.mem_of_mem_take hp)) lr bs detailed
  exact ⟨_, r, hload, h1, h2⟩

/-- Number of trees used: `n_trees`, if given. -/
theorem treesUsed_pos {α : Type} {l : List α} (hne : l ≠ []) {nTrees : Option Nat} (hn : nTrees ≠ some 0) : 0 < nTrees.elim l.length id := by
  cases nTrees with
  | none => exact List.length_pos_iff.2 hne
  | some n => exact Nat.pos_of_ne_zero (fun h => hn (congrArg some h))

/-- C69, QuickRank: the learning rate and the base score are those given to the constructor. -/
theorem C69_quickrank_partial (zero minusOne half : K) (fo : Forest K) (hne : fo ≠ []) (hf16 : ∀ p ∈ fo, ∀ f ∈ p.1.features, f < 2 ^ 15)
    (trees leaves : Nat) (shrinkage lr : K) (bs : Option K) {nTrees : Option Nat} (hn : nTrees ≠ some 0) {X : List (List K)} {nf : Nat}
    (hX : ∀ row ∈ X, row.length = nf) (hf : ∀ p ∈ fo, ∀ f ∈ p.1.features, f < nf) (detailed : Bool) :
    ∃ l r, rtEnsemble half .quickRank (quickrankLoad zero minusOne
        (.elem "ranker" [] none [infoXml trees leaves shrinkage, .elem "ensemble" [] none (forestXml 0 fo)])) lr bs nTrees = .ok l ∧
      scoreFresh (exactOps K) l.arrays l.learningRate l.baseScore detailed X nf = .ok r ∧
      r.yPred = X.map (predict (bs.getD 0) lr (fo.take (nTrees.elim fo.length id))) := by
  obtain ⟨m, h1, h2⟩ := C37_load zero minusOne half fo hf16 trees leaves shrinkage lr bs nTrees
  exact scores_of_loaded h1 h2 (treesUsed_pos hne hn) hne hX hf detailed

/-- C69, LightGBM. -/
theorem C69_lightgbm_partial (zero minusOne half : K) {lines : List (LgbLine K)} {as : List (ArrTree K)} {ts : List (Spec.Tree K)}
    (hlines : lines.filter lgbRelevant = lgbForest 0 as) (has : List.Forall₂ ArrTree.Is as ts) (hne : ts ≠ [])
    (hf16 : ∀ a ∈ as, ∀ f ∈ a.features, f < 2 ^ 15) (lr : K) (bs : Option K) {nTrees : Option Nat} (hn : nTrees ≠ some 0)
    {X : List (List K)} {nf : Nat} (hX : ∀ row ∈ X, row.length = nf) (hf : ∀ t ∈ ts, ∀ f ∈ t.features, f < nf) (detailed : Bool) :
    ∃ l r, rtEnsemble half .lightGBM (lightgbmLoad zero 1 minusOne lines) lr bs nTrees = .ok l ∧
      scoreFresh (exactOps K) l.arrays l.learningRate l.baseScore detailed X nf = .ok r ∧
      r.yPred = X.map (predict (bs.getD 0) lr ((ts.map (fun t => (t, 1))).take (nTrees.elim ts.length id))) := by
  obtain ⟨m, h1, h2⟩ := C41_load zero 1 minusOne half hlines has hf16 lr bs nTrees
  refine scores_of_loaded h1 h2 (treesUsed_pos hne hn) (by simpa using hne) hX ?_ detailed
  intro p hp f hfp
  obtain ⟨t, ht, rfl⟩ := List.mem_map.1 hp
  exact hf t ht f hfp

/-- C69, jforests. Missing: trees without a split cannot be loaded (C42). -/
theorem C69_jforests_partial (zero minusOne half : K) {events : List (JfEvent K)} {as : List (ArrTree K × K)} {fo : Forest K}
    (hevents : events.filter jfRelevant = jfForest as) (has : List.Forall₂ (fun a p => a.1.Is p.1 ∧ a.2 = p.2) as fo) (hne : fo ≠ [])
    (hsplit : ∀ a ∈ as, a.1.features ≠ []) (hf16 : ∀ a ∈ as, ∀ f ∈ a.1.features, f < 2 ^ 15) (lr : K) (bs : Option K)
    {nTrees : Option Nat} (hn : nTrees ≠ some 0) {X : List (List K)} {nf : Nat} (hX : ∀ row ∈ X, row.length = nf)
    (hf : ∀ p ∈ fo, ∀ f ∈ p.1.features, f < nf) (detailed : Bool) :
    ∃ l r, rtEnsemble half .jforests (jforestsLoad zero minusOne events) lr bs nTrees = .ok l ∧
      scoreFresh (exactOps K) l.arrays l.learningRate l.baseScore detailed X nf = .ok r ∧
      r.yPred = X.map (predict (bs.getD 0) lr (fo.take (nTrees.elim fo.length id))) := by
  obtain ⟨m, h1, h2⟩ := C42_load_partial zero minusOne half hevents has hsplit hf16 lr bs nTrees
  exact scores_of_loaded h1 h2 (treesUsed_pos hne hn) hne hX hf detailed

/-- C69, scikit-learn: the learning rate and the base score are those of the file. -/
theorem C69_scikit_partial (zero minusOne half : K) {lines : List (DumpLine K)} {ts : List (LTree K)} {b l : K}
    (hlines : lines.filter relevant = .baseScore b :: .learningRate l :: forestDump 0 ts)
    (hids : ∀ t ∈ ts, t.ids.Perm (List.range t.ids.length) ∧ t.ids.head? = some 0) (hne : ts ≠ [])
    (hf16 : ∀ t ∈ ts, ∀ f ∈ (t.toTree id).features, f < 2 ^ 15) (lr : K) (bs : Option K) {nTrees : Option Nat} (hn : nTrees ≠ some 0)
    {X : List (List K)} {nf : Nat} (hX : ∀ row ∈ X, row.length = nf) (hf : ∀ t ∈ ts, ∀ f ∈ (t.toTree id).features, f < nf) (detailed : Bool) :
    ∃ a r, rtEnsemble half .scikitLearn (scikitLoad zero 1 minusOne lines) lr bs nTrees = .ok a ∧
      scoreFresh (exactOps K) a.arrays a.learningRate a.baseScore detailed X nf = .ok r ∧
      r.yPred = X.map (predict b l ((ts.map (fun t => (t.toTree id, 1))).take (nTrees.elim ts.length id))) := by
  obtain ⟨m, h1, h2⟩ := C40_load zero 1 minusOne half hlines hids hf16 lr bs nTrees
  refine scores_of_loaded h1 h2 (treesUsed_pos hne hn) (by simpa using hne) hX ?_ detailed
  intro p hp f hfp
  obtain ⟨t, ht, rfl⟩ := List.mem_map.1 hp
  exact hf t ht f hfp

/-- C69, CatBoost: trees are given by their documented meaning (`CTree.value`, with tests of both kinds). Missing: the nodes of a tree
must be numbered with the root last, and all trees must have the same number of nodes (C43). -/
theorem C69_catboost_partial (zero minusOne half : K) (empty : Nat → List Nat) {nodes : List (CoreNode K)} {ts : List (CTree K)} {n : Nat}
    (hne : ts ≠ []) (hn16 : n < 2 ^ 16) (hempty : ∀ K, (empty K).length = K) (hnodes : nodes.Perm (coreNodes 0 ts))
    (hids : ∀ t ∈ ts, t.ids.Perm (List.range n)) (hroot : ∀ t ∈ ts, t.id = n - 1)
    (hlast : ∀ k < ts.length, LastListed nodes k (n - 1)) (hf16 : ∀ t ∈ ts, ∀ f ∈ t.toTree.features, f < 2 ^ 15)
    (lr : K) (bs : Option K) {nTrees : Option Nat} (hn : nTrees ≠ some 0) {X : List (List K)} {nf : Nat}
    (hX : ∀ row ∈ X, row.length = nf) (hf : ∀ t ∈ ts, ∀ f ∈ t.toTree.features, f < nf) (detailed : Bool) :
    ∃ l r, rtEnsemble half .catBoost (catboostLoad zero 1 minusOne empty nodes) lr bs nTrees = .ok l ∧
      scoreFresh (exactOps K) l.arrays l.learningRate l.baseScore detailed X nf = .ok r ∧
      r.yPred = X.map (fun row => bs.getD 0 + lr *
        ((ts.take (nTrees.elim ts.length id)).map (fun t => t.value (fun f => row[f]?.getD 0))).sum) := by
  obtain ⟨m, h1, h2⟩ := C43_load_partial zero 1 minusOne half empty hne hn16 hempty hnodes hids hroot hlast hf16 lr bs nTrees
  obtain ⟨l, r, h3, h4, h5⟩ := scores_of_loaded h1 h2 (treesUsed_pos hne hn) (by simpa using hne) hX
    (by
      intro p hp f hfp
      obtain ⟨t, ht, rfl⟩ := List.mem_map.1 hp
      exact hf t ht f hfp) detailed
  refine ⟨l, r, h3, h4, ?_⟩
  rw [h5]
  apply List.map_congr_left
  intro row hrow
  unfold predict
  rw [← List.map_take, List.map_map]
  congr 3
  apply List.map_congr_left
  intro t ht
  have hmem := List.mem_of_mem_take ht
  simp only [Function.comp_apply, mul_one]
  apply C43_value
  intro f hft
  have hlt : f < row.length := by rw [hX row hrow]; exact hf t hmem f hft
  rw [List.getElem?_eq_getElem hlt]
  rfl

end exact

section strict
variable {F : Type}

/-- C69, XGBoost, whose tests are strict: for arbitrary float operations for which the conversion of thresholds is right (C39), scores
are computed from the values reached by the strict tests. -/
theorem C69_xgboost_partial (ops : FloatOps F) (zero one minusOne half : F) (lt : F → F → Bool) (strictToLe : F → F)
    (hconv : ∀ x t, ops.le x (strictToLe t) = lt x t) {lines : List (DumpLine F)} {ts : List (LTree F)}
    (hlines : lines.filter relevant = forestDump 0 ts) (hne : ts ≠ [])
    (hf16 : ∀ t ∈ ts, ∀ f ∈ (t.toTree strictToLe).features, f < 2 ^ 15) (bs : Option F) {nTrees : Option Nat} (hn : nTrees ≠ some 0)
    {X : List (List F)} {nf : Nat} (hX : ∀ row ∈ X, row.length = nf) (hf : ∀ t ∈ ts, ∀ f ∈ (t.toTree strictToLe).features, f < nf)
    {lr : F} (h1 : ops.isOne lr = true) (h0 : ops.isZero (bs.elim half id) = false) :
    ∃ l r, rtEnsemble half .xgboost (xgboostLoad zero one minusOne strictToLe lines) lr bs nTrees = .ok l ∧
      scoreFresh ops l.arrays l.learningRate l.baseScore false X nf = .ok r ∧
      r.yPred = X.map (fun row => ops.add
        (((ts.take (nTrees.elim ts.length id)).map (fun t => ops.mul (t.value (goesLeft lt row)) one)).foldl ops.add ops.zero)
        (bs.elim half id)) := by
  obtain ⟨m, e1, e2⟩ := C38_load zero one minusOne half strictToLe hlines hf16 lr bs nTrees
  have hpos := treesUsed_pos hne hn
  have hne' : (ts.map (fun t => (t.toTree strictToLe, one))).take (nTrees.elim ts.length id) ≠ [] := by
    obtain ⟨k, hk⟩ := Nat.exists_eq_succ_of_ne_zero hpos.ne'
    obtain ⟨p, fo', rfl⟩ := List.exists_cons_of_ne_nil hne
    rw [hk]
    simp
  have hc : featureCheck m nf = .ok () := by
    rcases C31_memory_safe ops e2 hne' hX lr none false with ⟨-, p, hp, f, hf', hle⟩ | ⟨⟨r, hr⟩, -⟩
    · obtain ⟨t, ht, rfl⟩ := List.mem_map.1 (List.mem_of_mem_take hp)
      have := hf t ht f hf'
      omega
    · unfold scoreFresh at hr
      cases hcc : featureCheck m nf with
      | error e => rw [hcc] at hr; cases hr
      | ok u => rfl
  have hb := C29_score ops e2 hX hc
  refine ⟨_, adjust ops lr (some (bs.elim half id)) ⟨X.map (fun row => (Forest.contributions ops.mul (goesLeft ops.le row)
    ((ts.map (fun t => (t.toTree strictToLe, one))).take (nTrees.elim ts.length id))).foldl ops.add ops.zero), none, none⟩, e1, ?_, ?_⟩
  · unfold scoreFresh rawScore
    rw [hc]
    simp only [Bool.false_eq_true, if_false, hb]
    rfl
  · simp only [adjust, h1, h0, if_true, Bool.false_eq_true, if_false, List.map_map]
    apply List.map_congr_left
    intro row _
    simp only [Function.comp_apply]
    congr 2
    unfold Forest.contributions
    rw [← List.map_take, List.map_map]
    apply List.map_congr_left
    intro t _
    simp only [Function.comp_apply, C38_value lt ops.le strictToLe hconv]

end strict

/-! ### Features from 2^15 on -/

/-- A model with one test of feature `f` in a QuickRank file. -/
def bigFeatureDoc (f : Nat) : Xml ℚ :=
  .elem "ranker" [] none [infoXml 1 2 1, .elem "ensemble" [] none (forestXml 0 [(.node f (1 / 2) (.leaf 10) (.leaf 20), 1)])]

/-- C69 is violated: feature 40000 becomes -25536; the check of the features accepts the model for every dataset and the kernel
reads outside of the matrix. -/
theorem C69_violated_bounds : ∃ l, rtEnsemble (1 / 2) .quickRank (quickrankLoad 0 (-1) (bigFeatureDoc 40000)) 1 none none = .ok l ∧
    l.arrays.feature = [-25536, -1, -1] ∧
    ∀ (nf : Nat) (row : List ℚ) (X : List (List ℚ)) (detailed : Bool), (∀ r ∈ row :: X, r.length = nf) →
      scoreFresh (exactOps ℚ) l.arrays l.learningRate l.baseScore detailed (row :: X) nf = .error .undefinedBehaviour := by
  refine ⟨⟨⟨1, 3, [0], [1], [1, -1, -1], [2, -1, -1], [1 / 2, 10, 20], [-25536, -1, -1]⟩, 1, none⟩, by decide +kernel, rfl, ?_⟩
  intro nf row X detailed _
  have hc : featureCheck (⟨1, 3, [0], [1], [1, -1, -1], [2, -1, -1], [1 / 2, 10, 20], [-25536, -1, -1]⟩ : Ensemble ℚ) nf = .ok () := by
    have h1 : ([-1, -1] : List Int).foldl max (-25536) = -1 := by decide
    unfold featureCheck
    show (if ([-1, -1] : List Int).foldl max (-25536) + 1 > (nf : Int) then _ else _) = _
    rw [if_neg (by rw [h1]; omega)]
    rfl
  unfold scoreFresh rawScore
  rw [hc]
  cases detailed <;> rfl

/-- C69 is violated: feature 65537 becomes feature 1, and a dataset with two features, which should be refused, is scored with it. -/
theorem C69_violated_feature : ∃ l, rtEnsemble (1 / 2) .quickRank (quickrankLoad 0 (-1) (bigFeatureDoc 65537)) 1 none none = .ok l ∧
    scoreFresh (exactOps ℚ) l.arrays l.learningRate l.baseScore false [[0, 0], [0, 1]] 2 = .ok ⟨[10, 20], none, none⟩ := by
  refine ⟨⟨⟨1, 3, [0], [1], [1, -1, -1], [2, -1, -1], [1 / 2, 10, 20], [1, -1, -1]⟩, 1, none⟩, by decide +kernel, by decide +kernel⟩

/-- C69: a document that meets the hypotheses, with two trees, a learning rate and a base score. -/
example : ((rtEnsemble (1 / 2) .quickRank (quickrankLoad 0 (-1)
      (.elem "ranker" [] none [infoXml 2 3 1, .elem "ensemble" [] none (forestXml 0 forest0)])) 2 (some 3) none).bind
    (fun l => scoreFresh (exactOps ℚ) l.arrays l.learningRate l.baseScore false [[0, 9], [1, 4]] 2)) = .ok ⟨[21, 37], none, none⟩ ∧
    [[0, 9], [1, 4]].map (predict (3 : ℚ) 2 forest0) = [21, 37] := by
  decide +kernel

/-- C69: a LightGBM file with two trees, limited to one, meets the hypotheses of `C69_lightgbm_partial`. -/
example : ∃ l r, rtEnsemble (1 / 2 : ℚ) .lightGBM (lightgbmLoad 0 1 (-1) (.other :: lgbForest 0 [arr0, arr1])) 2 (some 3) (some 1) = .ok l ∧
    scoreFresh (exactOps ℚ) l.arrays l.learningRate l.baseScore true [List.replicate 134 0, List.replicate 134 (1 / 2)] 134 = .ok r ∧
    r.yPred = [-7, 37] := by
  obtain ⟨l, r, h1, h2, h3⟩ := C69_lightgbm_partial (0 : ℚ) (-1) (1 / 2) (lines := .other :: lgbForest 0 [arr0, arr1]) (by decide +kernel)
    (.cons arr0_is (.cons arr1_is .nil)) (by simp) (by decide) 2 (some 3) (nTrees := some 1) (by simp)
    (X := [List.replicate 134 0, List.replicate 134 (1 / 2)]) (nf := 134) (by simp) (by decide +kernel) true
  exact ⟨l, r, h1, h2, h3.trans (by decide +kernel)⟩

/-- C69: a jforests file with a weighted tree meets the hypotheses of `C69_jforests_partial`. -/
example : ∃ l r, rtEnsemble (1 / 2 : ℚ) .jforests (jforestsLoad 0 (-1) (.other :: jfForest [(arr0, 2)])) 1 none none = .ok l ∧
    scoreFresh (exactOps ℚ) l.arrays l.learningRate l.baseScore false [List.replicate 134 0, List.replicate 134 2] 134 = .ok r ∧ r.yPred = [-10, 68] := by
  obtain ⟨l, r, h1, h2, h3⟩ := C69_jforests_partial (0 : ℚ) (-1) (1 / 2) (events := .other :: jfForest [(arr0, 2)]) (as := [(arr0, 2)])
    (fo := [(.node 133 1 (.node 48 (1 / 4) (.leaf (-5)) (.leaf 17)) (.leaf 34), 2)]) (by decide +kernel)
    (.cons ⟨arr0_is, rfl⟩ .nil) (by simp) (by decide) (by decide) 1 none (nTrees := none) (by simp)
    (X := [List.replicate 134 0, List.replicate 134 2]) (nf := 134) (by simp) (by decide +kernel) false
  exact ⟨l, r, h1, h2, h3.trans (by decide +kernel)⟩

/-- The tree of C40. -/
def skTree0 : LTree ℚ := .node 0 2 (1 / 2) (.node 3 1 4 (.leaf 2 2) (.leaf 4 3)) (.leaf 1 1)

/-- C69: a scikit-learn file meets the hypotheses of `C69_scikit_partial`; the learning rate 1 given to the constructor is not used. -/
example : ∃ a r, rtEnsemble (1 / 2 : ℚ) .scikitLearn (scikitLoad 0 1 (-1) (.baseScore 3 :: .other :: .learningRate (1 / 10) :: forestDump 0 [skTree0])) 1 none
      none = .ok a ∧
    scoreFresh (exactOps ℚ) a.arrays a.learningRate a.baseScore false [[0, 4, 0], [0, 5, 0], [0, 0, 1]] 3 = .ok r ∧ r.yPred = [16 / 5, 33 / 10, 31 / 10] := by
  obtain ⟨a, r, h1, h2, h3⟩ := C69_scikit_partial (0 : ℚ) (-1) (1 / 2) (lines := .baseScore 3 :: .other :: .learningRate (1 / 10) :: forestDump 0 [skTree0])
    (ts := [skTree0]) (b := 3) (l := 1 / 10) (by decide +kernel) (by decide +kernel) (by simp) (by decide +kernel) 1 none (nTrees := none) (by simp)
    (X := [[0, 4, 0], [0, 5, 0], [0, 0, 1]]) (nf := 3) (by simp) (by decide +kernel) false
  exact ⟨a, r, h1, h2, h3.trans (by decide +kernel)⟩

/-- C69: a CatBoost file with tests of both kinds meets the hypotheses of `C69_catboost_partial`. -/
example : ∃ l r, rtEnsemble (1 / 2 : ℚ) .catBoost (catboostLoad 0 1 (-1) (fun K => List.replicate K 99) cnodes0) 2 (some 5) none = .ok l ∧
    scoreFresh (exactOps ℚ) l.arrays l.learningRate l.baseScore false [[0, 0, 0, 7, 0], [0, 0, 0, 8, 1]] 5 = .ok r ∧ r.yPred = [105, 105] := by
  obtain ⟨l, r, h1, h2, h3⟩ := C69_catboost_partial (0 : ℚ) (-1) (1 / 2) (fun K => List.replicate K 99) (nodes := cnodes0) (ts := ctrees0) (n := 3)
    (by simp [ctrees0]) (by norm_num) (by simp) (by decide +kernel) (by decide +kernel) (by decide +kernel) cnodes0_last (by decide +kernel) 2 (some 5)
    (nTrees := none) (by simp) (X := [[0, 0, 0, 7, 0], [0, 0, 0, 8, 1]]) (nf := 5) (by simp) (by decide +kernel) false
  exact ⟨l, r, h1, h2, h3.trans (by decide +kernel)⟩

/-- C69: an XGBoost dump of two trees meets the hypotheses of `C69_xgboost_partial`: a value equal to the threshold goes right. -/
example : ∃ l r, rtEnsemble (5 : Int) .xgboost (xgboostLoad 0 1 (-1) (fun t => t - 1) (.tree 0 :: .node 0 0 3 :: .other :: .leaf 7 10 :: .leaf 5 20 ::
      [.tree 1, .leaf 0 9])) 1 none none = .ok l ∧
    scoreFresh intOps l.arrays l.learningRate l.baseScore false [[2], [3]] 1 = .ok r ∧ r.yPred = [24, 34] := by
  obtain ⟨l, r, h1, h2, h3⟩ := C69_xgboost_partial intOps 0 1 (-1) 5 (fun a b => decide (a < b)) (fun t => t - 1)
    (by intro x t; exact decide_eq_decide.2 ⟨fun h => by omega, fun h => by omega⟩)
    (lines := .tree 0 :: .node 0 0 3 :: .other :: .leaf 7 10 :: .leaf 5 20 :: [.tree 1, .leaf 0 9])
    (ts := [.node 0 0 3 (.leaf 7 10) (.leaf 5 20), .leaf 0 9]) (by decide +kernel) (by simp) (by decide +kernel) none (nTrees := none) (by simp)
    (X := [[2], [3]]) (nf := 1) (by simp) (by decide +kernel) (lr := 1) rfl rfl
  exact ⟨l, r, h1, h2, h3.trans (by decide +kernel)⟩

end Verif.Props
