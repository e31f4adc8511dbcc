/-
Property C70: the topological analysis of a model read from a file.
-/
import Verif.Lemmas.ParentFirst
import Verif.Props.QuickRank
import Verif.Props.LoadArrays
import Verif.Props.LoadCoreml
import Verif.Props.Topology

namespace Verif.Props
open Spec Ensemble
variable {F : Type}

/-- The analysis of a model describes the trees: heights, and for each level and position the number of trees with a node there. -/
def Analysed (load : Except PyErr (Loaded F)) (fo : Forest F) : Prop :=
  ∃ l, load = .ok l ∧ ParentFirst l.arrays ∧ ∀ incl, ∃ top, topologicalAnalysis l.arrays incl = .ok (top, fo.map (fun p => p.1.height)) ∧
    ∀ row col, cell top row col = Forest.having incl fo row col

theorem analysed_of {load : Except PyErr (Loaded F)} {l : Loaded F} {fo : Forest F} {n : Nat} (hload : load = .ok l)
    (h : Represents l.arrays (fo.take n)) (hpf : ParentFirst l.arrays) (hn : 0 < n) (hne : fo ≠ []) (hh : ∀ p ∈ fo, p.1.height < 63) :
    Analysed load (fo.take n) := by
  have hne' : fo.take n ≠ [] := by
    obtain ⟨p, fo', rfl⟩ := List.exists_cons_of_ne_nil hne
    obtain ⟨k, rfl⟩ := Nat.exists_eq_succ_of_ne_zero hn.ne'
    simp
  refine ⟨l, hload, hpf, fun incl => ?_⟩
  obtain ⟨top, h1, h2⟩ := C44_topology_partial h hne' hpf (fun p hp => hh p (List.mem_of_mem_take hp)) incl
  exact ⟨top, h1, fun row col => C44_cell h2 row col⟩

theorem elim_pos {k : Nat} (hk : 0 < k) {nTrees : Option Nat} (hn : nTrees ≠ some 0) : 0 < nTrees.elim k id := by
  cases nTrees with
  | none => exact hk
  | some n => exact Nat.pos_of_ne_zero (fun h => hn (congrArg some h))

/-- C70, QuickRank. -/
theorem C70_quickrank (zero minusOne half : F) (fo : Forest F) (hne : fo ≠ []) (hf : ∀ p ∈ fo, ∀ f ∈ p.1.features, f < 2 ^ 15)
    (hh : ∀ p ∈ fo, p.1.height < 63) (trees leaves : Nat) (shrinkage lr : F) (bs : Option F) {nTrees : Option Nat} (hn : nTrees ≠ some 0) :
    Analysed (rtEnsemble half .quickRank (quickrankLoad zero minusOne
      (.elem "ranker" [] none [infoXml trees leaves shrinkage, .elem "ensemble" [] none (forestXml 0 fo)])) lr bs nTrees)
      (fo.take (nTrees.elim fo.length id)) := by
  obtain ⟨m, h1, h2⟩ := C37_load zero minusOne half fo hf trees leaves shrinkage lr bs nTrees
  exact analysed_of h1 h2 (parentFirst_rtEnsemble (fun _ _ _ h => quickrank_parentFirst h) h1) (elim_pos (List.length_pos_iff.2 hne) hn) hne hh

/-- C70, XGBoost. -/
theorem C70_xgboost (zero one minusOne half : F) (strictToLe : F → F) {lines : List (DumpLine F)} {ts : List (LTree F)}
    (hlines : lines.filter relevant = forestDump 0 ts) (hne : ts ≠ []) (hf : ∀ t ∈ ts, ∀ f ∈ (t.toTree strictToLe).features, f < 2 ^ 15)
    (hh : ∀ t ∈ ts, (t.toTree strictToLe).height < 63) (lr : F) (bs : Option F) {nTrees : Option Nat} (hn : nTrees ≠ some 0) :
    Analysed (rtEnsemble half .xgboost (xgboostLoad zero one minusOne strictToLe lines) lr bs nTrees)
      ((ts.map (fun t => (t.toTree strictToLe, one))).take (nTrees.elim ts.length id)) := by
  obtain ⟨m, h1, h2⟩ := C38_load zero one minusOne half strictToLe hlines hf lr bs nTrees
  refine analysed_of h1 h2 (parentFirst_rtEnsemble (fun _ _ _ h => xgboost_parentFirst h) h1) (elim_pos (List.length_pos_iff.2 hne) hn)
    (by simpa using hne) ?_
  intro p hp
  obtain ⟨t, ht, rfl⟩ := List.mem_map.1 hp
  exact hh t ht

/-- C70, scikit-learn, whose nodes are numbered from the root downwards. -/
theorem C70_scikit (zero one minusOne half : F) {lines : List (DumpLine F)} {ts : List (LTree F)} {b l : F}
    (hlines : lines.filter relevant = .baseScore b :: .learningRate l :: forestDump 0 ts)
    (hids : ∀ t ∈ ts, t.ids.Perm (List.range t.ids.length) ∧ t.ids.head? = some 0) (hg : ∀ t ∈ ts, t.IdsGrow) (hne : ts ≠ [])
    (hf : ∀ t ∈ ts, ∀ f ∈ (t.toTree id).features, f < 2 ^ 15) (hh : ∀ t ∈ ts, (t.toTree id).height < 63) (lr : F) (bs : Option F)
    {nTrees : Option Nat} (hn : nTrees ≠ some 0) :
    Analysed (rtEnsemble half .scikitLearn (scikitLoad zero one minusOne lines) lr bs nTrees)
      ((ts.map (fun t => (t.toTree id, one))).take (nTrees.elim ts.length id)) := by
  obtain ⟨m, h1, h2⟩ := C40_load zero one minusOne half hlines hids hf lr bs nTrees
  refine analysed_of h1 h2 (parentFirst_rtEnsemble (fun _ _ _ h => scikit_parentFirst hlines hg h) h1)
    (elim_pos (List.length_pos_iff.2 hne) hn) (by simpa using hne) ?_
  intro p hp
  obtain ⟨t, ht, rfl⟩ := List.mem_map.1 hp
  exact hh t ht

theorem splitsGrow_of {a : ArrTree F} {t : Spec.Tree F} (h : a.Is t) (hl : ∀ j c : Nat, a.left[j]? = some (c : Int) → j < c)
    (hr : ∀ j c : Nat, a.right[j]? = some (c : Int) → j < c) : a.SplitsGrow :=
  ⟨h.left_len.le, h.right_len.le, hl, hr⟩

/-- C70, LightGBM, whose splits are numbered from the root downwards. -/
theorem C70_lightgbm (zero one minusOne half : F) {lines : List (LgbLine F)} {as : List (ArrTree F)} {ts : List (Spec.Tree F)}
    (hlines : lines.filter lgbRelevant = lgbForest 0 as) (has : List.Forall₂ ArrTree.Is as ts) (hg : ∀ a ∈ as, a.SplitsGrow) (hne : ts ≠ [])
    (hf : ∀ a ∈ as, ∀ f ∈ a.features, f < 2 ^ 15) (hh : ∀ t ∈ ts, t.height < 63) (lr : F) (bs : Option F) {nTrees : Option Nat}
    (hn : nTrees ≠ some 0) :
    Analysed (rtEnsemble half .lightGBM (lightgbmLoad zero one minusOne lines) lr bs nTrees)
      ((ts.map (fun t => (t, one))).take (nTrees.elim ts.length id)) := by
  obtain ⟨m, h1, h2⟩ := C41_load zero one minusOne half hlines has hf lr bs nTrees
  refine analysed_of h1 h2 (parentFirst_rtEnsemble (fun _ _ _ h => lightgbm_parentFirst hlines hg h) h1)
    (elim_pos (List.length_pos_iff.2 hne) hn) (by simpa using hne) ?_
  intro p hp
  obtain ⟨t, ht, rfl⟩ := List.mem_map.1 hp
  exact hh t ht

/-- C70, jforests; trees without a split cannot be loaded (C42). -/
theorem C70_jforests (zero minusOne half : F) {events : List (JfEvent F)} {as : List (ArrTree F × F)} {fo : Forest F}
    (hevents : events.filter jfRelevant = jfForest as) (has : List.Forall₂ (fun a p => a.1.Is p.1 ∧ a.2 = p.2) as fo)
    (hg : ∀ a ∈ as, a.1.SplitsGrow) (hne : fo ≠ []) (hsplit : ∀ a ∈ as, a.1.features ≠ [])
    (hf : ∀ a ∈ as, ∀ f ∈ a.1.features, f < 2 ^ 15) (hh : ∀ p ∈ fo, p.1.height < 63) (lr : F) (bs : Option F) {nTrees : Option Nat}
    (hn : nTrees ≠ some 0) :
    Analysed (rtEnsemble half .jforests (jforestsLoad zero minusOne events) lr bs nTrees) (fo.take (nTrees.elim fo.length id)) := by
  obtain ⟨m, h1, h2⟩ := C42_load_partial zero minusOne half hevents has hsplit hf lr bs nTrees
  exact analysed_of h1 h2 (parentFirst_rtEnsemble (fun _ _ _ h => jforests_parentFirst hevents hg h) h1)
    (elim_pos (List.length_pos_iff.2 hne) hn) hne hh

/-- C70, CatBoost, whose nodes are numbered from the leaves upwards. -/
theorem C70_catboost (zero one minusOne half : F) (empty : Nat → List Nat) {nodes : List (CoreNode F)} {ts : List (CTree F)} {n : Nat}
    (hne : ts ≠ []) (hn16 : n < 2 ^ 16) (hempty : ∀ K, (empty K).length = K) (hnodes : nodes.Perm (coreNodes 0 ts))
    (hids : ∀ t ∈ ts, t.ids.Perm (List.range n)) (hroot : ∀ t ∈ ts, t.id = n - 1) (hg : ∀ t ∈ ts, t.IdsFall)
    (hlast : ∀ k < ts.length, LastListed nodes k (n - 1)) (hf : ∀ t ∈ ts, ∀ f ∈ t.toTree.features, f < 2 ^ 15)
    (hh : ∀ t ∈ ts, t.toTree.height < 63) (lr : F) (bs : Option F) {nTrees : Option Nat} (hn : nTrees ≠ some 0) :
    Analysed (rtEnsemble half .catBoost (catboostLoad zero one minusOne empty nodes) lr bs nTrees)
      ((ts.map (fun t => (t.toTree, one))).take (nTrees.elim ts.length id)) := by
  obtain ⟨m, h1, h2⟩ := C43_load_partial zero one minusOne half empty hne hn16 hempty hnodes hids hroot hlast hf lr bs nTrees
  have hKpos : 0 < ts.length := List.length_pos_iff.2 hne
  have hnpos : 0 < n := by
    obtain ⟨t, ts', rfl⟩ := List.exists_cons_of_ne_nil hne
    have h1 := CTree.id_mem t
    rw [(hids t (by simp)).mem_iff, List.mem_range] at h1
    omega
  have htree : ∀ x ∈ nodes, x.treeId < ts.length := by
    intro x hx
    obtain ⟨j, t, h1, h2⟩ := mem_coreNodes.1 (hnodes.mem_iff.1 hx)
    have h3 : (x.treeId, x.nodeId) ∈ (t.nodes (0 + j)).map (fun x => (x.treeId, x.nodeId)) :=
      List.mem_map_of_mem (f := fun x : CoreNode F => (x.treeId, x.nodeId)) (by simpa using h2)
    rw [nodes_map] at h3
    obtain ⟨i, hi, he⟩ := List.mem_map.1 h3
    have h4 := (List.getElem?_eq_some_iff.1 h1).1
    simp only [Nat.zero_add, Prod.mk.injEq] at he
    omega
  have hcount := coreCount_eq hnpos hn16 hempty hlast hKpos htree
  refine analysed_of h1 h2 (parentFirst_rtEnsemble (fun _ _ _ h => catboost_parentFirst hnodes hids hg hcount
    (Nat.mul_div_cancel_left _ hKpos) h) h1) (elim_pos hKpos hn) (by simpa using hne) ?_
  intro p hp
  obtain ⟨t, ht, rfl⟩ := List.mem_map.1 hp
  exact hh t ht

/-- Without the numbering from the root downwards the analysis of a scikit-learn dump is wrong: the root has id 0, its left child id 2
and the left child of that id 1. -/
theorem C70_numbering_needed : ∃ l,
    rtEnsemble (0 : Int) .scikitLearn (scikitLoad 0 1 (-1) [.baseScore 0, .learningRate 1, .tree 0, .node 0 5 7, .node 2 5 3, .node 1 4 1,
      .leaf 3 10, .leaf 4 20, .leaf 5 30, .leaf 6 40]) 1 none none = .ok l ∧
    (topologicalAnalysis l.arrays true).map (·.2) = .ok [2] ∧ heightTrees l.arrays = .ok [3] :=
  ⟨⟨⟨1, 7, [0], [1], [2, 3, 1, -1, -1, -1, -1], [6, 4, 5, -1, -1, -1, -1], [7, 1, 3, 10, 20, 30, 40], [5, 4, 5, -1, -1, -1, -1]⟩, 1, some 0⟩,
    by decide +kernel, by decide +kernel, by decide +kernel⟩

/-- C70: a QuickRank document. -/
example : ((rtEnsemble (0 : Int) .quickRank (quickrankLoad 0 (-1)
      (.elem "ranker" [] none [infoXml 2 3 1, .elem "ensemble" [] none (forestXml 0
        [(.node 0 1 (.leaf 1) (.node 1 3 (.leaf (-2)) (.leaf 5)), 2), (.leaf 7, 1)])])) 2 (some 3) none).bind
    (fun l => topologicalAnalysis l.arrays true)) =
    .ok ([⟨0, 0, 2⟩, ⟨1, 0, 1⟩, ⟨1, 1, 1⟩, ⟨2, 2, 1⟩, ⟨2, 3, 1⟩], [2, 0]) := by
  decide +kernel

/-- C70: trees that are numbered as required. -/
example : (LTree.node 0 5 (7 : Int) (.node 1 5 3 (.leaf 2 10) (.leaf 3 20)) (.leaf 4 40)).IdsGrow ∧
    (CTree.gt 4 5 (7 : Int) (.le 3 5 3 (.leaf 0 10) (.leaf 1 20)) (.leaf 2 40)).IdsFall ∧
    ArrTree.SplitsGrow ⟨[3, 4], [(1 : Int), 2], [1, -1], [-2, -3], [10, 20, 30]⟩ := by
  refine ⟨by simp [LTree.IdsGrow, LTree.id], by simp [CTree.IdsFall, CTree.id], by simp, by simp, ?_, ?_⟩
  · intro j c h
    match j with
    | 0 => simp at h <;> omega
    | 1 => simp at h <;> omega
    | j + 2 => simp at h
  · intro j c h
    match j with
    | 0 => simp at h <;> omega
    | 1 => simp at h <;> omega
    | j + 2 => simp at h

theorem arr0_grows : arr0.SplitsGrow := by
  refine ⟨by simp [arr0], by simp [arr0], ?_, ?_⟩
  · intro j c h
    match j with
    | 0 => simp [arr0] at h <;> omega
    | 1 => simp [arr0] at h <;> omega
    | j + 2 => simp [arr0] at h
  · intro j c h
    match j with
    | 0 => simp [arr0] at h <;> omega
    | 1 => simp [arr0] at h <;> omega
    | j + 2 => simp [arr0] at h

/-- C70: files of the other formats that meet the hypotheses. -/
example : Analysed (rtEnsemble (1 / 2 : ℚ) .lightGBM (lightgbmLoad 0 1 (-1) (.other :: lgbForest 0 [arr0])) 1 none none)
    [(.node 133 1 (.node 48 (1 / 4) (.leaf (-5)) (.leaf 17)) (.leaf 34), 1)] :=
  C70_lightgbm 0 1 (-1) (1 / 2) (lines := .other :: lgbForest 0 [arr0]) (by decide +kernel) (.cons arr0_is .nil) (by simpa using arr0_grows) (by simp)
    (by decide +kernel) (by decide +kernel) 1 none (nTrees := none) (by simp)

example : Analysed (rtEnsemble (1 / 2 : ℚ) .jforests (jforestsLoad 0 (-1) (.other :: jfForest [(arr0, 2)])) 1 none none)
    [(.node 133 1 (.node 48 (1 / 4) (.leaf (-5)) (.leaf 17)) (.leaf 34), 2)] :=
  C70_jforests 0 (-1) (1 / 2) (events := .other :: jfForest [(arr0, 2)]) (as := [(arr0, 2)])
    (fo := [(.node 133 1 (.node 48 (1 / 4) (.leaf (-5)) (.leaf 17)) (.leaf 34), 2)]) (by decide +kernel) (.cons ⟨arr0_is, rfl⟩ .nil)
    (by simpa using arr0_grows) (by simp) (by decide +kernel) (by decide +kernel) (by decide +kernel) 1 none (nTrees := none) (by simp)

example : Analysed (rtEnsemble (1 / 2 : ℚ) .catBoost (catboostLoad 0 1 (-1) (fun K => List.replicate K 99) cnodes0) 1 none (some 1))
    [(.node 4 (1 / 2) (.leaf 20) (.leaf 10), 1)] :=
  C70_catboost 0 1 (-1) (1 / 2) (fun K => List.replicate K 99) (nodes := cnodes0) (ts := ctrees0) (n := 3) (by simp [ctrees0]) (by norm_num)
    (by simp) (by decide +kernel) (by decide +kernel) (by decide +kernel) (by simp [ctrees0, CTree.IdsFall, CTree.id]) cnodes0_last (by decide +kernel)
    (by decide +kernel) 1 none (nTrees := some 1) (by simp)

example : Analysed (rtEnsemble (1 / 2 : ℚ) .scikitLearn (scikitLoad 0 1 (-1) (.baseScore 3 :: .other :: .learningRate 2 ::
      forestDump 0 [.node 0 2 7 (.node 1 1 4 (.leaf 2 2) (.leaf 3 3)) (.leaf 4 1)])) 1 none none)
    [(.node 2 7 (.node 1 4 (.leaf 2) (.leaf 3)) (.leaf 1), 1)] :=
  C70_scikit 0 1 (-1) (1 / 2) (lines := .baseScore 3 :: .other :: .learningRate 2 :: forestDump 0 [.node 0 2 7 (.node 1 1 4 (.leaf 2 2) (.leaf 3 3)) (.leaf 4 1)])
    (ts := [.node 0 2 7 (.node 1 1 4 (.leaf 2 2) (.leaf 3 3)) (.leaf 4 1)]) (b := 3) (l := 2) (by decide +kernel) (by decide +kernel)
    (by simp [LTree.IdsGrow, LTree.id]) (by simp) (by decide +kernel) (by decide +kernel) 1 none (nTrees := none) (by simp)

example : Analysed (rtEnsemble (1 / 2 : ℚ) .xgboost (xgboostLoad 0 1 (-1) (fun t => t - 1) (.tree 0 :: .node 0 0 3 :: .other :: .leaf 7 10 :: .leaf 5 20 ::
      [.tree 1, .leaf 0 9])) 1 none none) [(.node 0 (3 - 1) (.leaf 10) (.leaf 20), 1), (.leaf 9, 1)] :=
  C70_xgboost 0 1 (-1) (1 / 2) (fun t => t - 1) (lines := .tree 0 :: .node 0 0 3 :: .other :: .leaf 7 10 :: .leaf 5 20 :: [.tree 1, .leaf 0 9])
    (ts := [.node 0 0 3 (.leaf 7 10) (.leaf 5 20), .leaf 0 9]) (by decide +kernel) (by simp) (by decide +kernel) (by decide +kernel) 1 none (nTrees := none)
    (by simp)

end Verif.Props
