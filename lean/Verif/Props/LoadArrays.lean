/-
Properties C41 and C42: loading the array encodings of LightGBM and jforests.
-/
import Verif.Lemmas.LoadArrays
import Verif.Props.LoadDump

namespace Verif.Props
open Spec Ensemble
variable {F : Type}

/-- C41: for every list of trees in the array encoding, with any numbering of splits and leaves, loading gives exactly these trees in
order, each with weight 1. Lines without effect (other keys, decision type 2, zero defaults, no categorical features) may come
anywhere. Features below 2^15. -/
theorem C41_load (zero one minusOne half : F) {lines : List (LgbLine F)} {as : List (ArrTree F)} {ts : List (Spec.Tree F)}
    (hlines : lines.filter lgbRelevant = lgbForest 0 as) (has : List.Forall₂ ArrTree.Is as ts)
    (hf : ∀ a ∈ as, ∀ f ∈ a.features, f < 2 ^ 15) (lr : F) (bs : Option F) (nTrees : Option Nat) :
    ∃ m, rtEnsemble half .lightGBM (lightgbmLoad zero one minusOne lines) lr bs nTrees = .ok ⟨m, lr, bs⟩ ∧
      Represents m ((ts.map (fun t => (t, one))).take (nTrees.elim ts.length id)) := by
  have hlen := has.length_eq
  have hcount : lgbCount lines = (ts.length, Forest.numNodes (ts.map (fun t => (t, one)))) := by
    rw [← lgbCount_filter, hlines, lgbCount_forest has one 0]
  obtain ⟨s', e, h⟩ := lgb_forest one (fo := ts.map (fun t => (t, one))) has hf 0
    ⟨alloc zero minusOne ts.length (Forest.numNodes (ts.map (fun t => (t, one)))), 0, 0, 0, 0, none⟩ (by simp)
    (loadedTrees_alloc _ zero minusOne (by simp) rfl) (by simp [treeStart, Forest.numNodes])
  have hload : lightgbmLoad zero one minusOne lines lr bs = .ok ⟨s'.m, lr, bs⟩ := by
    unfold lightgbmLoad
    rw [hcount]
    simp only [lgb_foldlM_filter one lines, hlines, e]
    rfl
  have hrep : Represents s'.m (ts.map (fun t => (t, one))) := by
    apply LoadedTrees.represents
    rw [List.length_map, ← hlen]
    simpa using h
  have := C35_loading (half := half) (format := .lightGBM) (load := lightgbmLoad zero one minusOne lines) (bs := bs)
    (by simpa using hload) hrep nTrees
  simpa using this

/-- C41: if a file loads, it has no line with a decision type other than 2, a default value other than 0 or categorical features. -/
theorem C41_rejects (zero one minusOne half : F) {lines : List (LgbLine F)} {lr : F} {bs : Option F} {nTrees : Option Nat}
    {m : Loaded F} (h : rtEnsemble half .lightGBM (lightgbmLoad zero one minusOne lines) lr bs nTrees = .ok m) :
    (∀ types, .decisionType types ∈ lines → ∀ d ∈ types, d = 2) ∧ .defaultValue true ∉ lines ∧ .hasCategorical true ∉ lines := by
  have key : ∀ (lines : List (LgbLine F)) s s', lines.foldlM (lgbStep one) s = .ok s' →
      ∀ l ∈ lines, ∃ s s', lgbStep one s l = .ok s' := by
    intro lines
    induction lines with
    | nil => intro _ _ _ l hl; cases hl
    | cons x lines ih =>
      intro s s' hs l hl
      rw [List.foldlM_cons] at hs
      obtain ⟨s1, hs1, hs2⟩ := except_bind_ok hs
      rcases List.mem_cons.1 hl with rfl | hl
      · exact ⟨_, _, hs1⟩
      · exact ih s1 s' hs2 l hl
  unfold rtEnsemble at h
  obtain ⟨l, hl, _⟩ := except_bind_ok h
  unfold lightgbmLoad at hl
  obtain ⟨s', hs', _⟩ := except_bind_ok hl
  have hk := key _ _ _ hs'
  refine ⟨?_, ?_, ?_⟩
  · intro types ht d hd
    obtain ⟨s, s', e⟩ := hk _ ht
    by_contra hne
    have : types.any (· != 2) = true := List.any_eq_true.2 ⟨d, hd, by simpa using hne⟩
    simp [lgbStep, this] at e
  · intro ht
    obtain ⟨s, s', e⟩ := hk _ ht
    simp [lgbStep] at e
  · intro ht
    obtain ⟨s, s', e⟩ := hk _ ht
    simp [lgbStep] at e

/-- The second tree of the test file of the repository with small numbers, and a tree with a single leaf. -/
def arr0 : ArrTree ℚ := ⟨[133, 48], [1, 1 / 4], [1, -1], [-2, -3], [-5, 34, 17]⟩
def arr1 : ArrTree ℚ := ⟨[], [], [], [], [7]⟩

theorem arr0_is : arr0.Is (.node 133 1 (.node 48 (1 / 4) (.leaf (-5)) (.leaf 17)) (.leaf 34)) where
  thresholds_len := rfl
  left_len := rfl
  right_len := rfl
  holds := ⟨[0, 1, 2, 4, 3],
    .node (p := 0) (l := 1) (r := -2) rfl rfl rfl rfl
      (.node (p := 1) (l := -1) (r := -3) rfl rfl rfl rfl (.leaf (p := 0) rfl) (.leaf (p := 2) rfl)) (.leaf (p := 1) rfl),
    by decide⟩

theorem arr1_is : arr1.Is (.leaf 7) where
  thresholds_len := rfl
  left_len := rfl
  right_len := rfl
  holds := ⟨[0], .leaf (p := 0) rfl, by decide⟩

/-- C41: a file with both trees. -/
example : (([.other, .tree 0, .numLeaves 3, .splitFeature [133, 48], .threshold [1, 1 / 4], .decisionType [2, 2], .defaultValue false,
      .leftChild [1, -1], .rightChild [-2, -3], .leafValue [-5, 34, 17], .shrinkage, .hasCategorical false,
      .tree 1, .numLeaves 1, .splitFeature [], .threshold [], .decisionType [], .leftChild [], .rightChild [], .leafValue [7],
      .shrinkage] : List (LgbLine ℚ)).filter lgbRelevant = lgbForest 0 [arr0, arr1]) ∧
    List.Forall₂ ArrTree.Is [arr0, arr1] [.node 133 1 (.node 48 (1 / 4) (.leaf (-5)) (.leaf 17)) (.leaf 34), .leaf 7] ∧
    lightgbmLoad 0 1 (-1) (lgbForest 0 [arr0, arr1]) 1 none =
      .ok ⟨⟨2, 6, [0, 5], [1, 1], [1, 2, -1, -1, -1, -1], [3, 4, -1, -1, -1, -1], [1, 1 / 4, -5, 34, 17, 7],
        [133, 48, -1, -1, -1, -1]⟩, 1, none⟩ :=
  ⟨by decide +kernel, .cons arr0_is (.cons arr1_is .nil), by decide +kernel⟩

/-- C42, proved part: for every list of weighted trees with at least one split, loading gives exactly these trees and weights. Features
below 2^15. Missing: trees with a single leaf, which cannot be loaded, see `C42_violated`. -/
theorem C42_load_partial (zero minusOne half : F) {events : List (JfEvent F)} {as : List (ArrTree F × F)} {fo : Forest F}
    (hevents : events.filter jfRelevant = jfForest as) (has : List.Forall₂ (fun a p => a.1.Is p.1 ∧ a.2 = p.2) as fo)
    (hsplit : ∀ a ∈ as, a.1.features ≠ []) (hf : ∀ a ∈ as, ∀ f ∈ a.1.features, f < 2 ^ 15) (lr : F) (bs : Option F)
    (nTrees : Option Nat) :
    ∃ m, rtEnsemble half .jforests (jforestsLoad zero minusOne events) lr bs nTrees = .ok ⟨m, lr, bs⟩ ∧
      Represents m (fo.take (nTrees.elim fo.length id)) := by
  have hlen := has.length_eq
  have hcount : jfCount events = .ok (fo.length, Forest.numNodes fo) := by
    rw [← jfCount_filter, hevents, jfCount_forest has hsplit]
  obtain ⟨s', e, h⟩ := jf_forest (fo := fo) has hsplit hf 0
    ⟨alloc zero minusOne fo.length (Forest.numNodes fo), -1, 0, 0, 0, none⟩ (by simp)
    (loadedTrees_alloc _ zero minusOne rfl rfl) rfl (by simp [treeStart, Forest.numNodes])
  have hload : jforestsLoad zero minusOne events lr bs = .ok ⟨s'.m, lr, bs⟩ := by
    unfold jforestsLoad
    rw [hcount]
    simp only [bind, Except.bind]
    rw [jf_foldlM_filter events, hevents, e]
    rfl
  have hrep : Represents s'.m fo := by
    apply LoadedTrees.represents
    rw [← hlen]
    simpa using h
  have := C35_loading (half := half) (format := .jforests) (load := jforestsLoad zero minusOne events) (bs := bs)
    (by simpa using hload) hrep nTrees
  simpa using this

/-- C42 is violated for trees with a single leaf: whatever else is in the file, loading fails with an AttributeError. -/
theorem C42_violated : ∃ as : List (ArrTree ℚ × ℚ), ∃ fo : Forest ℚ,
    List.Forall₂ (fun a p => a.1.Is p.1 ∧ a.2 = p.2) as fo ∧
    ∀ half lr bs nTrees, rtEnsemble half .jforests (jforestsLoad 0 (-1) (jfForest as)) lr bs nTrees = .error .attributeError := by
  refine ⟨[(arr1, 1)], [(.leaf 7, 1)], .cons ⟨arr1_is, rfl⟩ .nil, ?_⟩
  intro half lr bs nTrees
  rfl

/-- C42: one weighted tree. -/
example : (([.other, .startTree 2, .splitFeatures [133, 48], .leftChildren [1, -1], .rightChildren [-2, -3], .other, .other,
      .originalThresholds [1, 1 / 4], .leafOutputs [-5, 34, 17], .endTree, .other] : List (JfEvent ℚ)).filter jfRelevant =
      jfForest [(arr0, 2)]) ∧
    jforestsLoad 0 (-1) (jfForest [(arr0, 2)]) 1 none =
      .ok ⟨⟨1, 5, [0], [2], [1, 2, -1, -1, -1], [3, 4, -1, -1, -1], [1, 1 / 4, -5, 34, 17], [133, 48, -1, -1, -1]⟩, 1, none⟩ := by
  decide +kernel

end Verif.Props
