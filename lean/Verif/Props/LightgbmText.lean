/-
C72: the text of LightGBM models.
-/
import Verif.Lemmas.LightgbmText
import Verif.Props.DumpText

namespace Verif.Props
open Spec Ensemble

section
variable {F : Type} {float : List Char → Option F} {isZero : F → Bool}

/-- C72: a file whose lines spell the lines of a LightGBM model is loaded as these lines, including errors. -/
theorem C72_text (zero one minusOne : F) {file : List Char} {ls : List (List Char)} (hfile : IsLines ls file) {ds : List (LgbLine F)}
    (h : List.Forall₂ (SpellsLgb isZero float) ls ds) : lightgbmTextLoad zero one minusOne isZero float file = lightgbmLoad zero one minusOne ds :=
  lgbText_eq zero one minusOne hfile h

/-- C72: from the text of a model to the trees. Missing: features from 2^15 on, and files with features named like the keys
(`C72_violated_importances`). -/
theorem C72_load_partial (zero one minusOne half : F) {file : List Char} {ls : List (List Char)} (hfile : IsLines ls file) {ds : List (LgbLine F)}
    (h : List.Forall₂ (SpellsLgb isZero float) ls ds) {as : List (ArrTree F)} {ts : List (Spec.Tree F)}
    (hds : ds.filter lgbRelevant = lgbForest 0 as) (has : List.Forall₂ ArrTree.Is as ts)
    (hf : ∀ a ∈ as, ∀ f ∈ a.features, f < 2 ^ 15) (lr : F) (bs : Option F) (nTrees : Option Nat) :
    ∃ m, rtEnsemble half .lightGBM (lightgbmTextLoad zero one minusOne isZero float file) lr bs nTrees = .ok ⟨m, lr, bs⟩ ∧
      Represents m ((ts.map (fun t => (t, one))).take (nTrees.elim ts.length id)) := by
  rw [C72_text zero one minusOne hfile h]
  exact C41_load zero one minusOne half hds has hf lr bs nTrees

/-- C72: an entry of the feature importances at the end of the file whose name is `threshold` is written over the first threshold of the
last tree. -/
theorem C72_importances (zero one minusOne : F) {file : List Char} {ls : List (List Char)} {name : List Char} (hfile : IsLines (ls ++ [name]) file)
    {ds : List (LgbLine F)} (h : List.Forall₂ (SpellsLgb isZero float) ls ds) {w : List Char} {v : F} (hname : name = "threshold=".toList ++ w)
    (hw : IsWord w) (hv : NumText float w v) :
    lightgbmTextLoad zero one minusOne isZero float file = lightgbmLoad zero one minusOne (ds ++ [.threshold [v]]) := by
  refine C72_text zero one minusOne hfile (List.rel_append h (.cons ?_ .nil))
  refine ⟨[w], w, [], by rw [hname, List.append_nil], fun hm => hw.2 _ hm (by simp), .inl rfl, .inr ⟨[], w, [], [], rfl, by simp, ?_, hw, .nil ?_⟩,
    .cons hv .nil⟩ <;> intro c hc <;> cases hc

/-- C72: a file with a line of features, children or decisions in which a word is not an integer is refused, wherever the line is. (Words with
underscores or digits of other scripts, which Python accepts, are left out.) -/
theorem C72_malformed (zero one minusOne : F) {file : List Char} {ls : List (List Char)} (hfile : IsLines ls file) {key line : List Char}
    (hl : line ∈ ls) {ws : List (List Char)} {w : List Char}
    (hk : key ∈ ["split_feature=".toList, "left_child=".toList, "right_child=".toList, "decision_type=".toList])
    (h : KeyLine key (· = ·) line ws) (hw : w ∈ ws) (_hascii : ∀ c ∈ w, c.toNat < 128 ∧ c ≠ '_') (hword : IsWord w) (hb : ∀ i, ¬ IntText w i)
    (lr : F) (bs : Option F) : ∃ e, lightgbmTextLoad zero one minusOne isZero float file lr bs = .error e := by
  unfold lightgbmTextLoad
  simp only [Svm.linesFrom_ok hfile]
  obtain ⟨e, he⟩ := foldlM_bad hl (step_bad (isZero := isZero) (float := float) one hk h hw (pyInt_bad hword hb))
    ⟨alloc zero minusOne (ls.foldl lgbTextCount (0, 0)).1 (ls.foldl lgbTextCount (0, 0)).2, 0, 0, 0, 0, none⟩
  refine ⟨e, ?_⟩
  rw [he]
  rfl

end

/-- The hypotheses of C72_malformed hold for a number with a point among the children. -/
example : KeyLine "left_child=".toList (· = ·) "left_child=1 2.5\n".toList ["1".toList, "2.5".toList] ∧ IsWord "2.5".toList ∧
    ∀ i, ¬ IntText "2.5".toList i := by
  refine ⟨⟨["1".toList, "2.5".toList], "1 2.5".toList, ['\n'], by decide +kernel, by decide, .inr rfl,
    .inr ⟨[], "1".toList, ["2.5".toList], " 2.5".toList, rfl, by decide +kernel, by decide, by decide, ?_⟩, .cons rfl (.cons rfl .nil)⟩, by decide, ?_⟩
  · exact .cons (sp := [' ']) (s := []) (by decide) (by decide) (by decide) (.nil (by decide))
  · rintro i ⟨ds, n, hd, h⟩
    have hdig := numeral_isDigit hd
    rcases h with ⟨h, -⟩ | ⟨h, -⟩ | ⟨h, -⟩
    · subst h; exact absurd (hdig '.' (by decide)) (by decide)
    · exact absurd h (by simp)
    · exact absurd h (by simp)

/-- A model as written by LightGBM, with one tree. `name` is the name of its feature. -/
def lgbFile (name : String) : List Char :=
  ("tree\nnum_class=1\nmax_feature_idx=1\n\nTree=0\nnum_leaves=3\nsplit_feature=1 0\nthreshold=2.5 4\ndecision_type=2 2\nleft_child=1 -1\n" ++
    "right_child=-2 -3\nleaf_value=10 20 30\nshrinkage=0.1\nhas_categorical=0\n\n\nfeature importances:\n" ++ name ++ "=45\n").toList

/-- The lines of the model. -/
def lgbFileLines (name : String) : List (List Char) :=
  ["tree\n".toList, "num_class=1\n".toList, "max_feature_idx=1\n".toList, "\n".toList, "Tree=0\n".toList, "num_leaves=3\n".toList,
    "split_feature=1 0\n".toList, "threshold=2.5 4\n".toList, "decision_type=2 2\n".toList, "left_child=1 -1\n".toList,
    "right_child=-2 -3\n".toList, "leaf_value=10 20 30\n".toList, "shrinkage=0.1\n".toList, "has_categorical=0\n".toList, "\n".toList, "\n".toList,
    "feature importances:\n".toList, (name ++ "=45\n").toList]

/-- C72: a file that meets the hypotheses, and its scores. -/
example : ∃ ls ds, IsLines ls (lgbFile "age") ∧ List.Forall₂ (SpellsLgb (· == 0) readDecimal) ls ds ∧
    ds.filter lgbRelevant = lgbForest 0 [⟨[1, 0], [5 / 2, 4], [1, -1], [-2, -3], [10, 20, 30]⟩] ∧
    (rtEnsemble (1 / 2) .lightGBM (lightgbmTextLoad 0 1 (-1) (· == 0) readDecimal (lgbFile "age")) 1 none none).bind
      (fun l => scoreFresh (exactOps ℚ) l.arrays l.learningRate l.baseScore false [[4, 2], [5, 2], [0, 3]] 2) = .ok ⟨[10, 30, 20], none, none⟩ := by
  refine ⟨lgbFileLines "age", [.other, .other, .other, .other, .tree 0, .numLeaves 3, .splitFeature [1, 0], .threshold [5 / 2, 4],
    .decisionType [2, 2], .leftChild [1, -1], .rightChild [-2, -3], .leafValue [10, 20, 30], .shrinkage, .hasCategorical false, .other, .other,
    .other, .other], ?_, ?_, by decide +kernel, by decide +kernel⟩
  · have : (lgbFileLines "age").flatten = lgbFile "age" := by decide +kernel
    rw [← this]
    apply Svm.isLines_flatten
    intro l hl
    refine ⟨l.dropLast, ?_⟩
    revert l
    decide +kernel
  · have n0 : Numeral ['0'] 0 := .one (d := 0) (by decide)
    have n1 : Numeral ['1'] 1 := .one (d := 1) (by decide)
    have n2 : Numeral ['2'] 2 := .one (d := 2) (by decide)
    have n3 : Numeral ['3'] 3 := .one (d := 3) (by decide)
    have two : ∀ a b : List Char, IsWord a → IsWord b → SepWords [a, b] (a ++ ' ' :: b) := by
      intro a b ha hb
      refine .inr ⟨[], a, [b], ' ' :: b, rfl, by simp, by decide, ha, ?_⟩
      have := Spaced.cons (sp := [' ']) (w := b) (s := []) (ws := []) (by decide) (by simp) hb (.nil (by decide))
      simpa using this
    have ot : ∀ l : List Char, (∀ key ∈ lgbKeys, ¬ key <+: l) → SpellsLgb (· == (0 : ℚ)) readDecimal l .other := fun _ h => h
    have sh : SpellsLgb (· == (0 : ℚ)) readDecimal "shrinkage=0.1\n".toList .shrinkage := ⟨"0.1\n".toList, by decide +kernel⟩
    refine .cons (ot _ (by decide +kernel)) (.cons (ot _ (by decide +kernel)) (.cons (ot _ (by decide +kernel)) (.cons (ot _ (by decide +kernel))
      (.cons ⟨['0'], ['\n'], by decide +kernel, n0, .inr rfl⟩ (.cons ⟨['3'], ['\n'], by decide +kernel, n3, .inr rfl⟩
      (.cons ⟨[['1'], ['0']], "1 0".toList, ['\n'], by decide +kernel, by decide, .inr rfl, two _ _ (by decide) (by decide), .cons n1 (.cons n0 .nil)⟩
      (.cons ⟨["2.5".toList, ['4']], "2.5 4".toList, ['\n'], by decide +kernel, by decide, .inr rfl, two _ _ (by decide) (by decide),
        .cons ⟨by decide +kernel, by decide, by decide⟩ (.cons ⟨by decide +kernel, by decide, by decide⟩ .nil)⟩
      (.cons ⟨[['2'], ['2']], "2 2".toList, ['\n'], by decide +kernel, by decide, .inr rfl, two _ _ (by decide) (by decide),
        .cons ⟨_, _, n2, .inl ⟨rfl, rfl⟩⟩ (.cons ⟨_, _, n2, .inl ⟨rfl, rfl⟩⟩ .nil)⟩
      (.cons ⟨[['1'], ['-', '1']], "1 -1".toList, ['\n'], by decide +kernel, by decide, .inr rfl, two _ _ (by decide) (by decide),
        .cons ⟨_, _, n1, .inl ⟨rfl, rfl⟩⟩ (.cons ⟨_, _, n1, .inr (.inl ⟨rfl, rfl⟩)⟩ .nil)⟩
      (.cons ⟨[['-', '2'], ['-', '3']], "-2 -3".toList, ['\n'], by decide +kernel, by decide, .inr rfl, two _ _ (by decide) (by decide),
        .cons ⟨_, _, n2, .inr (.inl ⟨rfl, rfl⟩)⟩ (.cons ⟨_, _, n3, .inr (.inl ⟨rfl, rfl⟩)⟩ .nil)⟩
      (.cons ⟨["10".toList, "20".toList, "30".toList], "10 20 30".toList, ['\n'], by decide +kernel, by decide, .inr rfl,
        .inr ⟨[], "10".toList, ["20".toList, "30".toList], " 20 30".toList, rfl, by decide, by decide, by decide,
          .cons (sp := [' ']) (w := "20".toList) (s := " 30".toList) (by decide) (by decide) (by decide)
            (.cons (sp := [' ']) (w := "30".toList) (s := []) (by decide) (by decide) (by decide) (.nil (by decide)))⟩,
        .cons ⟨by decide +kernel, by decide, by decide⟩ (.cons ⟨by decide +kernel, by decide, by decide⟩
          (.cons ⟨by decide +kernel, by decide, by decide⟩ .nil))⟩
      (.cons sh (.cons ⟨0, ⟨[['0']], ['0'], ['\n'], by decide +kernel, by decide, .inr rfl,
        .inr ⟨[], ['0'], [], [], rfl, rfl, by decide, by decide, .nil (by decide)⟩, .cons ⟨_, _, n0, .inl ⟨rfl, rfl⟩⟩ .nil⟩, rfl⟩
      (.cons (ot _ (by decide +kernel)) (.cons (ot _ (by decide +kernel)) (.cons (ot _ (by decide +kernel)) (.cons (ot _ (by decide +kernel)) .nil)))))))))))))))))

/-- C72 is violated: when a feature is called `threshold`, its importance becomes the first threshold of the last tree, and documents get other
scores. -/
theorem C72_violated_importances : (rtEnsemble (1 / 2) .lightGBM (lightgbmTextLoad 0 1 (-1) (· == 0) readDecimal (lgbFile "threshold")) 1 none none) =
      .ok ⟨⟨1, 5, [0], [1], [1, 2, -1, -1, -1], [3, 4, -1, -1, -1], [45, 4, 10, 20, 30], [1, 0, -1, -1, -1]⟩, 1, none⟩ ∧
    scoreFresh (exactOps ℚ) ⟨1, 5, [0], [1], [1, 2, -1, -1, -1], [3, 4, -1, -1, -1], [45, 4, 10, 20, 30], [1, 0, -1, -1, -1]⟩ 1 none false
      [[4, 2], [5, 2], [0, 3]] 2 = .ok ⟨[10, 30, 10], none, none⟩ := by
  decide +kernel

end Verif.Props
