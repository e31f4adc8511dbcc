/-
Property C83: the text of jforests files.
-/
import Verif.Lemmas.JforestsText
import Verif.Props.QuickRankText
import Verif.Props.LoadArrays

namespace Verif.Props
open Spec Ensemble Etree
variable {F : Type} {float : List Char → Option F}

/-- C83: loading the text gives what the converted elements give, error or not. The first event is the beginning of the root element. -/
theorem C83_text_partial (zero minusOne : F) {text : List Char} {e : Event} {es : List Event} (hp : parse text = .ok (e :: es)) {events : List (JfEvent F)}
    (hs : List.Forall₂ (SpellsJf float) es events) (lr : F) (bs : Option F) :
    jforestsTextLoad float zero minusOne text lr bs = jforestsLoad zero minusOne events lr bs := by
  obtain ⟨h1, h2⟩ := jf_events hs
  unfold jforestsTextLoad jforestsLoad
  rw [hp]
  simp only [bind, Except.bind, List.drop_succ_cons, List.drop_zero, h1, h2]

/-- C83, proved part: a file loads to exactly its trees, in order, with their weights, if the numbers of each element are separated by single
blanks, whatever other elements it contains. Missing: trees without a split, and other white space between the numbers: see below. -/
theorem C83_load_partial (zero minusOne half : F) {text : List Char} {e : Event} {es : List Event} (hp : parse text = .ok (e :: es))
    {events : List (JfEvent F)} (hs : List.Forall₂ (SpellsJf float) es events) {as : List (ArrTree F × F)} {fo : Forest F}
    (hevents : events.filter jfRelevant = jfForest as) (has : List.Forall₂ (fun a p => a.1.Is p.1 ∧ a.2 = p.2) as fo)
    (hsplit : ∀ a ∈ as, a.1.features ≠ []) (hf : ∀ a ∈ as, ∀ f ∈ a.1.features, f < 2 ^ 15) (lr : F) (bs : Option F) (nTrees : Option Nat) :
    ∃ m, rtEnsemble half .jforests (jforestsTextLoad float zero minusOne text) lr bs nTrees = .ok ⟨m, lr, bs⟩ ∧
      Represents m (fo.take (nTrees.elim fo.length id)) := by
  have h : jforestsTextLoad float zero minusOne text = jforestsLoad zero minusOne events := by
    funext lr bs
    exact C83_text_partial zero minusOne hp hs lr bs
  rw [h]
  exact C42_load_partial zero minusOne half hevents has hsplit hf lr bs nTrees

/-- C83 is violated by two blanks in a row, and by a blank before the first or after the last number: every such file is refused. -/
theorem C83_violated_blanks (zero minusOne lr : F) (bs : Option F) (hfl : float [] = none) {text : List Char} {e : Event} {es : List Event}
    (hp : parse text = .ok (e :: es)) {tag t : List Char} (htag : tag ∈ jfTags.drop 1) (hm : .finish tag (some t) ∈ es) (ht : LooseBlanks t) :
    ∃ err, jforestsTextLoad float zero minusOne text lr bs = .error err := by
  unfold jforestsTextLoad
  rw [hp]
  simp only [bind, Except.bind, List.drop_succ_cons, List.drop_zero]
  cases jfTextCount es with
  | error err => exact ⟨err, rfl⟩
  | ok n =>
    simp only
    obtain ⟨err, he⟩ := foldlM_fails hm (jfTextEnd_bad hfl htag ht) ⟨alloc zero minusOne n.1 n.2, -1, 0, 0, 0, none⟩
    exact ⟨err, by rw [he]⟩

/-- C83 is violated by trees without a split, for which the element of the features is empty: the file is refused with `AttributeError`, wherever
the tree is. -/
theorem C83_violated_leaf (zero minusOne lr : F) (bs : Option F) {text : List Char} {e : Event} {es : List Event} (hp : parse text = .ok (e :: es))
    {tag : List Char} (htag : tag = "SplitFeatures".toList ∨ tag = "LeafOutputs".toList) (hm : .finish tag none ∈ es) :
    jforestsTextLoad float zero minusOne text lr bs = .error .attributeError := by
  unfold jforestsTextLoad
  rw [hp]
  simp only [bind, Except.bind, List.drop_succ_cons, List.drop_zero, jfTextCount_bad htag hm]

/-- C83: a file with a tree without a weight is refused, wherever the tree is. -/
theorem C83_no_weight (zero minusOne lr : F) (bs : Option F) {text : List Char} {e : Event} {es : List Event} (hp : parse text = .ok (e :: es))
    {attrs : List (List Char × List Char)} (hm : .start "Tree".toList attrs ∈ es) (hw : ∀ p ∈ attrs, p.1 ≠ "weight".toList) :
    ∃ err, jforestsTextLoad float zero minusOne text lr bs = .error err := by
  have hn : attribText attrs "weight".toList = none := by
    unfold attribText
    rw [List.find?_eq_none.2 (fun p hp' => by simpa using hw p hp')]
    rfl
  unfold jforestsTextLoad
  rw [hp]
  simp only [bind, Except.bind, List.drop_succ_cons, List.drop_zero]
  cases jfTextCount es with
  | error err => exact ⟨err, rfl⟩
  | ok n =>
    simp only
    obtain ⟨err, he⟩ := foldlM_fails (f := jfTextStep float) hm (by
      intro s
      simp only [jfTextStep, if_true, jfTextTree, hn, bind, Except.bind]
      split
      · exact ⟨_, rfl⟩
      · exact ⟨_, rfl⟩) ⟨alloc zero minusOne n.1 n.2, -1, 0, 0, 0, none⟩
    exact ⟨err, by rw [he]⟩

/-- A file that can be loaded, cut off anywhere, is refused with `ParseError`, unless only white space is missing. -/
theorem C83_cut_off (zero minusOne lr : F) (bs : Option F) {whole part rest : List Char} {l : Loaded F}
    (hw : jforestsTextLoad float zero minusOne whole lr bs = .ok l) (hs : whole = part ++ rest) (hr : ∃ c ∈ rest, space c = false) :
    jforestsTextLoad float zero minusOne part lr bs = .error .parseError := by
  subst hs
  unfold jforestsTextLoad at hw ⊢
  cases hp : parse part with
  | error e =>
    rw [parse_error hp]
    rfl
  | ok es' =>
    cases hwp : parse (part ++ rest) with
    | error e => rw [hwp] at hw; cases hw
    | ok es =>
      obtain ⟨c, hc, h⟩ := hr
      have := (parse_prefix hp hwp).2
      rw [List.all_eq_true] at this
      rw [this c hc] at h
      cases h

/-- `<Ensemble><Tree weight="2">…` with one tree of two splits; a new line after a number does no harm. -/
def jfFile : List Char :=
  ("<Ensemble>\n<Tree id=\"0\" weight=\"2\">\n<NumLeaves>3</NumLeaves><SplitFeatures>1 0\n</SplitFeatures><LeftChildren>1 -1</LeftChildren>" ++
    "<RightChildren>-2 -3</RightChildren><OriginalThresholds>5 6</OriginalThresholds><LeafOutputs>-5 34 17</LeafOutputs></Tree></Ensemble>\n").toList

/-- Its converted elements. -/
def jfFileEvents : List (JfEvent Int) :=
  [.startTree 2, .other, .other, .other, .splitFeatures [1, 0], .other, .leftChildren [1, -1], .other, .rightChildren [-2, -3], .other,
    .originalThresholds [5, 6], .other, .leafOutputs [-5, 34, 17], .endTree, .other]

example : jforestsTextLoad intFloat 0 (-1) jfFile 1 none =
    .ok ⟨⟨1, 5, [0], [2], [1, 2, -1, -1, -1], [3, 4, -1, -1, -1], [5, 6, -5, 34, 17], [1, 0, -1, -1, -1]⟩, 1, none⟩ ∧
    jforestsLoad 0 (-1) jfFileEvents 1 none =
    .ok ⟨⟨1, 5, [0], [2], [1, 2, -1, -1, -1], [3, 4, -1, -1, -1], [5, 6, -5, 34, 17], [1, 0, -1, -1, -1]⟩, 1, none⟩ := by
  decide +kernel

/-- C83: the same with two blanks, with a blank at the end, with a tree without a split, and cut off. -/
example : jforestsTextLoad intFloat 0 (-1) "<E><Tree weight=\"2\"><SplitFeatures>1  0</SplitFeatures></Tree></E>".toList 1 none = .error .valueError ∧
    jforestsTextLoad intFloat 0 (-1) "<E><Tree weight=\"2\"><SplitFeatures>1 </SplitFeatures></Tree></E>".toList 1 none = .error .valueError ∧
    jforestsTextLoad intFloat 0 (-1) "<E><Tree weight=\"2\"><SplitFeatures></SplitFeatures><LeafOutputs>7</LeafOutputs></Tree></E>".toList 1 none =
      .error .attributeError ∧
    jforestsTextLoad intFloat 0 (-1) "<E><Tree weight=\"2\"><SplitFeatures>1".toList 1 none = .error .parseError ∧
    jforestsTextLoad intFloat 0 (-1) "<E><Tree></Tree></E>".toList 1 none = .error .keyError ∧ intFloat [] = none := by
  decide +kernel

theorem jfWord_int (i : Int) (sp' : List Char) (h : IsWord (intRepr i)) (h1 : AllSpace sp') (h2 : ' ' ∉ sp') : JfWord IntText (intRepr i ++ sp') i :=
  ⟨[], intRepr i, sp', by simp, by decide, h1, by decide, h2, h, intText_repr i⟩

theorem jfWord_num (i : Int) (h : IsWord (intRepr i)) : JfWord (NumText intFloat) (intRepr i) i :=
  ⟨[], intRepr i, [], by simp, by decide, by decide, by decide, by decide, h, (printsNumbers_int.2 i).2⟩

theorem jfWord_feature (n : Nat) (sp' : List Char) (h : IsWord (Svm.decimal n)) (h1 : AllSpace sp') (h2 : ' ' ∉ sp') :
    JfWord Numeral (Svm.decimal n ++ sp') n :=
  ⟨[], Svm.decimal n, sp', by simp, by decide, h1, by decide, h2, h, Svm.decimal_numeral n⟩

/-- C83: the file above meets the hypotheses of `C83_text_partial`. -/
example : ∃ e es, parse jfFile = .ok (e :: es) ∧ List.Forall₂ (SpellsJf intFloat) es jfFileEvents := by
  have hp : parse jfFile = .ok (.start "Ensemble".toList [] :: [.start "Tree".toList [("id".toList, ['0']), ("weight".toList, ['2'])],
      .start "NumLeaves".toList [], .finish "NumLeaves".toList (some ['3']), .start "SplitFeatures".toList [],
      .finish "SplitFeatures".toList (some "1 0\n".toList), .start "LeftChildren".toList [], .finish "LeftChildren".toList (some "1 -1".toList),
      .start "RightChildren".toList [], .finish "RightChildren".toList (some "-2 -3".toList), .start "OriginalThresholds".toList [],
      .finish "OriginalThresholds".toList (some "5 6".toList), .start "LeafOutputs".toList [], .finish "LeafOutputs".toList (some "-5 34 17".toList),
      .finish "Tree".toList (some ['\n']), .finish "Ensemble".toList (some ['\n'])]) := by decide +kernel
  refine ⟨_, _, hp, ?_⟩
  refine .cons ⟨rfl, by decide, intRepr 2, by decide +kernel, (printsNumbers_int.2 2)⟩ (.cons (by decide : "NumLeaves".toList ≠ _)
    (.cons (by decide : "NumLeaves".toList ∉ jfTags) (.cons (by decide : "SplitFeatures".toList ≠ _) (.cons ⟨rfl, _, rfl, [Svm.decimal 1 ++ [], Svm.decimal 0 ++ ['\n']], by decide +kernel,
      .cons (jfWord_feature 1 [] (by decide +kernel) (by decide) (by decide)) (.cons (jfWord_feature 0 ['\n'] (by decide +kernel) (by decide) (by decide)) .nil), by decide⟩
    (.cons (by decide : "LeftChildren".toList ≠ _) (.cons ⟨rfl, _, rfl, [intRepr 1 ++ [], intRepr (-1) ++ []], by decide +kernel,
      .cons (jfWord_int 1 [] (by decide +kernel) (by decide) (by decide)) (.cons (jfWord_int (-1) [] (by decide +kernel) (by decide) (by decide)) .nil), by decide⟩
    (.cons (by decide : "RightChildren".toList ≠ _) (.cons ⟨rfl, _, rfl, [intRepr (-2) ++ [], intRepr (-3) ++ []], by decide +kernel,
      .cons (jfWord_int (-2) [] (by decide +kernel) (by decide) (by decide)) (.cons (jfWord_int (-3) [] (by decide +kernel) (by decide) (by decide)) .nil), by decide⟩
    (.cons (by decide : "OriginalThresholds".toList ≠ _) (.cons ⟨rfl, _, rfl, [intRepr 5, intRepr 6], by decide +kernel,
      .cons (jfWord_num 5 (by decide +kernel)) (.cons (jfWord_num 6 (by decide +kernel)) .nil), by decide⟩
    (.cons (by decide : "LeafOutputs".toList ≠ _) (.cons ⟨rfl, _, rfl, [intRepr (-5), intRepr 34, intRepr 17], by decide +kernel,
      .cons (jfWord_num (-5) (by decide +kernel)) (.cons (jfWord_num 34 (by decide +kernel)) (.cons (jfWord_num 17 (by decide +kernel)) .nil)), by decide⟩
    (.cons rfl (.cons (by decide : "Ensemble".toList ∉ jfTags) .nil))))))))))))))

end Verif.Props
