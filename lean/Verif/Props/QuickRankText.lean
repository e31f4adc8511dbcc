/-
Property C78: the text of QuickRank files.
-/
import Verif.Lemmas.QuickRankNums
import Verif.Lemmas.EtreeBad
import Verif.Props.QuickRank

namespace Verif.Props
open Spec Ensemble Etree
variable {F : Type}

/-- The text that ElementTree writes for an element is read back with the same tags, attributes and texts in the same order, whatever the texts
and attributes contain. -/
theorem C78_written_is_read (e : Elem) (hv : ValidElem e) (ht : (tailOf e).all space = true) : parse (serialize e) = .ok (elemEvents e) :=
  parse_serialize hv ht

/-- `_xmlprettyprint` keeps tags, attributes and texts, except for white space. -/
theorem C78_pretty (level : Nat) (e : Elem) : List.Forall₂ SameEvent (elemEvents e) (elemEvents (pretty level e)) := pretty_events level e

/-- It puts every tag of an element with children, and every element without children, on a line of its own, indented by its depth. -/
theorem C78_layout (tag : List Char) (attrs : List (List Char × List Char)) (text : Option (List Char)) (c : Elem) (cs : List Elem)
    (h : Plain (.mk tag attrs text none (c :: cs))) :
    serialize (pretty 0 (.mk tag attrs text none (c :: cs))) = indented (layout 0 (.mk tag attrs text none (c :: cs))) := by
  rw [← layout_elem 0 _ h, pretty, serialize_bare]
  simp [blank, pyStrip, textOf, newline, escapeText]

/-- Every file that spells a QuickRank document with a section about learning loads to exactly its trees, in order, with their weights: any
white space around numbers, any text between tags. -/
theorem C78_load (float : List Char → Option F) (zero minusOne half : F) (fo : Forest F) (hf : ∀ p ∈ fo, ∀ f ∈ p.1.features, f < 2 ^ 15)
    (trees leaves : Nat) (shrinkage : F) {text : List Char} {es : List Event} (hp : parse text = .ok es)
    (hs : List.Forall₂ (SpellsEvent float) es
      (Xml.elem "ranker" [] none [infoXml trees leaves shrinkage, .elem "ensemble" [] none (forestXml 0 fo)]).events)
    (lr : F) (bs : Option F) (nTrees : Option Nat) :
    ∃ m, rtEnsemble half .quickRank (quickrankLoadText float zero minusOne text) lr bs nTrees = .ok ⟨m, lr, bs⟩ ∧
      Represents m (fo.take (nTrees.elim fo.length id)) := by
  obtain ⟨m, h1, h2⟩ := C37_load zero minusOne half fo hf trees leaves shrinkage lr bs nTrees
  refine ⟨m, ?_, h2⟩
  rw [← h1]
  unfold rtEnsemble
  cases hl : quickrankLoad zero minusOne
      (Xml.elem "ranker" [] none [infoXml trees leaves shrinkage, .elem "ensemble" [] none (forestXml 0 fo)]) lr (initialBase half .quickRank bs) with
  | ok r =>
    have h3 := load_spells (good_doc trees leaves shrinkage fo) hp hs hl
    simp only [h3]
  | error e =>
    exfalso
    unfold rtEnsemble at h1
    simp only [hl] at h1
    cases h1

/-- `C78_roundtrip`, with the hypothesis on printing for the numbers of the model only. -/
theorem roundtrip_on {P : F → Prop} (pr : Reprs F) (float : List Char → Option F) (hi : ∀ i, IntText (pr.int i) i)
    (hn : ∀ v, P v → IsWord (pr.num v) ∧ NumText float (pr.num v) v) (zero minusOne half : F) {m : Ensemble F}
    {fo : Forest F} (h : Represents m fo) (hne : fo ≠ []) (hf : ∀ p ∈ fo, ∀ f ∈ p.1.features, f < 2 ^ 15)
    (hP : ∀ p ∈ fo, P p.2 ∧ ∀ v ∈ p.1.numbers, P v) {lr : F} (hlr : P lr) :
    ∃ text, quickrankSaveText pr m lr = .ok text ∧ ∀ (lr' : F) (bs' : Option F),
      ∃ m', rtEnsemble half .quickRank (quickrankLoadText float zero minusOne text) lr' bs' none = .ok ⟨m', lr', bs'⟩ ∧ Represents m' fo := by
  obtain ⟨n, hsave, -⟩ := C37_save h hne lr
  have hgood := good_doc fo.length n lr fo
  have hnums := nums_doc fo.length n hlr fo hP
  have hev := toElem_events pr (docXml fo.length n lr fo)
  have hvalid : ValidElem (toElem pr (docXml fo.length n lr fo)) := by
    apply valid_of_events
    intro ev hm
    rw [hev] at hm
    obtain ⟨x, hx, rfl⟩ := List.mem_map.1 hm
    exact print_valid (hgood x hx)
  have htail : tailOf (toElem pr (docXml fo.length n lr fo)) = [] := by
    rw [docXml, toElem]
    rfl
  refine ⟨serialize (pretty 0 (toElem pr (docXml fo.length n lr fo))), ?_, fun lr' bs' => ?_⟩
  · unfold quickrankSaveText
    rw [hsave]
    rfl
  · have hparse := parse_serialize (pretty_valid 0 _ hvalid) (pretty_tail 0 _ htail)
    have hsp : List.Forall₂ (SpellsEvent float) (elemEvents (pretty 0 (toElem pr (docXml fo.length n lr fo)))) (docXml fo.length n lr fo).events := by
      refine forall₂_spells (pretty_events 0 _) ?_ hgood
      rw [hev, List.forall₂_map_left_iff]
      exact List.forall₂_same.2 (fun x hx => print_event_on hi hn (hgood x hx) (hnums x hx))
    obtain ⟨m', h1, h2⟩ := C78_load float zero minusOne half fo hf fo.length n lr hparse hsp lr' bs' none
    exact ⟨m', h1, by simpa using h2⟩

/-- The file that `save` writes for a model with at least one tree loads to exactly the same trees in the same order with the same weights. -/
theorem C78_roundtrip (pr : Reprs F) (float : List Char → Option F) (hpr : PrintsNumbers pr float) (zero minusOne half : F) {m : Ensemble F}
    {fo : Forest F} (h : Represents m fo) (hne : fo ≠ []) (hf : ∀ p ∈ fo, ∀ f ∈ p.1.features, f < 2 ^ 15) (lr : F) :
    ∃ text, quickrankSaveText pr m lr = .ok text ∧ ∀ (lr' : F) (bs' : Option F),
      ∃ m', rtEnsemble half .quickRank (quickrankLoadText float zero minusOne text) lr' bs' none = .ok ⟨m', lr', bs'⟩ ∧ Represents m' fo :=
  roundtrip_on (P := fun _ => True) pr float hpr.int (fun v _ => hpr.num v) zero minusOne half h hne hf (fun _ _ => ⟨trivial, fun _ _ => trivial⟩) trivial

/-- A file cut off anywhere is refused with `ParseError`, unless only white space is missing. -/
theorem C78_cut_off (float : List Char → Option F) (zero minusOne lr : F) (bs : Option F) {whole part rest : List Char} {es : List Event}
    (hw : parse whole = .ok es) (hs : whole = part ++ rest) (hr : ∃ c ∈ rest, space c = false) :
    quickrankLoadText float zero minusOne part lr bs = .error .parseError := by
  subst hs
  unfold quickrankLoadText
  cases hp : parse part with
  | error e =>
    rw [parse_error hp]
    rfl
  | ok es' =>
    obtain ⟨c, hc, h⟩ := hr
    have := (parse_prefix hp hw).2
    rw [List.all_eq_true] at this
    rw [this c hc] at h
    cases h

/-- A file with an ampersand that begins no reference is refused with `ParseError`, wherever the ampersand is. (Comments, CDATA sections and
declarations, in which XML allows it, are left out.) -/
theorem C78_entity (float : List Char → Option F) (zero minusOne lr : F) (bs : Option F) {text : List Char} (hb : BareAmp text)
    (_hplain : ¬ ['<', '!'] <:+: text ∧ ¬ ['<', '?'] <:+: text) :
    quickrankLoadText float zero minusOne text lr bs = .error .parseError := by
  unfold quickrankLoadText
  rw [parse_bare hb]
  rfl

/-- A file whose first tree has no weight is refused with `KeyError`, if an element (of the section about learning) ends before this tree. -/
theorem C78_no_weight (float : List Char → Option F) (zero minusOne lr : F) (bs : Option F) {text : List Char} {e : Event} {pre rest : List Event}
    {attrs : List (List Char × List Char)} (hp : parse text = .ok (e :: pre ++ .start "tree".toList attrs :: rest))
    (hpre : ∀ tag ∈ ["tree", "split", "feature", "threshold", "output"], ∀ x ∈ e :: pre, (∀ as, x ≠ .start tag.toList as) ∧ ∀ t, x ≠ .finish tag.toList t)
    (hfirst : ∃ tag t, .finish tag t ∈ e :: pre) (hend : ∃ t, .finish "tree".toList t ∈ rest) (hw : ∀ w, ("weight".toList, w) ∉ attrs) :
    quickrankLoadText float zero minusOne text lr bs = .error .keyError := by
  have hskip : ∀ (pre : List Event) (s : QrState F),
      (∀ tag ∈ ["tree", "split", "feature", "threshold", "output"], ∀ x ∈ pre, (∀ as, x ≠ .start tag.toList as) ∧ ∀ t, x ≠ .finish tag.toList t) →
      pre.foldlM (qrTextStep float) s = .ok s := by
    intro pre
    induction pre with
    | nil => intro s _; rfl
    | cons x pre ih =>
      intro s h
      have hx : qrTextStep float s x = .ok s := by
        cases x with
        | start tag as =>
          have h1 : tag ≠ "tree".toList := fun ht => (h "tree" (by simp) _ List.mem_cons_self).1 as (by rw [ht])
          have h2 : tag ≠ "split".toList := fun ht => (h "split" (by simp) _ List.mem_cons_self).1 as (by rw [ht])
          simp only [qrTextStep, if_neg h1, if_neg h2]
          rfl
        | finish tag t =>
          have h2 : tag ≠ "split".toList := fun ht => (h "split" (by simp) _ List.mem_cons_self).2 t (by rw [ht])
          have h3 : tag ≠ "feature".toList := fun ht => (h "feature" (by simp) _ List.mem_cons_self).2 t (by rw [ht])
          have h4 : tag ≠ "threshold".toList := fun ht => (h "threshold" (by simp) _ List.mem_cons_self).2 t (by rw [ht])
          have h5 : tag ≠ "output".toList := fun ht => (h "output" (by simp) _ List.mem_cons_self).2 t (by rw [ht])
          simp only [qrTextStep, if_neg h2, if_neg h3, if_neg (not_or.2 ⟨h4, h5⟩)]
          rfl
      rw [List.foldlM_cons, hx]
      exact ih s (fun tag ht y hy => h tag ht y (List.mem_cons_of_mem _ hy))
  have hcount : 0 < (qrTextCount (e :: pre ++ .start "tree".toList attrs :: rest)).1 := by
    obtain ⟨t, ht⟩ := hend
    unfold qrTextCount
    simp only
    rw [List.count_pos_iff]
    have hno : "tree".toList ∉ (e :: pre).filterMap endTag := by
      intro hm
      obtain ⟨x, hx, hxe⟩ := List.mem_filterMap.1 hm
      cases x with
      | start tag as => cases hxe
      | finish tag t =>
        simp only [endTag, Option.some.injEq] at hxe
        exact (hpre "tree" (by simp) _ hx).2 t (by rw [hxe])
    rw [List.filterMap_append]
    have hin : "tree".toList ∈ (Event.start "tree".toList attrs :: rest).filterMap endTag :=
      List.mem_filterMap.2 ⟨_, List.mem_cons_of_mem _ ht, rfl⟩
    have hne : (e :: pre).filterMap endTag ≠ [] := by
      obtain ⟨tag, t', h'⟩ := hfirst
      exact List.ne_nil_of_mem (List.mem_filterMap.2 ⟨_, h', rfl⟩)
    cases hl : (e :: pre).filterMap endTag with
    | nil => exact (hne hl).elim
    | cons x l => exact List.mem_append_right _ hin
  unfold quickrankLoadText
  rw [hp]
  simp only [bind, Except.bind, List.cons_append, List.drop_succ_cons, List.drop_zero]
  rw [List.foldlM_append, hskip pre _ (fun tag ht x hx => hpre tag ht x (List.mem_cons_of_mem _ hx))]
  simp only [bind, Except.bind, List.foldlM_cons]
  have hstep : qrTextStep float ⟨alloc zero minusOne (qrTextCount (e :: (pre ++ .start "tree".toList attrs :: rest))).1
      (qrTextCount (e :: (pre ++ .start "tree".toList attrs :: rest))).2, -1, -1, []⟩ (.start "tree".toList attrs) = .error .keyError := by
    have hfind : attribText attrs "weight".toList = none := by
      unfold attribText
      rw [Option.map_eq_none_iff, List.find?_eq_none]
      rintro ⟨k, v⟩ hx hk
      have : k = "weight".toList := by simpa using hk
      exact hw v (this ▸ hx)
    simp only [qrTextStep, ↓reduceIte, qrTextTree, setRoot, pySet, alloc, hfind, List.length_replicate]
    rw [List.cons_append] at hcount
    simp only [bind, Except.bind]
    rw [if_pos ⟨by simp, by simpa using hcount⟩]
    rfl
  rw [hstep]

/-- Decimal numerals with a minus sign. -/
def intRepr : Int → List Char
  | .ofNat n => Svm.decimal n
  | .negSucc n => '-' :: Svm.decimal (n + 1)

/-- `float` on integers. -/
def intFloat (s : List Char) : Option Int := (pyInt s).toOption

theorem intText_repr (i : Int) : IntText (intRepr i) i := by
  cases i with
  | ofNat n => exact ⟨_, n, Svm.decimal_numeral n, Or.inl ⟨rfl, rfl⟩⟩
  | negSucc n => exact ⟨_, n + 1, Svm.decimal_numeral (n + 1), Or.inr (Or.inl ⟨rfl, Int.negSucc_eq n⟩)⟩

/-- The hypothesis about `repr` of C78 holds for integers (the one about the model is shown in C37). -/
theorem printsNumbers_int : PrintsNumbers ⟨intRepr, intRepr⟩ intFloat := by
  refine ⟨intText_repr, fun i => ?_⟩
  have hp : intFloat (intRepr i) = some i := by
    unfold intFloat
    rw [pyInt_ok (intText_repr i)]
    rfl
  cases i with
  | ofNat n =>
    have hd := Svm.decimal_numeral n
    refine ⟨numeral_word hd, hp, numeral_ne hd, fun c hc => ?_⟩
    obtain ⟨d, hlt, rfl⟩ := (Svm.numeral_digits hd).2.1 c hc
    exact (by decide : ∀ d < 10, Svm.digit d ∉ [':', ']', ',', ' ', '\t', '\n', '\x0b', '\x0c', '\r']) d hlt
  | negSucc n =>
    have hd := Svm.decimal_numeral (n + 1)
    refine ⟨⟨by simp [intRepr], fun c hc => ?_⟩, hp, by simp [intRepr], fun c hc => ?_⟩
    · rcases List.mem_cons.1 hc with rfl | hc
      · decide
      · exact (numeral_word hd).2 c hc
    · rcases List.mem_cons.1 hc with rfl | hc
      · decide
      · obtain ⟨d, hlt, rfl⟩ := (Svm.numeral_digits hd).2.1 c hc
        exact (by decide : ∀ d < 10, Svm.digit d ∉ [':', ']', ',', ' ', '\t', '\n', '\x0b', '\x0c', '\r']) d hlt

/-- The text of one leaf, and the hypotheses of C78_written_is_read and C78_layout for an element with markup in text and attribute. -/
example : (quickrankSaveText ⟨intRepr, intRepr⟩ (⟨1, 1, [0], [2], [-1], [-1], [7], [-1]⟩ : Ensemble Int) 1).map String.ofList = .ok
    ("<ranker>\n\t<info>\n\t\t<type>MART</type>\n\t\t<trees>1</trees>\n\t\t<leaves>1</leaves>\n\t\t<shrinkage>1</shrinkage>\n" ++
      "\t\t<leafsupport>0</leafsupport>\n\t\t<discretization>0</discretization>\n\t\t<estop>0</estop>\n\t</info>\n\t<ensemble>\n" ++
      "\t\t<tree id=\"1\" weight=\"2\">\n\t\t\t<split>\n\t\t\t\t<output>7</output>\n\t\t\t</split>\n\t\t</tree>\n\t</ensemble>\n</ranker>\n") := by
  decide +kernel

/-- `<a b="&lt;&amp;&quot;"><c>x &lt; y</c></a>`. -/
def markup : Elem := .mk ['a'] [(['b'], "<&\"".toList)] none none [.mk ['c'] [] (some "x < y".toList) none []]

example : serialize markup = "<a b=\"&lt;&amp;&quot;\"><c>x &lt; y</c></a>".toList ∧ parse (serialize markup) = .ok (elemEvents markup) := by
  decide +kernel

example : ValidElem markup ∧ (tailOf markup).all space = true ∧ Plain markup := by
  refine ⟨?_, by decide, ?_⟩
  · simp only [markup, ValidElem, ValidElems, Name]
    decide
  · simp [markup, Plain, Plains, textOf]

/-- A file laid out in another way, which spells the model of one leaf. -/
def looseFile : List Char :=
  ("<ranker><info>about<type>MART</type><trees> 1 </trees><leaves>1</leaves><shrinkage>+1</shrinkage><leafsupport>0</leafsupport>\n" ++
    "<discretization>0</discretization><estop>00</estop></info><ensemble>  <tree  id=\"1\"" ++
    " weight=\"2\" ><split><output>\n 7 \n</output> </split></tree></ensemble></ranker >").toList

/-- Its events. -/
def looseEvents : List Event :=
  let text (tag s : String) : List Event := [.start tag.toList [], .finish tag.toList (some s.toList)]
  [.start "ranker".toList [], .start "info".toList []] ++ text "type" "MART" ++ text "trees" " 1 " ++ text "leaves" "1" ++
    text "shrinkage" "+1" ++ text "leafsupport" "0" ++ text "discretization" "0" ++ text "estop" "00" ++
    [.finish "info".toList (some "about".toList), .start "ensemble".toList [],
      .start "tree".toList [("id".toList, ['1']), ("weight".toList, ['2'])], .start "split".toList []] ++ text "output" "\n 7 \n" ++
    [.finish "split".toList none, .finish "tree".toList none, .finish "ensemble".toList (some "  ".toList), .finish "ranker".toList none]

example : parse looseFile = .ok looseEvents ∧ List.Forall₂ (SpellsEvent intFloat) looseEvents
    (Xml.elem "ranker" [] none [infoXml 1 1 1, .elem "ensemble" [] none (forestXml 0 [(.leaf 7, 2)])]).events := by
  have hi : ∀ {sp ds sp' : List Char} {n : Nat}, AllSpace sp → AllSpace sp' → Numeral ds n →
      SpellsText intFloat (sp ++ ds ++ sp') (.int (n : Int)) := fun h h' hd => ⟨_, _, _, rfl, h, h', _, _, hd, Or.inl ⟨rfl, rfl⟩⟩
  have hr : ∀ {sp w sp' : List Char} {v : Int}, AllSpace sp → AllSpace sp' → IsWord w → NumText intFloat w v →
      SpellsText intFloat (sp ++ w ++ sp') (.num v) := fun h h' hw hd => ⟨_, _, _, rfl, h, h', hw, hd⟩
  have h1 : Numeral ['1'] 1 := .one (d := 1) (by decide)
  have h0 : Numeral ['0'] 0 := .one (d := 0) (by decide)
  have h00 : Numeral ['0', '0'] 0 := .more h0 (d := 0) (by decide)
  refine ⟨by decide +kernel, ?_⟩
  refine .cons ⟨rfl, .nil⟩ (.cons ⟨rfl, .nil⟩ ?_)
  refine .cons ⟨rfl, .nil⟩ (.cons ⟨rfl, fun t ht => by cases ht; exact ⟨_, rfl, rfl⟩⟩ ?_)
  refine .cons ⟨rfl, .nil⟩ (.cons ⟨rfl, fun t ht => by cases ht; exact ⟨_, rfl, hi (sp := [' ']) (sp' := [' ']) (by decide) (by decide) h1⟩⟩ ?_)
  refine .cons ⟨rfl, .nil⟩ (.cons ⟨rfl, fun t ht => by cases ht; exact ⟨_, rfl, hi (sp := []) (sp' := []) (by decide) (by decide) h1⟩⟩ ?_)
  refine .cons ⟨rfl, .nil⟩ (.cons ⟨rfl, fun t ht => by
    cases ht; exact ⟨_, rfl, hr (sp := []) (w := ['+', '1']) (sp' := []) (by decide) (by decide) (by decide) ⟨by decide, by decide, by decide⟩⟩⟩ ?_)
  refine .cons ⟨rfl, .nil⟩ (.cons ⟨rfl, fun t ht => by cases ht; exact ⟨_, rfl, hi (sp := []) (sp' := []) (by decide) (by decide) h0⟩⟩ ?_)
  refine .cons ⟨rfl, .nil⟩ (.cons ⟨rfl, fun t ht => by cases ht; exact ⟨_, rfl, hi (sp := []) (sp' := []) (by decide) (by decide) h0⟩⟩ ?_)
  refine .cons ⟨rfl, .nil⟩ (.cons ⟨rfl, fun t ht => by cases ht; exact ⟨_, rfl, hi (sp := []) (sp' := []) (by decide) (by decide) h00⟩⟩ ?_)
  refine .cons ⟨rfl, fun t ht => nomatch ht⟩ (.cons ⟨rfl, .nil⟩ ?_)
  refine .cons ⟨rfl, .cons ⟨rfl, _, _, h1, Or.inl ⟨rfl, rfl⟩⟩ (.cons ⟨rfl, by decide, by decide, by decide⟩ .nil)⟩ (.cons ⟨rfl, .nil⟩ ?_)
  refine .cons ⟨rfl, .nil⟩ (.cons ⟨rfl, fun t ht => by
    cases ht; exact ⟨_, rfl, hr (sp := ['\n', ' ']) (w := ['7']) (sp' := [' ', '\n']) (by decide) (by decide) (by decide) ⟨by decide, by decide, by decide⟩⟩⟩ ?_)
  exact .cons ⟨rfl, fun t ht => nomatch ht⟩ (.cons ⟨rfl, fun t ht => nomatch ht⟩ (.cons ⟨rfl, fun t ht => nomatch ht⟩
    (.cons ⟨rfl, fun t ht => nomatch ht⟩ .nil)))

/-- With NumPy 2, which `setup.py` admits, `repr` of the weight is `np.float32(2)`, which `float` refuses: the saved file cannot be loaded. -/
theorem C78_violated_numpy2 : ∃ text,
    quickrankSaveText ⟨intRepr, fun v => "np.float32(".toList ++ intRepr v ++ [')']⟩ qrModel 1 = .ok text ∧
    rtEnsemble 0 .quickRank (quickrankLoadText intFloat 0 (-1) text) 1 none none = .error .valueError := by
  refine ⟨_, rfl, by decide +kernel⟩

/-- The model above is cut off in the middle: 60 characters of its file. -/
example : ∃ whole, quickrankSaveText ⟨intRepr, intRepr⟩ qrModel 1 = .ok whole ∧ (∃ c ∈ whole.drop 60, space c = false) ∧
    quickrankLoadText intFloat 0 (-1) (whole.take 60) 1 none = .error .parseError := by
  refine ⟨_, rfl, by decide +kernel, by decide +kernel⟩

/-- The hypotheses of `C78_entity` hold for a file with the text `a & b`. -/
example : BareAmp "<ranker>a & b</ranker>".toList ∧
    ¬ ['<', '!'] <:+: "<ranker>a & b</ranker>".toList ∧ ¬ ['<', '?'] <:+: "<ranker>a & b</ranker>".toList := by
  refine ⟨⟨"<ranker>a ".toList, " b</ranker>".toList, by decide, by decide⟩, by decide, by decide⟩

/-- The hypotheses of `C78_no_weight` hold for this file. -/
example : parse "<ranker><info/><ensemble><tree id=\"1\"><split><output>7</output></split></tree></ensemble></ranker>".toList =
    .ok (.start "ranker".toList [] :: [.start "info".toList [], .finish "info".toList none, .start "ensemble".toList []] ++
      .start "tree".toList [("id".toList, ['1'])] :: [.start "split".toList [], .start "output".toList [], .finish "output".toList (some ['7']),
        .finish "split".toList none, .finish "tree".toList none, .finish "ensemble".toList none, .finish "ranker".toList none]) := by
  decide +kernel

end Verif.Props
