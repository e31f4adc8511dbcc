/-
Property C37: saving a model in QuickRank format and loading it again.
-/
import Verif.Lemmas.QuickRank
import Verif.Props.LoadDump
import Verif.Props.Scoring

namespace Verif.Props
open Spec Ensemble
variable {F : Type}

theorem mapM_pointwise {α β : Type} {f : Nat → Except PyErr β} {g : Nat → α → β} (l : List α) (k : Nat)
    (h : ∀ j a, l[j]? = some a → f (k + j) = .ok (g (k + j) a)) :
    (List.range' k l.length).mapM f = .ok ((l.zipIdx k).map (fun p => g p.2 p.1)) := by
  induction l generalizing k with
  | nil => rfl
  | cons a l ih =>
    have h0 := h 0 a rfl
    have h1 := ih (k + 1) (fun j b hj => by
      have := h (j + 1) b (by simpa using hj)
      rwa [show k + (j + 1) = k + 1 + j by omega] at this)
    rw [List.length_cons, List.range'_succ, List.mapM_cons, show f k = .ok (g k a) from h0, h1]
    rfl

theorem forestXml_eq (fo : Forest F) (k : Nat) : forestXml k fo = (fo.zipIdx k).map (fun p => treeElem p.2 p.1.1 p.1.2) := by
  induction fo generalizing k with
  | nil => rfl
  | cons p fo ih =>
    obtain ⟨t, w⟩ := p
    rw [forestXml, ih]
    rfl

/-- What `save` writes: a section about learning, then the trees in order with their weights, features numbered from 1. -/
theorem C37_save {m : Ensemble F} {fo : Forest F} (h : Represents m fo) (hne : fo ≠ []) (lr : F) :
    ∃ n, quickrankSave m lr = .ok (.elem "ranker" [] none [infoXml fo.length n lr, .elem "ensemble" [] none (forestXml 0 fo)]) ∧
      (∃ p ∈ fo, p.1.numLeaves = n) ∧ ∀ p ∈ fo, p.1.numLeaves ≤ n := by
  obtain ⟨n, hn, h1, h2⟩ := C36_max_leaves h hne
  refine ⟨n, ?_, h1, h2⟩
  have htrees : (List.range m.nTrees).mapM (treeXml m) = .ok (forestXml 0 fo) := by
    rw [h.nTrees, List.range_eq_range', forestXml_eq]
    apply mapM_pointwise (g := fun k (p : Spec.Tree F × F) => treeElem k p.1 p.2) fo 0
    intro j p hj
    obtain ⟨t, w⟩ := p
    obtain ⟨s, hs, _⟩ := h.trees j t w hj
    have hle := h.numNodes_le hj
    unfold treeXml
    simp only [Nat.zero_add, pyGet_ok (h.weight_get hj), pyGet_ok (h.root_get hj),
      nodeXml_encodes hs (m.nNodes + 1) (by omega) none, bind, Except.bind, pure, Except.pure]
    rfl
  unfold quickrankSave
  rw [hn]
  simp only [bind, Except.bind, htrees, pure, Except.pure]
  rw [h.nTrees]

/-- Loading a QuickRank document with a section about learning gives exactly its trees, in order, with their weights. Features
below 2^15. -/
theorem C37_load (zero minusOne half : F) (fo : Forest F) (hf : ∀ p ∈ fo, ∀ f ∈ p.1.features, f < 2 ^ 15) (trees leaves : Nat)
    (shrinkage lr : F) (bs : Option F) (nTrees : Option Nat) :
    ∃ m, rtEnsemble half .quickRank (quickrankLoad zero minusOne
        (.elem "ranker" [] none [infoXml trees leaves shrinkage, .elem "ensemble" [] none (forestXml 0 fo)])) lr bs nTrees =
        .ok ⟨m, lr, bs⟩ ∧ Represents m (fo.take (nTrees.elim fo.length id)) := by
  obtain ⟨info, e, hinfo, _⟩ := docXml_events trees leaves shrinkage fo
  obtain ⟨m, hm, hl⟩ := qr_forest hf fo 0 (by simp) (alloc zero minusOne fo.length (Forest.numNodes fo))
    (loadedTrees_alloc fo zero minusOne rfl rfl)
  rw [Nat.zero_add] at hm hl
  refine C35_loading (a := m) ?_ hl.represents nTrees
  have hcount := qrCount_doc trees leaves shrinkage fo
  unfold docXml at hcount e
  unfold quickrankLoad
  rw [hcount, e]
  simp only [List.drop_succ_cons, List.drop_zero]
  have h0 : (⟨alloc zero minusOne fo.length (Forest.numNodes fo), -1, -1, []⟩ : QrState F) =
      ⟨alloc zero minusOne fo.length (Forest.numNodes fo), ((0 : Nat) : Int) - 1, (treeStart fo 0 : Int) - 1, []⟩ := rfl
  rw [foldlM_ok_append (hinfo _), foldlM_ok_cons (qrStep_skip_start _ (by decide) (by decide)), h0, foldlM_ok_append hm,
    foldlM_ok_cons (qrStep_skip_finish none (by decide) (by decide) (by decide) (by decide)),
    foldlM_ok_cons (qrStep_skip_finish none (by decide) (by decide) (by decide) (by decide)), foldlM_ok_nil]
  rfl

/-- C37, proved part: a model with at least one tree can be saved, and the saved document loads to exactly the same trees in the same
order with the same weights; learning rate and base score are those given to the constructor, not those of the saved model.
Missing: the learning rate and the base score, see `C37_violated`. -/
theorem C37_roundtrip_partial (zero minusOne half : F) {m : Ensemble F} {fo : Forest F} (h : Represents m fo) (hne : fo ≠ [])
    (hf : ∀ p ∈ fo, ∀ f ∈ p.1.features, f < 2 ^ 15) (lr : F) :
    ∃ doc, quickrankSave m lr = .ok doc ∧ ∀ (lr' : F) (bs' : Option F),
      ∃ m', rtEnsemble half .quickRank (quickrankLoad zero minusOne doc) lr' bs' none = .ok ⟨m', lr', bs'⟩ ∧ Represents m' fo := by
  obtain ⟨n, hs, _⟩ := C37_save h hne lr
  refine ⟨_, hs, fun lr' bs' => ?_⟩
  obtain ⟨m', h1, h2⟩ := C37_load zero minusOne half fo hf fo.length n lr lr' bs' none
  exact ⟨m', h1, by simpa using h2⟩

/-- Hence, if the learning rate and the base score are given again, the reloaded model scores every dataset as the saved one did. -/
theorem C37_scores (ops : FloatOps F) (zero minusOne half : F) {m : Ensemble F} {fo : Forest F} (h : Represents m fo) (hne : fo ≠ [])
    (hf : ∀ p ∈ fo, ∀ f ∈ p.1.features, f < 2 ^ 15) (lr : F) (bs : Option F) :
    ∃ doc m', quickrankSave m lr = .ok doc ∧
      rtEnsemble half .quickRank (quickrankLoad zero minusOne doc) lr bs none = .ok ⟨m', lr, bs⟩ ∧
      ∀ (X : List (List F)) (nf : Nat), (∀ row ∈ X, row.length = nf) →
        scoreFresh ops m' lr bs false X nf = scoreFresh ops m lr bs false X nf := by
  obtain ⟨doc, hs, hl⟩ := C37_roundtrip_partial zero minusOne half h hne hf lr
  obtain ⟨m', h1, h2⟩ := hl lr bs
  refine ⟨doc, m', hs, h1, fun X nf hX => ?_⟩
  by_cases hmiss : ∃ p ∈ fo, ∃ f ∈ p.1.features, nf ≤ f
  · rw [C31_missing_feature_rejected ops h hX lr bs false hmiss, C31_missing_feature_rejected ops h2 hX lr bs false hmiss]
  · have hc : ∀ {m : Ensemble F}, Represents m fo → featureCheck m nf = .ok () := by
      intro m h
      rcases C31_memory_safe ops h hne hX lr bs false with ⟨_, h4⟩ | ⟨⟨r, h3⟩, _⟩
      · exact absurd h4 hmiss
      · unfold scoreFresh at h3
        cases hh : featureCheck m nf with
        | ok u => rfl
        | error e => rw [hh] at h3; cases h3
    unfold scoreFresh
    rw [hc h, hc h2]
    simp only [rawScore, Bool.false_eq_true, if_false, C29_score ops h hX (hc h), C29_score ops h2 hX (hc h2)]

/-- What the section about learning says: the number of trees, the number of leaves of the largest tree, and the learning rate; nothing about the base score. -/
theorem C37_info {m : Ensemble F} {fo : Forest F} (h : Represents m fo) (hne : fo ≠ []) (lr : F) :
    ∃ n trees, quickrankSave m lr = .ok (.elem "ranker" [] none [.elem "info" [] none
        [.elem "type" [] (some (.str "MART")) [], .elem "trees" [] (some (.int fo.length)) [], .elem "leaves" [] (some (.int n)) [],
          .elem "shrinkage" [] (some (.num lr)) [], .elem "leafsupport" [] (some (.int 0)) [], .elem "discretization" [] (some (.int 0)) [],
          .elem "estop" [] (some (.int 0)) []], .elem "ensemble" [] none trees]) ∧ trees.length = fo.length ∧
      (∃ p ∈ fo, (p.1.numLeaves : Int) = n) ∧ ∀ p ∈ fo, (p.1.numLeaves : Int) ≤ n := by
  obtain ⟨n, hs, ⟨p, hp, hpn⟩, hmax⟩ := C37_save h hne lr
  refine ⟨n, forestXml 0 fo, hs, ?_, ⟨p, hp, by rw [hpn]⟩, fun q hq => by exact_mod_cast hmax q hq⟩
  rw [forestXml_eq, List.length_map, List.length_zipIdx]

/-- A document whose first tree has no weight is refused with `KeyError`. -/
theorem C37_no_weight (zero minusOne half : F) (trees leaves : Nat) (shrinkage lr : F) (bs : Option F) (nTrees : Option Nat)
    {attrs : List (String × Text F)} (hw : ∀ t, ("weight", t) ∉ attrs) (text : Option (Text F)) (nodes others : List (Xml F)) :
    rtEnsemble half .quickRank (quickrankLoad zero minusOne
      (.elem "ranker" [] none [infoXml trees leaves shrinkage, .elem "ensemble" [] none (.elem "tree" attrs text nodes :: others)])) lr bs nTrees =
      .error .keyError := by
  obtain ⟨info, e, hinfo, htags⟩ := docXml_events trees leaves shrinkage ([] : Forest F)
  have hev : ∀ children : List (Xml F), (Xml.elem "ranker" [] none [infoXml trees leaves shrinkage, .elem "ensemble" [] none children]).events =
      .start "ranker" [] :: ((infoXml trees leaves shrinkage).events ++ (.start "ensemble" [] ::
        (Xml.eventsList children ++ [.finish "ensemble" none, .finish "ranker" none]))) := by
    intro children
    rw [Xml.events, Xml.eventsList, Xml.eventsList, Xml.eventsList, Xml.events]
    simp
  have hi : (infoXml trees leaves shrinkage).events = info := by
    unfold docXml at e
    rw [hev, List.cons_inj_right, List.append_cancel_right_eq] at e
    exact e
  have hattr : attrib attrs "weight" = none := by
    unfold attrib
    rw [Option.map_eq_none_iff, List.find?_eq_none]
    rintro ⟨k, t⟩ hk
    simp only [beq_iff_eq]
    rintro rfl
    exact hw t hk
  have hcount : 0 < (qrCount (.elem "ranker" [] none [infoXml trees leaves shrinkage, .elem "ensemble" [] none (.elem "tree" attrs text nodes :: others)])).1 := by
    have hq : ∀ doc : Xml F, (qrCount doc).1 = ((endTags doc.events).drop 1).count "tree" := fun _ => rfl
    rw [hq, hev, hi, List.count_pos_iff]
    have ht : endTags (.start "ranker" [] :: (info ++ (.start "ensemble" [] :: (Xml.eventsList (.elem "tree" attrs text nodes :: others) ++
        [.finish "ensemble" none, .finish "ranker" none])))) = endTags info ++ endTags (Xml.eventsList (.elem "tree" attrs text nodes :: others)) ++
          ["ensemble", "ranker"] := by
      simp [endTags]
    rw [ht, htags]
    have : "tree" ∈ endTags (Xml.eventsList (.elem "tree" attrs text nodes :: others)) := by
      rw [Xml.eventsList, Xml.events]
      simp [endTags]
    simp [this]
  have hload : ∀ bs, quickrankLoad zero minusOne
      (.elem "ranker" [] none [infoXml trees leaves shrinkage, .elem "ensemble" [] none (.elem "tree" attrs text nodes :: others)]) lr bs = .error .keyError := by
    intro bs
    unfold quickrankLoad
    generalize hc : qrCount (.elem "ranker" [] none [infoXml trees leaves shrinkage, .elem "ensemble" [] none (.elem "tree" attrs text nodes :: others)]) = cnt at hcount
    obtain ⟨nt, nn⟩ := cnt
    obtain ⟨nt, rfl⟩ : ∃ k, nt = k + 1 := ⟨nt - 1, by simp only at hcount; omega⟩
    simp only [hev, hi, List.drop_succ_cons, List.drop_zero]
    have hroot : setRoot (alloc zero minusOne (nt + 1) nn) (-1 + 1) (-1 + 1) =
        .ok { alloc zero minusOne (nt + 1) nn with root := (alloc zero minusOne (nt + 1) nn).root.set 0 0 } := by
      unfold setRoot
      rw [show (-1 + 1 : Int) = ((0 : Nat) : Int) by rfl, pySet_ok _ (by simp [alloc])]
      rfl
    have hstep : qrStep ⟨alloc zero minusOne (nt + 1) nn, -1, -1, []⟩ (.start "tree" attrs) = .error .keyError := by
      unfold qrStep
      simp only [if_true, hroot]
      unfold weightAttr
      simp only [hattr]
      rfl
    have hfold : (info ++ (XmlEvent.start "ensemble" [] :: (Xml.eventsList (.elem "tree" attrs text nodes :: others) ++
        [XmlEvent.finish "ensemble" none, XmlEvent.finish "ranker" none]))).foldlM qrStep ⟨alloc zero minusOne (nt + 1) nn, -1, -1, []⟩ = .error .keyError := by
      rw [List.foldlM_append, hinfo, Xml.eventsList, Xml.events]
      show List.foldlM qrStep _ (.start "ensemble" [] :: _) = _
      rw [List.foldlM_cons, qrStep_skip_start _ (by decide) (by decide)]
      show List.foldlM qrStep _ (.start "tree" attrs :: _) = _
      rw [List.foldlM_cons, hstep]
      rfl
    rw [hfold]
    rfl
  unfold rtEnsemble
  rw [hload (initialBase half .quickRank bs)]
  rfl

/-- A model with two trees. -/
def qrForest : Forest Int := [(.node 0 5 (.leaf 1) (.node 2 7 (.leaf 2) (.leaf 3)), 2), (.leaf 4, 1)]

/-- Its arrays. -/
def qrModel : Ensemble Int where
  nTrees := 2
  nNodes := 6
  root := [0, 5]
  weight := [2, 1]
  left := [1, -1, 3, -1, -1, -1]
  right := [2, -1, 4, -1, -1, -1]
  value := [5, 1, 7, 2, 3, 4]
  feature := [0, -1, 2, -1, -1, -1]

/-- The hypotheses of C37 hold for it. -/
example : Represents qrModel qrForest ∧ qrForest ≠ [] ∧ ∀ p ∈ qrForest, ∀ f ∈ p.1.features, f < 2 ^ 15 := by
  refine ⟨⟨rfl, rfl, rfl, rfl, rfl, rfl, rfl, rfl, ?_⟩, by decide, by decide⟩
  intro k t w hk
  match k with
  | 0 =>
    cases hk
    refine ⟨[0, 1, 2, 3, 4], ?_, by decide⟩
    refine .node (l := 1) (r := 2) (sl := [1]) (sr := [2, 3, 4]) rfl rfl rfl rfl (.leaf rfl rfl rfl rfl) ?_
    exact .node (l := 3) (r := 4) (sl := [3]) (sr := [4]) rfl rfl rfl rfl (.leaf rfl rfl rfl rfl) (.leaf rfl rfl rfl rfl)
  | 1 =>
    cases hk
    exact ⟨[5], .leaf rfl rfl rfl rfl, by decide⟩
  | k + 2 => simp [qrForest] at hk

/-- Exact arithmetic on integers. -/
def intOps : FloatOps Int where
  zero := 0
  add := (· + ·)
  mul := (· * ·)
  le := fun a b => decide (a ≤ b)
  sum := List.sum
  isOne := fun a => decide (a = 1)
  isZero := fun a => decide (a = 0)

/-- C37 is violated: the model above with learning rate 3 and base score 10 scores the row [9, 0, 8] with 40; saved and loaded again (the
constructor's defaults: learning rate 1, no base score) it scores the row with 10. -/
theorem C37_violated :
    scoreFresh intOps qrModel 3 (some 10) false [[9, 0, 8]] 3 = .ok ⟨[40], none, none⟩ ∧
    ∃ doc m', quickrankSave qrModel 3 = .ok doc ∧
      rtEnsemble 0 .quickRank (quickrankLoad 0 (-1) doc) 1 none none = .ok ⟨m', 1, none⟩ ∧ m' = qrModel ∧
      scoreFresh intOps m' 1 none false [[9, 0, 8]] 3 = .ok ⟨[10], none, none⟩ := by
  refine ⟨by decide +kernel, _, qrModel, rfl, by decide +kernel, rfl, by decide +kernel⟩

/-- Without the section about learning, the first output is not counted (its `end` event comes first and is skipped), so
that a document with one leaf cannot be loaded. -/
theorem C37_no_info :
    rtEnsemble 0 .quickRank (quickrankLoad 0 (-1)
      (.elem "ranker" [] none [.elem "ensemble" [] none (forestXml 0 [(.leaf (7 : Int), 1)])])) 1 none none = .error .indexError := by
  decide +kernel

/-- The hypothesis of `C37_no_weight` holds for a tree with a number only. -/
example : ∀ t, ("weight", t) ∉ [("id", (Text.int 1 : Text Int))] := by
  intro t h
  simp at h

end Verif.Props
