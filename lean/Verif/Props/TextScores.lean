/-
Property C69 for the text of files: from the characters of a model file to the scores.
-/
import Verif.Props.EndToEnd
import Verif.Props.DumpText
import Verif.Props.LightgbmText
import Verif.Props.QuickRankText
import Verif.Props.JforestsText

namespace Verif.Props
open Spec Ensemble Etree

section exact
variable {K : Type} [Field K] [LinearOrder K] {float : List Char → Option K}

/-- C69, QuickRank: any text whose events spell the document. -/
theorem C69_text_quickrank_partial (zero minusOne half : K) (fo : Forest K) (hne : fo ≠ []) (hf16 : ∀ p ∈ fo, ∀ f ∈ p.1.features, f < 2 ^ 15)
    (trees leaves : Nat) (shrinkage : K) {text : List Char} {es : List Event} (hp : parse text = .ok es)
    (hs : List.Forall₂ (SpellsEvent float) es
      (Xml.elem "ranker" [] none [infoXml trees leaves shrinkage, .elem "ensemble" [] none (forestXml 0 fo)]).events)
    (lr : K) (bs : Option K) {nTrees : Option Nat} (hn : nTrees ≠ some 0) {X : List (List K)} {nf : Nat}
    (hX : ∀ row ∈ X, row.length = nf) (hf : ∀ p ∈ fo, ∀ f ∈ p.1.features, f < nf) (detailed : Bool) :
    ∃ l r, rtEnsemble half .quickRank (quickrankLoadText float zero minusOne text) lr bs nTrees = .ok l ∧
      scoreFresh (exactOps K) l.arrays l.learningRate l.baseScore detailed X nf = .ok r ∧
      r.yPred = X.map (predict (bs.getD 0) lr (fo.take (nTrees.elim fo.length id))) := by
  obtain ⟨m, h1, h2⟩ := C78_load float zero minusOne half fo hf16 trees leaves shrinkage hp hs lr bs nTrees
  exact scores_of_loaded h1 h2 (treesUsed_pos hne hn) hne hX hf detailed

/-- C69, QuickRank: a model that is saved and loaded again gives the same scores (with the same learning rate and base score, which are not
in the file). -/
theorem C69_text_saved_partial (pr : Reprs K) (hpr : PrintsNumbers pr float) (zero minusOne half : K) {m : Ensemble K} {fo : Forest K}
    (h : Represents m fo) (hne : fo ≠ []) (hf16 : ∀ p ∈ fo, ∀ f ∈ p.1.features, f < 2 ^ 15) (lr : K) (bs : Option K) {X : List (List K)} {nf : Nat}
    (hX : ∀ row ∈ X, row.length = nf) (hf : ∀ p ∈ fo, ∀ f ∈ p.1.features, f < nf) (detailed : Bool) :
    ∃ text l r r', quickrankSaveText pr m lr = .ok text ∧
      rtEnsemble half .quickRank (quickrankLoadText float zero minusOne text) lr bs none = .ok l ∧
      scoreFresh (exactOps K) l.arrays l.learningRate l.baseScore detailed X nf = .ok r ∧
      scoreFresh (exactOps K) m lr bs detailed X nf = .ok r' ∧ r.yPred = r'.yPred := by
  obtain ⟨text, h1, h2⟩ := C78_roundtrip pr float hpr zero minusOne half h hne hf16 lr
  obtain ⟨m', h3, h4⟩ := h2 lr bs
  obtain ⟨r, h5, h6⟩ := C34_score h4 hne hX hf lr bs detailed
  obtain ⟨r', h7, h8⟩ := C34_score h hne hX hf lr bs detailed
  exact ⟨text, _, r, r', h1, h3, h5, h7, h6.trans h8.symm⟩

/-- C69, LightGBM: any text whose lines spell the model. -/
theorem C69_text_lightgbm_partial (zero minusOne half : K) {isZero : K → Bool} {file : List Char} {ls : List (List Char)} (hfile : IsLines ls file)
    {ds : List (LgbLine K)} (h : List.Forall₂ (SpellsLgb isZero float) ls ds) {as : List (ArrTree K)} {ts : List (Spec.Tree K)}
    (hlines : ds.filter lgbRelevant = lgbForest 0 as) (has : List.Forall₂ ArrTree.Is as ts) (hne : ts ≠ [])
    (hf16 : ∀ a ∈ as, ∀ f ∈ a.features, f < 2 ^ 15) (lr : K) (bs : Option K) {nTrees : Option Nat} (hn : nTrees ≠ some 0)
    {X : List (List K)} {nf : Nat} (hX : ∀ row ∈ X, row.length = nf) (hf : ∀ t ∈ ts, ∀ f ∈ t.features, f < nf) (detailed : Bool) :
    ∃ l r, rtEnsemble half .lightGBM (lightgbmTextLoad zero 1 minusOne isZero float file) lr bs nTrees = .ok l ∧
      scoreFresh (exactOps K) l.arrays l.learningRate l.baseScore detailed X nf = .ok r ∧
      r.yPred = X.map (predict (bs.getD 0) lr ((ts.map (fun t => (t, 1))).take (nTrees.elim ts.length id))) := by
  rw [C72_text zero 1 minusOne hfile h]
  exact C69_lightgbm_partial zero minusOne half hlines has hne hf16 lr bs hn hX hf detailed

/-- C69, jforests: any text whose elements spell the model. -/
theorem C69_text_jforests_partial (zero minusOne half : K) {text : List Char} {e : Event} {es : List Event} (hp : parse text = .ok (e :: es))
    {events : List (JfEvent K)} (hs : List.Forall₂ (SpellsJf float) es events) {as : List (ArrTree K × K)} {fo : Forest K}
    (hevents : events.filter jfRelevant = jfForest as) (has : List.Forall₂ (fun a p => a.1.Is p.1 ∧ a.2 = p.2) as fo) (hne : fo ≠ [])
    (hsplit : ∀ a ∈ as, a.1.features ≠ []) (hf16 : ∀ a ∈ as, ∀ f ∈ a.1.features, f < 2 ^ 15) (lr : K) (bs : Option K)
    {nTrees : Option Nat} (hn : nTrees ≠ some 0) {X : List (List K)} {nf : Nat} (hX : ∀ row ∈ X, row.length = nf)
    (hf : ∀ p ∈ fo, ∀ f ∈ p.1.features, f < nf) (detailed : Bool) :
    ∃ l r, rtEnsemble half .jforests (jforestsTextLoad float zero minusOne text) lr bs nTrees = .ok l ∧
      scoreFresh (exactOps K) l.arrays l.learningRate l.baseScore detailed X nf = .ok r ∧
      r.yPred = X.map (predict (bs.getD 0) lr (fo.take (nTrees.elim fo.length id))) := by
  obtain ⟨m, h1, h2⟩ := C83_load_partial zero minusOne half hp hs hevents has hsplit hf16 lr bs nTrees
  exact scores_of_loaded h1 h2 (treesUsed_pos hne hn) hne hX hf detailed

/-- C69, scikit-learn: any text whose lines spell the model. -/
theorem C69_text_scikit_partial (zero minusOne half : K) {file : List Char} {ls : List (List Char)} (hfile : IsLines ls file)
    {ds : List (DumpLine K)} (h : List.Forall₂ (SpellsSk float) ls ds) {ts : List (LTree K)} {b l : K}
    (hlines : ds.filter relevant = .baseScore b :: .learningRate l :: forestDump 0 ts)
    (hids : ∀ t ∈ ts, t.ids.Perm (List.range t.ids.length) ∧ t.ids.head? = some 0) (hne : ts ≠ [])
    (hf16 : ∀ t ∈ ts, ∀ f ∈ (t.toTree id).features, f < 2 ^ 15) (lr : K) (bs : Option K) {nTrees : Option Nat} (hn : nTrees ≠ some 0)
    {X : List (List K)} {nf : Nat} (hX : ∀ row ∈ X, row.length = nf) (hf : ∀ t ∈ ts, ∀ f ∈ (t.toTree id).features, f < nf) (detailed : Bool) :
    ∃ a r, rtEnsemble half .scikitLearn (scikitTextLoad zero 1 minusOne float file) lr bs nTrees = .ok a ∧
      scoreFresh (exactOps K) a.arrays a.learningRate a.baseScore detailed X nf = .ok r ∧
      r.yPred = X.map (predict b l ((ts.map (fun t => (t.toTree id, 1))).take (nTrees.elim ts.length id))) := by
  rw [C71_scikit_text zero 1 minusOne hfile h]
  exact C69_scikit_partial zero minusOne half hlines hids hne hf16 lr bs hn hX hf detailed

end exact

/-- C69, XGBoost: any text whose lines spell the dump. -/
theorem C69_text_xgboost_partial {F : Type} {float : List Char → Option F} (ops : FloatOps F) (zero one minusOne half : F) (lt : F → F → Bool)
    (strictToLe : F → F) (hconv : ∀ x t, ops.le x (strictToLe t) = lt x t) {file : List Char} {ls : List (List Char)} (hfile : IsLines ls file)
    {ds : List (DumpLine F)} (h : List.Forall₂ (SpellsDump ['<'] float) ls ds) {ts : List (LTree F)}
    (hlines : ds.filter relevant = forestDump 0 ts) (hne : ts ≠ [])
    (hf16 : ∀ t ∈ ts, ∀ f ∈ (t.toTree strictToLe).features, f < 2 ^ 15) (bs : Option F) {nTrees : Option Nat} (hn : nTrees ≠ some 0)
    {X : List (List F)} {nf : Nat} (hX : ∀ row ∈ X, row.length = nf) (hf : ∀ t ∈ ts, ∀ f ∈ (t.toTree strictToLe).features, f < nf)
    {lr : F} (h1 : ops.isOne lr = true) (h0 : ops.isZero (bs.elim half id) = false) :
    ∃ l r, rtEnsemble half .xgboost (xgboostTextLoad zero one minusOne strictToLe float file) lr bs nTrees = .ok l ∧
      scoreFresh ops l.arrays l.learningRate l.baseScore false X nf = .ok r ∧
      r.yPred = X.map (fun row => ops.add
        (((ts.take (nTrees.elim ts.length id)).map (fun t => ops.mul (t.value (goesLeft lt row)) one)).foldl ops.add ops.zero)
        (bs.elim half id)) := by
  rw [C71_xgboost_text zero one minusOne strictToLe hfile h]
  exact C69_xgboost_partial ops zero one minusOne half lt strictToLe hconv hlines hne hf16 bs hn hX hf h1 h0

/-- Reader of whole numbers. -/
def ratFloat (w : List Char) : Option ℚ := (intFloat w).map (fun i : Int => (i : ℚ))

example : ((rtEnsemble (1 / 2) .quickRank (quickrankLoadText ratFloat 0 (-1) looseFile) 2 (some 3) none).bind
    (fun l => scoreFresh (exactOps ℚ) l.arrays l.learningRate l.baseScore false [[0, 9], [1, 4]] 2)) = .ok ⟨[31, 31], none, none⟩ ∧
    [[0, 9], [1, 4]].map (predict (3 : ℚ) 2 [(.leaf 7, 2)]) = [31, 31] := by
  decide +kernel

example : ((rtEnsemble (1 / 2) .jforests (jforestsTextLoad ratFloat 0 (-1) jfFile) 1 none none).bind
    (fun l => scoreFresh (exactOps ℚ) l.arrays l.learningRate l.baseScore false [[0, 9], [6, 5], [7, 4]] 2)) = .ok ⟨[68, -10, 34], none, none⟩ ∧
    [[0, 9], [6, 5], [7, 4]].map (predict (0 : ℚ) 1 [(.node 1 5 (.node 0 6 (.leaf (-5)) (.leaf 17)) (.leaf 34), 2)]) = [68, -10, 34] := by
  decide +kernel

end Verif.Props
