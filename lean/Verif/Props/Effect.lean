/-
Property C80: from a data file and a model file to the NDCG.
-/
import Verif.Spec.Effect
import Verif.Props.TextScores
import Verif.Props.Svmlight
import Verif.Props.Ndcg
import Verif.Props.Eval

namespace Verif.Props
open Spec Ensemble Etree Metrics Svm

theorem length_qids {F : Type} : ∀ {rows : List (SvmRow F)}, (∀ r ∈ rows, r.qid ≠ none) → (rows.filterMap (·.qid)).length = rows.length
  | [], _ => rfl
  | r :: rows, h => by
    cases hq : r.qid with
    | none => exact absurd hq (h r List.mem_cons_self)
    | some q => simp [List.filterMap_cons, hq, length_qids (fun r' hr => h r' (List.mem_cons_of_mem _ hr))]

theorem ofQuery_qids {F α : Type} (f : SvmRow F → α) (q : Int) : ∀ {rows : List (SvmRow F)}, (∀ r ∈ rows, r.qid ≠ none) →
    ofQuery q (rows.filterMap (·.qid)) (rows.map f) = (ofQid q rows).map f
  | [], _ => rfl
  | r :: rows, h => by
    have ih := ofQuery_qids f q (fun r' hr => h r' (List.mem_cons_of_mem _ hr))
    cases hq : r.qid with
    | none => exact absurd hq (h r List.mem_cons_self)
    | some q' =>
      unfold ofQuery ofQid at ih ⊢
      by_cases hqq : q' = q <;> simp [hq, hqq, ih]

theorem zip_map_self {α β γ : Type} (f : α → β) (g : α → γ) (l : List α) : (l.map f).zip (l.map g) = l.map (fun a => (f a, g a)) := by
  induction l with
  | nil => rfl
  | cons a l ih => simp [ih]

theorem values_of_queries {K : Type} {P : Int → K → Prop} : ∀ {qs : List Int} {det : List (Option K)}, det.length = qs.length →
    (∀ (i : Nat) q, qs[i]? = some q → ∃ v, P q v ∧ det[i]? = some (some v)) → ∃ vals : List K, det = vals.map some ∧ List.Forall₂ P qs vals
  | [], [], _, _ => ⟨[], rfl, .nil⟩
  | [], _ :: _, h, _ => by simp at h
  | _ :: _, [], h, _ => by simp at h
  | q :: qs, o :: det, h, hv => by
    obtain ⟨v, h1, h2⟩ := hv 0 q rfl
    obtain ⟨vals, h3, h4⟩ := values_of_queries (qs := qs) (det := det) (by simpa using h) (fun i q' hi => hv (i + 1) q' hi)
    simp only [List.getElem?_cons_zero, Option.some.injEq] at h2
    exact ⟨v :: vals, by rw [h2, h3]; rfl, .cons h1 h4⟩

theorem loadDataset_rows {F : Type} (sc : Scan F) {file : List Char} {lines : List (List Char)} {rows : List (SvmRow F)} (hf : IsLines lines file)
    (hs : SpellsRows sc lines rows) (hne : rows ≠ []) (ho : ∀ r ∈ rows, r.Ordered)
    (hfirst : (∀ r ∈ rows, r.feats = []) ∨ ∀ r ∈ rows.head?, r.feats ≠ []) (hq : ∀ r ∈ rows, r.qid ≠ none) :
    ∃ d, loadDataset sc file = .ok d ∧ mkDataset (rows.map (fun r => r.seen sc.zero sc.fixInf (svmWidth rows))) (svmWidth rows)
      (rows.map (·.label)) (rows.filterMap (·.qid)) = .ok d := by
  obtain ⟨d, hd⟩ := mkDataset_isOk (X := rows.map (fun r => r.seen sc.zero sc.fixInf (svmWidth rows))) (nf := svmWidth rows)
    (y := rows.map (·.label)) (ids := rows.filterMap (·.qid)) (by rw [length_qids hq, List.length_map])
  refine ⟨d, ?_, hd⟩
  unfold loadDataset
  rw [C09_load_partial sc hf hs hne ho hfirst]
  exact hd

/-- C80, for any loaded model that represents a forest. -/
theorem C80_ndcg_partial (sc : Scan ℝ) {file : List Char} {lines : List (List Char)} {rows : List (SvmRow ℝ)} (hf : IsLines lines file)
    (hs : SpellsRows sc lines rows) (hne : rows ≠ []) (ho : ∀ r ∈ rows, r.Ordered)
    (hfirst : (∀ r ∈ rows, r.feats = []) ∨ ∀ r ∈ rows.head?, r.feats ≠ []) (hq : ∀ r ∈ rows, r.qid ≠ none)
    (hc : Contiguous (rows.filterMap (·.qid)))
    {l : Loaded ℝ} {fo : Forest ℝ} (h : Represents l.arrays fo) (hfo : fo ≠ []) (hfe : ∀ p ∈ fo, ∀ f ∈ p.1.features, f < svmWidth rows) (detailed : Bool)
    (cfg : NdcgCfg ℝ) (hf32 : cfg.f32 = id) {c : Option Nat} (hcut : cfg.cutoff = cut c) {g : ℝ → ℝ} (hg : IsGain cfg.impl g)
    (hsort : ∀ s, Verif.IsArgsort s (cfg.sort s)) (hsortY : ∀ s, Verif.IsArgsort s (cfg.sortY s))
    (same : Dataset (List ℝ) ℝ → Dataset (List ℝ) ℝ → Bool) (hrefl : ∀ a, same a a = true) :
    ∃ d r qs vals, loadDataset sc file = .ok d ∧ scoreFresh (exactOps ℝ) l.arrays l.learningRate l.baseScore detailed d.X d.nFeatures = .ok r ∧
      (ndcgEval cfg same id ndcgFresh d r.yPred).2 = .ok (some (vals.sum / vals.length), vals.map some) ∧
      qs.Nodup ∧ (∀ q, q ∈ qs ↔ ∃ r ∈ rows, r.qid = some q) ∧ List.Forall₂ (fun q v => IsNdcg g c cfg.noRel ((ofQid q rows).map (fun r =>
        (r.label, predict (l.baseScore.getD 0) l.learningRate fo (r.seen sc.zero sc.fixInf (svmWidth rows))))) v) qs vals := by
  obtain ⟨d, hd, hmk⟩ := loadDataset_rows sc hf hs hne ho hfirst hq
  obtain ⟨_, hX, hy, hnf, -⟩ := mkDataset_spec hmk
  set X := rows.map (fun r => r.seen sc.zero sc.fixInf (svmWidth rows)) with hXdef
  have hlenX : ∀ row ∈ X, row.length = svmWidth rows := by
    intro row hrow
    obtain ⟨r, -, rfl⟩ := List.mem_map.1 hrow
    simp [SvmRow.seen, SvmRow.dense]
  obtain ⟨r, hr, hpred⟩ := C34_score h hfo hlenX hfe l.learningRate l.baseScore detailed
  have hpred' : r.yPred = rows.map (fun r => predict (l.baseScore.getD 0) l.learningRate fo (r.seen sc.zero sc.fixInf (svmWidth rows))) := by
    rw [hpred, hXdef, List.map_map]
    rfl
  set ids := rows.filterMap (·.qid) with hids
  have hlid : ids.length = rows.length := length_qids hq
  have hval := C17_value_partial cfg hf32 same id hrefl [] d r.yPred (by
    rintro a b (rfl | ⟨p, hp⟩) (rfl | ⟨p', hp'⟩) _
    · exact ⟨rfl, rfl, rfl⟩
    · simp at hp'
    · simp at hp
    · simp at hp)
  have hrun : ndcgRun cfg same id ([] : List (NdcgCall (List ℝ) ℝ)) = ndcgFresh := rfl
  rw [hrun] at hval
  have key : ∀ q, ∃ v, Metrics.ndcg cfg.sort cfg.sortY cfg.cutoff cfg.impl cfg.noRel (ofQuery q ids (rows.map (·.label))) (ofQuery q ids r.yPred) = .ok v ∧
      IsNdcg g c cfg.noRel ((ofQid q rows).map (fun r =>
        (r.label, predict (l.baseScore.getD 0) l.learningRate fo (r.seen sc.zero sc.fixInf (svmWidth rows))))) v := by
    intro q
    rw [hpred', ofQuery_qids _ q hq, ofQuery_qids _ q hq, hcut]
    obtain ⟨rk, t, h1, h2, h3, h4⟩ := C16_ndcg (hsort ((ofQid q rows).map (fun r => predict (l.baseScore.getD 0) l.learningRate fo
      (r.seen sc.zero sc.fixInf (svmWidth rows))))) (y := (ofQid q rows).map (·.label)) (by simp) (hsortY _)
    refine ⟨_, h4 c cfg.impl g cfg.noRel hg, rk, t, ?_, ?_, h3, rfl⟩
    · rwa [zip_map_self] at h1
    · rw [List.map_map]
      exact h2
  have hyl : (rows.map (·.label)).length = ids.length := by rw [List.length_map, hlid]
  have hpl : r.yPred.length = ids.length := by rw [hpred', List.length_map, hlid]
  have hok := C13_eval_succeeds (store := id) (evalQ := fun y s => (Metrics.ndcg cfg.sort cfg.sortY cfg.cutoff cfg.impl cfg.noRel y s).map some)
    hmk hc hyl hpl (fun q _ => by
      obtain ⟨v, hv, -⟩ := key q
      exact ⟨some v, by rw [hv]; rfl⟩)
  obtain ⟨⟨avg, det⟩, hev⟩ := hok
  obtain ⟨h1, h2, -, h4⟩ := C13_eval hmk hc hyl hpl hev
  have hdet : ∃ vals : List ℝ, det = vals.map some ∧ List.Forall₂ (fun q v => IsNdcg g c cfg.noRel ((ofQid q rows).map (fun r =>
        (r.label, predict (l.baseScore.getD 0) l.learningRate fo (r.seen sc.zero sc.fixInf (svmWidth rows))))) v) d.queryIds vals := by
    refine values_of_queries h1 (fun i q hi => ?_)
    obtain ⟨v, hv, hi'⟩ := h2 i q hi
    obtain ⟨w, hw, hn⟩ := key q
    rw [hw] at hv
    cases hv
    exact ⟨w, hn, hi'⟩
  obtain ⟨vals, rfl, hall⟩ := hdet
  have hb := built_of_mk hmk
  refine ⟨d, r, d.queryIds, vals, hd, by rw [hX, hnf]; exact hr, ?_, hb.nodup, ?_, hall⟩
  · rw [hval, hev]
    have hpos : vals ≠ [] := by
      rintro rfl
      obtain ⟨r', rows', rfl⟩ := List.exists_cons_of_ne_nil hne
      cases hq' : r'.qid with
      | none => exact hq r' List.mem_cons_self hq'
      | some q =>
        have : q ∈ d.queryIds := hb.mem_iff.2 (by rw [hids]; simp [hq'])
        rw [List.forall₂_nil_right_iff.1 hall] at this
        cases this
    rw [h4 ?_]
    · simp [List.filterMap_map]
    · obtain ⟨v, vs, rfl⟩ := List.exists_cons_of_ne_nil hpos
      exact ⟨some v, by simp, by simp⟩
  · intro q
    rw [hb.mem_iff, hids, List.mem_filterMap]

/-- C80 for the text of a data file and the text of a LightGBM model. -/
theorem C80_lightgbm_partial (sc : Scan ℝ) {file : List Char} {lines : List (List Char)} {rows : List (SvmRow ℝ)} (hf : IsLines lines file)
    (hs : SpellsRows sc lines rows) (hne : rows ≠ []) (ho : ∀ r ∈ rows, r.Ordered)
    (hfirst : (∀ r ∈ rows, r.feats = []) ∨ ∀ r ∈ rows.head?, r.feats ≠ []) (hq : ∀ r ∈ rows, r.qid ≠ none)
    (hc : Contiguous (rows.filterMap (·.qid)))
    (zero minusOne half : ℝ) {isZero : ℝ → Bool} {float : List Char → Option ℝ} {model : List Char} {ls : List (List Char)} (hfile : IsLines ls model)
    {ds : List (LgbLine ℝ)} (h : List.Forall₂ (SpellsLgb isZero float) ls ds) {as : List (ArrTree ℝ)} {ts : List (Spec.Tree ℝ)}
    (hlines : ds.filter lgbRelevant = lgbForest 0 as) (has : List.Forall₂ ArrTree.Is as ts) (hts : ts ≠ [])
    (hf16 : ∀ a ∈ as, ∀ f ∈ a.features, f < 2 ^ 15) (hfe : ∀ t ∈ ts, ∀ f ∈ t.features, f < svmWidth rows) (lr : ℝ) (bs : Option ℝ) (detailed : Bool)
    (cfg : NdcgCfg ℝ) (hf32 : cfg.f32 = id) {c : Option Nat} (hcut : cfg.cutoff = cut c) {g : ℝ → ℝ} (hg : IsGain cfg.impl g)
    (hsort : ∀ s, Verif.IsArgsort s (cfg.sort s)) (hsortY : ∀ s, Verif.IsArgsort s (cfg.sortY s))
    (same : Dataset (List ℝ) ℝ → Dataset (List ℝ) ℝ → Bool) (hrefl : ∀ a, same a a = true) :
    ∃ d l r qs vals, loadDataset sc file = .ok d ∧ rtEnsemble half .lightGBM (lightgbmTextLoad zero 1 minusOne isZero float model) lr bs none = .ok l ∧
      scoreFresh (exactOps ℝ) l.arrays l.learningRate l.baseScore detailed d.X d.nFeatures = .ok r ∧
      (ndcgEval cfg same id ndcgFresh d r.yPred).2 = .ok (some (vals.sum / vals.length), vals.map some) ∧
      qs.Nodup ∧ (∀ q, q ∈ qs ↔ ∃ r ∈ rows, r.qid = some q) ∧ List.Forall₂ (fun q v => IsNdcg g c cfg.noRel ((ofQid q rows).map (fun r =>
        (r.label, predict (bs.getD 0) lr (ts.map (fun t => (t, 1))) (r.seen sc.zero sc.fixInf (svmWidth rows))))) v) qs vals := by
  obtain ⟨m, h1, h2⟩ := C72_load_partial zero 1 minusOne half hfile h hlines has hf16 lr bs none
  simp only [Option.elim_none] at h2
  rw [List.take_of_length_le (by simp)] at h2
  obtain ⟨d, r, qs, vals, h3⟩ := C80_ndcg_partial (l := ⟨m, lr, bs⟩) sc hf hs hne ho hfirst hq hc h2 (by simpa using hts) (by
    intro p hp f hfp
    obtain ⟨t, ht, rfl⟩ := List.mem_map.1 hp
    exact hfe t ht f hfp) detailed cfg hf32 hcut hg hsort hsortY same hrefl
  exact ⟨d, _, r, qs, vals, h3.1, h1, h3.2⟩

/-- C80 for the text of a data file and the text of a QuickRank model. -/
theorem C80_quickrank_partial (sc : Scan ℝ) {file : List Char} {lines : List (List Char)} {rows : List (SvmRow ℝ)} (hf : IsLines lines file)
    (hs : SpellsRows sc lines rows) (hne : rows ≠ []) (ho : ∀ r ∈ rows, r.Ordered)
    (hfirst : (∀ r ∈ rows, r.feats = []) ∨ ∀ r ∈ rows.head?, r.feats ≠ []) (hq : ∀ r ∈ rows, r.qid ≠ none)
    (hc : Contiguous (rows.filterMap (·.qid)))
    (zero minusOne half : ℝ) {float : List Char → Option ℝ} (fo : Forest ℝ) (hfo : fo ≠ []) (hf16 : ∀ p ∈ fo, ∀ f ∈ p.1.features, f < 2 ^ 15)
    (trees leaves : Nat) (shrinkage : ℝ) {model : List Char} {es : List Event} (hp : parse model = .ok es)
    (hev : List.Forall₂ (SpellsEvent float) es
      (Xml.elem "ranker" [] none [infoXml trees leaves shrinkage, .elem "ensemble" [] none (forestXml 0 fo)]).events)
    (hfe : ∀ p ∈ fo, ∀ f ∈ p.1.features, f < svmWidth rows) (lr : ℝ) (bs : Option ℝ) (detailed : Bool)
    (cfg : NdcgCfg ℝ) (hf32 : cfg.f32 = id) {c : Option Nat} (hcut : cfg.cutoff = cut c) {g : ℝ → ℝ} (hg : IsGain cfg.impl g)
    (hsort : ∀ s, Verif.IsArgsort s (cfg.sort s)) (hsortY : ∀ s, Verif.IsArgsort s (cfg.sortY s))
    (same : Dataset (List ℝ) ℝ → Dataset (List ℝ) ℝ → Bool) (hrefl : ∀ a, same a a = true) :
    ∃ d l r qs vals, loadDataset sc file = .ok d ∧ rtEnsemble half .quickRank (quickrankLoadText float zero minusOne model) lr bs none = .ok l ∧
      scoreFresh (exactOps ℝ) l.arrays l.learningRate l.baseScore detailed d.X d.nFeatures = .ok r ∧
      (ndcgEval cfg same id ndcgFresh d r.yPred).2 = .ok (some (vals.sum / vals.length), vals.map some) ∧
      qs.Nodup ∧ (∀ q, q ∈ qs ↔ ∃ r ∈ rows, r.qid = some q) ∧ List.Forall₂ (fun q v => IsNdcg g c cfg.noRel ((ofQid q rows).map (fun r =>
        (r.label, predict (bs.getD 0) lr fo (r.seen sc.zero sc.fixInf (svmWidth rows))))) v) qs vals := by
  obtain ⟨m, h1, h2⟩ := C78_load float zero minusOne half fo hf16 trees leaves shrinkage hp hev lr bs none
  simp only [Option.elim_none] at h2
  rw [List.take_of_length_le (by simp)] at h2
  obtain ⟨d, r, qs, vals, h3⟩ := C80_ndcg_partial (l := ⟨m, lr, bs⟩) sc hf hs hne ho hfirst hq hc h2 hfo hfe detailed cfg hf32 hcut hg hsort hsortY same hrefl
  exact ⟨d, _, r, qs, vals, h3.1, h1, h3.2⟩

/-! ### A concrete case -/

/-- Natural numbers read as real numbers. -/
noncomputable def realScan : Scan ℝ where
  zero := 0
  label := fun s => (natScan.label s).map (fun p => ((p.1 : ℝ), p.2))
  value := fun s => (natScan.value s).map (fun n => (n : ℝ))
  fixInf := id

def SvmRow.toReal (r : SvmRow Nat) : SvmRow ℝ := ⟨r.label, r.qid, r.feats.map (fun p => (p.1, (p.2 : ℝ)))⟩

theorem forall₂_pairs {ws : List (List Char)} {fs : List (Nat × Nat)} (h : List.Forall₂ (PairText natScan) ws fs) :
    List.Forall₂ (PairText realScan) ws (fs.map (fun p => (p.1, (p.2 : ℝ)))) := by
  rw [List.forall₂_map_right_iff]
  refine h.imp ?_
  rintro w p ⟨a, b, h1, h2, h3, h4, h5⟩
  exact ⟨a, b, h1, h2, h3, h4, by simp [realScan, h5]⟩

theorem spellsRows_real {lines : List (List Char)} {rows : List (SvmRow Nat)} (h : SpellsRows natScan lines rows) :
    SpellsRows realScan lines (rows.map SvmRow.toReal) := by
  induction h with
  | nil => exact .nil
  | comment hl _ ih => exact .comment hl ih
  | @row l r ls rs hl _ ih =>
    refine .row ?_ ih
    obtain ⟨sp, lab, body, tail, ws, h1, h2, h3, h4, h5, h6, h7⟩ := hl
    refine ⟨sp, lab, body, tail, ws, h1, h2, ⟨h3.1, fun rest hr => by simp [realScan, SvmRow.toReal, h3.2 rest hr]⟩, h4, h5, h6, ?_⟩
    cases hq : r.qid with
    | none =>
      simp only [hq] at h7
      simp only [SvmRow.toReal, hq]
      exact forall₂_pairs h7
    | some q =>
      simp only [hq] at h7
      obtain ⟨w, ws', e1, e2, e3⟩ := h7
      simp only [SvmRow.toReal, hq]
      exact ⟨w, ws', e1, e2, forall₂_pairs e3⟩

/-- One tree: feature 2 at most 3, or not. -/
noncomputable def stump : Ensemble ℝ := ⟨1, 3, [0], [1], [1, -1, -1], [2, -1, -1], [3, 1, 2], [2, -1, -1]⟩

/-- An argsort of real numbers. -/
noncomputable def realSort (s : List ℝ) : List Nat := (List.range s.length).insertionSort (fun i j => s[i]?.getD 0 ≤ s[j]?.getD 0)

theorem realSort_isArgsort (s : List ℝ) : Verif.IsArgsort s (realSort s) := by
  refine ⟨List.perm_insertionSort _ _, ?_⟩
  have : Std.Total (fun i j : Nat => s[i]?.getD 0 ≤ s[j]?.getD 0) := ⟨fun a b => le_total _ _⟩
  have : IsTrans Nat (fun i j : Nat => s[i]?.getD 0 ≤ s[j]?.getD 0) := ⟨fun a b c => le_trans⟩
  have h := List.pairwise_insertionSort (fun i j : Nat => s[i]?.getD 0 ≤ s[j]?.getD 0) (List.range s.length)
  refine h.imp ?_
  intro i j hij a ha b hb
  simp only [Option.mem_def] at ha hb
  simpa [ha, hb] using hij

/-- All hypotheses of C80 hold for the file "1 qid:7 1:5 / # note / 2 qid:7 1:6 3:7 # end", the model with one tree, and the default NDCG. -/
example : ∃ d r qs vals, loadDataset realScan growingFile = .ok d ∧ scoreFresh (exactOps ℝ) stump 1 none true d.X d.nFeatures = .ok r ∧
    (ndcgEval ⟨realSort, realSort, none, .exp, 1, id⟩ (fun _ _ => true) id ndcgFresh d r.yPred).2 =
      .ok (some (vals.sum / vals.length), vals.map some) ∧
    qs.Nodup ∧ (∀ q, q ∈ qs ↔ ∃ r ∈ growingRows.map SvmRow.toReal, r.qid = some q) ∧
    List.Forall₂ (fun q v => IsNdcg (fun v => (2 : ℝ) ^ v - 1) none 1 ((ofQid q (growingRows.map SvmRow.toReal)).map (fun r =>
      (r.label, predict 0 1 [(.node 2 3 (.leaf 1) (.leaf 2), 1)] (r.seen 0 id (svmWidth (growingRows.map SvmRow.toReal)))))) v) qs vals := by
  obtain ⟨lines, h1, h2, h3, h4⟩ := growingFile_spelled
  have hrep : Represents stump [(.node 2 3 (.leaf 1) (.leaf 2), 1)] := by
    refine ⟨rfl, rfl, rfl, rfl, rfl, rfl, rfl, rfl, ?_⟩
    intro k t w hk
    match k with
    | 0 =>
      cases hk
      exact ⟨[0, 1, 2], .node (i := 0) (l := 1) (r := 2) (sl := [1]) (sr := [2]) rfl rfl rfl rfl (.leaf rfl rfl rfl rfl) (.leaf rfl rfl rfl rfl), by decide⟩
    | k + 1 => simp at hk
  have hw : svmWidth (growingRows.map SvmRow.toReal) = 3 := rfl
  refine C80_ndcg_partial (l := ⟨stump, 1, none⟩) realScan h1 (spellsRows_real h2) (by simp [growingRows]) ?_ (.inr ?_) ?_ ?_ hrep (by simp) ?_ true
    ⟨realSort, realSort, none, .exp, 1, id⟩ rfl (c := none) rfl (fun _ => rfl) realSort_isArgsort realSort_isArgsort _ (fun _ => rfl)
  · intro r hr
    obtain ⟨r', hr', rfl⟩ := List.mem_map.1 hr
    have := h3 r' hr'
    refine ⟨fun p hp => ?_, by simpa [SvmRow.toReal, Function.comp_def] using this.2⟩
    obtain ⟨p', hp', rfl⟩ := List.mem_map.1 hp
    exact this.1 p' hp'
  · simp [growingRows, SvmRow.toReal]
  · simp [growingRows, SvmRow.toReal]
  · have : (growingRows.map SvmRow.toReal).filterMap (·.qid) = [7, 7] := rfl
    rw [this]
    decide
  · rw [hw]
    simp [Tree.features]

end Verif.Props
