/-
Property C88: from a data file and a model to all metrics that rank documents.
-/
import Verif.Spec.EffectAll
import Verif.Props.Effect
import Verif.Props.MetricsCount
import Verif.Props.MetricsGain

namespace Verif.Props
open Spec Ensemble Etree Metrics Svm

theorem isGain_of_gainOf {impl : Impl} {g : ℝ → ℝ} (h : gainOf impl = some g) : IsGain impl g := by
  cases impl <;> cases h <;> exact fun _ => rfl

/-- C88: `eval_per_query` of every metric gives the value of the textbook, for queries with a document, labels that are not negative and a cutoff
other than 0. -/
theorem C88_query {sort sortY : List ℝ → List Nat} (hsort : ∀ s, Verif.IsArgsort s (sort s)) (hsortY : ∀ s, Verif.IsArgsort s (sortY s))
    {c : Option Nat} (hc : c ≠ some 0) (m : RankMetric) (himpl : ∀ impl d, m = .dcg impl ∨ m = .ndcg impl d → impl ≠ .other)
    {docs : List (ℝ × ℝ)} (hne : docs ≠ []) (hpos : ∀ p ∈ docs, 0 ≤ p.1) :
    ∃ v, evalMetric sort sortY (cut c) m (docs.map (·.1)) (docs.map (·.2)) = .ok v ∧ IsValue m c docs v := by
  have hz : (docs.map (·.1)).zip (docs.map (·.2)) = docs := by rw [zip_map_self]; simp
  have hl : (docs.map (·.1)).length = (docs.map (·.2)).length := by simp
  have hs := hsort (docs.map (·.2))
  have hy : ∀ v ∈ docs.map (·.1), 0 ≤ v := by
    intro v hv
    obtain ⟨p, hp, rfl⟩ := List.mem_map.1 hv
    exact hpos p hp
  have hne' : docs.map (·.1) ≠ [] := by simpa using hne
  have gain : ∀ impl, impl ≠ .other → ∃ g, gainOf impl = some g := by
    intro impl h
    cases impl with
    | flat => exact ⟨_, rfl⟩
    | exp => exact ⟨_, rfl⟩
    | other => exact absurd rfl h
  cases m with
  | precision t =>
    obtain ⟨r, hr, h⟩ := C14_precision (K := ℝ) hs hl
    have hr' := hr
    rw [hz] at hr
    refine ⟨_, (h c t).1 ?_, r, hr, rfl⟩
    intro h0
    have := C14_retrieved_length hl hr' c
    rw [h0] at this
    cases c with
    | none =>
      simp only [nRetrieved, List.length_nil, List.length_map] at this
      exact hne (List.length_eq_zero_iff.1 this.symm)
    | some k =>
      have hk : k ≠ 0 := fun e => hc (by rw [e])
      have h1 : 0 < docs.length := List.length_pos_iff.2 hne
      simp [nRetrieved] at this
      omega
  | precisionMax =>
    obtain ⟨r, x, hr, h1, h2, h3⟩ := C14_precision_max (K := ℝ) hs hl hne'
    rw [hz] at hr
    exact ⟨_, h3 c hc, r, hr, x, ⟨h1, h2⟩, rfl⟩
  | recall t d =>
    obtain ⟨r, hr, h⟩ := C15_recall (K := ℝ) hs hl
    rw [hz] at hr
    exact ⟨_, rfl, r, hr, h c t d⟩
  | dcg impl =>
    obtain ⟨g, hg⟩ := gain impl (himpl impl 0 (.inl rfl))
    obtain ⟨r, hr, h⟩ := C16_dcg hs hl
    rw [hz] at hr
    exact ⟨_, h c impl g (isGain_of_gainOf hg), r, hr, g, hg, rfl⟩
  | ndcg impl d =>
    obtain ⟨g, hg⟩ := gain impl (himpl impl d (.inr rfl))
    obtain ⟨r, t, hr, h1, h2, h⟩ := C16_ndcg hs hl (hsortY _)
    rw [hz] at hr
    exact ⟨_, h c impl g d (isGain_of_gainOf hg), r, hr, g, hg, r, t, hr, h1, h2, rfl⟩
  | err =>
    obtain ⟨r, x, hr, h1, h2, h⟩ := C19_err hs hl hne'
    rw [hz] at hr
    exact ⟨_, h c, r, hr, x, ⟨h1, h2⟩, rfl⟩
  | pfound p =>
    obtain ⟨r, x, hr, h1, h2, h⟩ := C20_pfound_partial hs hl hne'
    rw [hz] at hr
    exact ⟨_, h c p, r, hr, x, ⟨h1, h2⟩, rfl⟩
  | rbp t p =>
    obtain ⟨r, hr, h⟩ := C21_rbp (K := ℝ) hs hl
    rw [hz] at hr
    exact ⟨_, rfl, r, hr, h c t p⟩
  | mrr t =>
    obtain ⟨r, hr, h⟩ := C22_mrr (K := ℝ) hs hl
    rw [hz] at hr
    exact ⟨_, rfl, r, hr, h c t⟩
  | map d =>
    obtain ⟨r, hr, h⟩ := C23_map_partial (K := ℝ) hs hl hy
    rw [hz] at hr
    refine ⟨_, rfl, r, hr, ?_⟩
    by_cases hx : ∃ x ∈ retrieved c r, 0 < x
    · exact .inl ⟨hx, (h c d).1 hx⟩
    · have hx' : ∀ x ∈ retrieved c r, ¬ 0 < x := fun x hx1 hx2 => hx ⟨x, hx1, hx2⟩
      exact .inr ⟨hx', (h c d).2 hx'⟩

/-- C88 for any metric evaluated by `Metric.eval`: what the file and the model give is what `eval_per_query` gives on the labels and the predictions of
the rows of each query, and its mean. `P` is what is known about these values. -/
theorem C88_any_partial (sc : Scan ℝ) {file : List Char} {lines : List (List Char)} {rows : List (SvmRow ℝ)} (hf : IsLines lines file)
    (hs : SpellsRows sc lines rows) (hne : rows ≠ []) (ho : ∀ r ∈ rows, r.Ordered)
    (hfirst : (∀ r ∈ rows, r.feats = []) ∨ ∀ r ∈ rows.head?, r.feats ≠ []) (hq : ∀ r ∈ rows, r.qid ≠ none)
    (hc : Contiguous (rows.filterMap (·.qid)))
    {l : Loaded ℝ} {fo : Forest ℝ} (h : Represents l.arrays fo) (hfo : fo ≠ []) (hfe : ∀ p ∈ fo, ∀ f ∈ p.1.features, f < svmWidth rows) (detailed : Bool)
    (evalQ : List ℝ → List ℝ → Except PyErr ℝ) (P : List (ℝ × ℝ) → ℝ → Prop)
    (hP : ∀ docs : List (ℝ × ℝ), docs ≠ [] → (∀ p ∈ docs, ∃ r ∈ rows, p.1 = r.label) →
      ∃ v, evalQ (docs.map (·.1)) (docs.map (·.2)) = .ok v ∧ P docs v) :
    ∃ d r qs vals, loadDataset sc file = .ok d ∧ scoreFresh (exactOps ℝ) l.arrays l.learningRate l.baseScore detailed d.X d.nFeatures = .ok r ∧
      metricEval id (fun y s => (evalQ y s).map some) d r.yPred = .ok (some (vals.sum / vals.length), vals.map some) ∧
      qs.Nodup ∧ (∀ q, q ∈ qs ↔ ∃ r ∈ rows, r.qid = some q) ∧ List.Forall₂ (fun q v => P ((ofQid q rows).map (fun r =>
        (r.label, predict (l.baseScore.getD 0) l.learningRate fo (r.seen sc.zero sc.fixInf (svmWidth rows))))) v) qs vals := by
  obtain ⟨d, hd, hmk⟩ := loadDataset_rows sc hf hs hne ho hfirst hq
  obtain ⟨_, hX, hy, hnf, -⟩ := mkDataset_spec hmk
  set X := rows.map (fun r => r.seen sc.zero sc.fixInf (svmWidth rows)) with hXdef
  have hlenX : ∀ row ∈ X, row.length = svmWidth rows := by
    intro row hrow
    obtain ⟨r, -, rfl⟩ := List.mem_map.1 hrow
    simp [SvmRow.seen, SvmRow.dense]
  obtain ⟨r, hr, hpred⟩ := C34_score h hfo hlenX hfe l.learningRate l.baseScore detailed
  have hpred' : r.yPred = rows.map (fun r => predict (l.baseScore.getD 0) l.learningRate fo (r.seen sc.zero sc.fixInf (svmWidth rows))) := by
    rw [hpred, hXdef, List.map_map]
    rfl
  set ids := rows.filterMap (·.qid) with hids
  have hlid : ids.length = rows.length := length_qids hq
  have key : ∀ q ∈ ids, ∃ v, evalQ (ofQuery q ids (rows.map (·.label))) (ofQuery q ids r.yPred) = .ok v ∧
      P ((ofQid q rows).map (fun r => (r.label, predict (l.baseScore.getD 0) l.learningRate fo (r.seen sc.zero sc.fixInf (svmWidth rows))))) v := by
    intro q hqi
    rw [hpred', ofQuery_qids _ q hq, ofQuery_qids _ q hq]
    obtain ⟨r0, hr0, hq0⟩ := List.mem_filterMap.1 hqi
    obtain ⟨v, h1, h2⟩ := hP ((ofQid q rows).map (fun r => (r.label, predict (l.baseScore.getD 0) l.learningRate fo
      (r.seen sc.zero sc.fixInf (svmWidth rows))))) (by
        intro h0
        have : r0 ∈ ofQid q rows := List.mem_filter.2 ⟨hr0, by simpa using hq0⟩
        rw [List.map_eq_nil_iff.1 h0] at this
        cases this) (by
        intro p hp
        obtain ⟨r1, hr1, rfl⟩ := List.mem_map.1 hp
        exact ⟨r1, List.mem_of_mem_filter hr1, rfl⟩)
    rw [List.map_map, List.map_map] at h1
    exact ⟨v, h1, h2⟩
  have hyl : (rows.map (·.label)).length = ids.length := by rw [List.length_map, hlid]
  have hpl : r.yPred.length = ids.length := by rw [hpred', List.length_map, hlid]
  have hok := C13_eval_succeeds (store := id) (evalQ := fun y s => (evalQ y s).map some) hmk hc hyl hpl (fun q hq' => by
      obtain ⟨v, hv, -⟩ := key q hq'
      exact ⟨some v, by rw [hv]; rfl⟩)
  obtain ⟨⟨avg, det⟩, hev⟩ := hok
  obtain ⟨h1, h2, -, h4⟩ := C13_eval hmk hc hyl hpl hev
  have hb := built_of_mk hmk
  obtain ⟨vals, rfl, hall⟩ := values_of_queries (P := fun q v => P ((ofQid q rows).map (fun r =>
        (r.label, predict (l.baseScore.getD 0) l.learningRate fo (r.seen sc.zero sc.fixInf (svmWidth rows))))) v) h1 (fun i q hi => by
    obtain ⟨v, hv, hi'⟩ := h2 i q hi
    obtain ⟨w, hw, hn⟩ := key q (hb.mem_iff.1 (List.mem_of_getElem? hi))
    rw [hw] at hv
    cases hv
    exact ⟨w, hn, hi'⟩)
  refine ⟨d, r, d.queryIds, vals, hd, by rw [hX, hnf]; exact hr, ?_, hb.nodup, ?_, hall⟩
  · rw [hev]
    have hpos : vals ≠ [] := by
      rintro rfl
      obtain ⟨r', rows', rfl⟩ := List.exists_cons_of_ne_nil hne
      cases hq' : r'.qid with
      | none => exact hq r' List.mem_cons_self hq'
      | some q =>
        have : q ∈ d.queryIds := hb.mem_iff.2 (by rw [hids]; simp [hq'])
        rw [List.forall₂_nil_right_iff.1 hall] at this
        cases this
    rw [h4 ?_]
    · simp [List.filterMap_map]
    · obtain ⟨v, vs, rfl⟩ := List.exists_cons_of_ne_nil hpos
      exact ⟨some v, by simp, by simp⟩
  · intro q
    rw [hb.mem_iff, hids, List.mem_filterMap]

/-- C88, proved part: for a data file and a model, each metric that ranks documents is for each query of the file the value of the textbook for a
ranking of the rows of the query by the predictions of the forest, and on the whole their mean. NDCG has its own `eval`, see C80. Missing: files with
scattered queries or that begin with rows without features (C02, C09), labels below 0. -/
theorem C88_metrics_partial (sc : Scan ℝ) {file : List Char} {lines : List (List Char)} {rows : List (SvmRow ℝ)} (hf : IsLines lines file)
    (hs : SpellsRows sc lines rows) (hne : rows ≠ []) (ho : ∀ r ∈ rows, r.Ordered)
    (hfirst : (∀ r ∈ rows, r.feats = []) ∨ ∀ r ∈ rows.head?, r.feats ≠ []) (hq : ∀ r ∈ rows, r.qid ≠ none)
    (hc : Contiguous (rows.filterMap (·.qid))) (hpos : ∀ r ∈ rows, 0 ≤ r.label)
    {l : Loaded ℝ} {fo : Forest ℝ} (h : Represents l.arrays fo) (hfo : fo ≠ []) (hfe : ∀ p ∈ fo, ∀ f ∈ p.1.features, f < svmWidth rows) (detailed : Bool)
    {sort sortY : List ℝ → List Nat} (hsort : ∀ s, Verif.IsArgsort s (sort s)) (hsortY : ∀ s, Verif.IsArgsort s (sortY s))
    {c : Option Nat} (hcut : c ≠ some 0) (m : RankMetric) (himpl : ∀ impl d, m = .dcg impl ∨ m = .ndcg impl d → impl ≠ .other) :
    ∃ d r qs vals, loadDataset sc file = .ok d ∧ scoreFresh (exactOps ℝ) l.arrays l.learningRate l.baseScore detailed d.X d.nFeatures = .ok r ∧
      metricEval id (fun y s => (evalMetric sort sortY (cut c) m y s).map some) d r.yPred = .ok (some (vals.sum / vals.length), vals.map some) ∧
      qs.Nodup ∧ (∀ q, q ∈ qs ↔ ∃ r ∈ rows, r.qid = some q) ∧ List.Forall₂ (fun q v => IsValue m c ((ofQid q rows).map (fun r =>
        (r.label, predict (l.baseScore.getD 0) l.learningRate fo (r.seen sc.zero sc.fixInf (svmWidth rows))))) v) qs vals := by
  refine C88_any_partial sc hf hs hne ho hfirst hq hc h hfo hfe detailed (evalMetric sort sortY (cut c) m) (IsValue m c) (fun docs hd hlab => ?_)
  refine C88_query hsort hsortY hcut m himpl hd (fun p hp => ?_)
  obtain ⟨r, hr, e⟩ := hlab p hp
  rw [e]
  exact hpos r hr

/-- All hypotheses of C88 hold for the file "1 qid:7 1:5 / # note / 2 qid:7 1:6 3:7 # end", the model with one tree, and any of the metrics with the
cutoff 1, here ERR, MRR and MAP. -/
example (m : RankMetric) (hm : m ∈ [RankMetric.err, .mrr 1, .map 0]) :
    ∃ d r qs vals, loadDataset realScan growingFile = .ok d ∧ scoreFresh (exactOps ℝ) stump 1 none true d.X d.nFeatures = .ok r ∧
    metricEval id (fun y s => (evalMetric realSort realSort (cut (some 1)) m y s).map some) d r.yPred =
      .ok (some (vals.sum / vals.length), vals.map some) ∧
    qs.Nodup ∧ (∀ q, q ∈ qs ↔ ∃ r ∈ growingRows.map SvmRow.toReal, r.qid = some q) ∧
    List.Forall₂ (fun q v => IsValue m (some 1) ((ofQid q (growingRows.map SvmRow.toReal)).map (fun r =>
      (r.label, predict 0 1 [(.node 2 3 (.leaf 1) (.leaf 2), 1)] (r.seen 0 id (svmWidth (growingRows.map SvmRow.toReal)))))) v) qs vals := by
  obtain ⟨lines, h1, h2, h3, h4⟩ := growingFile_spelled
  have hrep : Represents stump [(.node 2 3 (.leaf 1) (.leaf 2), 1)] := by
    refine ⟨rfl, rfl, rfl, rfl, rfl, rfl, rfl, rfl, ?_⟩
    intro k t w hk
    match k with
    | 0 =>
      cases hk
      exact ⟨[0, 1, 2], .node (i := 0) (l := 1) (r := 2) (sl := [1]) (sr := [2]) rfl rfl rfl rfl (.leaf rfl rfl rfl rfl) (.leaf rfl rfl rfl rfl), by decide⟩
    | k + 1 => simp at hk
  have hw : svmWidth (growingRows.map SvmRow.toReal) = 3 := rfl
  refine C88_metrics_partial (l := ⟨stump, 1, none⟩) realScan h1 (spellsRows_real h2) (by simp [growingRows]) ?_ (.inr ?_) ?_ ?_ ?_ hrep (by simp) ?_ true
    realSort_isArgsort realSort_isArgsort (by simp) m ?_
  · intro r hr
    obtain ⟨r', hr', rfl⟩ := List.mem_map.1 hr
    have := h3 r' hr'
    refine ⟨fun p hp => ?_, by simpa [SvmRow.toReal, Function.comp_def] using this.2⟩
    obtain ⟨p', hp', rfl⟩ := List.mem_map.1 hp
    exact this.1 p' hp'
  · simp [growingRows, SvmRow.toReal]
  · simp [growingRows, SvmRow.toReal]
  · have : (growingRows.map SvmRow.toReal).filterMap (·.qid) = [7, 7] := rfl
    rw [this]
    decide
  · simp [growingRows, SvmRow.toReal]
  · rw [hw]
    simp [Tree.features]
  · rintro impl d (rfl | rfl) <;> simp at hm

/-- The values of one query: two documents with labels 0 and 2, the second with the larger score; the reciprocal rank is 1. -/
example : ∃ v, evalMetric realSort realSort (cut none) (.mrr 1) ([((0 : ℝ), (1 : ℝ)), (2, 3)].map (·.1)) ([((0 : ℝ), (1 : ℝ)), (2, 3)].map (·.2)) = .ok v ∧
    IsValue (.mrr 1) none [(0, 1), (2, 3)] v :=
  C88_query realSort_isArgsort realSort_isArgsort (by simp) (.mrr 1) (by simp) (by simp) (by simp)

end Verif.Props
