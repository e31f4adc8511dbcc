/-
Property C116 (order of the rows and names of the queries).
-/
import Verif.Props.MetricsOrder
import Verif.Props.Parts

namespace Verif.Props
open Spec Metrics Dataset Ensemble

/-! ### Scores are computed row by row -/

section rowwise
variable {F : Type} (ops : FloatOps F)

theorem mapM_map_of_ok {α β : Type} {f : α → Except PyErr β} {a : List α} {b : List β} (h : a.mapM f = .ok b) (g : α → β)
    (hg : ∀ x v, f x = .ok v → g x = v) : b = a.map g ∧ ∀ x ∈ a, f x = .ok (g x) := by
  induction a generalizing b with
  | nil =>
    simp only [List.mapM_nil, pure, Except.pure, Except.ok.injEq] at h
    subst h
    simp
  | cons x a ih =>
    rw [List.mapM_cons] at h
    simp only [bind, Except.bind] at h
    cases hx : f x with
    | error e => rw [hx] at h; cases h
    | ok v =>
      rw [hx] at h
      simp only at h
      cases ha : a.mapM f with
      | error e => rw [ha] at h; cases h
      | ok vs =>
        rw [ha] at h
        simp only [pure, Except.pure, Except.ok.injEq] at h
        subst h
        obtain ⟨h1, h2⟩ := ih ha
        refine ⟨by rw [h1, List.map_cons, hg x v hx], ?_⟩
        intro z hz
        rcases List.mem_cons.1 hz with rfl | hz
        · rw [hx, hg _ v hx]
        · exact h2 z hz

/-- The score of a row is the same in every dataset with these rows. -/
theorem score_rowwise {m : Ensemble F} {lr : F} {bs : Option F} {nf : Nat} {X : List (List F)} {r : Scored F}
    (h : scoreFresh ops m lr bs false X nf = .ok r) :
    ∃ f : List F → F, r.yPred = X.map f ∧ ∀ X' : List (List F), (∀ x ∈ X', x ∈ X) → ∃ r', scoreFresh ops m lr bs false X' nf = .ok r' ∧ r'.yPred = X'.map f := by
  unfold scoreFresh at h
  simp only [bind, Except.bind, rawScore, Bool.false_eq_true, ↓reduceIte, basicScoring] at h
  split at h
  · cases h
  rename_i hck
  cases hs : X.mapM (fun row => basicRow ops m row (List.range m.nTrees) ops.zero) with
  | error e => rw [hs] at h; cases h
  | ok v =>
    rw [hs] at h
    simp only [pure, Except.pure, Except.ok.injEq] at h
    let g : List F → F := fun row => match basicRow ops m row (List.range m.nTrees) ops.zero with
      | .ok v => v
      | .error _ => ops.zero
    obtain ⟨h1, h2⟩ := mapM_map_of_ok hs g (fun x v hx => by simp only [g, hx])
    obtain ⟨f, hf⟩ : ∃ f : F → F, ∀ l : List F, (adjust ops lr bs ⟨l, none, none⟩).yPred = l.map f := by
      unfold adjust
      cases bs with
      | none =>
        by_cases h1 : ops.isOne lr = true
        · exact ⟨id, fun l => by simp [h1]⟩
        · exact ⟨fun v => ops.mul v lr, fun l => by simp [h1]⟩
      | some b =>
        by_cases h1 : ops.isOne lr = true <;> by_cases h2 : ops.isZero b = true
        · exact ⟨id, fun l => by simp [h1, h2]⟩
        · exact ⟨fun v => ops.add v b, fun l => by simp [h1, h2]⟩
        · exact ⟨fun v => ops.mul v lr, fun l => by simp [h1, h2]⟩
        · exact ⟨fun v => ops.add (ops.mul v lr) b, fun l => by simp [h1, h2]⟩
    refine ⟨fun row => f (g row), by rw [← h, hf, h1, List.map_map]; rfl, ?_⟩
    intro X' hX'
    refine ⟨adjust ops lr bs ⟨X'.map g, none, none⟩, ?_, by rw [hf, List.map_map]; rfl⟩
    unfold scoreFresh
    simp only [bind, Except.bind, rawScore, Bool.false_eq_true, ↓reduceIte, basicScoring, hck]
    rw [mapM_ok (g := g) (fun x hx => h2 x (hX' x hx))]
    rfl

end rowwise

/-! ### The documents of a query -/

section docs
variable {R L S : Type}

theorem zip_ofQuery (f : R → S) (q : Int) (ids : List Int) : ∀ (X : List R) (y : List L), X.length = ids.length → y.length = ids.length →
    (ofQuery q ids y).zip (ofQuery q ids (X.map f)) = ((rows X y ids).filter (fun r => decide (r.2.2 = q))).map (fun r => (r.2.1, f r.1)) := by
  induction ids with
  | nil =>
    intro X y h1 h2
    rw [List.length_nil, List.length_eq_zero_iff] at h1 h2
    subst h1 h2
    rfl
  | cons i ids ih =>
    intro X y h1 h2
    cases X with
    | nil => simp at h1
    | cons x X =>
      cases y with
      | nil => simp at h2
      | cons l y =>
        have := ih X y (by simpa using h1) (by simpa using h2)
        unfold ofQuery rows at this ⊢
        by_cases hi : i = q <;> simp [hi, this]

theorem length_ofQuery_eq {α β : Type} (q : Int) (ids : List Int) : ∀ (a : List α) (b : List β), a.length = ids.length → b.length = ids.length →
    (ofQuery q ids a).length = (ofQuery q ids b).length := by
  induction ids with
  | nil =>
    intro a b ha hb
    rw [List.length_nil, List.length_eq_zero_iff] at ha hb
    subst ha hb
    rfl
  | cons i ids ih =>
    intro a b ha hb
    cases a with
    | nil => simp at ha
    | cons x a =>
      cases b with
      | nil => simp at hb
      | cons z b =>
        have := ih a b (by simpa using ha) (by simpa using hb)
        unfold ofQuery at this ⊢
        by_cases hi : i = q <;> simp [hi] at this ⊢ <;> exact this

theorem ranking_unique_ties [LinearOrder S] {docs r r' : List (L × S)} (hd : TiesEqual docs) (hr : IsRanking docs r) (hr' : IsRanking docs r') : r = r' := by
  refine List.Perm.eq_of_pairwise ?_ hr.sorted hr'.sorted (hr.perm.trans hr'.perm.symm)
  intro a b ha hb h1 h2
  have e := le_antisymm h2 h1
  exact Prod.ext (hd a (hr.perm.mem_iff.1 ha) b (hr'.perm.mem_iff.1 hb) e) e

end docs

section perQuery
variable {S : Type} [LinearOrder S] {sort : List S → List Nat} {sortY : List ℝ → List Nat} {y y' : List ℝ} {s s' : List S}

/-- The value for a query does not depend on the order of its documents. -/
theorem evalMetric_perm (hs : ∀ v, IsArgsort v (sort v)) (hsY : ∀ v, IsArgsort v (sortY v)) (h : y.length = s.length) (h' : y'.length = s'.length)
    (hd : TiesEqual (y.zip s)) (hperm : (y'.zip s').Perm (y.zip s)) (c : Option Nat) (m : RankMetric) :
    evalMetric sort sortY (cut c) m y' s' = evalMetric sort sortY (cut c) m y s := by
  have hr := rankedDocs_isRanking (hs s) h
  have hr' := rankedDocs_isRanking (hs s') h'
  have hy : y'.Perm y := by
    have := hperm.map (·.1)
    rwa [List.map_fst_zip (by omega), List.map_fst_zip (by omega)] at this
  refine evalMetric_congr (hs s') h' (hs s) h hsY ?_ hy m
  rw [ranking_unique_ties hd ⟨hr'.perm.trans hperm, hr'.sorted⟩ hr]

end perQuery

/-! ### C116 -/

section order
variable {F : Type} {ops : FloatOps F} {m : Ensemble F} {lr : F} {bs : Option F} {nf : Nat} {X X' : List (List F)} {y y' : List ℝ} {ids ids' : List Int}
  {d d' : Dataset (List F) ℝ} {store : Option ℝ → Option ℝ}

/-- Datasets with the same rows in another order, a metric that does not depend on the order of the documents of a query. -/
theorem order_any {evalQ : List ℝ → List F → Except PyErr (Option ℝ)}
    (h : mkDataset X nf y ids = .ok d) (hy : y.length = X.length) (hc : Contiguous ids)
    (h' : mkDataset X' nf y' ids' = .ok d') (hy' : y'.length = X'.length) (hc' : Contiguous ids')
    (hrows : (rows X' y' ids').Perm (rows X y ids))
    {r : Scored F} (hr : scoreFresh ops m lr bs false d.X d.nFeatures = .ok r)
    (hev : ∀ q ∈ ids, ∀ s y' s', s = ofQuery q ids r.yPred → y'.length = s'.length → (y'.zip s').Perm ((ofQuery q ids y).zip s) →
      evalQ y' s' = evalQ (ofQuery q ids y) s)
    {avg : Option ℝ} {det : List (Option ℝ)} (he : metricEval store evalQ d r.yPred = .ok (avg, det)) :
    ∃ det', scoreEval ops m lr bs store evalQ d' = .ok (avg, det') ∧ det'.length = d'.queryIds.length ∧ (d'.queryIds.zip det').Perm (d.queryIds.zip det) := by
  have e := mkDataset_spec h
  have e' := mkDataset_spec h'
  have lX := e.1
  have lX' := e'.1
  rw [e.2.1, e.2.2.2.1] at hr
  obtain ⟨f, hf, hX'⟩ := score_rowwise ops hr
  have hmem : ∀ x ∈ X', x ∈ X := by
    intro x hx
    have : x ∈ (rows X' y' ids').map (·.1) := by
      rw [rows, List.map_fst_zip (by simp; omega)]
      exact hx
    rw [(hrows.map _).mem_iff, rows, List.map_fst_zip (by simp; omega)] at this
    exact this
  obtain ⟨r', hr', hyp⟩ := hX' X' hmem
  have hids : ∀ q, q ∈ ids' ↔ q ∈ ids := by
    intro q
    have := (hrows.map (fun r => r.2.2)).mem_iff (a := q)
    have e1 : (rows X' y' ids').map (fun r => r.2.2) = ids' := by
      rw [rows, show (fun r : List F × ℝ × Int => r.2.2) = (fun p : ℝ × Int => p.2) ∘ (fun r => r.2) from rfl, ← List.map_map,
        List.map_snd_zip (by simp; omega), List.map_snd_zip (by omega)]
    have e2 : (rows X y ids).map (fun r => r.2.2) = ids := by
      rw [rows, show (fun r : List F × ℝ × Int => r.2.2) = (fun p : ℝ × Int => p.2) ∘ (fun r => r.2) from rfl, ← List.map_map,
        List.map_snd_zip (by simp; omega), List.map_snd_zip (by omega)]
    rwa [e1, e2] at this
  have hval : ∀ q ∈ ids, evalQ (ofQuery q ids' y') (ofQuery q ids' r'.yPred) = evalQ (ofQuery q ids y) (ofQuery q ids r.yPred) := by
    intro q hq
    refine hev q hq _ _ _ rfl (length_ofQuery_eq q ids' _ _ (by omega) (by rw [hyp, List.length_map]; omega)) ?_
    rw [hyp, hf, zip_ofQuery f q ids' X' y' (by omega) (by omega), zip_ofQuery f q ids X y (by omega) (by omega)]
    exact (hrows.filter _).map _
  have lp : r.yPred.length = ids.length := by rw [hf, List.length_map]; omega
  have lp' : r'.yPred.length = ids'.length := by rw [hyp, List.length_map]; omega
  obtain ⟨⟨avg', det'⟩, he'⟩ := C13_eval_succeeds (store := store) (evalQ := evalQ) h' hc' (by omega) lp' (by
    intro q hq
    rw [hval q ((hids q).1 hq)]
    obtain ⟨i, hi⟩ := List.mem_iff_getElem?.1 ((built_of_mk h).mem_iff.2 ((hids q).1 hq))
    obtain ⟨v, hv, -⟩ := (C13_eval h hc (by omega) lp he).2.1 i q hi
    exact ⟨v, hv⟩)
  have hd := det_eq h hc (by omega) lp he
  have hd' := det_eq h' hc' (by omega) lp' he'
  have hq : d'.queryIds.Perm d.queryIds := by
    rw [List.perm_ext_iff_of_nodup (built_of_mk h').nodup (built_of_mk h).nodup]
    intro q
    rw [(built_of_mk h').mem_iff, (built_of_mk h).mem_iff, hids]
  have hvv : d'.queryIds.map (valueOf store evalQ ids' y' r'.yPred) = d'.queryIds.map (valueOf store evalQ ids y r.yPred) := by
    apply List.map_congr_left
    intro q hq'
    rw [hq.mem_iff, (built_of_mk h).mem_iff] at hq'
    simp only [valueOf, hval q hq']
  have hperm : det'.Perm det := by
    rw [hd', hd, hvv]
    exact hq.map _
  refine ⟨det', ?_, by rw [hd', List.length_map], ?_⟩
  · unfold scoreEval
    rw [e'.2.1, e'.2.2.2.1, hr']
    simp only [bind, Except.bind]
    rw [he', avg_eq he', avg_eq he, nanmean_eq, nanmean_eq, meanOf_perm hperm]
  · rw [hd', hvv, hd, zip_map_self', zip_map_self']
    exact hq.map _

/-- C116, proved part: two datasets with the same rows in any order, queries in one piece in both. For each metric that ranks documents, each query has the
same value in both and the averages are equal, in any arithmetic of the scores, if documents of a query with equal scores have equal labels. Missing: ties
between documents with different labels, see `C116_violated_ties`, and scattered queries, see `C116_violated_scattered`. -/
theorem C116_order_partial [LinearOrder F] {sort : List F → List Nat} {sortY : List ℝ → List Nat} (hs : ∀ v, IsArgsort v (sort v)) (hsY : ∀ v, IsArgsort v (sortY v))
    (h : mkDataset X nf y ids = .ok d) (hy : y.length = X.length) (hc : Contiguous ids)
    (h' : mkDataset X' nf y' ids' = .ok d') (hy' : y'.length = X'.length) (hc' : Contiguous ids')
    (hrows : (rows X' y' ids').Perm (rows X y ids)) (c : Option Nat) (metric : RankMetric)
    {r : Scored F} (hr : scoreFresh ops m lr bs false d.X d.nFeatures = .ok r)
    (hties : ∀ q ∈ ids, TiesEqual ((ofQuery q ids y).zip (ofQuery q ids r.yPred)))
    {avg : Option ℝ} {det : List (Option ℝ)}
    (he : scoreEval ops m lr bs store (fun y s => (evalMetric sort sortY (cut c) metric y s).map some) d = .ok (avg, det)) :
    ∃ det', scoreEval ops m lr bs store (fun y s => (evalMetric sort sortY (cut c) metric y s).map some) d' = .ok (avg, det') ∧
      det'.length = d'.queryIds.length ∧ (d'.queryIds.zip det').Perm (d.queryIds.zip det) := by
  refine order_any h hy hc h' hy' hc' hrows hr ?_ (by
    unfold scoreEval at he
    rw [hr] at he
    exact he)
  rintro q hq s y1 s1 rfl hl hp
  have lp := length_yPred ops hr
  have e := mkDataset_spec h
  rw [e.2.1] at lp
  rw [evalMetric_perm hs hsY (length_ofQuery_eq q ids _ _ (by omega) (by omega)) hl (hties q hq) hp]

/-- C116 for `NDCG.eval`, with ideal scores rounded in the cache of the object. -/
theorem C116_ndcg_partial [LinearOrder F] {cfg : NdcgCfg F} (hs : ∀ v, IsArgsort v (cfg.sort v)) (hsY : ∀ v, IsArgsort v (cfg.sortY v))
    {c : Option Nat} (hcut : cfg.cutoff = cut c) (same : Dataset (List F) ℝ → Dataset (List F) ℝ → Bool) (hrefl : ∀ a, same a a = true)
    (h : mkDataset X nf y ids = .ok d) (hy : y.length = X.length) (hc : Contiguous ids)
    (h' : mkDataset X' nf y' ids' = .ok d') (hy' : y'.length = X'.length) (hc' : Contiguous ids')
    (hrows : (rows X' y' ids').Perm (rows X y ids))
    {r : Scored F} (hr : scoreFresh ops m lr bs false d.X d.nFeatures = .ok r)
    (hties : ∀ q ∈ ids, TiesEqual ((ofQuery q ids y).zip (ofQuery q ids r.yPred)))
    {avg : Option ℝ} {det : List (Option ℝ)} (he : (ndcgEval cfg same store ndcgFresh d r.yPred).2 = .ok (avg, det)) :
    ∃ r' det', scoreFresh ops m lr bs false d'.X d'.nFeatures = .ok r' ∧ (ndcgEval cfg same store ndcgFresh d' r'.yPred).2 = .ok (avg, det') ∧
      det'.length = d'.queryIds.length ∧ (d'.queryIds.zip det').Perm (d.queryIds.zip det) := by
  have fresh : ∀ (e : Dataset (List F) ℝ) (p : List F), (ndcgEval cfg same store ndcgFresh e p).2 = metricEval store (ndcgRounded cfg) e p := by
    intro e p
    refine (ndcgEval_spec cfg same store (D := fun a => a = e) (fun a _ => hrefl a) ?_ (st := ndcgFresh) (by simp [CacheOk, ndcgFresh]) rfl p).1
    rintro a b rfl rfl _
    rfl
  rw [fresh] at he
  obtain ⟨det', h1, h2, h3⟩ := order_any h hy hc h' hy' hc' hrows hr (by
    rintro q hq s y1 s1 rfl hl hp
    have lp := length_yPred ops hr
    have e := mkDataset_spec h
    rw [e.2.1] at lp
    have l0 := length_ofQuery_eq q ids y r.yPred (by omega) (by omega)
    have k1 := evalMetric_perm hs hsY l0 hl (hties q hq) hp c (.dcg cfg.impl)
    have hyp : y1.Perm (ofQuery q ids y) := by
      have := hp.map (·.1)
      rwa [List.map_fst_zip (by omega), List.map_fst_zip (by omega)] at this
    have k2 := dcg_ideal_perm hsY hyp c cfg.impl
    simp only [evalMetric] at k1
    unfold ndcgRounded
    rw [hcut, k1, k2]) he
  unfold scoreEval at h1
  simp only [bind, Except.bind] at h1
  split at h1
  · cases h1
  · rename_i r' hr'
    exact ⟨r', det', hr', by rw [fresh, h1], h2, h3⟩

end order

/-! ### Names of the queries -/

theorem idxOf_map_injOn {ρ : Int → Int} (ids : List Int) (q : Int) (hρ : ∀ a ∈ ids, ρ a = ρ q → a = q) : (ids.map ρ).idxOf (ρ q) = ids.idxOf q := by
  induction ids with
  | nil => rfl
  | cons i ids ih =>
    rw [List.map_cons, List.idxOf_cons, List.idxOf_cons, ih (fun a ha => hρ a (List.mem_cons_of_mem _ ha))]
    by_cases hi : i = q
    · simp [hi]
    · have : ρ i ≠ ρ q := fun e => hi (hρ i (by simp) e)
      rw [beq_false_of_ne hi, beq_false_of_ne this]

theorem evalLoop_snd {L S V : Type} (store : V → V) (evalQ : List L → List S → Except PyErr V) :
    ∀ (bs bs' : List (Int × List L × List S)) (i : Nat) (a : List V), bs.map (·.2) = bs'.map (·.2) → evalLoop store evalQ i bs a = evalLoop store evalQ i bs' a
  | [], [], _, _, _ => rfl
  | (q, qy, qs) :: bs, (q', qy', qs') :: bs', i, a, h => by
    simp only [List.map_cons, List.cons.injEq, Prod.mk.injEq] at h
    obtain ⟨⟨rfl, rfl⟩, h⟩ := h
    unfold evalLoop
    congr 1
    funext v
    congr 1
    funext a'
    exact evalLoop_snd store evalQ bs bs' (i + 1) a' h
  | [], _ :: _, _, _, h => by simp at h
  | _ :: _, [], _, _, h => by simp at h

/-- C116: other names for the queries. With different names for different queries, also when their rows are scattered, the queries are listed in the same
order under the new names, and any metric evaluated by `Metric.eval` gives the same values, average and exceptions, on any scores. -/
theorem C116_names {F L K : Type} [Field K] {ops : FloatOps F} {m : Ensemble F} {lr : F} {bs : Option F} {X : List (List F)} {nf : Nat} {y : List L} {ids : List Int}
    {d : Dataset (List F) L} (h : mkDataset X nf y ids = .ok d) (ρ : Int → Int) (hρ : ∀ a ∈ ids, ∀ b ∈ ids, ρ a = ρ b → a = b) :
    ∃ d', mkDataset X nf y (ids.map ρ) = .ok d' ∧ d'.queryIds = d.queryIds.map ρ ∧ d'.queryOffsets = d.queryOffsets ∧
      (∀ (store : Option K → Option K) (evalQ : List L → List F → Except PyErr (Option K)),
        scoreEval ops m lr bs store evalQ d' = scoreEval ops m lr bs store evalQ d) ∧
      ∀ (S : Type) (store : Option K → Option K) (evalQ : List L → List S → Except PyErr (Option K)) (yPred : List S),
        metricEval store evalQ d' yPred = metricEval store evalQ d yPred := by
  have e := mkDataset_spec h
  have b := built_of_mk h
  obtain ⟨d', h'⟩ : ∃ d', mkDataset X nf y (ids.map ρ) = .ok d' := by
    unfold mkDataset
    rw [if_neg (by rw [List.length_map]; exact not_not.2 e.1)]
    exact ⟨_, rfl⟩
  have e' := mkDataset_spec h'
  have hidx : ∀ q ∈ ids, (ids.map ρ).idxOf (ρ q) = ids.idxOf q := fun q hq => idxOf_map_injOn ids q (fun a ha => hρ a ha q hq)
  have bm : Built (⟨X, nf, y, d.queryIds.map ρ, d.queryOffsets⟩ : Dataset (List F) L) (ids.map ρ) := by
    refine ⟨?_, ?_, ?_⟩
    · show (d.queryIds.map ρ).Perm _
      rw [List.perm_ext_iff_of_nodup]
      · intro q
        simp [b.mem_iff]
      · exact List.Nodup.map_on (fun a ha c hc => hρ a (b.mem_iff.1 ha) c (b.mem_iff.1 hc)) b.nodup
      · exact List.nodup_dedup _
    · show (d.queryIds.map ρ).Pairwise _
      rw [List.pairwise_map]
      refine b.order.imp_of_mem ?_
      intro a c ha hc hac
      rw [hidx a (b.mem_iff.1 ha), hidx c (b.mem_iff.1 hc)]
      exact hac
    · show d.queryOffsets = (d.queryIds.map ρ).map _ ++ _
      rw [b.offs, List.map_map, List.length_map]
      congr 1
      apply List.map_congr_left
      intro q hq
      exact (hidx q (b.mem_iff.1 hq)).symm
  obtain ⟨hq, ho⟩ := (built_of_mk h').ext bm (fun _ => Iff.rfl) rfl (fun _ _ => rfl)
  simp only at hq ho
  have hm : ∀ (S : Type) (store : Option K → Option K) (evalQ : List L → List S → Except PyErr (Option K)) (yPred : List S),
      metricEval store evalQ d' yPred = metricEval store evalQ d yPred := by
    intro S store evalQ yPred
    unfold metricEval
    rw [evalLoop_snd store evalQ (queryIter d' yPred) (queryIter d yPred), show d'.nQueries = d.nQueries by simp [Dataset.nQueries, hq]]
    unfold queryIter Dataset.queryIterator
    rw [List.map_map, List.map_map, hq, ho, e'.2.2.1, e.2.2.1, List.zip_map_left, List.map_map]
    rfl
  refine ⟨d', h', hq, ho, ?_, hm⟩
  intro store evalQ
  unfold scoreEval
  rw [e'.2.1, e.2.1, e'.2.2.2.1, e.2.2.2.1]
  congr 1
  funext r
  exact hm _ store evalQ _

/-- C116 for MSE, which puts values at the positions given by the ids: the queries 0 and 1 can be evaluated, the same queries under the names 1 and 2 cannot. -/
theorem C116_violated_names_mse : ∃ d d' : Dataset Nat ℚ, mkDataset [5, 6] 1 [3, 3] [0, 1] = .ok d ∧ mkDataset [5, 6] 1 [3, 3] [1, 2] = .ok d' ∧
    mseEval argsort none d [1, 3] = .ok (2, [2, 0]) ∧ mseEval argsort none d' [1, 3] = .error .indexError :=
  ⟨⟨[5, 6], 1, [3, 3], [0, 1], [0, 1, 2]⟩, ⟨[5, 6], 1, [3, 3], [1, 2], [0, 1, 2]⟩, by decide +kernel, by decide +kernel, by decide +kernel, by decide +kernel⟩

/-! ### Violations -/

/-- C116 is violated by ties, for every algorithm of `np.argsort`: two documents with the same features, one of them relevant. The reciprocal rank depends
on which of them is stored first. -/
theorem C116_violated_ties (sort : List ℚ → List Nat) (hs : ∀ v, IsArgsort v (sort v)) :
    ∃ d d' : Dataset (List ℚ) ℚ, mkDataset [[0, 0], [0, 0]] 2 [1, 0] [4, 4] = .ok d ∧ mkDataset [[0, 0], [0, 0]] 2 [0, 1] [4, 4] = .ok d' ∧
      scoreEval (exactOps ℚ) ens0 1 none id (fun y s => .ok (some (Metrics.mrr sort none 1 y s))) d ≠
        scoreEval (exactOps ℚ) ens0 1 none id (fun y s => .ok (some (Metrics.mrr sort none 1 y s))) d' := by
  refine ⟨⟨[[0, 0], [0, 0]], 2, [1, 0], [4], [0, 2]⟩, ⟨[[0, 0], [0, 0]], 2, [0, 1], [4], [0, 2]⟩, by decide +kernel, by decide +kernel, ?_⟩
  have hsc : scoreFresh (exactOps ℚ) ens0 1 none false [[0, 0], [0, 0]] 2 = .ok ⟨[9, 9], none, none⟩ := by decide +kernel
  have hsort : sort [9, 9] = [0, 1] ∨ sort [9, 9] = [1, 0] := by
    have hp := (hs [9, 9]).1
    revert hp
    generalize sort [9, 9] = l
    intro hp
    have hl := hp.length_eq
    have hn := hp.nodup_iff.2 List.nodup_range
    have hm : ∀ i ∈ l, i < 2 := fun i hi => by simpa using hp.mem_iff.1 hi
    match l, hl with
    | [a, b], _ =>
      have h1 := hm a (by simp)
      have h2 := hm b (by simp)
      have h3 : a ≠ b := by simpa using hn
      have : (a = 0 ∧ b = 1) ∨ (a = 1 ∧ b = 0) := by omega
      simpa using this
  have key : ∀ y : List ℚ, ∀ d : Dataset (List ℚ) ℚ, d = ⟨[[0, 0], [0, 0]], 2, y, [4], [0, 2]⟩ →
      scoreEval (exactOps ℚ) ens0 1 none id (fun y s => .ok (some (Metrics.mrr sort none 1 y s))) d =
        scoreEval (exactOps ℚ) ens0 1 none id (fun y s => .ok (some (Metrics.mrr (fun _ => sort [9, 9]) none 1 y s))) d := by
    rintro y d rfl
    unfold scoreEval
    simp only [hsc]
    rfl
  rw [key _ _ rfl, key _ _ rfl]
  rcases hsort with h | h <;> rw [h] <;> decide +kernel

/-- C116 is violated by scattered queries: moving the last row next to the first row of its query gives query 1 another value. -/
theorem C116_violated_scattered :
    ∃ d d' : Dataset (List ℚ) ℚ, mkDataset [[0, 0], [1, 9], [1, 0]] 2 [0, 1, 1] [1, 2, 1] = .ok d ∧
      mkDataset [[0, 0], [1, 0], [1, 9]] 2 [0, 1, 1] [1, 1, 2] = .ok d' ∧ d.queryIds = d'.queryIds ∧
      scoreEval (exactOps ℚ) ens0 1 none id (fun y s => .ok (some (Metrics.mrr argsort none 1 y s))) d = .ok (some (1 / 2), [some 0, some 1]) ∧
      scoreEval (exactOps ℚ) ens0 1 none id (fun y s => .ok (some (Metrics.mrr argsort none 1 y s))) d' = .ok (some (3 / 4), [some (1 / 2), some 1]) :=
  ⟨⟨[[0, 0], [1, 9], [1, 0]], 2, [0, 1, 1], [1, 2], [0, 1, 3]⟩, ⟨[[0, 0], [1, 0], [1, 9]], 2, [0, 1, 1], [1, 2], [0, 2, 3]⟩,
    by decide +kernel, by decide +kernel, rfl, by decide +kernel, by decide +kernel⟩

/-! ### Examples -/

/-- Queries 7 and 3 of three rows and one row, stored in two orders: the values go with the queries. -/
example : ∃ d d' : Dataset (List ℚ) ℚ, mkDataset [[0, 0], [1, 9], [1, 0], [0, 3]] 2 [1, 0, 0, 1] [7, 7, 7, 3] = .ok d ∧
    mkDataset [[0, 3], [1, 9], [1, 0], [0, 0]] 2 [1, 0, 0, 1] [3, 7, 7, 7] = .ok d' ∧ d.queryIds = [7, 3] ∧ d'.queryIds = [3, 7] ∧
    scoreEval (exactOps ℚ) ens0 1 none id (fun y s => .ok (some (Metrics.mrr argsort none 1 y s))) d = .ok (some (3 / 4), [some (1 / 2), some 1]) ∧
    scoreEval (exactOps ℚ) ens0 1 none id (fun y s => .ok (some (Metrics.mrr argsort none 1 y s))) d' = .ok (some (3 / 4), [some 1, some (1 / 2)]) :=
  ⟨⟨[[0, 0], [1, 9], [1, 0], [0, 3]], 2, [1, 0, 0, 1], [7, 3], [0, 3, 4]⟩, ⟨[[0, 3], [1, 9], [1, 0], [0, 0]], 2, [1, 0, 0, 1], [3, 7], [0, 1, 4]⟩,
    by decide +kernel, by decide +kernel, rfl, rfl, by decide +kernel, by decide +kernel⟩

/-- The hypotheses of `C116_order_partial` hold for these rows, each metric and each cutoff; two documents with the same label are tied. -/
example (c : Option Nat) (metric : RankMetric) :
    ∃ d d' : Dataset (List ℚ) ℝ, mkDataset [[0, 0], [1, 9], [0, 3], [1, 0]] 2 [1, 0, 1, 2] [7, 7, 7, 3] = .ok d ∧
      mkDataset [[1, 0], [1, 9], [0, 0], [0, 3]] 2 [2, 0, 1, 1] [3, 7, 7, 7] = .ok d' ∧
      ∀ avg det, scoreEval (exactOps ℚ) ens0 1 none id (fun y s => (evalMetric argsort argsort (cut c) metric y s).map some) d = .ok (avg, det) →
        ∃ det', scoreEval (exactOps ℚ) ens0 1 none id (fun y s => (evalMetric argsort argsort (cut c) metric y s).map some) d' = .ok (avg, det') ∧
          (d'.queryIds.zip det').Perm (d.queryIds.zip det) := by
  have h : mkDataset [[0, 0], [1, 9], [0, 3], [(1 : ℚ), 0]] 2 [(1 : ℝ), 0, 1, 2] [7, 7, 7, 3] =
    .ok ⟨[[0, 0], [1, 9], [0, 3], [1, 0]], 2, [1, 0, 1, 2], [7, 3], [0, 3, 4]⟩ := rfl
  have h' : mkDataset [[1, 0], [1, 9], [0, 0], [(0 : ℚ), 3]] 2 [(2 : ℝ), 0, 1, 1] [3, 7, 7, 7] =
    .ok ⟨[[1, 0], [1, 9], [0, 0], [0, 3]], 2, [2, 0, 1, 1], [3, 7], [0, 1, 4]⟩ := rfl
  have hsc : scoreFresh (exactOps ℚ) ens0 1 none false [[0, 0], [1, 9], [0, 3], [1, 0]] 2 = .ok ⟨[9, 17, 9, 3], none, none⟩ := by decide +kernel
  have hc : ∀ l : List Int, (∀ k < 4, ∀ j < k, ∀ i < j, l[i]? = l[k]? → l[j]? = l[k]?) → l.length = 4 → Contiguous l := by
    intro l hl hn i j k a h1 h2 h3 h4
    have := (List.getElem?_eq_some_iff.1 h4).1
    rw [hl k (by omega) j h2 i h1 (by rw [h3, h4]), h4]
  have c1 : Contiguous [7, 7, 7, 3] := hc _ (by decide) rfl
  have c2 : Contiguous [3, 7, 7, 7] := hc _ (by decide) rfl
  refine ⟨_, _, h, h', ?_⟩
  intro avg det he
  obtain ⟨det', h1, -, h2⟩ := C116_order_partial (fun v => argsort_isArgsort v) (fun v => argsort_isArgsort v) h rfl c1 h' rfl c2 (by
      have : [0, 1, 2, 3].Perm [3, 1, 0, 2] := by decide
      exact (this.map (fun i => (rows [[0, 0], [1, 9], [0, 3], [(1 : ℚ), 0]] [(1 : ℝ), 0, 1, 2] [7, 7, 7, 3])[i]!)).symm) c metric hsc (by
      intro q hq
      simp only [List.mem_cons, List.not_mem_nil, or_false] at hq
      rcases hq with rfl | rfl | rfl | rfl <;> simp [TiesEqual, ofQuery] <;> norm_num) he
  exact ⟨det', h1, h2⟩

/-- Tied documents with the same label are allowed. -/
example : TiesEqual [((1 : ℚ), 9), (0, 17), (1, (9 : ℚ))] ∧ ¬ TiesEqual [((1 : ℚ), 9), (0, (9 : ℚ))] := by
  unfold TiesEqual
  decide +kernel

/-- The names 10 and 20 instead of 2 and 1, for scattered rows. -/
example : ∃ d d' : Dataset Nat ℚ, mkDataset [5, 6, 7] 1 [0, 1, 2] [2, 1, 2] = .ok d ∧ mkDataset [5, 6, 7] 1 [0, 1, 2] [10, 20, 10] = .ok d' ∧
    d.queryIds = [2, 1] ∧ d'.queryIds = [10, 20] ∧ d.queryOffsets = [0, 1, 3] ∧ d'.queryOffsets = [0, 1, 3] :=
  ⟨⟨[5, 6, 7], 1, [0, 1, 2], [2, 1], [0, 1, 3]⟩, ⟨[5, 6, 7], 1, [0, 1, 2], [10, 20], [0, 1, 3]⟩, by decide +kernel, by decide +kernel, rfl, rfl, rfl, rfl⟩

end Verif.Props
