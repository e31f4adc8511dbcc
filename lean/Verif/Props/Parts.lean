/-
Property C115 (parts of a dataset).
-/
import Verif.Lemmas.Kfold
import Verif.Lemmas.Ndcg
import Verif.Model.Parts
import Verif.Props.Dataset
import Verif.Props.Eval
import Verif.Props.Ndcg
import Verif.Props.Scoring
import Verif.Spec.Parts

namespace Verif.Props
open Spec Metrics Dataset Ensemble

/-! ### Rows of some queries -/

section rows
variable {α β : Type}

theorem zip_ofQueries (Q : List Int) : ∀ (ids : List Int) (a : List α), a.length = ids.length →
    (ids.filter (fun q => decide (q ∈ Q))).zip (ofQueries Q ids a) = (ids.zip a).filter (fun p => decide (p.1 ∈ Q))
  | [], [], _ => rfl
  | i :: ids, x :: a, h => by
    have ih := zip_ofQueries Q ids a (by simpa using h)
    unfold ofQueries at ih ⊢
    by_cases hi : i ∈ Q <;> simp [hi, ih]

theorem length_ofQueries (Q : List Int) : ∀ (ids : List Int) (a : List α), a.length = ids.length →
    (ofQueries Q ids a).length = (ids.filter (fun q => decide (q ∈ Q))).length
  | [], [], _ => rfl
  | i :: ids, x :: a, h => by
    have ih := length_ofQueries Q ids a (by simpa using h)
    unfold ofQueries at ih ⊢
    by_cases hi : i ∈ Q <;> simp [hi] at ih ⊢ <;> omega

theorem ofQueries_map (Q ids : List Int) (f : α → β) (a : List α) : ofQueries Q ids (a.map f) = (ofQueries Q ids a).map f := by
  unfold ofQueries
  rw [List.zip_map_right, List.filter_map, List.map_map, List.map_map]
  rfl

theorem ofQuery_ofQueries {Q : List Int} {q : Int} (hq : q ∈ Q) (ids : List Int) (a : List α) (h : a.length = ids.length) :
    ofQuery q (ids.filter (fun q => decide (q ∈ Q))) (ofQueries Q ids a) = ofQuery q ids a := by
  unfold ofQuery
  rw [zip_ofQueries Q ids a h, List.filter_filter]
  congr 1
  apply List.filter_congr
  intro p _
  by_cases hp : p.1 = q
  · simp [hp, hq]
  · simp [hp]

theorem maskSelect_ofQueries (Q : List Int) : ∀ (ids : List Int) (a : List α), a.length = ids.length →
    maskSelect a (ids.map (fun q => decide (q ∈ Q))) = ofQueries Q ids a
  | [], [], _ => rfl
  | i :: ids, x :: a, h => by
    have ih := maskSelect_ofQueries Q ids a (by simpa using h)
    unfold ofQueries maskSelect at ih ⊢
    by_cases hi : i ∈ Q <;> simp [hi, ih]

theorem mapM_ofQueries {f : α → Except PyErr β} (Q : List Int) : ∀ (ids : List Int) (a : List α) (b : List β),
    a.length = ids.length → a.mapM f = .ok b → (ofQueries Q ids a).mapM f = .ok (ofQueries Q ids b)
  | [], [], b, _, h => by
    simp only [List.mapM_nil, pure, Except.pure, Except.ok.injEq] at h
    subst h
    rfl
  | i :: ids, x :: a, b, hl, h => by
    rw [List.mapM_cons] at h
    simp only [bind, Except.bind] at h
    cases hx : f x with
    | error e => rw [hx] at h; cases h
    | ok v =>
      rw [hx] at h
      simp only at h
      cases ha : a.mapM f with
      | error e => rw [ha] at h; cases h
      | ok vs =>
        rw [ha] at h
        simp only [pure, Except.pure, Except.ok.injEq] at h
        subst h
        have ih := mapM_ofQueries Q ids a vs (by simpa using hl) ha
        unfold ofQueries at ih ⊢
        by_cases hi : i ∈ Q
        · simp [hi, List.mapM_cons, hx, ih, bind, Except.bind, pure, Except.pure]
        · simpa [hi] using ih

theorem idxOf_filter {p : Int → Bool} {a b : Int} (ha : p a) (hb : p b) : ∀ (ids : List Int), a ∈ ids → b ∈ ids →
    ids.idxOf a < ids.idxOf b → (ids.filter p).idxOf a < (ids.filter p).idxOf b
  | [], h, _, _ => by simp at h
  | i :: ids, h1, h2, h => by
    by_cases hia : i = a
    · subst hia
      have hib : i ≠ b := by rintro rfl; simp at h
      rw [List.filter_cons_of_pos ha]
      simp [List.idxOf_cons, hib]
    · have hib : i ≠ b := by
        rintro rfl
        simp at h
      have h1' : a ∈ ids := by simpa [Ne.symm hia] using h1
      have h2' : b ∈ ids := by simpa [Ne.symm hib] using h2
      have h' : ids.idxOf a < ids.idxOf b := by
        simpa [List.idxOf_cons, hia, hib] using h
      have ih := idxOf_filter ha hb ids h1' h2' h'
      cases hp : p i with
      | true => rw [List.filter_cons_of_pos hp]; simpa [List.idxOf_cons, hia, hib] using ih
      | false => rw [List.filter_cons_of_neg (by simp [hp])]; exact ih

theorem queryIds_part {R L R' L' : Type} {d : Dataset R L} {d' : Dataset R' L'} {ids : List Int} {Q : List Int}
    (b : Built d ids) (b' : Built d' (ids.filter (fun q => decide (q ∈ Q)))) :
    d'.queryIds = d.queryIds.filter (fun q => decide (q ∈ Q)) := by
  refine List.Perm.eq_of_pairwise (le := fun a c => (ids.filter (fun q => decide (q ∈ Q))).idxOf a < (ids.filter (fun q => decide (q ∈ Q))).idxOf c) ?_ b'.order ?_ ?_
  · intro a c _ _ h1 h2
    omega
  · refine (b.order.sublist List.filter_sublist).imp_of_mem ?_
    intro a c ha hc h
    rw [List.mem_filter] at ha hc
    exact idxOf_filter (p := fun q => decide (q ∈ Q)) ha.2 hc.2 ids (b.mem_iff.1 ha.1) (b.mem_iff.1 hc.1) h
  · rw [List.perm_ext_iff_of_nodup b'.nodup (b.nodup.filter _)]
    intro q
    rw [b'.mem_iff, List.mem_filter, List.mem_filter, b.mem_iff]

/-- The query ids of the rows, as `get_qids_dataset` gives them, are contiguous and rebuild the dataset. -/
theorem mk_getQids {R L : Type} {X : List R} {nf : Nat} {y : List L} {ids : List Int} {d : Dataset R L}
    (h : mkDataset X nf y ids = .ok d) (hy : y.length = X.length) (h32 : ∀ q ∈ ids, IsInt32 q) :
    mkDataset X nf y d.getQids = .ok d ∧ Contiguous d.getQids ∧ (∀ q, q ∈ d.getQids ↔ q ∈ ids) := by
  obtain ⟨d', h1, rfl⟩ := C03_rebuild h hy h32
  have b := built_of_mk h
  have hsp := mkDataset_spec h
  have hmem := (b.rebuild h32 (by rw [hsp.2.2.1]; omega)).1
  refine ⟨h1, ?_, fun q => (hmem q).symm⟩
  have hcell : ∀ {q s e i}, (q, s, e) ∈ d'.queryIterator → s ≤ i → i < e → d'.getQids[i]? = some q := by
    intro q s e i h h1 h2
    have hb := b.block_start h
    unfold Dataset.getQids Dataset.getQidsFrom
    rw [b.fill_get Dataset.castInt32 (by simp only [List.length_replicate, Dataset.nInstances, hsp.2.2.1]; omega) h h1 h2,
      Built.castInt32_of (h32 q hb.2.1)]
  have hlen : d'.getQids.length = ids.length := (b.rebuild h32 (by rw [hsp.2.2.1]; omega)).2.1
  rw [← C02_iff_contiguous h1]
  intro q s e hm i
  constructor
  · rintro ⟨h2, h3⟩
    exact hcell hm h2 h3
  · intro hi
    have hi' : i < ids.length := by rw [← hlen]; exact (List.getElem?_eq_some_iff.1 hi).1
    obtain ⟨q', s', e', h', h2, h3⟩ := b.enclosing hi'
    rw [hcell h' h2 h3] at hi
    injection hi with hi
    subst hi
    obtain ⟨k, hk1, hk2, hk3⟩ := Dataset.mem_queryIterator.1 hm
    obtain ⟨k', hk1', hk2', hk3'⟩ := Dataset.mem_queryIterator.1 h'
    have : k = k' := by
      have l1 := (List.getElem?_eq_some_iff.1 hk1).1
      rw [← hk1'] at hk1
      exact (List.getElem?_inj l1 b.nodup).1 hk1
    subst this
    rw [hk2] at hk2'
    rw [hk3] at hk3'
    cases hk2'
    cases hk3'
    exact ⟨h2, h3⟩

/-- What `subset` builds. -/
theorem subset_mk {R L : Type} {X : List R} {nf : Nat} {y : List L} {ids : List Int} {d : Dataset R L}
    (h : mkDataset X nf y ids = .ok d) (hy : y.length = X.length) (hc : Contiguous ids) (h32 : ∀ q ∈ ids, IsInt32 q) (Q : List Int) :
    ∃ d', d.subset Q = .ok d' ∧
      mkDataset (ofQueries Q ids X) nf (ofQueries Q ids y) (ids.filter (fun q => decide (q ∈ Q))) = .ok d' := by
  have hsp := mkDataset_spec h
  have hq : d.getQids = ids := (built_of_mk h).getQids_of_contiguous hc h32 (by rw [hsp.2.2.1]; omega)
  obtain ⟨d', h1, -⟩ := subset_spec h hy hc h32 Q
  refine ⟨d', h1, ?_⟩
  unfold Dataset.subset at h1
  rw [hq, hsp.2.1, hsp.2.2.1, hsp.2.2.2.1] at h1
  simpa only [maskSelect_ofQueries Q ids X (by omega), maskSelect_ofQueries Q ids y (by omega), maskSelect_map] using h1

/-- What `split` builds for one part. -/
theorem splitDataset_mk {R L : Type} {X : List R} {nf : Nat} {y : List L} {ids : List Int} {d : Dataset R L}
    (h : mkDataset X nf y ids = .ok d) (hy : y.length = X.length) (hc : Contiguous ids) (hu : ∀ q ∈ ids, 0 ≤ q ∧ q < 2 ^ 31) (Q : List Int) :
    ∃ d', d.splitDataset Q = .ok d' ∧
      mkDataset (ofQueries Q ids X) nf (ofQueries Q ids y) (ids.filter (fun q => decide (q ∈ Q))) = .ok d' := by
  have hsp := mkDataset_spec h
  obtain ⟨d', h1, -⟩ := splitDataset_spec h hy hc hu Q
  refine ⟨d', h1, ?_⟩
  unfold Dataset.splitDataset at h1
  rw [splitQidMap_eq h hy hc hu, hsp.2.1, hsp.2.2.1, hsp.2.2.2.1] at h1
  simpa only [maskSelect_ofQueries Q ids X (by omega), maskSelect_ofQueries Q ids y (by omega), maskSelect_map] using h1

end rows

/-! ### Scores -/

section scores
variable {F : Type} (ops : FloatOps F)

theorem rawScore_part {m : Ensemble F} {detailed : Bool} {X : List (List F)} {r : Scored F} {ids : List Int} (Q : List Int) (hX : X.length = ids.length)
    (h : rawScore ops m detailed X = .ok r) :
    rawScore ops m detailed (ofQueries Q ids X) =
      .ok ⟨ofQueries Q ids r.yPred, r.partialY.map (ofQueries Q ids), r.leaves.map (ofQueries Q ids)⟩ := by
  cases detailed with
  | false =>
    simp only [rawScore, Bool.false_eq_true, ↓reduceIte, basicScoring, bind, Except.bind] at h ⊢
    split at h
    · cases h
    · rename_i v hv
      simp only [pure, Except.pure, Except.ok.injEq] at h
      subst h
      rw [mapM_ofQueries Q ids X v hX hv]
      rfl
  | true =>
    simp only [rawScore, ↓reduceIte, detailedScoring, bind, Except.bind] at h ⊢
    cases hc : X.mapM (fun row => (List.range m.nTrees).mapM (detailedCell ops m row)) with
    | error e => rw [hc] at h; cases h
    | ok cells =>
      rw [hc] at h
      simp only [pure, Except.pure, Except.ok.injEq] at h
      subst h
      rw [mapM_ofQueries Q ids X cells hX hc]
      simp [pure, Except.pure, ofQueries_map]

theorem adjust_part (lr : F) (bs : Option F) (r : Scored F) (Q ids : List Int) :
    adjust ops lr bs ⟨ofQueries Q ids r.yPred, r.partialY.map (ofQueries Q ids), r.leaves.map (ofQueries Q ids)⟩ =
      ⟨ofQueries Q ids (adjust ops lr bs r).yPred, (adjust ops lr bs r).partialY.map (ofQueries Q ids),
        (adjust ops lr bs r).leaves.map (ofQueries Q ids)⟩ := by
  obtain ⟨yp, py, lv⟩ := r
  unfold adjust
  cases bs with
  | none =>
    by_cases h1 : ops.isOne lr = true
    · simp [h1]
    · cases py <;> simp [h1, ofQueries_map]
  | some b =>
    by_cases h1 : ops.isOne lr = true <;> by_cases h2 : ops.isZero b = true <;> cases py <;> simp [h1, h2, ofQueries_map]

theorem scoreFresh_part {m : Ensemble F} {lr : F} {bs : Option F} {detailed : Bool} {X : List (List F)} {nf : Nat} {ids : List Int} (hX : X.length = ids.length)
    {r : Scored F} (hr : scoreFresh ops m lr bs detailed X nf = .ok r) (Q : List Int) :
    scoreFresh ops m lr bs detailed (ofQueries Q ids X) nf =
      .ok ⟨ofQueries Q ids r.yPred, r.partialY.map (ofQueries Q ids), r.leaves.map (ofQueries Q ids)⟩ := by
  unfold scoreFresh at hr ⊢
  simp only [bind, Except.bind] at hr ⊢
  split at hr
  · cases hr
  · cases hs : rawScore ops m detailed X with
    | error e => rw [hs] at hr; cases hr
    | ok s =>
      rw [hs] at hr
      simp only [pure, Except.pure, Except.ok.injEq] at hr
      subst hr
      rw [rawScore_part ops Q hX hs]
      simp only [pure, Except.pure, adjust_part]

theorem length_yPred {m : Ensemble F} {lr : F} {bs : Option F} {detailed : Bool} {X : List (List F)} {nf : Nat}
    {r : Scored F} (hr : scoreFresh ops m lr bs detailed X nf = .ok r) : r.yPred.length = X.length := by
  unfold scoreFresh at hr
  simp only [bind, Except.bind] at hr
  split at hr
  · cases hr
  · cases hs : rawScore ops m detailed X with
    | error e => rw [hs] at hr; cases hr
    | ok s =>
      rw [hs] at hr
      simp only [pure, Except.pure, Except.ok.injEq] at hr
      subst hr
      have h1 : (adjust ops lr bs s).yPred.length = s.yPred.length := by
        unfold adjust
        cases bs <;> by_cases h1 : ops.isOne lr = true <;> simp [h1]
        all_goals split <;> simp
      rw [h1]
      cases detailed with
      | false =>
        simp only [rawScore, Bool.false_eq_true, ↓reduceIte, basicScoring, bind, Except.bind] at hs
        split at hs
        · cases hs
        · rename_i v hv
          simp only [pure, Except.pure, Except.ok.injEq] at hs
          subst hs
          exact (mapM_ok_getElem hv).1
      | true =>
        simp only [rawScore, ↓reduceIte, detailedScoring, bind, Except.bind] at hs
        cases hc : X.mapM (fun row => (List.range m.nTrees).mapM (detailedCell ops m row)) with
        | error e => rw [hc] at hs; cases hs
        | ok cells =>
          rw [hc] at hs
          simp only [pure, Except.pure, Except.ok.injEq] at hs
          subst hs
          simpa using (mapM_ok_getElem hc).1

/-- C115: the rows of a part have the scores they have in the whole dataset, in any arithmetic; so have the partial scores and the leaves of detailed
scoring. -/
theorem C115_scores {L : Type} {m : Ensemble F} {lr : F} {bs : Option F} {detailed : Bool} {X : List (List F)} {nf : Nat} {y : List L} {ids : List Int}
    {d : Dataset (List F) L} (h : mkDataset X nf y ids = .ok d) (hy : y.length = X.length) (h32 : ∀ q ∈ ids, IsInt32 q)
    {r : Scored F} (hr : scoreFresh ops m lr bs detailed d.X d.nFeatures = .ok r) (Q : List Int) :
    ∃ d', d.subset Q = .ok d' ∧ scoreFresh ops m lr bs detailed d'.X d'.nFeatures =
      .ok ⟨ofQueries Q d.getQids r.yPred, r.partialY.map (ofQueries Q d.getQids), r.leaves.map (ofQueries Q d.getQids)⟩ := by
  obtain ⟨h, hc, hm⟩ := mk_getQids h hy h32
  obtain ⟨d', h1, h2⟩ := subset_mk h hy hc (fun q hq => h32 q ((hm q).1 hq)) Q
  refine ⟨d', h1, ?_⟩
  have e := mkDataset_spec h
  have e' := mkDataset_spec h2
  rw [e'.2.1, e'.2.2.2.1]
  rw [e.2.1, e.2.2.2.1] at hr
  exact scoreFresh_part ops (by omega) hr Q

end scores

/-! ### Metrics -/

section eval
variable {R L S K : Type} [Field K] {X : List R} {nf : Nat} {y : List L} {ids : List Int} {d : Dataset R L}
  {yPred : List S} {store : Option K → Option K} {evalQ : List L → List S → Except PyErr (Option K)}

/-- The stored value of a metric for a query. -/
def valueOf (store : Option K → Option K) (evalQ : List L → List S → Except PyErr (Option K)) (ids : List Int) (y : List L) (yPred : List S) (q : Int) :
    Option K :=
  match evalQ (ofQuery q ids y) (ofQuery q ids yPred) with
  | .ok v => store v
  | .error _ => none

theorem det_eq (h : mkDataset X nf y ids = .ok d) (hc : Contiguous ids) (hy : y.length = ids.length) (hp : yPred.length = ids.length)
    {avg : Option K} {det : List (Option K)} (hr : metricEval store evalQ d yPred = .ok (avg, det)) :
    det = d.queryIds.map (valueOf store evalQ ids y yPred) := by
  obtain ⟨h1, h2, -⟩ := C13_eval h hc hy hp hr
  apply List.ext_getElem?
  intro i
  rw [List.getElem?_map]
  cases hq : d.queryIds[i]? with
  | none =>
    rw [List.getElem?_eq_none_iff] at hq
    simpa using (by omega : det.length ≤ i)
  | some q =>
    obtain ⟨v, hv, hd⟩ := h2 i q hq
    rw [hd]
    simp [valueOf, hv]

theorem avg_eq {avg : Option K} {det : List (Option K)} (hr : metricEval store evalQ d yPred = .ok (avg, det)) : avg = nanmean det := by
  unfold metricEval at hr
  simp only [bind, Except.bind] at hr
  split at hr
  · cases hr
  · simp only [pure, Except.pure, Except.ok.injEq, Prod.mk.injEq] at hr
    rw [← hr.1, ← hr.2]

theorem zip_map_self' {β : Type} (f : Int → β) (l : List Int) : l.zip (l.map f) = l.map (fun q => (q, f q)) := by
  induction l with
  | nil => rfl
  | cons a l ih => simp [ih]

theorem part_eval {R' : Type} {X' : List R'} {nf' : Nat} {d' : Dataset R' L} (h : mkDataset X nf y ids = .ok d) (hc : Contiguous ids) (hy : y.length = ids.length)
    (hp : yPred.length = ids.length) (Q : List Int)
    (h' : mkDataset X' nf' (ofQueries Q ids y) (ids.filter (fun q => decide (q ∈ Q))) = .ok d')
    {avg : Option K} {det : List (Option K)} (hr : metricEval store evalQ d yPred = .ok (avg, det)) :
    ∃ det', metricEval store evalQ d' (ofQueries Q ids yPred) = .ok (nanmean det', det') ∧ det'.length = d'.queryIds.length ∧
      d'.queryIds.zip det' = (d.queryIds.zip det).filter (fun p => decide (p.1 ∈ Q)) := by
  have hc' := contiguous_sublist hc (List.filter_sublist (l := ids) (p := fun q => decide (q ∈ Q)))
  have hy' := length_ofQueries Q ids y hy
  have hp' := length_ofQueries Q ids yPred hp
  have hids := queryIds_part (built_of_mk h) (built_of_mk h')
  have hval : ∀ q ∈ Q, evalQ (ofQuery q (ids.filter (fun q => decide (q ∈ Q))) (ofQueries Q ids y))
      (ofQuery q (ids.filter (fun q => decide (q ∈ Q))) (ofQueries Q ids yPred)) = evalQ (ofQuery q ids y) (ofQuery q ids yPred) := by
    intro q hq
    rw [ofQuery_ofQueries hq ids y hy, ofQuery_ofQueries hq ids yPred hp]
  obtain ⟨⟨avg', det'⟩, hr'⟩ := C13_eval_succeeds (store := store) (evalQ := evalQ) h' hc' hy' hp' (by
    intro q hq
    rw [List.mem_filter] at hq
    rw [hval q (by simpa using hq.2)]
    obtain ⟨i, hi⟩ := List.mem_iff_getElem?.1 ((built_of_mk h).mem_iff.2 hq.1)
    obtain ⟨v, hv, -⟩ := (C13_eval h hc hy hp hr).2.1 i q hi
    exact ⟨v, hv⟩)
  have hdet' := det_eq h' hc' hy' hp' hr'
  refine ⟨det', by rw [hr', avg_eq hr'], by rw [hdet', List.length_map], ?_⟩
  rw [hdet', det_eq h hc hy hp hr, zip_map_self', zip_map_self', List.filter_map, hids]
  apply List.map_congr_left
  intro q hq
  rw [List.mem_filter] at hq
  simp only [valueOf, hval q (by simpa using hq.2)]

omit [Field K] in
theorem numbers_eq (l : List (Option K)) : numbers l = (l.filterMap id).length := by
  unfold numbers
  induction l with
  | nil => rfl
  | cons a l ih => cases a <;> simp [ih]

theorem sum_getD (l : List (Option K)) : (l.map (·.getD 0)).sum = (l.filterMap id).sum := by
  induction l with
  | nil => rfl
  | cons a l ih => cases a <;> simp [ih]

theorem nanmean_eq (l : List (Option K)) : nanmean l = meanOf l := by
  unfold nanmean meanOf
  rw [numbers_eq, sum_getD]
  simp only [List.length_eq_zero_iff]

theorem meanOf_perm {l l' : List (Option K)} (h : l.Perm l') : meanOf l = meanOf l' := by
  unfold meanOf numbers
  rw [(h.filter _).length_eq, (h.map _).sum_eq]

theorem meanOf_flatten [CharZero K] (ls : List (List (Option K))) :
    meanOf ls.flatten = weightedMean (ls.map (fun l => (meanOf l, numbers l))) := by
  have h1 : ∀ ls : List (List (Option K)), numbers ls.flatten = ((ls.map (fun l => (meanOf l, numbers l))).map (·.2)).sum := by
    intro ls
    induction ls with
    | nil => rfl
    | cons l ls ih =>
      simp only [List.flatten_cons, List.map_cons, List.sum_cons, ← ih]
      simp [numbers]
  have h2 : ∀ ls : List (List (Option K)), (ls.flatten.map (·.getD 0)).sum =
      ((ls.map (fun l => (meanOf l, numbers l))).map (fun p => p.1.getD 0 * (p.2 : K))).sum := by
    intro ls
    induction ls with
    | nil => rfl
    | cons l ls ih =>
      simp only [List.flatten_cons, List.map_append, List.sum_append, List.map_cons, List.sum_cons, ← ih]
      congr 1
      unfold meanOf
      split
      · rename_i h
        have : l.filterMap id = [] := by rw [← List.length_eq_zero_iff, ← numbers_eq, h]
        rw [sum_getD, this]
        simp
      · rename_i h
        have : (numbers l : K) ≠ 0 := by exact_mod_cast h
        simp only [Option.getD_some]
        field_simp
  unfold weightedMean
  rw [← h1, ← h2, meanOf]

/-- C115: in a part made by `subset` each query has the value it has in the whole dataset, and the average is the mean of these, for any metric evaluated
by `Metric.eval` and any stored precision. -/
theorem C115_subset (h : mkDataset X nf y ids = .ok d) (hy : y.length = X.length) (h32 : ∀ q ∈ ids, IsInt32 q)
    (hp : yPred.length = X.length) {avg : Option K} {det : List (Option K)} (hr : metricEval store evalQ d yPred = .ok (avg, det)) (Q : List Int) :
    ∃ d' det', d.subset Q = .ok d' ∧ metricEval store evalQ d' (ofQueries Q d.getQids yPred) = .ok (meanOf det', det') ∧
      det'.length = d'.queryIds.length ∧ d'.queryIds.zip det' = (d.queryIds.zip det).filter (fun p => decide (p.1 ∈ Q)) := by
  obtain ⟨h, hc, hm⟩ := mk_getQids h hy h32
  obtain ⟨d', h1, h2⟩ := subset_mk h hy hc (fun q hq => h32 q ((hm q).1 hq)) Q
  have hl := (mkDataset_spec h).1
  obtain ⟨det', h3⟩ := part_eval h hc (by omega) (by omega) Q h2 hr
  rw [nanmean_eq] at h3
  exact ⟨d', det', h1, h3⟩

end eval

/-! ### Several parts -/

section parts
variable {F L K : Type} [Field K] {ops : FloatOps F} {m : Ensemble F} {lr : F} {bs : Option F} {X : List (List F)} {nf : Nat} {y : List L} {ids : List Int}
  {d : Dataset (List F) L} {store : Option K → Option K} {evalQ : List L → List F → Except PyErr (Option K)}

theorem scoreEval_part (h : mkDataset X nf y ids = .ok d) (hy : y.length = X.length) (hc : Contiguous ids) (Q : List Int) {d' : Dataset (List F) L}
    (h' : mkDataset (ofQueries Q ids X) nf (ofQueries Q ids y) (ids.filter (fun q => decide (q ∈ Q))) = .ok d')
    {avg : Option K} {det : List (Option K)} (hr : scoreEval ops m lr bs store evalQ d = .ok (avg, det)) :
    ∃ det', scoreEval ops m lr bs store evalQ d' = .ok (meanOf det', det') ∧ det'.length = d'.queryIds.length ∧
      d'.queryIds.zip det' = (d.queryIds.zip det).filter (fun p => decide (p.1 ∈ Q)) := by
  have e := mkDataset_spec h
  have e' := mkDataset_spec h'
  unfold scoreEval at hr ⊢
  simp only [bind, Except.bind] at hr ⊢
  split at hr
  · cases hr
  · rename_i r hs
    rw [e.2.1, e.2.2.2.1] at hs
    rw [e'.2.1, e'.2.2.2.1, scoreFresh_part ops (by omega) hs Q]
    have hl := length_yPred ops hs
    obtain ⟨det', h1, h2, h3⟩ := part_eval h hc (by omega) (by omega) Q h' hr
    exact ⟨det', by show metricEval store evalQ d' (ofQueries Q ids r.yPred) = _; rw [h1, nanmean_eq], h2, h3⟩

theorem filter_parts_perm {β : Type} (l : List (Int × β)) : ∀ (Qs : List (List Int)), Qs.flatten.Nodup →
    (Qs.flatMap (fun Q => l.filter (fun p => decide (p.1 ∈ Q)))).Perm (l.filter (fun p => decide (p.1 ∈ Qs.flatten)))
  | [], _ => by simp
  | Q :: Qs, h => by
    rw [List.flatten_cons, List.nodup_append'] at h
    have ih := filter_parts_perm l Qs h.2.1
    rw [List.flatMap_cons]
    refine (ih.append_left _).trans ?_
    have hp := List.filter_append_perm (fun p : Int × β => decide (p.1 ∈ Q)) (l.filter (fun p => decide (p.1 ∈ (Q :: Qs).flatten)))
    refine List.Perm.trans (List.Perm.of_eq ?_) hp
    rw [List.filter_filter, List.filter_filter]
    congr 1
    · apply List.filter_congr
      intro p _
      by_cases hq : p.1 ∈ Q <;> simp [hq]
    · apply List.filter_congr
      intro p _
      by_cases hq : p.1 ∈ Q
      · have := h.2.2 hq
        simp only [hq, decide_true, Bool.not_true, Bool.false_and, decide_eq_false_iff_not]
        exact this
      · simp [hq]

theorem agrees_parts [CharZero K] (h : mkDataset X nf y ids = .ok d) (hy : y.length = X.length) (hc : Contiguous ids)
    {avg : Option K} {det : List (Option K)} (hr : scoreEval ops m lr bs store evalQ d = .ok (avg, det)) {Qs : List (List Int)} (hQ : Qs.flatten.Perm d.queryIds)
    {ds : List (Dataset (List F) L)} (hds : List.Forall₂ (fun Q d' => mkDataset (ofQueries Q ids X) nf (ofQueries Q ids y) (ids.filter (fun q => decide (q ∈ Q))) = .ok d') Qs ds) :
    ∃ rs, List.Forall₂ (fun d' r => scoreEval ops m lr bs store evalQ d' = .ok (r.avg, r.det) ∧ r.queries = d'.queryIds) ds rs ∧
      Agrees ⟨d.queryIds, avg, det⟩ rs := by
  have hl : det.length = d.queryIds.length ∧ avg = meanOf det := by
    have e := mkDataset_spec h
    unfold scoreEval at hr
    simp only [bind, Except.bind] at hr
    split at hr
    · cases hr
    · rename_i r hs
      rw [e.2.1, e.2.2.2.1] at hs
      have hl := length_yPred ops hs
      exact ⟨(C13_eval h hc (by omega) (by omega) hr).1, by rw [avg_eq hr, nanmean_eq]⟩
  have hrs : ∃ rs : List (Result K), List.Forall₂ (fun d' r => scoreEval ops m lr bs store evalQ d' = .ok (r.avg, r.det) ∧ r.queries = d'.queryIds) ds rs ∧
      List.Forall₂ (fun Q r => r.avg = meanOf r.det ∧ r.det.length = r.queries.length ∧
        r.queries.zip r.det = (d.queryIds.zip det).filter (fun p => decide (p.1 ∈ Q))) Qs rs := by
    clear hQ
    induction hds with
    | nil => exact ⟨[], .nil, .nil⟩
    | cons h0 _ ih =>
      obtain ⟨rs, h1, h2⟩ := ih
      obtain ⟨det', h3, h4, h5⟩ := scoreEval_part h hy hc _ h0 hr
      exact ⟨⟨_, _, det'⟩ :: rs, .cons ⟨h3, rfl⟩ h1, .cons ⟨rfl, h4, h5⟩ h2⟩
  obtain ⟨rs, h1, h2⟩ := hrs
  have hflat : rs.flatMap (fun r => r.queries.zip r.det) = Qs.flatMap (fun Q => (d.queryIds.zip det).filter (fun p => decide (p.1 ∈ Q))) := by
    clear h1 hQ hds
    induction h2 with
    | nil => rfl
    | cons h0 _ ih => rw [List.flatMap_cons, List.flatMap_cons, ih, h0.2.2]
  have hall : ∀ r ∈ rs, r.avg = meanOf r.det ∧ r.det.length = r.queries.length := by
    clear h1 hQ hds hflat
    induction h2 with
    | nil => simp
    | cons h0 _ ih =>
      intro r hr
      rcases List.mem_cons.1 hr with rfl | hr
      · exact ⟨h0.1, h0.2.1⟩
      · exact ih r hr
  have hperm : (rs.flatMap (fun r => r.queries.zip r.det)).Perm (d.queryIds.zip det) := by
    rw [hflat]
    refine (filter_parts_perm _ Qs (hQ.nodup_iff.2 (built_of_mk h).nodup)).trans (List.Perm.of_eq ?_)
    rw [List.filter_eq_self]
    intro p hp
    simpa [hQ.mem_iff] using (hQ.mem_iff.2 (List.of_mem_zip hp).1)
  refine ⟨rs, h1, fun p hp => (hall p hp).2, hperm, ?_⟩
  have hdet : (rs.map (·.det)).flatten.Perm det := by
    have := hperm.map (·.2)
    rw [List.map_snd_zip (by omega)] at this
    refine List.Perm.trans (List.Perm.of_eq ?_) this
    rw [List.map_flatMap, ← List.flatMap_def]
    apply List.flatMap_congr
    intro r hr
    rw [List.map_snd_zip (by rw [(hall r hr).2])]
  show avg = _
  rw [hl.2, ← meanOf_perm hdet, meanOf_flatten, List.map_map]
  congr 1
  apply List.map_congr_left
  intro r hr
  simp [(hall r hr).1]

/-- C115, proved part: scoring and evaluating the parts made by `split` gives the results of the whole dataset, for any model, any metric evaluated by
`Metric.eval`, any arithmetic of the scores and any permutation drawn. Missing: sizes whose rounding leaves no query for the test part, where a query can
be in two parts (C06). -/
theorem C115_split_partial [CharZero K] (h : mkDataset X nf y ids = .ok d) (hy : y.length = X.length) (hu : ∀ q ∈ ids, 0 ≤ q ∧ q < 2 ^ 31)
    (trainSize valiSize : ℚ) (h0 : 0 ≤ trainSize) (hv : 0 ≤ valiSize) (h1 : trainSize + valiSize ≤ 1) (perm : List Int) (hperm : perm.Perm d.queryIds)
    (htest : pyRound (trainSize * d.nQueries) + pyRound (valiSize * d.nQueries) < d.nQueries)
    {avg : Option K} {det : List (Option K)} (hr : scoreEval ops m lr bs store evalQ d = .ok (avg, det)) :
    ∃ p rs, d.split trainSize valiSize perm = .ok p ∧
      List.Forall₂ (fun d' r => scoreEval ops m lr bs store evalQ d' = .ok (r.avg, r.det) ∧ r.queries = d'.queryIds) (p.1 :: (p.2.1.toList ++ [p.2.2])) rs ∧
      Agrees ⟨d.queryIds, avg, det⟩ rs := by
  obtain ⟨h, hc, hm⟩ := mk_getQids h hy (fun q hq => ⟨by have := hu q hq; omega, (hu q hq).2⟩)
  replace hu : ∀ q ∈ d.getQids, 0 ≤ q ∧ q < 2 ^ 31 := fun q hq => hu q ((hm q).1 hq)
  clear hm
  generalize d.getQids = ids at h hc hu
  set a := pyRound (trainSize * d.nQueries) with ha
  set b := pyRound (valiSize * d.nQueries) with hb
  have ha0 : 0 ≤ a := pyRound_nonneg (by positivity)
  have hb0 : 0 ≤ b := pyRound_nonneg (by positivity)
  have happ := splitQids_append (perm := perm) (n := d.nQueries) hperm.length_eq ha0 hb0 htest
  simp only at happ
  set parts := splitQids perm d.nQueries a b with hparts
  obtain ⟨t, t1, t2⟩ := splitDataset_mk h hy hc hu parts.1
  obtain ⟨v, v1, v2⟩ := splitDataset_mk h hy hc hu parts.2.1
  obtain ⟨e, e1, e2⟩ := splitDataset_mk h hy hc hu parts.2.2
  have hsp : d.splitParts trainSize valiSize perm = .ok parts := by
    unfold splitParts
    rw [if_neg (by push Not; exact ⟨h0, by linarith, h1⟩)]
  by_cases hv0 : valiSize = 0
  · have hb' : b = 0 := by
      rw [hb, hv0]; simp [pyRound]
    have hv2 : parts.2.1 = [] := by
      show pyDrop a (pyTake (a + b) perm) = []
      rw [hb']
      simp [pyDrop, pyTake, ha0]
    obtain ⟨rs, r1, r2⟩ := agrees_parts h hy hc hr (Qs := [parts.1, parts.2.2]) (by
      rw [hv2, List.append_nil] at happ
      simpa [happ] using hperm) (.cons t2 (.cons e2 .nil))
    refine ⟨(t, none, e), rs, ?_, r1, r2⟩
    rw [hv0] at hsp ⊢
    unfold split
    simp [hsp, t1, e1, bind, Except.bind, pure, Except.pure]
  · obtain ⟨rs, r1, r2⟩ := agrees_parts h hy hc hr (Qs := [parts.1, parts.2.1, parts.2.2]) (by
      rw [List.append_assoc] at happ
      simpa [happ] using hperm) (.cons t2 (.cons v2 (.cons e2 .nil)))
    refine ⟨(t, some v, e), rs, ?_, r1, r2⟩
    unfold split
    simp [hsp, t1, v1, e1, hv0, bind, Except.bind, pure, Except.pure, Except.map]

/-- C115, proved part: the test parts of the folds made by `kfold` together give the results of the whole dataset; so do the three parts of each fold.
Missing: two folds, and more folds than queries (C07). -/
theorem C115_kfold_partial [CharZero K] (h : mkDataset X nf y ids = .ok d) (hy : y.length = X.length) (h32 : ∀ q ∈ ids, IsInt32 q)
    (qids : List Int) (hq : qids.Perm d.queryIds) (n : Nat) (hn : 3 ≤ n) (hle : n ≤ d.nQueries)
    {avg : Option K} {det : List (Option K)} (hr : scoreEval ops m lr bs store evalQ d = .ok (avg, det)) :
    ∃ folds, d.kfold qids n = .ok folds ∧ folds.length = n ∧
      (∃ rs, List.Forall₂ (fun f r => scoreEval ops m lr bs store evalQ f.2.2 = .ok (r.avg, r.det) ∧ r.queries = f.2.2.queryIds) folds rs ∧
        Agrees ⟨d.queryIds, avg, det⟩ rs) ∧
      ∀ f ∈ folds, ∃ rs, List.Forall₂ (fun d' r => scoreEval ops m lr bs store evalQ d' = .ok (r.avg, r.det) ∧ r.queries = d'.queryIds)
        [f.1, f.2.1, f.2.2] rs ∧ Agrees ⟨d.queryIds, avg, det⟩ rs := by
  obtain ⟨h, hc, hm⟩ := mk_getQids h hy h32
  replace h32 : ∀ q ∈ d.getQids, IsInt32 q := fun q hq => h32 q ((hm q).1 hq)
  clear hm
  generalize d.getQids = ids at h hc h32
  obtain ⟨qf, h1, h2, h3, h4, -⟩ := kfold_props (qids := qids) hn (by rw [hq.length_eq]; exact hle)
  let Mk (Q : List Int) (d' : Dataset (List F) L) : Prop :=
    mkDataset (ofQueries Q ids X) nf (ofQueries Q ids y) (ids.filter (fun q => decide (q ∈ Q))) = .ok d'
  have hstep : ∀ p ∈ qf, ∃ z : Dataset (List F) L × Dataset (List F) L × Dataset (List F) L,
      (do pure (← d.subset p.1, ← d.subset p.2.1, ← d.subset p.2.2) : Except PyErr _) = .ok z ∧
      (p ∈ qf ∧ Mk p.1 z.1 ∧ Mk p.2.1 z.2.1 ∧ Mk p.2.2 z.2.2) := by
    intro p hp
    obtain ⟨t, t1, t2⟩ := subset_mk h hy hc h32 p.1
    obtain ⟨v, v1, v2⟩ := subset_mk h hy hc h32 p.2.1
    obtain ⟨e, e1, e2⟩ := subset_mk h hy hc h32 p.2.2
    exact ⟨(t, v, e), by simp [t1, v1, e1, bind, Except.bind, pure, Except.pure], hp, t2, v2, e2⟩
  obtain ⟨zs, hzs, hall⟩ := mapM_forall₂ qf hstep
  refine ⟨zs, ?_, by rw [← hall.length_eq, h2], ?_, ?_⟩
  · unfold kfold
    rw [h1]
    exact hzs
  · obtain ⟨rs, r1, r2⟩ := agrees_parts h hy hc hr (Qs := qf.map (·.2.2)) (ds := zs.map (·.2.2)) (by
      rw [← List.flatMap_def]
      exact h4.trans hq) (by
      rw [List.forall₂_map_left_iff, List.forall₂_map_right_iff]
      exact hall.imp (fun _ _ h => h.2.2.2))
    rw [List.forall₂_map_left_iff] at r1
    exact ⟨rs, r1, r2⟩
  · intro f hf
    obtain ⟨p, hp, hp', g1, g2, g3⟩ : ∃ p, p ∈ qf ∧ (p ∈ qf ∧ Mk p.1 f.1 ∧ Mk p.2.1 f.2.1 ∧ Mk p.2.2 f.2.2) := by
      clear h1 h2 h3 h4 hzs hstep
      obtain ⟨i, hi⟩ := List.mem_iff_getElem?.1 hf
      have hl := (List.getElem?_eq_some_iff.1 hi).1
      have hg := hall.get (i := i) (by rw [hall.length_eq]; exact hl) hl
      simp only [List.get_eq_getElem] at hg
      rw [List.getElem?_eq_getElem hl] at hi
      injection hi with hi
      rw [hi] at hg
      exact ⟨_, hg.1, hg⟩
    exact agrees_parts h hy hc hr (Qs := [p.1, p.2.1, p.2.2]) (by
      have := (h3 p hp).1
      rw [List.append_assoc] at this
      simpa using this.trans hq) (.cons g1 (.cons g2 (.cons g3 .nil)))

end parts

/-! ### NDCG and MSE -/

/-- C115 for NDCG, which has its own `eval` with a cache: after any calls on the object, each query of a part made by `subset` has the value that a new
object gives it in the whole dataset. Missing: datasets that the cache takes for equal though their labels differ (C17). -/
theorem C115_ndcg_partial {R S : Type} {X : List R} {nf : Nat} {y : List ℝ} {ids : List Int} {d : Dataset R ℝ} {yPred : List S}
    (h : mkDataset X nf y ids = .ok d) (hy : y.length = X.length) (h32 : ∀ q ∈ ids, IsInt32 q) (hp : yPred.length = X.length)
    (cfg : NdcgCfg S) (same : Dataset R ℝ → Dataset R ℝ → Bool) (store : Option ℝ → Option ℝ) (hrefl : ∀ a, same a a = true)
    {avg : Option ℝ} {det : List (Option ℝ)} (hr : (ndcgEval cfg same store ndcgFresh d yPred).2 = .ok (avg, det)) (Q : List Int)
    (calls : List (NdcgCall R S)) (hsame : ∀ a b, (d.subset Q = .ok a ∨ ∃ p, NdcgCall.eval a p ∈ calls) → (d.subset Q = .ok b ∨ ∃ p, NdcgCall.eval b p ∈ calls) →
      same a b = true → a.y = b.y ∧ a.queryIds = b.queryIds ∧ a.queryOffsets = b.queryOffsets) :
    ∃ d' det', d.subset Q = .ok d' ∧
      (ndcgEval cfg same store (ndcgRun cfg same store calls) d' (ofQueries Q d.getQids yPred)).2 = .ok (meanOf det', det') ∧
      det'.length = d'.queryIds.length ∧ d'.queryIds.zip det' = (d.queryIds.zip det).filter (fun p => decide (p.1 ∈ Q)) := by
  have fresh : ∀ (e : Dataset R ℝ) (p : List S), (ndcgEval cfg same store ndcgFresh e p).2 = metricEval store (ndcgRounded cfg) e p := by
    intro e p
    refine (ndcgEval_spec cfg same store (D := fun a => a = e) (fun a _ => hrefl a) ?_ (st := ndcgFresh) (by simp [CacheOk, ndcgFresh]) rfl p).1
    rintro a b rfl rfl _
    rfl
  rw [fresh] at hr
  obtain ⟨d', det', h1, h2, h3, h4⟩ := C115_subset h hy h32 hp hr Q
  refine ⟨d', det', h1, ?_, h3, h4⟩
  rw [C17_history_partial cfg same store hrefl calls d' _ (fun a b ha hb => hsame a b
    (ha.imp (fun e => by rw [e, h1]) id) (hb.imp (fun e => by rw [e, h1]) id)), fresh, h2]

/-- C115 is violated by MSE, which has its own `eval`: it puts the value of a query at the position of its id and divides by the number of rows of the
dataset. For the queries 0 and 1 the shares of the whole are 2 and 0. The part with query 0 gives it the value 4. The part with query 1 cannot be
evaluated. -/
theorem C115_violated_mse :
    ∃ d d0 d1 : Dataset Nat ℚ, mkDataset [5, 6] 1 [3, 3] [0, 1] = .ok d ∧ d.subset [0] = .ok d0 ∧ d.subset [1] = .ok d1 ∧
      mseEval argsort none d [1, 3] = .ok (2, [2, 0]) ∧ mseEval argsort none d0 [1] = .ok (4, [4]) ∧
      mseEval argsort none d1 [3] = .error .indexError :=
  ⟨⟨[5, 6], 1, [3, 3], [0, 1], [0, 1, 2]⟩, ⟨[5], 1, [3], [0], [0, 1]⟩, ⟨[6], 1, [3], [1], [0, 1]⟩, by decide +kernel, by decide +kernel, by decide +kernel,
    by decide +kernel, by decide +kernel, by decide +kernel⟩

/-- C115 is violated by query ids outside of int32: the rows of query `2^32 + 1` have the id 1 in `get_qids_dataset`, so that `subset` finds them under an
id that the dataset does not have. -/
theorem C115_violated_ids :
    ∃ d d0 d1 : Dataset Nat ℚ, mkDataset [5] 1 [3] [2 ^ 32 + 1] = .ok d ∧ d.queryIds = [2 ^ 32 + 1] ∧ d.subset [2 ^ 32 + 1] = .ok d0 ∧ d0.X = [] ∧
      d.subset [1] = .ok d1 ∧ d1.X = [5] :=
  ⟨⟨[5], 1, [3], [2 ^ 32 + 1], [0, 1]⟩, ⟨[], 1, [], [], [0]⟩, ⟨[5], 1, [3], [1], [0, 1]⟩, by decide +kernel, rfl, by decide +kernel, rfl, by decide +kernel, rfl⟩

/-! ### Examples -/

/-- Five rows of scattered queries 7, 3 and 4, scored by the two trees of `ens0`: the rows of query 7 at the end count for query 4. -/
example : ∃ d : Dataset (List ℚ) ℚ, mkDataset [[0, 0], [1, 9], [1, 0], [0, 3], [2, 2]] 2 [1, 0, 1, 1, 0] [7, 7, 3, 4, 7] = .ok d ∧
    d.getQids = [7, 7, 3, 4, 4] ∧ scoreEval (exactOps ℚ) ens0 1 none id (fun y s => .ok (some (Metrics.mrr argsort none 1 y s))) d =
      .ok (some (5 / 6), [some (1 / 2), some 1, some 1]) ∧
    ∃ d', d.subset [4, 7] = .ok d' ∧ scoreEval (exactOps ℚ) ens0 1 none id (fun y s => .ok (some (Metrics.mrr argsort none 1 y s))) d' =
      .ok (some (3 / 4), [some (1 / 2), some 1]) :=
  ⟨⟨[[0, 0], [1, 9], [1, 0], [0, 3], [2, 2]], 2, [1, 0, 1, 1, 0], [7, 3, 4], [0, 2, 3, 5]⟩, by decide +kernel, by decide +kernel, by decide +kernel,
    ⟨[[0, 0], [1, 9], [0, 3], [2, 2]], 2, [1, 0, 1, 0], [7, 4], [0, 2, 4]⟩, by decide +kernel, by decide +kernel⟩

/-- Two parts of one and two values, and one NaN. -/
example : Agrees (K := ℚ) ⟨[7, 3, 4], some (3 / 4), [some 1, none, some (1 / 2)]⟩
    [⟨[4], some (1 / 2), [some (1 / 2)]⟩, ⟨[7, 3], some 1, [some 1, none]⟩] :=
  ⟨by decide +kernel, by decide +kernel, by decide +kernel⟩

/-- The weights matter: the average of parts of different sizes is not the average of their averages. -/
example : weightedMean (K := ℚ) [(some 1, 1), (some 0, 3), (none, 0)] = some (1 / 4) := by decide +kernel

end Verif.Props
