/-
Property C89: error of a learner that is always right.
-/
import Verif.Model.BiasMetric
import Verif.Props.Statistical
import Verif.Props.EffectAll
import Verif.Props.RankCorr

namespace Verif.Props
open Spec Stat Metrics
variable {R : Type}

/-- A learner that predicts `f` of each row, with any order of the queries. -/
def Predicts (d : Dataset R ℝ) (f : R → ℝ) (r : List Nat × Algo R ℝ ℝ) : Prop :=
  r.1.Perm (List.range d.queryIds.length) ∧ ∀ p tx ty tq sx, r.2 p tx ty tq sx = sx.map f

theorem pick_inj {α : Type} (p : Int → Bool) {ids : List Int} {a b : List α} (ha : a.length = ids.length) (hb : b.length = ids.length)
    (h : pick p ids a = pick p ids b) {i : Nat} {q : Int} (hi : ids[i]? = some q) (hq : p q = true) : a[i]? = b[i]? := by
  induction ids generalizing a b i with
  | nil => simp at hi
  | cons x ids ih =>
    cases a with
    | nil => simp at ha
    | cons u a =>
      cases b with
      | nil => simp at hb
      | cons v b =>
        have ha' : a.length = ids.length := by simpa using ha
        have hb' : b.length = ids.length := by simpa using hb
        cases hx : p x with
        | true =>
          simp [pick, hx] at h
          cases i with
          | zero => simp [h.1]
          | succ i => exact ih ha' hb' (by simpa [pick] using h.2) (by simpa using hi)
        | false =>
          simp [pick, hx] at h
          cases i with
          | zero =>
            simp at hi
            rw [hi, hq] at hx
            cases hx
          | succ i => exact ih ha' hb' (by simpa [pick] using h) (by simpa using hi)

theorem pick_map {α β : Type} (f : α → β) (p : Int → Bool) (ids : List Int) (a : List α) : pick p ids (a.map f) = (pick p ids a).map f := by
  unfold pick
  rw [List.zip_map_right, List.filter_map, List.map_map, List.map_map]
  rfl

/-- The scores of the cross-validation are the predictions. -/
theorem kfold_predicts {X : List R} {nf : Nat} {y : List ℝ} {ids : List Int} {d : Dataset R ℝ} (h : mkDataset X nf y ids = .ok d)
    (hy : y.length = X.length) (hc : Contiguous ids) (hne : ids ≠ []) {k : Nat} (hk : 0 < k) {f : R → ℝ} {r : List Nat × Algo R ℝ ℝ}
    (hr : Predicts d f r) : kfoldScoring true d k r.2 r.1 0 = .ok (X.map f) := by
  obtain ⟨scores, Qs, e, -, hl⟩ := C51_no_leak_partial (algo := r.2) h hy hc hne hk (fun p tx ty tq sx => by rw [hr.2]; simp) hr.1 0
  rw [e]
  congr 1
  have hX : X.length = ids.length := (mkDataset_spec h).1.symm
  apply List.ext_getElem?
  intro i
  cases hi : ids[i]? with
  | none =>
    rw [List.getElem?_eq_none_iff] at hi
    rw [List.getElem?_eq_none_iff.2 (by rw [hl.length]; omega), List.getElem?_eq_none_iff.2 (by simp; omega)]
  | some q =>
    have hq : q ∈ d.queryIds := (built_of_mk h).mem_iff.2 (List.mem_of_getElem? hi)
    obtain ⟨Q, hQ, hqQ⟩ := List.mem_flatten.1 (hl.chunks.mem_iff.2 hq)
    obtain ⟨j, hj⟩ := List.getElem?_of_mem hQ
    have := hl.scores j Q hj
    rw [hr.2, ← pick_map] at this
    exact pick_inj _ (by rw [hl.length, hX]) (by simp [hX]) this hi (by simpa using hqQ)

theorem mapM_const {α β : Type} {f : α → Except PyErr β} {b : β} : ∀ {l : List α}, (∀ a ∈ l, f a = .ok b) → l.mapM f = .ok (List.replicate l.length b)
  | [], _ => rfl
  | a :: l, h => by
    rw [List.mapM_cons, h a List.mem_cons_self, mapM_const (fun x hx => h x (List.mem_cons_of_mem _ hx))]
    rfl

/-- Repetitions that agree: error and bias are the mean squared distance from the target, the variance is 0. -/
theorem biasVar_const {n l : Nat} (hl : 0 < l) (col target : List ℝ) (h1 : col.length = n) (h2 : target.length = n) :
    biasVar (rowsOf n (List.replicate l col)) target =
      ((List.zipWith (fun a b => (a - b) ^ 2) col target).sum / (n : ℝ), (List.zipWith (fun a b => (a - b) ^ 2) col target).sum / (n : ℝ), 0) := by
  have e1 : List.replicate l col = List.ofFn (fun _ : Fin l => List.ofFn (fun i : Fin n => col[i.1]'(by omega))) := by
    rw [List.ofFn_const]
    congr 1
    apply List.ext_getElem (by simp [h1])
    intro i _ _
    simp
  have e2 : target = List.ofFn (fun i : Fin n => target[i.1]'(by omega)) := by
    apply List.ext_getElem (by simp [h2])
    intro i _ _
    simp
  have hl' : (l : ℝ) ≠ 0 := by exact_mod_cast hl.ne'
  have hm : ∀ i : Fin n, meanPred (fun (i : Fin n) (_ : Fin l) => col[i.1]'(by omega)) i = col[i.1]'(by omega) := by
    intro i
    simp [meanPred, hl']
  have e3 : (List.zipWith (fun a b => (a - b) ^ 2) col target).sum = ∑ i : Fin n, (col[i.1]'(by omega) - target[i.1]'(by omega)) ^ 2 := by
    rw [← List.sum_ofFn]
    congr 1
    apply List.ext_getElem (by simp [h1, h2])
    intro i _ _
    simp
  rw [e1, rowsOf_ofFn (fun (i : Fin n) (_ : Fin l) => col[i.1]'(by omega))]
  have e4 := C52_values (fun (i : Fin n) (_ : Fin l) => col[i.1]'(by omega)) (fun i : Fin n => target[i.1]'(by omega))
  rw [← e2] at e4
  rw [e4]
  unfold errorBiasVariance
  simp only [hm, e3, sub_self]
  refine Prod.ext ?_ (Prod.ext rfl ?_)
  · simp only [Finset.sum_const, Finset.card_univ, Fintype.card_fin, nsmul_eq_mul]
    rw [← Finset.mul_sum, mul_comm (n : ℝ) (l : ℝ), mul_div_mul_left _ _ hl']
  · simp

variable {X : List R} {nf : Nat} {y : List ℝ} {ids : List Int} {d : Dataset R ℝ} {k : Nat} {reps : List (List Nat × Algo R ℝ ℝ)}

theorem sum_sq_self : ∀ l : List ℝ, (List.zipWith (fun a b => (a - b) ^ 2) l l).sum = 0
  | [] => rfl
  | x :: l => by
    simp only [List.zipWith_cons_cons, List.sum_cons, sum_sq_self l]
    simp

/-- C89 for MSE: a learner that always predicts the label has no error, no bias and no variance (in a notebook, C51). -/
theorem C89_mse_partial (h : mkDataset X nf y ids = .ok d) (hc : Contiguous ids) (hne : ids ≠ []) (hk : 2 ≤ k) (hl : 2 ≤ reps.length) {f : R → ℝ}
    (hf : y = X.map f) (hr : ∀ r ∈ reps, Predicts d f r) (sort sortY : List ℝ → List Nat) (c : Option Int) :
    biasVariance sort sortY true d k reps (.mse c) = .ok (0, 0, 0) := by
  have hy : y.length = X.length := by rw [hf]; simp
  obtain ⟨hX, hdX, hdy, -⟩ := mkDataset_spec h
  have hs : multiKfold true d k reps 0 = .ok (List.replicate reps.length (X.map f)) := mapM_const (fun r hr' => kfold_predicts h hy hc hne (by omega) (hr r hr'))
  simp only [biasVariance, biasVarianceMse]
  rw [if_neg (by omega), hs]
  simp only [bind, Except.bind, pure, Except.pure]
  rw [biasVar_const (by omega) _ _ (n := d.nInstances) (by simp [Dataset.nInstances, hdy, hy]) rfl, hdy, hf, sum_sq_self]
  simp

theorem zipWith_one : ∀ l : List ℝ, List.zipWith (fun a b => (a - b) ^ 2) l (List.replicate l.length 1) = l.map (fun v => (v - 1) ^ 2)
  | [] => rfl
  | x :: l => by simp [List.replicate_succ, zipWith_one l]

/-- C89 for the other metrics: the error of a learner is the mean squared distance of the values of the metric from 1. -/
theorem biasVarianceMetric_predicts (h : mkDataset X nf y ids = .ok d) (hy : y.length = X.length) (hc : Contiguous ids) (hne : ids ≠ []) (hk : 2 ≤ k)
    (hl : 2 ≤ reps.length) {f : R → ℝ} (hr : ∀ r ∈ reps, Predicts d f r) (evalQ : List ℝ → List ℝ → Except PyErr ℝ) (P : Int → ℝ → Prop)
    (hP : ∀ q ∈ ids, ∃ v, evalQ (ofQuery q ids y) (ofQuery q ids (X.map f)) = .ok v ∧ P q v) :
    ∃ vals, List.Forall₂ P d.queryIds vals ∧ biasVarianceMetric true d k reps 0 (queryValues d evalQ) =
      .ok ((vals.map (fun v => (v - 1) ^ 2)).sum / vals.length, (vals.map (fun v => (v - 1) ^ 2)).sum / vals.length, 0) := by
  obtain ⟨hX, hdX, hdy, -⟩ := mkDataset_spec h
  have hb := built_of_mk h
  have hs : multiKfold true d k reps 0 = .ok (List.replicate reps.length (X.map f)) := mapM_const (fun r hr' => kfold_predicts h hy hc hne (by omega) (hr r hr'))
  have hyl : y.length = ids.length := by omega
  have hpl : (X.map f).length = ids.length := by simp; omega
  obtain ⟨⟨avg, det⟩, hev⟩ := C13_eval_succeeds (store := id) (evalQ := fun y s => (evalQ y s).map some) h hc hyl hpl (fun q hq' => by
      obtain ⟨v, hv, -⟩ := hP q hq'
      exact ⟨some v, by rw [hv]; rfl⟩)
  obtain ⟨h1, h2, -, -⟩ := C13_eval h hc hyl hpl hev
  obtain ⟨vals, rfl, hall⟩ := values_of_queries (P := P) h1 (fun i q hi => by
    obtain ⟨v, hv, hi'⟩ := h2 i q hi
    obtain ⟨w, hw, hn⟩ := hP q (hb.mem_iff.1 (List.mem_of_getElem? hi))
    rw [hw] at hv
    cases hv
    exact ⟨w, hn, hi'⟩)
  refine ⟨vals, hall, ?_⟩
  have hq : queryValues d evalQ (X.map f) = .ok vals := by
    unfold queryValues
    rw [hev]
    simp [Except.map, List.filterMap_map]
  have hn : vals.length = d.nQueries := by simpa [Dataset.nQueries] using h1
  unfold biasVarianceMetric
  rw [if_neg (by omega), hs]
  simp only [bind, Except.bind, pure, Except.pure]
  rw [mapM_const (b := vals) (fun a ha => by rw [List.eq_of_mem_replicate ha, hq])]
  simp only [List.length_replicate]
  rw [biasVar_const (by omega) _ _ hn (by simp), ← hn, zipWith_one]

theorem sum_sq_eq_zero : ∀ l : List ℝ, 0 ≤ (l.map (fun v => (v - 1) ^ 2)).sum ∧ ((l.map (fun v => (v - 1) ^ 2)).sum = 0 ↔ ∀ v ∈ l, v = 1)
  | [] => by simp
  | x :: l => by
    obtain ⟨h1, h2⟩ := sum_sq_eq_zero l
    have h3 : 0 ≤ (x - 1) ^ 2 := sq_nonneg _
    simp only [List.map_cons, List.sum_cons, List.forall_mem_cons]
    refine ⟨by linarith, ?_, ?_⟩
    · intro h
      have e1 : (x - 1) ^ 2 = 0 := by linarith
      have e2 : (l.map (fun v => (v - 1) ^ 2)).sum = 0 := by linarith
      exact ⟨by have := pow_eq_zero_iff (n := 2) (by norm_num) |>.1 e1; linarith, h2.1 e2⟩
    · rintro ⟨rfl, h⟩
      rw [h2.2 h]
      simp

/-- The documents of a query with label and prediction. -/
def docsOf (q : Int) (ids : List Int) (y s : List ℝ) : List (ℝ × ℝ) := ofQuery q ids (y.zip s)

theorem ofQuery_zip (q : Int) : ∀ (ids : List Int) (y s : List ℝ), y.length = ids.length → s.length = ids.length →
    (docsOf q ids y s).map (·.1) = ofQuery q ids y ∧ (docsOf q ids y s).map (·.2) = ofQuery q ids s := by
  intro ids
  induction ids with
  | nil =>
    intro y s hy hs
    cases List.length_eq_zero_iff.1 hy
    cases List.length_eq_zero_iff.1 hs
    simp [docsOf, ofQuery]
  | cons x ids ih =>
    intro y s hy hs
    cases y with
    | nil => simp at hy
    | cons a y =>
      cases s with
      | nil => simp at hs
      | cons b s =>
        have := ih y s (by simpa using hy) (by simpa using hs)
        by_cases hx : x = q
        · simpa [docsOf, ofQuery, hx] using this
        · simpa [docsOf, ofQuery, hx] using this

theorem forall₂_right_mem {α β : Type} {P : β → Prop} {l : List α} {vals : List β} (h : List.Forall₂ (fun _ v => P v) l vals) : ∀ v ∈ vals, P v := by
  induction h with
  | nil => simp
  | cons h1 _ ih => exact List.forall_mem_cons.2 ⟨h1, ih⟩

theorem mem_of_mem_ofQuery {α : Type} {q : Int} {ids : List Int} {a : List α} {v : α} (h : v ∈ ofQuery q ids a) : v ∈ a := by
  obtain ⟨p, hp, rfl⟩ := List.mem_map.1 h
  exact (List.of_mem_zip (List.mem_of_mem_filter hp)).2

theorem ofQuery_ne_nil {α : Type} {q : Int} {ids : List Int} {a : List α} (h : a.length = ids.length) (hq : q ∈ ids) : ofQuery q ids a ≠ [] := by
  obtain ⟨i, hi, e⟩ := List.getElem_of_mem hq
  intro h0
  have : (ids.zip a)[i]'(by simp; omega) ∈ (ids.zip a).filter (fun p => decide (p.1 = q)) :=
    List.mem_filter.2 ⟨List.getElem_mem _, by simp [e]⟩
  rw [List.map_eq_nil_iff.1 h0] at this
  cases this

/-- C89 for metrics that rank: for a learner that predicts `f`, error and bias are the mean of `(value - 1)²` over the queries, with the value of the
textbook; they are 0 exactly if the metric is 1 for every query. -/
theorem C89_ranking_partial (h : mkDataset X nf y ids = .ok d) (hy : y.length = X.length) (hc : Contiguous ids) (hne : ids ≠ []) (hk : 2 ≤ k)
    (hl : 2 ≤ reps.length) {f : R → ℝ} (hr : ∀ r ∈ reps, Predicts d f r) {sort sortY : List ℝ → List Nat} (hsort : ∀ s, Verif.IsArgsort s (sort s))
    (hsortY : ∀ s, Verif.IsArgsort s (sortY s)) {c : Option Nat} (hcut : c ≠ some 0) (m : RankMetric)
    (himpl : ∀ impl d, m = .dcg impl ∨ m = .ndcg impl d → impl ≠ .other) (hpos : ∀ v ∈ y, 0 ≤ v) :
    ∃ vals e, List.Forall₂ (fun q v => IsValue m c (docsOf q ids y (X.map f)) v) d.queryIds vals ∧
      biasVariance sort sortY true d k reps (.ranking m (cut c)) = .ok (e, e, 0) ∧ e = (vals.map (fun v => (v - 1) ^ 2)).sum / vals.length ∧
      (e = 0 ↔ ∀ v ∈ vals, v = 1) := by
  have hX := (mkDataset_spec h).1
  obtain ⟨vals, h1, h2⟩ := biasVarianceMetric_predicts h hy hc hne hk hl hr (evalMetric sort sortY (cut c) m)
    (fun q v => IsValue m c (docsOf q ids y (X.map f)) v) (fun q hq => by
      obtain ⟨e1, e2⟩ := ofQuery_zip q ids y (X.map f) (by omega) (by simp; omega)
      rw [← e1, ← e2]
      refine C88_query hsort hsortY hcut m himpl ?_ ?_
      · intro h0
        exact ofQuery_ne_nil (by simp; omega) hq h0
      · intro p hp
        have : p.1 ∈ ofQuery q ids y := by rw [← e1]; exact List.mem_map_of_mem hp
        exact hpos _ (mem_of_mem_ofQuery this))
  refine ⟨vals, _, h1, h2, rfl, ?_⟩
  have hv : (vals.length : ℝ) ≠ 0 := by
    have : 0 < d.queryIds.length := by
      obtain ⟨x, ids', rfl⟩ := List.exists_cons_of_ne_nil hne
      exact List.length_pos_of_mem ((built_of_mk h).mem_iff.2 List.mem_cons_self)
    have := h1.length_eq
    exact_mod_cast (by omega)
  rw [div_eq_zero_iff, or_iff_left hv]
  exact (sum_sq_eq_zero vals).2

/-- C89 for NDCG: a learner that always predicts the label has no error, no bias and no variance, if queries without relevant documents count 1 (the
default) or do not occur. -/
theorem C89_ndcg_partial (h : mkDataset X nf y ids = .ok d) (hc : Contiguous ids) (hne : ids ≠ []) (hk : 2 ≤ k) (hl : 2 ≤ reps.length) {f : R → ℝ}
    (hf : y = X.map f) (hr : ∀ r ∈ reps, Predicts d f r) {sort sortY : List ℝ → List Nat} (hsort : ∀ s, Verif.IsArgsort s (sort s))
    (hsortY : ∀ s, Verif.IsArgsort s (sortY s)) {c : Option Nat} (hcut : c ≠ some 0) {impl : Impl} (himpl : impl ≠ .other) (hpos : ∀ v ∈ y, 0 ≤ v)
    {none : ℝ} (hnone : none = 1 ∨ ∀ q ∈ ids, ∃ v ∈ ofQuery q ids y, 0 < v) :
    biasVariance sort sortY true d k reps (.ranking (.ndcg impl none) (cut c)) = .ok (0, 0, 0) := by
  have hy : y.length = X.length := by rw [hf]; simp
  obtain ⟨vals, h1, h2⟩ := biasVarianceMetric_predicts h hy hc hne hk hl hr (evalMetric sort sortY (cut c) (.ndcg impl none))
    (fun _ v => v = 1) (fun q hq => by
      rw [← hf]
      refine ⟨1, ?_, rfl⟩
      have hp : ∀ v ∈ ofQuery q ids y, 0 ≤ v := fun v hv => hpos v (mem_of_mem_ofQuery hv)
      by_cases hex : ∃ v ∈ ofQuery q ids y, 0 < v
      · exact C16_ndcg_ideal (hsort _) rfl (hsortY _) hp hex self_order hcut himpl none
      · rcases hnone with rfl | hall
        · exact C16_ndcg_no_relevant (hsort _) rfl (hsortY _) (fun v hv => le_antisymm (not_lt.1 fun h0 => hex ⟨v, hv, h0⟩) (hp v hv)) c himpl 1
        · exact absurd (hall q hq) hex)
  have h3 : ∀ v ∈ vals, v = 1 := forall₂_right_mem h1
  show biasVarianceMetric true d k reps 0 _ = _
  rw [h2, (sum_sq_eq_zero vals).2.2 h3]
  simp

theorem zip_self {α : Type} (l : List α) : l.zip l = l.map (fun v => (v, v)) := by
  simpa using zip_map_self (fun v : α => v) (fun v => v) l

/-- C89 is violated for RMSE: it is not an instance of MSE and its ideal value is taken to be 1. On every dataset, a learner that always predicts the
label has the error 1, all of it bias. -/
theorem C89_violated_rmse (h : mkDataset X nf y ids = .ok d) (hc : Contiguous ids) (hne : ids ≠ []) (hk : 2 ≤ k) (hl : 2 ≤ reps.length) {f : R → ℝ}
    (hf : y = X.map f) (hr : ∀ r ∈ reps, Predicts d f r) {sort : List ℝ → List Nat} (sortY : List ℝ → List Nat)
    (hsort : ∀ s, Verif.IsArgsort s (sort s)) (c : Option Nat) :
    biasVariance sort sortY true d k reps (.rmse (cut c)) = .ok (1, 1, 0) := by
  have hy : y.length = X.length := by rw [hf]; simp
  obtain ⟨vals, h1, h2⟩ := biasVarianceMetric_predicts h hy hc hne hk hl hr (fun y s => .ok (rmsePerQuery sort (cut c) y s))
    (fun _ v => v = 0) (fun q hq => by
      rw [← hf]
      refine ⟨_, rfl, ?_⟩
      obtain ⟨r, hr, hv⟩ := C25_rmse_zero (hsort (ofQuery q ids y)) rfl
      refine (hv c).2.2 (fun p hp => ?_)
      have hp' : p ∈ r := by
        cases c with
        | none => exact hp
        | some k => exact List.mem_of_mem_take hp
      have := hr.perm.mem_iff.1 hp'
      rw [zip_self] at this
      obtain ⟨v, -, rfl⟩ := List.mem_map.1 this
      rfl)
  have h3 : vals = List.replicate vals.length 0 := by
    exact List.eq_replicate_iff.2 ⟨rfl, forall₂_right_mem h1⟩
  have hv : (vals.length : ℝ) ≠ 0 := by
    have : 0 < d.queryIds.length := by
      obtain ⟨x, ids', rfl⟩ := List.exists_cons_of_ne_nil hne
      exact List.length_pos_of_mem ((built_of_mk h).mem_iff.2 List.mem_cons_self)
    have := h1.length_eq
    exact_mod_cast (by omega)
  show biasVarianceMetric true d k reps 0 _ = _
  rw [h2]
  have e : (vals.map (fun v => (v - 1) ^ 2)).sum / (vals.length : ℝ) = 1 := by
    rw [h3]
    simp [List.map_replicate, List.sum_replicate, hv]
  rw [e]

/-- ... while a learner that is wrong by 1 on every document has the error 0, if each query has one document, because its root mean squared error is 1
for every query. -/
theorem C89_violated_worse {R : Type} {X : List R} {nf : Nat} {y : List ℝ} {ids : List Int} {d : Dataset R ℝ} {k : Nat}
    {reps : List (List Nat × Algo R ℝ ℝ)} (h : mkDataset X nf y ids = .ok d) (hnd : ids.Nodup) (hne : ids ≠ []) (hk : 2 ≤ k) (hl : 2 ≤ reps.length)
    {f : R → ℝ} (hf : y = X.map f) (hr : ∀ r ∈ reps, Predicts d (fun x => f x + 1) r) (sort sortY : List ℝ → List Nat) :
    biasVariance sort sortY true d k reps (.rmse none) = .ok (0, 0, 0) := by
  have hy : y.length = X.length := by rw [hf]; simp
  have hX := (mkDataset_spec h).1
  have hc : Contiguous ids := by
    intro i j k a hij hjk hi hk
    obtain ⟨h1, h2⟩ := List.getElem?_eq_some_iff.1 hi
    obtain ⟨h3, h4⟩ := List.getElem?_eq_some_iff.1 hk
    have := (hnd.getElem_inj_iff (hi := h1) (hj := h3)).1 (h2.trans h4.symm)
    omega
  obtain ⟨vals, h1, h2⟩ := biasVarianceMetric_predicts h hy hc hne hk hl hr (fun y s => .ok (rmsePerQuery sort none y s))
    (fun _ v => v = 1) (fun q hq => by
      refine ⟨_, rfl, ?_⟩
      have e1 : X.map (fun x => f x + 1) = y.map (· + 1) := by rw [hf, List.map_map]; rfl
      have e2 : ofQuery q ids (y.map (· + 1)) = (ofQuery q ids y).map (· + 1) := by
        unfold ofQuery
        rw [List.zip_map_right, List.filter_map, List.map_map, List.map_map]
        rfl
      have e3 : (ofQuery q ids y).length = 1 := by rw [length_ofQuery q (by omega), hnd.count, if_pos hq]
      rw [e1, e2]
      obtain ⟨v, hv⟩ := List.length_eq_one_iff.1 e3
      rw [hv]
      simp [rmsePerQuery, msePerQuery])
  show biasVarianceMetric true d k reps 0 _ = _
  rw [h2, (sum_sq_eq_zero vals).2.2 (forall₂_right_mem h1)]
  simp

/-- C89 is violated for Precision, DCG and the other metrics whose best value is not 1: a query with one document of label 3 and DCG 3. -/
theorem C89_violated_dcg : ∃ (d : Dataset Nat ℝ) (reps : List (List Nat × Algo Nat ℝ ℝ)) (f : Nat → ℝ), mkDataset [0, 1] 1 [3, 3] [7, 8] = .ok d ∧
    [3, 3] = [0, 1].map f ∧ 2 ≤ reps.length ∧ (∀ r ∈ reps, Predicts d f r) ∧
    biasVariance realSort realSort true d 2 reps (.ranking (.dcg .flat) none) = .ok (4, 4, 0) := by
  have h : mkDataset [0, 1] 1 [(3 : ℝ), 3] [7, 8] = .ok (⟨[0, 1], 1, [3, 3], [7, 8], [0, 1, 2]⟩ : Dataset Nat ℝ) := rfl
  have hr : ∀ r ∈ [([1, 0], fun _ _ _ _ sx => sx.map (fun _ : Nat => (3 : ℝ))), ([0, 1], fun _ _ _ _ sx => sx.map (fun _ : Nat => (3 : ℝ)))],
      Predicts (⟨[0, 1], 1, [3, 3], [7, 8], [0, 1, 2]⟩ : Dataset Nat ℝ) (fun _ => 3) r := by
    refine List.forall_mem_cons.2 ⟨⟨by decide, fun _ _ _ _ _ => rfl⟩, List.forall_mem_cons.2 ⟨⟨by decide, fun _ _ _ _ _ => rfl⟩, by simp⟩⟩
  refine ⟨_, _, fun _ => 3, h, rfl, by simp, hr, ?_⟩
  have one : evalMetric realSort realSort none (.dcg .flat) [3] [3] = .ok 3 := by
    obtain ⟨r, hr, hv⟩ := C16_dcg (realSort_isArgsort [3]) (rfl : ([3] : List ℝ).length = ([3] : List ℝ).length)
    have hr' : r = [(3, 3)] := by simpa using hr.perm
    have := hv none .flat (fun v => v) (fun _ => rfl)
    rw [hr'] at this
    have e : Spec.dcg (fun v => v) (retrieved none [((3 : ℝ), (3 : ℝ))]) = 3 := by
      show ∑ i : Fin 1, ([3] : List ℝ)[i] / Real.logb 2 ((i : Nat) + 2) = 3
      simp
    rw [e] at this
    exact this
  obtain ⟨vals, h1, h2⟩ := biasVarianceMetric_predicts (k := 2) h rfl (by decide) (by simp) (le_refl _) (by simp) hr
    (evalMetric realSort realSort none (.dcg .flat)) (fun _ v => v = 3) (by
      intro q hq
      refine ⟨3, ?_, rfl⟩
      simp only [List.mem_cons, List.not_mem_nil, or_false] at hq
      rcases hq with rfl | rfl
      · exact one
      · exact one)
  show biasVarianceMetric true _ 2 _ 0 _ = _
  rw [h2]
  have hlen : vals.length = 2 := h1.length_eq.symm
  have h3 : vals = List.replicate 2 3 := List.eq_replicate_iff.2 ⟨hlen, forall₂_right_mem h1⟩
  rw [h3]
  norm_num [List.replicate]

/-- Two queries with labels 0, 2 and 1 and a learner that knows them: no error for MSE and NDCG, 1 for RMSE. -/
example : ∃ (d : Dataset Nat ℝ) (reps : List (List Nat × Algo Nat ℝ ℝ)), mkDataset [0, 2, 1] 1 [0, 2, 1] [7, 7, 8] = .ok d ∧
    Contiguous [7, 7, 8] ∧ 2 ≤ reps.length ∧ (∀ r ∈ reps, Predicts d (fun n => (n : ℝ)) r) ∧
    biasVariance realSort realSort true d 2 reps (.mse none) = .ok (0, 0, 0) ∧
    biasVariance realSort realSort true d 2 reps (.ranking (.ndcg .exp 1) none) = .ok (0, 0, 0) ∧
    biasVariance realSort realSort true d 2 reps (.rmse none) = .ok (1, 1, 0) := by
  have h : mkDataset [0, 2, 1] 1 [(0 : ℝ), 2, 1] [7, 7, 8] = .ok (⟨[0, 2, 1], 1, [0, 2, 1], [7, 8], [0, 2, 3]⟩ : Dataset Nat ℝ) := rfl
  have hr : ∀ r ∈ [([1, 0], fun _ _ _ _ sx => sx.map (fun n : Nat => (n : ℝ))), ([0, 1], fun _ _ _ _ sx => sx.map (fun n : Nat => (n : ℝ)))],
      Predicts (⟨[0, 2, 1], 1, [0, 2, 1], [7, 8], [0, 2, 3]⟩ : Dataset Nat ℝ) (fun n => (n : ℝ)) r := by
    refine List.forall_mem_cons.2 ⟨⟨by decide, fun _ _ _ _ _ => rfl⟩, List.forall_mem_cons.2 ⟨⟨by decide, fun _ _ _ _ _ => rfl⟩, by simp⟩⟩
  have hc : Contiguous [7, 7, 8] := by decide
  have hf : [(0 : ℝ), 2, 1] = [0, 2, 1].map (fun n : Nat => (n : ℝ)) := by norm_num
  exact ⟨_, _, h, hc, by simp, hr, C89_mse_partial h hc (by simp) (le_refl _) (by simp) hf hr _ _ _,
    C89_ndcg_partial (c := none) h hc (by simp) (le_refl _) (by simp) hf hr realSort_isArgsort realSort_isArgsort (by simp) (by simp)
      (by simp) (.inl rfl),
    C89_violated_rmse h hc (by simp) (le_refl _) (by simp) hf hr _ realSort_isArgsort none⟩

end Verif.Props
