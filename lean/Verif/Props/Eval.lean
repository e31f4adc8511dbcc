/-
Properties C13 (Metric.eval), C24 (MSE.eval), C25 (RMSE).
-/
import Verif.Lemmas.Eval
import Verif.Lemmas.Metrics
import Verif.Props.MetricsCount

namespace Verif.Props
open Spec Metrics

/-! ### C13 -/

section C13
variable {R L S K : Type} [Field K] {X : List R} {nf : Nat} {y : List L} {ids : List Int} {d : Dataset R L}
  {yPred : List S} {store : Option K → Option K} {evalQ : List L → List S → Except PyErr (Option K)}

/-- C13: `detailed_scores[i]` is the stored metric value on the labels and scores of the rows of the i-th
query; the average is the mean of the entries that are not NaN (`none`), NaN if there is none. -/
theorem C13_eval (h : mkDataset X nf y ids = .ok d) (hc : Contiguous ids) (hy : y.length = ids.length)
    (hp : yPred.length = ids.length) {avg : Option K} {det : List (Option K)}
    (hr : metricEval store evalQ d yPred = .ok (avg, det)) :
    det.length = d.queryIds.length ∧
    (∀ (i : Nat) q, d.queryIds[i]? = some q →
      ∃ v, evalQ (ofQuery q ids y) (ofQuery q ids yPred) = .ok v ∧ det[i]? = some (store v)) ∧
    ((∀ v ∈ det, v = none) → avg = none) ∧
    ((∃ v ∈ det, v ≠ none) → avg = some ((det.filterMap id).sum / ((det.filterMap id).length : K))) := by
  unfold metricEval at hr
  simp only [bind, Except.bind] at hr
  cases hl : evalLoop store evalQ 0 (queryIter d yPred) (List.replicate d.nQueries (some 0)) with
  | error e => rw [hl] at hr; cases hr
  | ok res =>
    rw [hl] at hr
    simp only [pure, Except.pure, Except.ok.injEq, Prod.mk.injEq] at hr
    obtain ⟨h1, h2⟩ := hr
    subst h2
    have hlen : (List.replicate d.nQueries (some (0 : K))).length = 0 + (queryIter d yPred).length := by
      simp [length_queryIter h, Dataset.nQueries]
    obtain ⟨r1, _, r3⟩ := evalLoop_ok store evalQ _ 0 _ _ hlen hl
    refine ⟨by simpa [Dataset.nQueries] using r1, ?_, ?_, ?_⟩
    · intro i q hq
      obtain ⟨v, hv, hres⟩ := r3 i (q, ofQuery q ids y, ofQuery q ids yPred) (by
        rw [queryIter_contiguous h hc hy hp, List.getElem?_map, hq]; rfl)
      exact ⟨v, hv, by simpa using hres⟩
    · intro hall
      rw [← h1, nanmean]
      have : res.filterMap id = [] := by
        rw [List.filterMap_eq_nil_iff]
        exact hall
      simp only [this, ↓reduceIte]
    · rintro ⟨v, hv, hne⟩
      rw [← h1, nanmean]
      have : res.filterMap id ≠ [] := by
        intro h0
        rw [List.filterMap_eq_nil_iff] at h0
        exact hne (h0 v hv)
      simp only [this, ↓reduceIte]

/-- C13: the evaluation succeeds if the metric is defined on every query ... -/
theorem C13_eval_succeeds (h : mkDataset X nf y ids = .ok d) (hc : Contiguous ids) (hy : y.length = ids.length)
    (hp : yPred.length = ids.length)
    (hok : ∀ q ∈ ids, ∃ v, evalQ (ofQuery q ids y) (ofQuery q ids yPred) = .ok v) :
    ∃ r, metricEval store evalQ d yPred = .ok r := by
  have hlen : (List.replicate d.nQueries (some (0 : K))).length = 0 + (queryIter d yPred).length := by
    simp [length_queryIter h, Dataset.nQueries]
  obtain ⟨res, hres⟩ := evalLoop_isOk store evalQ (queryIter d yPred) 0 _ hlen (by
    rw [queryIter_contiguous h hc hy hp]
    intro b hb
    obtain ⟨q, hq, rfl⟩ := List.mem_map.1 hb
    exact hok q ((built_of_mk h).mem_iff.1 hq))
  exact ⟨_, by simp only [metricEval, hres, bind, Except.bind]; rfl⟩

/-- ... and raises the error of the first query on which the metric raises. -/
theorem C13_eval_error (h : mkDataset X nf y ids = .ok d) (hc : Contiguous ids) (hy : y.length = ids.length)
    (hp : yPred.length = ids.length) {pre post : List Int} {q : Int} (hq : d.queryIds = pre ++ q :: post)
    (hpre : ∀ p ∈ pre, ∃ v, evalQ (ofQuery p ids y) (ofQuery p ids yPred) = .ok v) {e : PyErr}
    (he : evalQ (ofQuery q ids y) (ofQuery q ids yPred) = .error e) :
    metricEval store evalQ d yPred = .error e := by
  have hlen : (List.replicate d.nQueries (some (0 : K))).length = 0 + (queryIter d yPred).length := by
    simp [length_queryIter h, Dataset.nQueries]
  have hqi := queryIter_contiguous h hc hy hp
  rw [hq, List.map_append, List.map_cons] at hqi
  rw [hqi] at hlen
  have := evalLoop_error store evalQ _ _ _ 0 _ e hlen (by
    intro b hb
    obtain ⟨p, hp', rfl⟩ := List.mem_map.1 hb
    exact hpre p hp') he
  simp only [metricEval, hqi, bind, Except.bind]
  rw [this]

theorem ofQuery_congr {α : Type} {q q0 : Int} (hq : q ≠ q0) : ∀ {ids : List Int} {a a' : List α},
    a.length = ids.length → a'.length = ids.length →
    (∀ i : Nat, ids[i]? ≠ some q0 → a[i]? = a'[i]?) → ofQuery q ids a = ofQuery q ids a'
  | [], [], [], _, _, _ => rfl
  | k :: ids, x :: a, x' :: a', h1, h2, h => by
    have ih := ofQuery_congr hq (ids := ids) (a := a) (a' := a') (by simpa using h1) (by simpa using h2)
      (fun i hi => by simpa using h (i + 1) (by simpa using hi))
    unfold ofQuery at ih ⊢
    by_cases hk : k = q
    · have := h 0 (by simp [hk, hq])
      simp only [List.getElem?_cons_zero, Option.some.injEq] at this
      simp [hk, ih, this]
    · simp [hk, ih]

/-- C13: if two score vectors differ only on the rows of query `q0`, the detailed scores differ at most at the
position of `q0`. -/
theorem C13_locality (h : mkDataset X nf y ids = .ok d) (hc : Contiguous ids) (hy : y.length = ids.length)
    {yPred' : List S} (hp : yPred.length = ids.length) (hp' : yPred'.length = ids.length) {q0 : Int}
    (hdiff : ∀ i : Nat, ids[i]? ≠ some q0 → yPred[i]? = yPred'[i]?) {avg avg' : Option K}
    {det det' : List (Option K)} (hr : metricEval store evalQ d yPred = .ok (avg, det))
    (hr' : metricEval store evalQ d yPred' = .ok (avg', det')) :
    ∀ i : Nat, d.queryIds[i]? ≠ some q0 → det[i]? = det'[i]? := by
  intro i hi
  obtain ⟨l1, r1, _⟩ := C13_eval h hc hy hp hr
  obtain ⟨l2, r2, _⟩ := C13_eval h hc hy hp' hr'
  cases hq : d.queryIds[i]? with
  | none =>
    rw [List.getElem?_eq_none_iff] at hq
    rw [List.getElem?_eq_none_iff.2 (by omega), List.getElem?_eq_none_iff.2 (by omega)]
  | some q =>
    obtain ⟨v, hv, e⟩ := r1 i q hq
    obtain ⟨v', hv', e'⟩ := r2 i q hq
    have hne : q ≠ q0 := by rintro rfl; exact hi hq
    rw [ofQuery_congr hne hp hp' hdiff, hv'] at hv
    cases hv
    rw [e, e']

end C13

/-- An instance: MRR over two queries. -/
example : metricEval (K := ℚ) (R := Nat) id (fun y s => .ok (some (Metrics.mrr argsort none 1 y s)))
    ⟨[0, 0, 0, 0], 1, [0, 2, 1, 0], [7, 3], [0, 2, 4]⟩ [3, 2, 5, 4] = .ok (some (3 / 4), [some (1 / 2), some 1]) := by
  decide +kernel

/-- The hypotheses of C13 hold for it, also with other scores of the query 3, which change the second entry only. -/
example : mkDataset [0, 0, 0, 0] 1 [0, 2, 1, 0] [7, 7, 3, 3] = .ok ⟨[0, 0, 0, 0], 1, [0, 2, 1, 0], [7, 3], [0, 2, 4]⟩ ∧ Contiguous [7, 7, 3, 3] ∧
    (∀ i : Nat, ([7, 7, 3, 3] : List Int)[i]? ≠ some 3 → ([3, 2, 5, 4] : List Int)[i]? = ([3, 2, 4, 5] : List Int)[i]?) ∧
    metricEval (K := ℚ) (R := Nat) id (fun y s => .ok (some (Metrics.mrr argsort none 1 y s)))
      ⟨[0, 0, 0, 0], 1, [0, 2, 1, 0], [7, 3], [0, 2, 4]⟩ [3, 2, 4, 5] = .ok (some (1 / 2), [some (1 / 2), some (1 / 2)]) := by
  refine ⟨by decide +kernel, by decide, fun i hi => ?_, by decide +kernel⟩
  match i, hi with
  | 0, _ => rfl
  | 1, _ => rfl
  | 2, h => exact absurd rfl h
  | 3, h => exact absurd rfl h
  | _ + 4, _ => rfl

/-- The hypotheses of `C13_eval_error`: a metric that raises on the second query. -/
example : metricEval (K := ℚ) (R := Nat) (S := Int) id (fun (y : List Nat) _ => if y.sum = 1 then .error .valueError else .ok (some 1))
    ⟨[0, 0, 0, 0], 1, [0, 2, 1, 0], [7, 3], [0, 2, 4]⟩ [3, 2, 5, 4] = .error .valueError :=
  C13_eval_error (K := ℚ) (store := id) (evalQ := fun (y : List Nat) _ => if y.sum = 1 then .error .valueError else .ok (some 1)) (X := [0, 0, 0, 0]) (nf := 1)
    (y := [0, 2, 1, 0]) (ids := [7, 7, 3, 3]) (d := ⟨[0, 0, 0, 0], 1, [0, 2, 1, 0], [7, 3], [0, 2, 4]⟩) (yPred := [3, 2, 5, 4]) (pre := [7]) (q := 3) (post := []) (by decide +kernel) (by decide)
    rfl rfl rfl (fun p hp => ⟨some 1, by rw [List.mem_singleton.1 hp]; decide +kernel⟩) (by decide +kernel)

/-! ### C24 -/

section C24
variable {R K : Type} [Field K] [LinearOrder K] [IsStrictOrderedRing K] {X : List R} {nf : Nat} {y yPred : List K}
  {ids : List Int} {d : Dataset R K} {sort : List K → List Nat}

omit [LinearOrder K] [IsStrictOrderedRing K] in
theorem mseLoop_ok (evalQ : List K → List K → K) (n : Nat) :
    ∀ (bs : List (Int × List K × List K)) (a : List K), (bs.map (·.1)).Nodup →
      (∀ b ∈ bs, 0 ≤ b.1 ∧ b.1 < a.length) →
      ∃ res, mseLoop evalQ n bs a = .ok res ∧ res.length = a.length ∧
        (∀ b ∈ bs, res[b.1.toNat]? = some (evalQ b.2.1 b.2.2 / (n : K))) ∧
        (∀ j : Nat, (∀ b ∈ bs, b.1 ≠ j) → res[j]? = a[j]?)
  | [], a, _, _ => ⟨a, rfl, rfl, by simp, by simp⟩
  | (q, qy, qs) :: bs, a, hnd, hb => by
    rw [List.map_cons, List.nodup_cons] at hnd
    have hq := hb (q, qy, qs) (by simp)
    simp only at hq
    obtain ⟨k, rfl⟩ : ∃ k : Nat, q = k := ⟨q.toNat, by omega⟩
    have hka : k < a.length := by omega
    obtain ⟨res, h1, h2, h3, h4⟩ := mseLoop_ok evalQ n bs (a.set k (evalQ qy qs / (n : K))) hnd.2 (by
      intro b hbm
      rw [List.length_set]
      exact hb b (by simp [hbm]))
    refine ⟨res, ?_, by simpa using h2, ?_, ?_⟩
    · simp only [mseLoop, bind, Except.bind, pySet_ok _ hka]
      exact h1
    · intro b hbm
      rcases List.mem_cons.1 hbm with rfl | hbm
      · simp only [Int.toNat_natCast]
        rw [h4 k (by
          intro b hbm e
          exact hnd.1 (List.mem_map.2 ⟨b, hbm, e⟩)), List.getElem?_set_self hka]
      · exact h3 b hbm
    · intro j hj
      have hjk : (k : Int) ≠ j := hj (k, qy, qs) (by simp)
      rw [h4 j (fun b hbm => hj b (by simp [hbm])), List.getElem?_set_ne (by omega)]

theorem zipWith_flatMap_slices {α β : Type} (a b : List α) (hab : a.length = b.length) (f : α → α → β) : ∀ (o : Nat) (os : List Nat),
    (o :: os).Pairwise (· < ·) →
    ((o :: os).zip os).flatMap (fun p => List.zipWith f (slice p.1 p.2 a) (slice p.1 p.2 b)) =
      List.zipWith f (slice o ((o :: os).getLast (by simp)) a) (slice o ((o :: os).getLast (by simp)) b)
  | o, [], _ => by simp [slice, List.drop_of_length_le]
  | o, o' :: os, h => by
    rw [List.pairwise_cons] at h
    have ih := zipWith_flatMap_slices a b hab f o' os h.2
    have hlt : o < o' := h.1 o' (by simp)
    rw [List.zip_cons_cons, List.flatMap_cons, ih]
    have hle : o' ≤ (o' :: os).getLast (by simp) := by
      cases os with
      | nil => simp
      | cons o2 os => exact ((List.pairwise_cons.1 h.2).1 _ (List.getLast_mem _)).le
    rw [List.getLast_cons (by simp : (o' :: os) ≠ [])]
    generalize (o' :: os).getLast (by simp) = last at hle
    have split : ∀ v : List α, slice o last v = slice o o' v ++ slice o' last v := by
      intro v
      unfold slice
      apply List.ext_getElem?
      intro i
      rw [List.getElem?_append]
      simp only [List.getElem?_drop, List.getElem?_take, List.length_drop, List.length_take]
      by_cases h1 : i < min o' v.length - o
      · rw [if_pos h1, if_pos (by omega), if_pos (by omega)]
      · rw [if_neg h1]
        by_cases h2 : o + i < last
        · rw [if_pos h2]
          by_cases h3 : o' ≤ v.length
          · rw [if_pos (by omega)]; congr 1; omega
          · rw [List.getElem?_eq_none_iff.2 (by omega)]
            split
            · rw [List.getElem?_eq_none_iff.2 (by omega)]
            · rfl
        · rw [if_neg h2]
          by_cases h3 : o' ≤ v.length
          · rw [if_neg (by omega)]
          · split
            · rw [List.getElem?_eq_none_iff.2 (by omega)]
            · rfl
    rw [split a, split b]
    rw [List.zipWith_append (by simp [slice, hab])]

omit [LinearOrder K] [IsStrictOrderedRing K] in
theorem sum_map_div (l : List (Int × List K × List K)) (f : Int × List K × List K → K) (n : K) :
    (l.map (fun b => f b / n)).sum = (l.map f).sum / n := by
  induction l with
  | nil => simp
  | cons a l ih => simp [ih, add_div]

omit [LinearOrder K] [IsStrictOrderedRing K] in
theorem sum_blocks (h : mkDataset X nf y ids = .ok d) (hy : y.length = ids.length)
    (hp : yPred.length = ids.length) (f : K → K → K) :
    ((queryIter d yPred).map (fun b => (List.zipWith f b.2.1 b.2.2).sum)).sum = (List.zipWith f y yPred).sum := by
  have b := built_of_mk h
  have hdy : d.y = y := (mkDataset_spec h).2.2.1
  have hfl : ∀ (g : Nat × Nat → List K) (l : List (Nat × Nat)), (l.map (fun p => (g p).sum)).sum = (l.flatMap g).sum := by
    intro g l
    induction l with
    | nil => simp
    | cons p l ih => simp [ih]
  have hblocks : d.queryIterator.map (·.2) = d.queryOffsets.zip d.queryOffsets.tail := by
    unfold Dataset.queryIterator
    apply List.map_snd_zip
    rw [List.length_zip, List.length_tail, b.length_offs]
    omega
  have e : (queryIter d yPred).map (fun b => (List.zipWith f b.2.1 b.2.2).sum) =
      (d.queryOffsets.zip d.queryOffsets.tail).map
        (fun p => (List.zipWith f (slice p.1 p.2 y) (slice p.1 p.2 yPred)).sum) := by
    rw [← hblocks, queryIter, List.map_map, List.map_map, hdy]
    rfl
  rw [e, hfl (fun p => List.zipWith f (slice p.1 p.2 y) (slice p.1 p.2 yPred))]
  have hhead := b.head
  have hlast := b.getLast
  have hs := b.strict
  cases ho : d.queryOffsets with
  | nil => rw [ho] at hhead; cases hhead
  | cons o os =>
    rw [ho] at hhead hlast hs
    simp only [List.head?_cons, Option.some.injEq] at hhead
    rw [List.getLast?_eq_some_getLast (by simp), Option.some.injEq] at hlast
    rw [List.tail_cons, zipWith_flatMap_slices y yPred (by omega) f o os hs, hlast, hhead]
    simp only [slice, List.drop_zero]
    rw [List.take_of_length_le (by omega), List.take_of_length_le (by omega)]

/-- C24, proved part: if the query ids are `0 .. n_queries-1` in any order, MSE.eval returns the mean squared
error over all rows, and the share of query `q` is at position `q` of the detailed scores. Missing: other ids, and
shares in the order of the queries, see `C24_id_out_of_range` and `C24_violated`. -/
theorem C24_mse_eval_partial (h : mkDataset X nf y ids = .ok d) (hc : Contiguous ids) (hy : y.length = ids.length)
    (hp : yPred.length = ids.length)
    (hids : d.queryIds.Perm ((List.range d.queryIds.length).map (fun i : Nat => (i : Int)))) :
    ∃ det, mseEval sort none d yPred =
        .ok ((List.zipWith (fun a b => (a - b) ^ 2) y yPred).sum / (y.length : K), det) ∧
      det.length = d.queryIds.length ∧
      ∀ q ∈ ids, det[q.toNat]? = some ((List.zipWith (fun a b => (a - b) ^ 2) (ofQuery q ids y)
        (ofQuery q ids yPred)).sum / (y.length : K)) := by
  have b := built_of_mk h
  have hdy : d.y = y := (mkDataset_spec h).2.2.1
  have hqi := queryIter_contiguous h hc hy hp
  have hfst : (queryIter d yPred).map (·.1) = d.queryIds := by
    rw [hqi, List.map_map]
    exact List.map_id' _
  have hrange : ∀ bl ∈ queryIter d yPred, 0 ≤ bl.1 ∧ bl.1 < (List.replicate d.nQueries (0 : K)).length := by
    intro bl hb
    have : bl.1 ∈ d.queryIds := by rw [← hfst]; exact List.mem_map.2 ⟨bl, hb, rfl⟩
    rw [hids.mem_iff] at this
    obtain ⟨i, hi, hii⟩ := List.mem_map.1 this
    rw [List.mem_range] at hi
    simp only [List.length_replicate, Dataset.nQueries]
    omega
  obtain ⟨res, h1, h2, h3, _⟩ := mseLoop_ok (msePerQuery sort none) d.nInstances (queryIter d yPred)
    (List.replicate d.nQueries 0) (by rw [hfst]; exact b.nodup) hrange
  have hsum : res.sum = (List.zipWith (fun a b => (a - b) ^ 2) y yPred).sum / (y.length : K) := by
    have hg : gather res ((queryIter d yPred).map (fun bl => bl.1.toNat)) =
        (queryIter d yPred).map (fun bl => msePerQuery sort none bl.2.1 bl.2.2 / (d.nInstances : K)) := by
      unfold gather
      rw [List.filterMap_map]
      rw [← List.filterMap_eq_map]
      apply List.filterMap_congr
      intro bl hb
      exact h3 bl hb
    have hperm : ((queryIter d yPred).map (fun bl => bl.1.toNat)).Perm (List.range res.length) := by
      have e1 : (queryIter d yPred).map (fun bl => bl.1.toNat) = d.queryIds.map Int.toNat := by
        rw [← hfst, List.map_map]; rfl
      have e2 := hids.map Int.toNat
      rw [e1]
      rw [List.map_map] at e2
      have e3 : (Int.toNat ∘ fun i : Nat => (i : Int)) = id := by funext i; simp
      rw [e3, List.map_id] at e2
      rw [h2]
      simpa [Dataset.nQueries] using e2
    have hp' := gather_perm res hperm
    rw [gather_range, hg] at hp'
    rw [← hp'.sum_eq]
    have hn : d.nInstances = y.length := by rw [Dataset.nInstances, hdy]
    rw [sum_map_div _ (fun bl => msePerQuery sort none bl.2.1 bl.2.2), hn]
    have := sum_blocks h hy hp (fun a b => (a - b) ^ 2)
    simp only [msePerQuery]
    rw [this]
  refine ⟨res, ?_, by simpa [Dataset.nQueries] using h2, ?_⟩
  · simp only [mseEval, h1, bind, Except.bind, pure, Except.pure, hsum]
  · intro q hq
    have hm : (q, ofQuery q ids y, ofQuery q ids yPred) ∈ queryIter d yPred := by
      rw [hqi]
      exact List.mem_map.2 ⟨q, b.mem_iff.2 hq, rfl⟩
    have hn : d.nInstances = y.length := by rw [Dataset.nInstances, hdy]
    have := h3 _ hm
    rw [hn] at this
    exact this

omit [LinearOrder K] [IsStrictOrderedRing K] in
theorem mseLoop_error (evalQ : List K → List K → K) (n : Nat) :
    ∀ (bs : List (Int × List K × List K)) (a : List K), (∃ b ∈ bs, (a.length : Int) ≤ b.1) →
      mseLoop evalQ n bs a = .error .indexError
  | [], _, h => by simp at h
  | (q, qy, qs) :: bs, a, h => by
    simp only [mseLoop, bind, Except.bind]
    cases hset : pySet a q (evalQ qy qs / (n : K)) with
    | error e => simp only [pySet_error hset]
    | ok a' =>
      simp only
      apply mseLoop_error evalQ n bs a'
      obtain ⟨b, hb, hbl⟩ := h
      rcases List.mem_cons.1 hb with rfl | hb
      · rw [pySet_large _ hbl] at hset
        cases hset
      · exact ⟨b, hb, by rw [length_pySet hset]; exact hbl⟩

/-- C24 is violated: any dataset with a query id not below the number of queries makes MSE.eval fail, so in
particular every dataset whose ids are `1 .. n_queries`. -/
theorem C24_id_out_of_range (h : mkDataset X nf y ids = .ok d) (c : Option Int) {q : Int} (hq : q ∈ ids)
    (hlarge : (d.queryIds.length : Int) ≤ q) : mseEval sort c d yPred = .error .indexError := by
  have b := built_of_mk h
  have hfst : (queryIter d yPred).map (·.1) = d.queryIds := by
    unfold queryIter Dataset.queryIterator
    rw [List.map_map]
    have : (fun x : Int × List K × List K => x.1) ∘ (fun b : Int × Nat × Nat =>
      (b.1, slice b.2.1 b.2.2 d.y, slice b.2.1 b.2.2 yPred)) = fun b => b.1 := rfl
    rw [this]
    apply List.map_fst_zip
    rw [List.length_zip, List.length_tail, b.length_offs]
    omega
  have hm : q ∈ (queryIter d yPred).map (·.1) := by rw [hfst]; exact b.mem_iff.2 hq
  obtain ⟨bl, hbl, rfl⟩ := List.mem_map.1 hm
  have := mseLoop_error (msePerQuery sort c) d.nInstances (queryIter d yPred) (List.replicate d.nQueries 0)
    ⟨bl, hbl, by simpa [Dataset.nQueries] using hlarge⟩
  simp only [mseEval, bind, Except.bind, this]

end C24

/-- C24 is violated, concrete datasets. (1) one query with id 1: IndexError. (2) queries 1 and 0 in this order:
the share 4 of the first query is reported for the second. -/
theorem C24_violated :
    (∃ d : Dataset Nat ℚ, mkDataset [0] 1 [3] [1] = .ok d ∧ mseEval argsort none d [3] = .error .indexError) ∧
    (∃ d : Dataset Nat ℚ, mkDataset [0, 0] 1 [3, 3] [1, 0] = .ok d ∧
      mseEval argsort none d [1, 3] = .ok (2, [0, 2])) := by
  refine ⟨⟨⟨[0], 1, [3], [1], [0, 1]⟩, by decide +kernel, by decide +kernel⟩,
    ⟨⟨[0, 0], 1, [3, 3], [1, 0], [0, 1, 2]⟩, by decide +kernel, by decide +kernel⟩⟩

/-- A dataset meeting the hypotheses of `C24_mse_eval_partial`. -/
example : ∃ d : Dataset Nat ℚ, mkDataset [0, 0, 0] 1 [3, 3, 1] [1, 1, 0] = .ok d ∧ Contiguous [1, 1, 0] ∧
    d.queryIds.Perm ((List.range d.queryIds.length).map (fun i : Nat => (i : Int))) :=
  ⟨⟨[0, 0, 0], 1, [3, 3, 1], [1, 0], [0, 2, 3]⟩, by decide +kernel, by decide, List.Perm.swap _ _ _⟩

/-! ### C25 -/

section C25
variable {sort : List ℝ → List Nat} {y s : List ℝ}

/-- The labels and predictions over which MSE and RMSE of a query are taken. -/
theorem C25_rmse (hs : IsArgsort s (sort s)) (h : y.length = s.length) :
    ∃ r, IsRanking (y.zip s) r ∧ ∀ c : Option Nat,
      Metrics.rmsePerQuery sort (cut c) y s =
        Real.sqrt ((Spec.top c r).map (fun p => (p.1 - p.2) ^ 2)).sum := by
  refine ⟨_, rankedDocs_isRanking hs h, fun c => ?_⟩
  have hr := rankedDocs_isRanking hs h
  unfold rmsePerQuery msePerQuery
  have hz : ∀ (a b : List ℝ), (List.zipWith (fun a b => (a - b) ^ 2) a b) = (a.zip b).map (fun p => (p.1 - p.2) ^ 2) := by
    intro a b
    rw [List.zip, List.map_zipWith]
  cases c with
  | none =>
    simp only [Option.map_none, top]
    rw [hz, (hr.perm.map _).sum_eq]
  | some k =>
    simp only [Option.map_some, top, topIdx, Int.ofNat_eq_natCast, pyTake_of_nonneg]
    have hlt : ∀ i ∈ (sort s).reverse, i < s.length := fun i hi =>
      (mem_range_of_isArgsort hs).1 (List.mem_reverse.1 hi)
    have hzip : (gather y ((sort s).reverse.take k)).zip (gather s ((sort s).reverse.take k)) =
        (rankedDocs sort y s).take k := by
      unfold rankedDocs
      rw [← gather_take _ _ _ (by simpa [h] using hlt), ← gather_fst_zip h, ← gather_snd_zip h, List.zip_map']
      exact List.map_id' _
    rw [hz, hzip]

/-- C25: RMSE is non-negative, and 0 exactly if every retrieved prediction equals its label. -/
theorem C25_rmse_zero (hs : IsArgsort s (sort s)) (h : y.length = s.length) :
    ∃ r, IsRanking (y.zip s) r ∧ ∀ c : Option Nat,
      0 ≤ Metrics.rmsePerQuery sort (cut c) y s ∧
      (Metrics.rmsePerQuery sort (cut c) y s = 0 ↔ ∀ p ∈ Spec.top c r, p.1 = p.2) := by
  obtain ⟨r, hr, hv⟩ := C25_rmse hs h
  refine ⟨r, hr, fun c => ?_⟩
  rw [hv c]
  refine ⟨Real.sqrt_nonneg _, ?_⟩
  have hnn : ∀ l : List (ℝ × ℝ), 0 ≤ (l.map (fun p => (p.1 - p.2) ^ 2)).sum ∧
      ((l.map (fun p => (p.1 - p.2) ^ 2)).sum = 0 ↔ ∀ p ∈ l, p.1 = p.2) := by
    intro l
    induction l with
    | nil => simp
    | cons p l ih =>
      have h1 : 0 ≤ (p.1 - p.2) ^ 2 := sq_nonneg _
      simp only [List.map_cons, List.sum_cons]
      refine ⟨by linarith [ih.1], ?_⟩
      rw [add_eq_zero_iff_of_nonneg h1 ih.1, ih.2, pow_eq_zero_iff (by norm_num), sub_eq_zero]
      simp
  rw [Real.sqrt_eq_zero (hnn _).1]
  exact (hnn _).2

/-- C25: with `n` documents and no cutoff, RMSE is the root of the *sum* of squares: it equals the documented root
of the *mean* exactly for one document or exact predictions. -/
theorem C25_rmse_not_mean (h : y.length = s.length) (hne : y ≠ []) :
    Metrics.rmsePerQuery sort none y s =
        Real.sqrt ((List.zipWith (fun a b => (a - b) ^ 2) y s).sum / (y.length : ℝ)) ↔
      y.length = 1 ∨ y = s := by
  have hnn : ∀ a b : List ℝ, a.length = b.length → 0 ≤ (List.zipWith (fun a b => (a - b) ^ 2) a b).sum ∧
      ((List.zipWith (fun a b => (a - b) ^ 2) a b).sum = 0 ↔ a = b) := by
    intro a
    induction a with
    | nil => intro b hb; cases b with
      | nil => simp
      | cons _ _ => simp at hb
    | cons x a ih =>
      intro b hb
      cases b with
      | nil => simp at hb
      | cons z b =>
        have h1 : 0 ≤ (x - z) ^ 2 := sq_nonneg _
        have := ih b (by simpa using hb)
        simp only [List.zipWith_cons_cons, List.sum_cons, List.cons.injEq]
        refine ⟨by linarith [this.1], ?_⟩
        rw [add_eq_zero_iff_of_nonneg h1 this.1, this.2, pow_eq_zero_iff (by norm_num), sub_eq_zero]
  obtain ⟨h0, h1⟩ := hnn y s h
  unfold rmsePerQuery msePerQuery
  simp only
  have hn : (0 : ℝ) < y.length := by exact_mod_cast List.length_pos_iff.2 hne
  rw [Real.sqrt_inj h0 (by positivity), eq_div_iff hn.ne', ← h1]
  constructor
  · intro he
    by_cases hz : (List.zipWith (fun a b => (a - b) ^ 2) y s).sum = 0
    · exact Or.inr hz
    · left
      have : ((y.length : ℝ)) = 1 := by
        have := mul_left_cancel₀ hz (he.trans (mul_one _).symm)
        exact this
      exact_mod_cast this
  · rintro (h2 | h2)
    · rw [h2]; simp
    · rw [h2]; simp

example : ∃ (y s : List ℝ), y.length = s.length ∧ y ≠ [] ∧ y.length ≠ 1 ∧ IsArgsort s (argsort s) :=
  ⟨[1, 2], [0, 1], rfl, by simp, by simp, argsort_isArgsort _⟩

end C25
end Verif.Props
