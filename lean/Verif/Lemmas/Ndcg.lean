/-
The NDCG object: what a state reachable by calls looks like.
-/
import Verif.Model.Ndcg
import Verif.Lemmas.Eval

namespace Verif
open Metrics
variable {R S : Type}

/-- NDCG of one query with the ideal score rounded, the value computed by an object that never used a cache. -/
noncomputable def ndcgRounded (cfg : NdcgCfg S) (y : List ℝ) (yPred : List S) : Except PyErr (Option ℝ) :=
  match dcg cfg.sort cfg.cutoff cfg.impl y yPred with
  | .error e => .error e
  | .ok s =>
    match dcg cfg.sortY cfg.cutoff cfg.impl y y with
    | .error e => .error e
    | .ok i => .ok (some (ndcgRatio cfg s (cfg.f32 i)))

theorem ndcgLoop_eq (cfg : NdcgCfg S) (same : Dataset R ℝ → Dataset R ℝ → Bool) (store : Option ℝ → Option ℝ)
    (d : Dataset R ℝ) (arr : List ℝ) :
    ∀ (bs : List (Int × List ℝ × List S)) (st : NdcgState (Dataset R ℝ)) (k i : Nat) (a : List (Option ℝ)),
      st.cur = some d → cacheGet same st.cache d = some arr → st.cursor = some k →
      (∀ (j : Nat) b, bs[j]? = some b →
        ∃ w, dcg cfg.sortY cfg.cutoff cfg.impl b.2.1 b.2.1 = .ok w ∧ arr[k + j]? = some (cfg.f32 w)) →
      (ndcgLoop cfg same store st i bs a).2 = evalLoop store (ndcgRounded cfg) i bs a ∧
      (ndcgLoop cfg same store st i bs a).1.cur = some d ∧
      (ndcgLoop cfg same store st i bs a).1.cache = st.cache ∧
      ((∃ r, (ndcgLoop cfg same store st i bs a).2 = .ok r) →
        (ndcgLoop cfg same store st i bs a).1.cursor = some (k + bs.length))
  | [], st, k, i, a, hcur, hcache, hk, _ => by simp [ndcgLoop, evalLoop, hcur, hk]
  | (q, qy, qs) :: bs, st, k, i, a, hcur, hcache, hk, hid => by
    obtain ⟨w, hw, harr⟩ := hid 0 (q, qy, qs) (by simp)
    simp only [Nat.add_zero] at hw harr
    simp only [ndcgLoop, evalLoop, ndcgPerQuery, ndcgRounded, bind, Except.bind]
    cases hdcg : dcg cfg.sort cfg.cutoff cfg.impl qy qs with
    | error e => simp [hcur]
    | ok s =>
      simp only [hk, hcur, Option.bind_some, hcache, harr, hw]
      cases hset : pySet a (i : Int) (store (some (ndcgRatio cfg s (cfg.f32 w)))) with
      | error e => simp
      | ok a' =>
        simp only
        have ih := ndcgLoop_eq cfg same store d arr bs ⟨some d, some (k + 1), st.cache⟩ (k + 1) (i + 1) a' rfl hcache rfl (by
          intro j b hb
          obtain ⟨w, hw, h⟩ := hid (j + 1) b (by simpa using hb)
          exact ⟨w, hw, by rw [← h]; congr 1; omega⟩)
        simp only [List.length_cons]
        refine ⟨ih.1, ih.2.1, ih.2.2.1, fun h => ?_⟩
        rw [ih.2.2.2 h]
        congr 1
        omega

/-- The cache of a state holds the ideal scores of datasets in `D`. -/
def CacheOk (cfg : NdcgCfg S) (D : Dataset R ℝ → Prop) (cache : List (Dataset R ℝ × List ℝ)) : Prop :=
  ∀ e ∈ cache, D e.1 ∧ ndcgIdeal cfg e.1 = .ok e.2

theorem labels_queryIter {T : Type} (d : Dataset R ℝ) (p : List T) :
    (queryIter d p).map (fun b => (b.1, b.2.1)) = d.queryIterator.map (fun b => (b.1, slice b.2.1 b.2.2 d.y)) := by
  simp [queryIter, Function.comp_def]

theorem mapM_ok_getElem {α β : Type} {f : α → Except PyErr β} : ∀ {l : List α} {r : List β}, l.mapM f = .ok r →
    r.length = l.length ∧ ∀ (j : Nat) a, l[j]? = some a → ∃ b, f a = .ok b ∧ r[j]? = some b
  | [], r, h => by
    simp only [List.mapM_nil, pure, Except.pure, Except.ok.injEq] at h
    subst h
    simp
  | x :: l, r, h => by
    rw [List.mapM_cons] at h
    simp only [bind, Except.bind] at h
    cases hx : f x with
    | error e => rw [hx] at h; cases h
    | ok b =>
      rw [hx] at h
      simp only at h
      cases hl : l.mapM f with
      | error e => rw [hl] at h; cases h
      | ok bs =>
        rw [hl] at h
        simp only [pure, Except.pure, Except.ok.injEq] at h
        subst h
        obtain ⟨h1, h2⟩ := mapM_ok_getElem hl
        refine ⟨by simp [h1], ?_⟩
        intro j a ha
        cases j with
        | zero => simp at ha; subst ha; exact ⟨b, hx, by simp⟩
        | succ j => simpa using h2 j a (by simpa using ha)

/-- Two datasets with the same labels and the same division into queries, as far as the ideal scores see it. -/
def SameLabels (a b : Dataset R ℝ) : Prop :=
  a.queryIterator.map (fun q => slice q.2.1 q.2.2 a.y) = b.queryIterator.map (fun q => slice q.2.1 q.2.2 b.y)

theorem ideal_spec {cfg : NdcgCfg S} {e d : Dataset R ℝ} {arr : List ℝ} (h : ndcgIdeal cfg e = .ok arr)
    (hl : SameLabels e d) {T : Type} (p : List T) : arr.length = (queryIter d p).length ∧
      ∀ (j : Nat) b, (queryIter d p)[j]? = some b →
        ∃ w, dcg cfg.sortY cfg.cutoff cfg.impl b.2.1 b.2.1 = .ok w ∧ arr[j]? = some (cfg.f32 w) := by
  obtain ⟨h1, h2⟩ := mapM_ok_getElem h
  have hlab : (queryIter e e.y).map (fun b => b.2.1) = (queryIter d p).map (fun b => b.2.1) := by
    simpa [queryIter, SameLabels, Function.comp_def] using hl
  refine ⟨by rw [h1]; simpa using congrArg List.length hlab, ?_⟩
  intro j b hb
  have hj := congrArg (fun l => l[j]?) hlab
  simp only [List.getElem?_map, hb, Option.map_some] at hj
  cases he : (queryIter e e.y)[j]? with
  | none => rw [he] at hj; simp at hj
  | some b' =>
    rw [he] at hj
    simp only [Option.map_some, Option.some.injEq] at hj
    obtain ⟨v, hv, ha⟩ := h2 j b' he
    simp only [bind, Except.bind, hj] at hv
    cases hd : dcg cfg.sortY cfg.cutoff cfg.impl b.2.1 b.2.1 with
    | error e => rw [hd] at hv; cases hv
    | ok w =>
      rw [hd] at hv
      simp only [pure, Except.pure, Except.ok.injEq] at hv
      exact ⟨w, rfl, by rw [ha, hv]⟩

theorem mapM_error {α β : Type} {f : α → Except PyErr β} {e : PyErr} : ∀ {l : List α}, l.mapM f = .error e →
    ∃ a ∈ l, f a = .error e
  | [], h => by simp [pure, Except.pure] at h
  | x :: l, h => by
    rw [List.mapM_cons] at h
    simp only [bind, Except.bind] at h
    cases hx : f x with
    | error e' =>
      rw [hx] at h
      cases h
      exact ⟨x, by simp, hx⟩
    | ok b =>
      rw [hx] at h
      simp only at h
      cases hl : l.mapM f with
      | error e' =>
        rw [hl] at h
        cases h
        obtain ⟨a, ha, hf⟩ := mapM_error hl
        exact ⟨a, by simp [ha], hf⟩
      | ok bs => rw [hl] at h; cases h

theorem dcg_other {T : Type} (sort : List T → List Nat) (c : Option Int) (y : List ℝ) (s : List T) :
    dcg sort c .other y s = .error .unboundLocalError := by
  simp [dcg, dcgGain, bind, Except.bind]

theorem dcg_ok {T : Type} (sort : List T → List Nat) (c : Option Int) {impl : Impl} (h : impl ≠ .other)
    (y : List ℝ) (s : List T) : ∃ v, dcg sort c impl y s = .ok v := by
  cases impl with
  | flat => exact ⟨_, rfl⟩
  | exp => exact ⟨_, rfl⟩
  | other => exact (h rfl).elim

theorem find_some_iff {D : Type} {same : D → D → Bool} {cache : List (D × List ℝ)} {d : D} {arr : List ℝ}
    (h : cacheGet same cache d = some arr) : ∃ e, (e, arr) ∈ cache ∧ same e d = true := by
  unfold cacheGet at h
  rw [Option.map_eq_some_iff] at h
  obtain ⟨⟨e, a⟩, he, rfl⟩ := h
  exact ⟨e, List.mem_of_find?_eq_some he, by simpa using List.find?_some he⟩

/-- One evaluation from a state with a correct cache. -/
theorem ndcgEval_spec (cfg : NdcgCfg S) (same : Dataset R ℝ → Dataset R ℝ → Bool) (store : Option ℝ → Option ℝ)
    {D : Dataset R ℝ → Prop} (hrefl : ∀ a, D a → same a a = true)
    (hsame : ∀ a b, D a → D b → same a b = true → SameLabels a b)
    {st : NdcgState (Dataset R ℝ)} (hc : CacheOk cfg D st.cache) {d : Dataset R ℝ} (hd : D d) (yPred : List S) :
    (ndcgEval cfg same store st d yPred).2 = metricEval store (ndcgRounded cfg) d yPred ∧
    CacheOk cfg D (ndcgEval cfg same store st d yPred).1.cache ∧
    ((∃ r, (ndcgEval cfg same store st d yPred).2 = .ok r) →
      ∃ arr, (ndcgEval cfg same store st d yPred).1.cur = some d ∧
        cacheGet same (ndcgEval cfg same store st d yPred).1.cache d = some arr ∧
        (ndcgEval cfg same store st d yPred).1.cursor = some arr.length) := by
  have key : ∀ (cache : List (Dataset R ℝ × List ℝ)) (arr : List ℝ) (e : Dataset R ℝ),
      cacheGet same cache d = some arr → CacheOk cfg D cache → ndcgIdeal cfg e = .ok arr → SameLabels e d →
      let r := ndcgBaseEval cfg same store ⟨some d, some 0, cache⟩ d yPred
      r.2 = metricEval store (ndcgRounded cfg) d yPred ∧ CacheOk cfg D r.1.cache ∧
      ((∃ x, r.2 = .ok x) → ∃ arr, r.1.cur = some d ∧ cacheGet same r.1.cache d = some arr ∧
        r.1.cursor = some arr.length) := by
    intro cache arr e hget hok hid hlab
    obtain ⟨hlen, hspec⟩ := ideal_spec hid hlab yPred
    obtain ⟨l1, l2, l3, l4⟩ := ndcgLoop_eq cfg same store d arr (queryIter d yPred) ⟨some d, some 0, cache⟩ 0 0
      (List.replicate d.nQueries (some 0)) rfl hget rfl (by simpa using hspec)
    simp only [ndcgBaseEval, metricEval, ← l1, bind, Except.bind]
    generalize hL : ndcgLoop cfg same store ⟨some d, some 0, cache⟩ 0 (queryIter d yPred)
          (List.replicate d.nQueries (some 0)) = L at *
    obtain ⟨st3, res⟩ := L
    simp only at l1 l2 l3 l4
    cases res with
    | error e => exact ⟨rfl, by simpa [l3] using hok, by simp⟩
    | ok det =>
      have := l4 ⟨det, rfl⟩
      refine ⟨rfl, by simpa [l3] using hok, fun _ => ⟨arr, l2, by simpa [l3] using hget, by simp [this, hlen]⟩⟩
  unfold ndcgEval
  cases hget : cacheGet same st.cache d with
  | some arr =>
    obtain ⟨e, he, hs⟩ := find_some_iff hget
    obtain ⟨h1, h2⟩ := hc _ he
    exact key st.cache arr e hget hc h2 (hsame e d h1 hd hs)
  | none =>
    simp only
    cases hid : ndcgIdeal cfg d with
    | ok arr =>
      simp only
      refine key ((d, arr) :: st.cache) arr d ?_ ?_ hid rfl
      · simp [cacheGet, hrefl d hd]
      · intro e he
        rcases List.mem_cons.1 he with rfl | he
        · exact ⟨hd, hid⟩
        · exact hc e he
    | error e =>
      simp only
      refine ⟨?_, hc, by simp⟩
      obtain ⟨b, hb, hbe⟩ := mapM_error hid
      have hother : cfg.impl = .other := by
        by_contra hne
        obtain ⟨v, hv⟩ := dcg_ok cfg.sortY cfg.cutoff hne b.2.1 b.2.1
        simp [bind, Except.bind, hv, pure, Except.pure] at hbe
      rw [hother, dcg_other] at hbe
      simp only [bind, Except.bind] at hbe
      cases hbe
      have hne : queryIter d yPred ≠ [] := by
        intro h0
        have : (queryIter d d.y) = [] := by
          simp only [queryIter, List.map_eq_nil_iff] at h0 ⊢
          exact h0
        rw [this] at hb
        cases hb
      simp only [metricEval, bind, Except.bind]
      cases hq : queryIter d yPred with
      | nil => exact (hne hq).elim
      | cons b bs =>
        simp [evalLoop, ndcgRounded, hother, dcg_other, bind, Except.bind]

/-- A call of eval_per_query changes at most the cursor. -/
theorem ndcgPerQuery_cache (cfg : NdcgCfg S) (same : Dataset R ℝ → Dataset R ℝ → Bool)
    (st : NdcgState (Dataset R ℝ)) (y : List ℝ) (yPred : List S) :
    (ndcgPerQuery cfg same st y yPred).1.cache = st.cache ∧
    (st.cursor = none → (ndcgPerQuery cfg same st y yPred).1 = st) := by
  unfold ndcgPerQuery
  cases dcg cfg.sort cfg.cutoff cfg.impl y yPred with
  | error e => simp
  | ok s =>
    cases hc : st.cursor with
    | none =>
      simp only
      cases dcg cfg.sortY cfg.cutoff cfg.impl y y <;> simp
    | some k =>
      simp only
      cases st.cur.bind (cacheGet same st.cache) with
      | none => simp
      | some arr =>
        simp only
        cases arr[k]? <;> simp

/-- The datasets evaluated by a sequence of calls. -/
def evaluated : List (NdcgCall R S) → Dataset R ℝ → Prop :=
  fun calls d => ∃ p, NdcgCall.eval d p ∈ calls

theorem ndcgRun_cacheOk (cfg : NdcgCfg S) (same : Dataset R ℝ → Dataset R ℝ → Bool) (store : Option ℝ → Option ℝ)
    {D : Dataset R ℝ → Prop} (hrefl : ∀ a, D a → same a a = true)
    (hsame : ∀ a b, D a → D b → same a b = true → SameLabels a b) :
    ∀ (calls : List (NdcgCall R S)) (st : NdcgState (Dataset R ℝ)), CacheOk cfg D st.cache →
      (∀ d, evaluated calls d → D d) → CacheOk cfg D (calls.foldl (ndcgStep cfg same store) st).cache
  | [], st, h, _ => h
  | c :: calls, st, h, hD => by
    rw [List.foldl_cons]
    apply ndcgRun_cacheOk cfg same store hrefl hsame calls
    · cases c with
      | eval d p =>
        exact (ndcgEval_spec cfg same store hrefl hsame h (hD d ⟨p, by simp⟩) p).2.1
      | perQuery y p =>
        simp only [ndcgStep, (ndcgPerQuery_cache cfg same st y p).1]
        exact h
    · rintro d ⟨p, hp⟩
      exact hD d ⟨p, by simp [hp]⟩

end Verif
