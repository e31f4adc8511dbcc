/-
Properties C01 - C07 of `Dataset`.
-/
import Verif.Lemmas.Kfold

namespace Verif.Props
open Spec Dataset

variable {R L : Type}

/-! ### C01 -/

/-- C01: the query blocks of every dataset tile the rows. `queryIterator` lists `(id, start, end)`. -/
theorem C01_query_blocks_tile_rows {X : List R} {nf : Nat} {y : List L} {ids : List Int} {d : Dataset R L}
    (h : mkDataset X nf y ids = .ok d) :
    -- boundaries: from 0 to the number of rows, strictly increasing, one more than queries
    d.queryOffsets.head? = some 0 ∧ d.queryOffsets.getLast? = some X.length ∧
    d.queryOffsets.Pairwise (· < ·) ∧ d.queryOffsets.length = d.queryIds.length + 1 ∧
    -- every row is in exactly one block
    (∀ i < X.length, ∃! b, b ∈ d.queryIterator ∧ b.2.1 ≤ i ∧ i < b.2.2) ∧
    -- no block is empty and all end within the rows
    (∀ b ∈ d.queryIterator, b.2.1 < b.2.2 ∧ b.2.2 ≤ X.length) ∧
    -- the ids are the distinct ids of the input, in order of first appearance
    d.queryIds.Nodup ∧ (∀ q, q ∈ d.queryIds ↔ q ∈ ids) ∧
    d.queryIds.Pairwise (fun a b => ids.idxOf a < ids.idxOf b) ∧
    d.queryIterator.map (·.1) = d.queryIds := by
  have b := built_of_mk h
  have hl := (mkDataset_spec h).1
  refine ⟨b.head, by rw [← hl]; exact b.getLast, b.strict, b.length_offs, ?_, ?_, b.nodup,
    fun q => b.mem_iff, b.order, ?_⟩
  · intro i hi
    obtain ⟨q, s, e, hm, h1, h2⟩ := b.enclosing (by omega : i < ids.length)
    refine ⟨(q, s, e), ⟨hm, h1, h2⟩, ?_⟩
    rintro ⟨q', s', e'⟩ ⟨hm', h3, h4⟩
    obtain ⟨r1, r2, r3⟩ := b.block_unique hm' hm h3 h4 h1 h2
    rw [r1, r2, r3]
  · rintro ⟨q, s, e⟩ hm
    have := b.block_start hm
    exact ⟨this.2.2.1, by rw [← hl]; exact this.2.2.2⟩
  · unfold queryIterator
    apply List.map_fst_zip
    rw [List.length_zip, List.length_tail, b.length_offs]
    omega

/-- C01: a query id array of the wrong length is rejected. -/
theorem C01_wrong_size_rejected (X : List R) (nf : Nat) (y : List L) (ids : List Int)
    (h : ids.length ≠ X.length) : mkDataset X nf y ids = .error .exception := by
  simp [mkDataset, h]

example : mkDataset [10, 11, 12, 13] 1 [0, 1, 0, 2] [7, 7, 3, 3] =
    .ok ⟨[10, 11, 12, 13], 1, [0, 1, 0, 2], [7, 3], [0, 2, 4]⟩ := by decide +kernel

/-! ### C02 -/

/-- The English property C02 for one dataset: rows are yielded under `q` exactly if their id is `q`. -/
def RowsUnderOwnQuery (ids : List Int) (blocks : List (Int × Nat × Nat)) : Prop :=
  ∀ q s e, (q, s, e) ∈ blocks → ∀ i, (s ≤ i ∧ i < e) ↔ ids[i]? = some q

/-- C02, proved part: it holds for id arrays in which the rows of each query are contiguous. What is
missing: other arrays, where it is false (`C02_iff_contiguous`, `C02_violated`). -/
theorem C02_rows_under_own_query_partial {X : List R} {nf : Nat} {y : List L} {ids : List Int}
    {d : Dataset R L} (h : mkDataset X nf y ids = .ok d) (hc : Contiguous ids) :
    RowsUnderOwnQuery ids d.queryIterator :=
  fun _ _ _ hm _ => (built_of_mk h).block_id_of_contiguous hc hm

example : Contiguous [7, 7, 3, 3, 5] := by decide

/-- C02 holds for a dataset exactly if the rows of each query are contiguous. -/
theorem C02_iff_contiguous {X : List R} {nf : Nat} {y : List L} {ids : List Int} {d : Dataset R L}
    (h : mkDataset X nf y ids = .ok d) :
    RowsUnderOwnQuery ids d.queryIterator ↔ Contiguous ids := by
  constructor
  · intro hr i j k a hij hjk hi hk
    have b := built_of_mk h
    have hil := (List.getElem?_eq_some_iff.1 hi).1
    obtain ⟨q, s, e, hm, h1, h2⟩ := b.enclosing hil
    have hq := (hr q s e hm i).1 ⟨h1, h2⟩
    rw [hi] at hq; injection hq with hq; subst hq
    have := (hr a s e hm k).2 hk
    exact (hr a s e hm j).1 (by omega)
  · exact C02_rows_under_own_query_partial h

/-- C02 is violated: three rows of queries 1, 2, 1 put the third row under query 2. -/
theorem C02_violated : ∃ (X : List Nat) (y : List Nat) (ids : List Int) (d : Dataset Nat Nat),
    mkDataset X 1 y ids = .ok d ∧ ¬ RowsUnderOwnQuery ids d.queryIterator ∧
    (2, 1, 3) ∈ d.queryIterator ∧ ids[2]? = some 1 := by
  refine ⟨[0, 0, 0], [0, 0, 0], [1, 2, 1], ⟨[0, 0, 0], 1, [0, 0, 0], [1, 2], [0, 1, 3]⟩,
    by decide +kernel, ?_, by decide, by decide⟩
  intro h
  have := (h 2 1 3 (by decide) 2).1 (by omega)
  simp at this

/-! ### C03 -/

/-- C03: `get_qids_dataset` returns the ids the dataset was built from, whatever the uninitialised memory
contained. -/
theorem C03_get_qids_dataset {X : List R} {nf : Nat} {y : List L} {ids : List Int} {d : Dataset R L}
    (h : mkDataset X nf y ids = .ok d) (hy : y.length = X.length) (hc : Contiguous ids)
    (h32 : ∀ q ∈ ids, IsInt32 q) (init : List Int) (hinit : init.length = X.length) :
    d.getQidsFrom init = ids ∧ d.getQids = ids := by
  have hsp := mkDataset_spec h
  exact ⟨(built_of_mk h).getQidsFrom_of_contiguous hc h32 (by omega),
    (built_of_mk h).getQids_of_contiguous hc h32 (by rw [hsp.2.2.1]; omega)⟩

/-- C03: query sizes always add up to the number of rows. -/
theorem C03_sizes_sum {X : List R} {nf : Nat} {y : List L} {ids : List Int} {d : Dataset R L}
    (h : mkDataset X nf y ids = .ok d) : d.getQuerySizes.sum = X.length := by
  rw [(built_of_mk h).sum_sizes, (mkDataset_spec h).1]

/-- C03: query sizes count the rows of each query, in the order of the queries. -/
theorem C03_sizes_count {X : List R} {nf : Nat} {y : List L} {ids : List Int} {d : Dataset R L}
    (h : mkDataset X nf y ids = .ok d) (hc : Contiguous ids) :
    d.getQuerySizes = d.queryIds.map (fun q => ids.count q) := by
  have b := built_of_mk h
  apply List.ext_getElem?
  intro k
  unfold getQuerySizes
  rw [List.getElem?_map, List.getElem?_map]
  rcases Nat.lt_or_ge k d.queryIds.length with hk | hk
  · have hk1 : k + 1 < d.queryOffsets.length := by rw [b.length_offs]; omega
    have e1 : (d.queryOffsets.zip d.queryOffsets.tail)[k]? =
        some (d.queryOffsets[k], d.queryOffsets[k+1]) := by
      rw [List.getElem?_zip_eq_some]; simp
    have hm : (d.queryIds[k], d.queryOffsets[k], d.queryOffsets[k+1]) ∈ d.queryIterator :=
      mem_queryIterator.2 ⟨k, by simp, by simp, by simp⟩
    rw [e1, List.getElem?_eq_getElem hk]
    simp [b.size_of_contiguous hc hm]
  · rw [List.getElem?_eq_none hk, List.getElem?_eq_none]
    · rfl
    · rw [List.length_zip, List.length_tail, b.length_offs]; omega

/-- C03: `get_query_offsets` returns the rows of a present query. -/
theorem C03_get_query_offsets {X : List R} {nf : Nat} {y : List L} {ids : List Int} {d : Dataset R L}
    (h : mkDataset X nf y ids = .ok d) (hc : Contiguous ids) (q : Int) (hq : q ∈ ids) :
    ∃ s e, d.getQueryOffsets q = .ok (s, e) ∧ ∀ i, (s ≤ i ∧ i < e) ↔ ids[i]? = some q := by
  have b := built_of_mk h
  unfold getQueryOffsets
  cases hf : d.queryIds.findIdx? (· = q) with
  | none =>
    rw [List.findIdx?_eq_none_iff] at hf
    have := hf q (b.mem_iff.2 hq)
    simp at this
  | some k =>
    rw [List.findIdx?_eq_some_iff_getElem] at hf
    obtain ⟨hk, hkq, _⟩ := hf
    simp at hkq
    have hk1 : k + 1 < d.queryOffsets.length := by rw [b.length_offs]; omega
    have hk0 : k < d.queryOffsets.length := by omega
    have hm : (q, d.queryOffsets[k], d.queryOffsets[k+1]) ∈ d.queryIterator :=
      mem_queryIterator.2 ⟨k, by rw [List.getElem?_eq_getElem hk, hkq], by simp, by simp⟩
    simp only [List.getElem?_eq_getElem hk0, List.getElem?_eq_getElem hk1]
    exact ⟨_, _, rfl, fun i => b.block_id_of_contiguous hc hm⟩

/-- C03: an absent id is an error. (It is an `AttributeError`, not the intended `LookupError`.) -/
theorem C03_absent_id_error {X : List R} {nf : Nat} {y : List L} {ids : List Int} {d : Dataset R L}
    (h : mkDataset X nf y ids = .ok d) (q : Int) (hq : q ∉ ids) :
    d.getQueryOffsets q = .error .attributeError := by
  have b := built_of_mk h
  unfold getQueryOffsets
  have : d.queryIds.findIdx? (· = q) = none := by
    rw [List.findIdx?_eq_none_iff]
    intro x hx
    simp only [decide_eq_false_iff_not]
    rintro rfl
    exact hq (b.mem_iff.1 hx)
  rw [this]

/-- C03: rebuilding from the per-row ids gives the same queries and boundaries, for every dataset
(contiguous or not). -/
theorem C03_rebuild {X : List R} {nf : Nat} {y : List L} {ids : List Int} {d : Dataset R L}
    (h : mkDataset X nf y ids = .ok d) (hy : y.length = X.length) (h32 : ∀ q ∈ ids, IsInt32 q) :
    ∃ d', mkDataset X nf y d.getQids = .ok d' ∧ d' = d := by
  have hsp := mkDataset_spec h
  obtain ⟨h1, h2, h3⟩ := (built_of_mk h).rebuild h32 (by rw [hsp.2.2.1]; omega)
  obtain ⟨d', hd'⟩ := mkDataset_isOk (X := X) (nf := nf) (y := y) (ids := d.getQids) (by omega)
  have he := (built_of_mk h).ext (built_of_mk hd') h1 h2.symm h3
  have hsp' := mkDataset_spec hd'
  refine ⟨d', hd', ?_⟩
  cases d; cases d'
  simp only [Dataset.mk.injEq] at *
  exact ⟨hsp'.2.1.trans hsp.2.1.symm, hsp'.2.2.2.1.trans hsp.2.2.2.1.symm,
    hsp'.2.2.1.trans hsp.2.2.1.symm, he.1.symm, he.2.symm⟩

example : ∀ q ∈ ([7, 7, 3, 3, 5] : List Int), IsInt32 q := by
  intro q hq; simp at hq; unfold IsInt32; omega

/-! ### C04 -/

/-- C04: `subset` returns exactly the rows whose query is requested, in order and aligned. -/
theorem C04_subset {X : List R} {nf : Nat} {y : List L} {ids : List Int} {d : Dataset R L}
    (h : mkDataset X nf y ids = .ok d) (hy : y.length = X.length) (hc : Contiguous ids)
    (h32 : ∀ q ∈ ids, IsInt32 q) (Q : List Int) :
    ∃ d', d.subset Q = .ok d' ∧ d'.nFeatures = nf ∧
      rows d'.X d'.y d'.getQids = (rows X y ids).filter (fun r => decide (r.2.2 ∈ Q)) ∧
      d'.X.length = d'.getQids.length ∧ d'.y.length = d'.getQids.length := by
  obtain ⟨d', h1, h2, h3, h4, h5, h6⟩ := subset_spec h hy hc h32 Q
  refine ⟨d', h1, h5, ?_, by rw [h2, h4]; simp, by rw [h3, h4]; simp⟩
  rw [h2, h3, h4]
  exact zip3_of_filter _

/-- C04: only membership in the requested list matters (order, repetitions and absent ids do not). -/
theorem C04_subset_congr {X : List R} {nf : Nat} {y : List L} {ids : List Int} {d : Dataset R L}
    (h : mkDataset X nf y ids = .ok d) (hy : y.length = X.length) (hc : Contiguous ids)
    (h32 : ∀ q ∈ ids, IsInt32 q) (Q Q' : List Int) (hQ : ∀ q ∈ ids, q ∈ Q ↔ q ∈ Q') :
    d.subset Q = d.subset Q' := by
  have hsp := mkDataset_spec h
  have hq : d.getQids = ids :=
    (built_of_mk h).getQids_of_contiguous hc h32 (by rw [hsp.2.2.1]; omega)
  unfold Dataset.subset
  have : d.getQids.map (fun q => decide (q ∈ Q)) = d.getQids.map (fun q => decide (q ∈ Q')) := by
    apply List.map_congr_left
    intro q hq'
    rw [hq] at hq'
    simp [hQ q hq']
  simp only [this]

/-! ### C05 -/

/-- C05: `subset_features` keeps rows, labels and queries and selects the columns. -/
theorem C05_subset_features {K : Type} {X : List (List K)} {nf : Nat} {y : List L} {ids : List Int}
    {d : Dataset (List K) L} (h : mkDataset X nf y ids = .ok d) (hy : y.length = X.length)
    (h32 : ∀ q ∈ ids, IsInt32 q) (hrows : ∀ r ∈ X, r.length = nf)
    (F : List Nat) (hF : ∀ f ∈ F, f < nf) :
    ∃ d', d.subsetFeatures (F.map (fun f : Nat => (f : Int))) = .ok d' ∧
      d'.y = d.y ∧ d'.queryIds = d.queryIds ∧ d'.queryOffsets = d.queryOffsets ∧
      d'.nFeatures = F.length ∧ d'.X.length = d.X.length ∧
      ∀ (i : Nat) (r r' : List K), d.X[i]? = some r → d'.X[i]? = some r' →
        r'.length = F.length ∧ ∀ (j f : Nat), F[j]? = some f → r'[j]? = r[f]? := by
  have hsp := mkDataset_spec h
  have hrow : ∀ r ∈ X, selectRow r (F.map (fun f : Nat => (f : Int))) = .ok (gather r F) := by
    intro r hr
    unfold selectRow
    have : ∀ G : List Nat, (∀ f ∈ G, f < nf) →
        (G.map (fun f : Nat => (f : Int))).mapM (pyGet r) = .ok (gather r G) := by
      intro G
      induction G with
      | nil => intro _; rfl
      | cons g G ih =>
        intro hG
        have hg : g < r.length := by rw [hrows r hr]; exact hG g (by simp)
        rw [List.map_cons, List.mapM_cons, ih (fun f hf => hG f (by simp [hf])),
          gather_cons _ _ _ hg]
        simp [pyGet, hg, bind, Except.bind, pure, Except.pure]
    exact this F hF
  have hX : X.mapM (fun r => selectRow r (F.map (fun f : Nat => (f : Int)))) = .ok (X.map (fun r => gather r F)) := by
    have : ∀ Y : List (List K), (∀ r ∈ Y, r ∈ X) →
        Y.mapM (fun r => selectRow r (F.map (fun f : Nat => (f : Int)))) = .ok (Y.map (fun r => gather r F)) := by
      intro Y
      induction Y with
      | nil => intro _; rfl
      | cons r Y ih =>
        intro hY
        rw [List.mapM_cons, hrow r (hY r (by simp)), ih (fun f hf => hY f (by simp [hf]))]
        rfl
    exact this X (fun _ h => h)
  obtain ⟨hm, hlen, hidx⟩ := (built_of_mk h).rebuild h32 (by rw [hsp.2.2.1]; omega)
  obtain ⟨d', hd'⟩ := mkDataset_isOk (X := X.map (fun r => gather r F)) (nf := F.length) (y := y)
    (ids := d.getQids) (by rw [hlen]; simp; omega)
  have hsp' := mkDataset_spec hd'
  have he := (built_of_mk h).ext (built_of_mk hd') hm hlen.symm hidx
  refine ⟨d', ?_, by rw [hsp'.2.2.1, hsp.2.2.1], he.1.symm, he.2.symm, hsp'.2.2.2.1,
    by rw [hsp'.2.1, hsp.2.1]; simp, ?_⟩
  · unfold Dataset.subsetFeatures
    rw [hsp.2.1, hX, hsp.2.2.1]
    simp only [bind, Except.bind, List.length_map]
    exact hd'
  · intro i r r' hr hr'
    rw [hsp.2.1] at hr
    rw [hsp'.2.1, List.getElem?_map, hr] at hr'
    simp at hr'
    subst hr'
    have hrl : r.length = nf := hrows r (List.mem_of_getElem? hr)
    have hall : ∀ f ∈ F, f < r.length := fun f hf => by rw [hrl]; exact hF f hf
    refine ⟨length_gather r F hall, ?_⟩
    intro j f hj
    have : ∀ (G : List Nat) (j : Nat), (∀ f ∈ G, f < r.length) → G[j]? = some f → (gather r G)[j]? = r[f]? := by
      intro G
      induction G with
      | nil => intro j _ hj; simp at hj
      | cons g G ih =>
        intro j hG hj
        rw [gather_cons _ _ _ (hG g (by simp))]
        cases j with
        | zero => simp at hj; subst hj; simp [hG g (by simp)]
        | succ j => simpa using ih j (fun f hf => hG f (by simp [hf])) (by simpa using hj)
    exact this F j hall hj

/-! ### C06 -/

/-- What `split` must guarantee: every row is in exactly one part (the rows of the parts, put together, are the
rows of the dataset), and no query is in two parts. -/
structure IsSplit (all : List (R × L × Int)) (parts : List (List (R × L × Int))) : Prop where
  cover : parts.flatten.Perm all
  disjoint : parts.Pairwise (fun a b => ∀ r ∈ a, ∀ r' ∈ b, r.2.2 ≠ r'.2.2)

/-- The rows of the datasets returned by `split`, as observed through their public arrays. -/
def splitRows (p : Dataset R L × Option (Dataset R L) × Dataset R L) : List (List (R × L × Int)) :=
  rows p.1.X p.1.y p.1.getQids ::
    ((p.2.1.toList.map fun v => rows v.X v.y v.getQids) ++ [rows p.2.2.X p.2.2.y p.2.2.getQids])

/-- C06, proved part: `split` partitions the rows, for every permutation drawn, if the rounded sizes leave at
least one query for the test set. Missing: the case in which they leave none, where it is false
(`C06_test_is_everything`, `C06_violated`, `C06_violated_by_rounding`). Query ids are non-negative `int32`. -/
theorem C06_split_partial {X : List R} {nf : Nat} {y : List L} {ids : List Int} {d : Dataset R L}
    (h : mkDataset X nf y ids = .ok d) (hy : y.length = X.length) (hc : Contiguous ids)
    (hu : ∀ q ∈ ids, 0 ≤ q ∧ q < 2 ^ 31) (trainSize valiSize : ℚ)
    (h0 : 0 ≤ trainSize) (hv : 0 ≤ valiSize) (h1 : trainSize + valiSize ≤ 1)
    (perm : List Int) (hperm : perm.Perm d.queryIds)
    (htest : pyRound (trainSize * d.nQueries) + pyRound (valiSize * d.nQueries) < d.nQueries) :
    ∃ p, d.split trainSize valiSize perm = .ok p ∧ (p.2.1.isSome ↔ valiSize ≠ 0) ∧
      IsSplit (rows X y ids) (splitRows p) := by
  set a := pyRound (trainSize * d.nQueries) with ha
  set b := pyRound (valiSize * d.nQueries) with hb
  have ha0 : 0 ≤ a := pyRound_nonneg (by positivity)
  have hb0 : 0 ≤ b := pyRound_nonneg (by positivity)
  have happ := splitQids_append (perm := perm) (n := d.nQueries) hperm.length_eq ha0 hb0 htest
  simp only at happ
  set parts := splitQids perm d.nQueries a b with hparts
  have B := built_of_mk h
  have hnd : (parts.1 ++ parts.2.1 ++ parts.2.2).Nodup := by
    rw [happ]; exact hperm.nodup_iff.2 B.nodup
  have hmem : ∀ q ∈ ids, q ∈ parts.1 ++ parts.2.1 ++ parts.2.2 := by
    intro q hq
    rw [happ, hperm.mem_iff, B.mem_iff]; exact hq
  obtain ⟨t, t1, t2, t3, t4, _, _⟩ := splitDataset_spec h hy hc hu parts.1
  obtain ⟨v, v1, v2, v3, v4, _, _⟩ := splitDataset_spec h hy hc hu parts.2.1
  obtain ⟨e, e1, e2, e3, e4, _, _⟩ := splitDataset_spec h hy hc hu parts.2.2
  have ht : rows t.X t.y t.getQids = rowsOfQueries X y ids parts.1 := by
    rw [t2, t3, t4]; exact zip3_of_filter _
  have hvv : rows v.X v.y v.getQids = rowsOfQueries X y ids parts.2.1 := by
    rw [v2, v3, v4]; exact zip3_of_filter _
  have hee : rows e.X e.y e.getQids = rowsOfQueries X y ids parts.2.2 := by
    rw [e2, e3, e4]; exact zip3_of_filter _
  have hsp : d.splitParts trainSize valiSize perm = .ok parts := by
    unfold splitParts
    rw [if_neg (by push Not; exact ⟨h0, by linarith, h1⟩)]
  have hmq : ∀ (Q : List Int) r, r ∈ rowsOfQueries X y ids Q → r.2.2 ∈ Q := by
    intro Q r hr
    have := (List.mem_filter.1 hr).2
    simpa using this
  have hpermrows := rowsOfQueries_perm (X := X) (y := y) hmem hnd
  rw [List.nodup_append'] at hnd
  have hAB := List.nodup_append'.1 hnd.1
  by_cases hv0 : valiSize = 0
  · have hb' : b = 0 := by
      rw [hb, hv0]; simp [pyRound]
    have hv2 : parts.2.1 = [] := by
      show pyDrop a (pyTake (a + b) perm) = []
      rw [hb']
      simp [pyDrop, pyTake, ha0]
    refine ⟨(t, none, e), ?_, by simp [hv0], ?_, ?_⟩
    · rw [hv0] at hsp ⊢
      unfold split
      simp [hsp, t1, e1, bind, Except.bind, pure, Except.pure]
    · simp only [splitRows, Option.toList, List.map_nil, List.nil_append, ht, hee]
      have : rowsOfQueries X y ids [] = [] := by simp [rowsOfQueries]
      rw [hv2, this] at hpermrows
      simpa using hpermrows
    · simp only [splitRows, Option.toList, List.map_nil, List.nil_append, ht, hee]
      simp only [List.pairwise_cons, List.mem_singleton, forall_eq, List.not_mem_nil, false_imp_iff,
        implies_true, List.Pairwise.nil, and_true]
      intro r hr r' hr' heq
      exact hnd.2.2 (List.mem_append_left _ (hmq _ _ hr)) (heq ▸ hmq _ _ hr')
  · refine ⟨(t, some v, e), ?_, by simp [hv0], ?_, ?_⟩
    · unfold split
      simp [hsp, t1, v1, e1, hv0, bind, Except.bind, pure, Except.pure, Except.map]
    · simp only [splitRows, Option.toList, List.map_cons, List.map_nil, ht, hee, hvv]
      simpa using hpermrows
    · simp only [splitRows, Option.toList, List.map_cons, List.map_nil, ht, hee, hvv]
      simp only [List.singleton_append, List.pairwise_cons, List.mem_cons,
        List.not_mem_nil, false_imp_iff, implies_true, List.Pairwise.nil, and_true, or_false,
        forall_eq_or_imp, forall_eq]
      refine ⟨⟨?_, ?_⟩, ?_⟩
      · intro r hr r' hr' heq
        exact hAB.2.2 (hmq _ _ hr) (heq ▸ hmq _ _ hr')
      · intro r hr r' hr' heq
        exact hnd.2.2 (List.mem_append_left _ (hmq _ _ hr)) (heq ▸ hmq _ _ hr')
      · intro r hr r' hr' heq
        exact hnd.2.2 (List.mem_append_right _ (hmq _ _ hr)) (heq ▸ hmq _ _ hr')

/-- The hypotheses of `C06_split_partial` are met by 10 queries split 0.6/0.2/0.2. -/
example : pyRound ((6 / 10 : ℚ) * (10 : Nat)) + pyRound ((2 / 10 : ℚ) * (10 : Nat)) < (10 : Nat) := by
  norm_num [pyRound]

/-- C06 is violated whenever the rounded train and validation sizes use up all the queries: the test ids are
then all the ids, whatever the permutation. -/
theorem C06_test_is_everything (perm : List Int) (n : Nat) (a b : Int) (h : a + b = n) :
    (splitQids perm n a b).2.2 = perm := by
  show pyDrop (-((n : Int) - a - b)) perm = perm
  rw [show -((n : Int) - a - b) = 0 by omega]
  simp [pyDrop]

/-- C06 is violated already by `split(1.0)` on a dataset of one row: train and test are both everything. -/
theorem C06_violated : ∃ (d : Dataset Nat Nat) (p : Dataset Nat Nat × Option (Dataset Nat Nat) × Dataset Nat Nat),
    mkDataset [5] 1 [1] [3] = .ok d ∧ d.split 1 0 [3] = .ok p ∧ p.1 = d ∧ p.2.2 = d ∧
    ¬ IsSplit (rows [5] [1] [3]) (splitRows p) := by
  refine ⟨⟨[5], 1, [1], [3], [0, 1]⟩, (⟨[5], 1, [1], [3], [0, 1]⟩, none, ⟨[5], 1, [1], [3], [0, 1]⟩),
    by decide +kernel, ?_, rfl, rfl, ?_⟩
  · have h1 : pyRound ((1 : ℚ) * ((Dataset.mk [5] 1 [1] [3] [0, 1] : Dataset Nat Nat).nQueries : ℚ)) = 1 := by
      simp [pyRound, nQueries]
    have h2 : pyRound ((0 : ℚ) * ((Dataset.mk [5] 1 [1] [3] [0, 1] : Dataset Nat Nat).nQueries : ℚ)) = 0 := by
      simp [pyRound]
    unfold split splitParts
    rw [h1, h2, if_neg (by norm_num)]
    decide +kernel
  · intro hs
    have := hs.disjoint
    simp [splitRows] at this
    exact absurd rfl (this 5 1 3 (by decide +kernel) 5 1 3 (by decide +kernel))

/-- C06 is also violated by rounding: with 3 queries and sizes 0.5 and 0.5 both parts round to 2, test is a slice
from position 1 and overlaps both. -/
theorem C06_violated_by_rounding :
    pyRound ((1 / 2 : ℚ) * (3 : Nat)) = 2 ∧
    splitQids [1, 2, 3] 3 (pyRound ((1 / 2 : ℚ) * (3 : Nat))) (pyRound ((1 / 2 : ℚ) * (3 : Nat))) =
      ([1, 2], [3], [2, 3]) := by
  have : pyRound ((1 / 2 : ℚ) * (3 : Nat)) = 2 := by
    have hf : ⌊(3 / 2 : ℚ)⌋ = 1 := by norm_num
    have : ((1 / 2 : ℚ) * (3 : Nat)) = 3 / 2 := by norm_num
    rw [this, pyRound, hf]
    norm_num
  rw [this]
  decide

/-! ### C07 -/

/-- C07, proved part: with at least 3 folds and at least as many queries as folds, for every shuffle `qids`, each
fold splits the queries into three non-empty parts, and the test parts (and the validation parts) of the folds
together are all the queries once. Missing: `n_folds = 2` and more folds than queries, where parts are empty
(`C07_two_folds_empty_train`, `C07_too_many_folds_empty`). -/
theorem C07_kfold_qids_partial (qids : List Int) (F : Nat) (hF : 3 ≤ F) (hn : F ≤ qids.length) :
    ∃ folds, kfoldQids qids F = .ok folds ∧ folds.length = F ∧
      (∀ f ∈ folds, (f.1 ++ f.2.1 ++ f.2.2).Perm qids ∧ f.1 ≠ [] ∧ f.2.1 ≠ [] ∧ f.2.2 ≠ []) ∧
      (folds.flatMap (·.2.2)).Perm qids ∧ (folds.flatMap (·.2.1)).Perm qids :=
  kfold_props hF hn

example : kfoldQids [10, 11, 12, 13, 14, 15, 16] 3 = .ok
    [([10, 11], [12, 13], [14, 15, 16]), ([12, 13], [14, 15, 16], [10, 11]),
     ([14, 15, 16], [10, 11], [12, 13])] := by decide +kernel

/-- C07 on datasets: for every fold the rows of the three datasets are together the rows of the dataset, and no query
is in two of them. -/
theorem C07_kfold_datasets_partial {X : List R} {nf : Nat} {y : List L} {ids : List Int} {d : Dataset R L}
    (h : mkDataset X nf y ids = .ok d) (hy : y.length = X.length) (hc : Contiguous ids)
    (h32 : ∀ q ∈ ids, IsInt32 q) (qids : List Int) (hq : qids.Perm d.queryIds)
    (F : Nat) (hF : 3 ≤ F) (hn : F ≤ d.nQueries) :
    ∃ folds, d.kfold qids F = .ok folds ∧ folds.length = F ∧
      ∀ f ∈ folds, IsSplit (rows X y ids) (splitRows (f.1, some f.2.1, f.2.2)) := by
  obtain ⟨qf, h1, h2, h3, _, _⟩ := kfold_props (qids := qids) hF (by rw [hq.length_eq]; exact hn)
  have B := built_of_mk h
  have hstep : ∀ p ∈ qf, ∃ z : Dataset R L × Dataset R L × Dataset R L,
      (do pure (← d.subset p.1, ← d.subset p.2.1, ← d.subset p.2.2) : Except PyErr _) = .ok z ∧
      IsSplit (rows X y ids) (splitRows (z.1, some z.2.1, z.2.2)) := by
    intro p hp
    have hperm := (h3 p hp).1
    have hnd : (p.1 ++ p.2.1 ++ p.2.2).Nodup := hperm.nodup_iff.2 (hq.nodup_iff.2 B.nodup)
    have hmem : ∀ q ∈ ids, q ∈ p.1 ++ p.2.1 ++ p.2.2 := by
      intro q hq'
      rw [hperm.mem_iff, hq.mem_iff, B.mem_iff]; exact hq'
    obtain ⟨t, t1, t2, t3, t4, _, _⟩ := subset_spec h hy hc h32 p.1
    obtain ⟨v, v1, v2, v3, v4, _, _⟩ := subset_spec h hy hc h32 p.2.1
    obtain ⟨e, e1, e2, e3, e4, _, _⟩ := subset_spec h hy hc h32 p.2.2
    have ht : rows t.X t.y t.getQids = rowsOfQueries X y ids p.1 := by
      rw [t2, t3, t4]; exact zip3_of_filter _
    have hvv : rows v.X v.y v.getQids = rowsOfQueries X y ids p.2.1 := by
      rw [v2, v3, v4]; exact zip3_of_filter _
    have hee : rows e.X e.y e.getQids = rowsOfQueries X y ids p.2.2 := by
      rw [e2, e3, e4]; exact zip3_of_filter _
    have hmq : ∀ (Q : List Int) r, r ∈ rowsOfQueries X y ids Q → r.2.2 ∈ Q := by
      intro Q r hr
      have := (List.mem_filter.1 hr).2
      simpa using this
    have hpermrows := rowsOfQueries_perm (X := X) (y := y) hmem hnd
    rw [List.nodup_append'] at hnd
    have hAB := List.nodup_append'.1 hnd.1
    refine ⟨(t, v, e), by simp [t1, v1, e1, bind, Except.bind, pure, Except.pure], ?_, ?_⟩
    · simp only [splitRows, Option.toList, List.map_cons, List.map_nil, ht, hee, hvv]
      simpa using hpermrows
    · simp only [splitRows, Option.toList, List.map_cons, List.map_nil, ht, hee, hvv]
      simp only [List.singleton_append, List.pairwise_cons, List.mem_cons,
        List.not_mem_nil, false_imp_iff, implies_true, List.Pairwise.nil, and_true, or_false,
        forall_eq_or_imp, forall_eq]
      refine ⟨⟨?_, ?_⟩, ?_⟩
      · intro r hr r' hr' heq
        exact hAB.2.2 (hmq _ _ hr) (heq ▸ hmq _ _ hr')
      · intro r hr r' hr' heq
        exact hnd.2.2 (List.mem_append_left _ (hmq _ _ hr)) (heq ▸ hmq _ _ hr')
      · intro r hr r' hr' heq
        exact hnd.2.2 (List.mem_append_right _ (hmq _ _ hr)) (heq ▸ hmq _ _ hr')
  obtain ⟨zs, hzs, hall⟩ := mapM_forall₂ qf hstep
  refine ⟨zs, ?_, by rw [← hall.length_eq, h2], ?_⟩
  · unfold kfold
    rw [h1]
    exact hzs
  · intro f hf
    have : ∀ {l : List (List Int × List Int × List Int)} {zs : List (Dataset R L × Dataset R L × Dataset R L)},
        List.Forall₂ (fun _ z => IsSplit (rows X y ids) (splitRows (z.1, some z.2.1, z.2.2))) l zs →
        ∀ f ∈ zs, IsSplit (rows X y ids) (splitRows (f.1, some f.2.1, f.2.2)) := by
      intro l zs hfa
      induction hfa with
      | nil => intro f hf; simp at hf
      | cons h0 _ ih =>
        intro f hf
        rcases List.mem_cons.1 hf with rfl | hf
        · exact h0
        · exact ih f hf
    exact this hall f hf

/-- C07 is violated for 2 folds (the documented minimum): the training part of every fold is empty. -/
theorem C07_two_folds_empty_train (qids : List Int) :
    ∃ folds, kfoldQids qids 2 = .ok folds ∧ folds.length = 2 ∧ ∀ f ∈ folds, f.1 = [] := by
  refine ⟨_, rfl, by simp, ?_⟩
  intro f hf
  obtain ⟨cur, hcur, rfl⟩ := List.mem_map.1 hf
  rw [List.mem_range] at hcur
  have : cur = 0 ∨ cur = 1 := by omega
  rcases this with rfl | rfl <;> simp [cyclicSlice, gather]

/-- C07 is violated for more folds than queries: all parts are empty. -/
theorem C07_too_many_folds_empty (qids : List Int) (F : Nat) (h : qids.length < F) :
    ∃ folds, kfoldQids qids F = .ok folds ∧ folds.length = F ∧ ∀ f ∈ folds, f = ([], [], []) := by
  unfold kfoldQids
  rw [if_neg (by omega)]
  refine ⟨_, rfl, by simp, ?_⟩
  intro f hf
  obtain ⟨cur, _, rfl⟩ := List.mem_map.1 hf
  simp [Nat.div_eq_of_lt h, cyclicSlice, gather]

/-- A dataset that meets the hypotheses of C03 to C07: `C04_subset`, `C05_subset_features`, `C06_split_partial` and `C07_kfold_datasets_partial` for it. -/
example : ∃ d : Dataset (List Nat) Nat, mkDataset [[1, 2], [3, 4], [5, 6], [7, 8]] 2 [0, 1, 2, 1] [7, 7, 5, 9] = .ok d ∧
    (∃ d', d.subset [9, 7, 100] = .ok d' ∧ d'.nFeatures = 2 ∧
      rows d'.X d'.y d'.getQids = [([1, 2], 0, 7), ([3, 4], 1, 7), ([7, 8], 1, 9)]) ∧
    (∃ d', d.subsetFeatures (([1, 0, 1] : List Nat).map (fun f : Nat => (f : Int))) = .ok d' ∧ d'.queryIds = d.queryIds ∧ d'.nFeatures = 3) ∧
    (∃ p, d.split (1 / 3) (1 / 3) [5, 9, 7] = .ok p ∧ (p.2.1.isSome ↔ (1 / 3 : ℚ) ≠ 0) ∧
      IsSplit (rows [[1, 2], [3, 4], [5, 6], [7, 8]] [0, 1, 2, 1] [7, 7, 5, 9]) (splitRows p)) ∧
    ∃ folds, d.kfold [5, 9, 7] 3 = .ok folds ∧ folds.length = 3 ∧
      ∀ f ∈ folds, IsSplit (rows [[1, 2], [3, 4], [5, 6], [7, 8]] [0, 1, 2, 1] [7, 7, 5, 9]) (splitRows (f.1, some f.2.1, f.2.2)) := by
  have h : mkDataset [[1, 2], [3, 4], [5, 6], [7, 8]] 2 [0, 1, 2, 1] [7, 7, 5, 9] =
    .ok (⟨[[1, 2], [3, 4], [5, 6], [7, 8]], 2, [0, 1, 2, 1], [7, 5, 9], [0, 2, 3, 4]⟩ : Dataset (List Nat) Nat) := by decide +kernel
  have h32 : ∀ q ∈ ([7, 7, 5, 9] : List Int), IsInt32 q := by
    intro q hq; simp at hq; unfold IsInt32; omega
  refine ⟨_, h, ?_, ?_, ?_, ?_⟩
  · obtain ⟨d', h1, h2, h3, _⟩ := C04_subset h rfl (by decide) h32 [9, 7, 100]
    exact ⟨d', h1, h2, h3.trans (by decide +kernel)⟩
  · obtain ⟨d', h1, _, h2, _, h3, _⟩ := C05_subset_features h rfl h32 (by decide) [1, 0, 1] (by decide)
    exact ⟨d', h1, h2, h3⟩
  · exact C06_split_partial h rfl (by decide) (by decide) (1 / 3) (1 / 3) (by norm_num) (by norm_num) (by norm_num) [5, 9, 7] (by decide) (by decide +kernel)
  · exact C07_kfold_datasets_partial h rfl (by decide) h32 [5, 9, 7] (by decide) 3 (by decide) (by decide)

end Verif.Props
