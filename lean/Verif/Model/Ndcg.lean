/-
Model of the NDCG object with its cache of ideal scores (`rankeval/metrics/ndcg.py`), and of `Dataset.__eq__`,
`Dataset.__hash__` (`rankeval/dataset/dataset.py`), which decide what the cache returns.
-/
import Verif.Model.Eval

namespace Verif

/-- numpy `(a == b).all()` on one-dimensional arrays: a length 1 is broadcast. Other different lengths give a plain
`bool`, which has no attribute `all` (newer numpy raises ValueError instead). -/
def npAllEq {F : Type} [BEq F] (a b : List F) : Except PyErr Bool :=
  if a.length = b.length then .ok ((a.zip b).all (fun p => p.1 == p.2))
  else
    match a, b with
    | [x], _ => .ok (b.all (fun z => x == z))
    | _, [z] => .ok (a.all (fun x => x == z))
    | _, _ => .error .attributeError

/-- numpy `not (A != B).any()` on matrices given by their rows. Simplification: the numbers of columns are equal
(`rowEq` compares two rows of the same length). -/
def npAllEqRows {R : Type} (rowEq : R → R → Bool) (A B : List R) : Except PyErr Bool :=
  letI : BEq R := ⟨rowEq⟩
  npAllEq A B

/-- dataset.py 418-422, `Dataset.__eq__`. `rowEq` and the `BEq` of the labels are the elementwise float comparison.
The right operands of `and` are evaluated only if needed. -/
def Dataset.eq {R L : Type} [BEq L] (rowEq : R → R → Bool) (a b : Dataset R L) : Except PyErr Bool := do
  let xEq ← npAllEqRows rowEq a.X b.X
  if xEq then
    let yEq ← npAllEq a.y b.y
    if yEq then npAllEq a.queryIds b.queryIds else pure false
  else pure false

/-- dataset.py 405-416, `Dataset.__hash__`: `digest` is md5, applied to the concatenated bytes of the three arrays. -/
def Dataset.hash {R L H B : Type} (digest : List B → H) (bytesX : List R → List B) (bytesY : List L → List B)
    (bytesQ : List Int → List B) (d : Dataset R L) : H :=
  digest (bytesX d.X ++ bytesY d.y ++ bytesQ d.queryIds)

namespace Metrics

/-- ndcg.py 47-53: the constructor arguments; `sort`/`sortY` are the argsorts of predictions and labels,
`f32` the conversion to float32 when the ideal score is stored (line 90). -/
structure NdcgCfg (S : Type) where
  sort : List S → List Nat
  sortY : List ℝ → List Nat
  cutoff : Option Int
  impl : Impl
  noRel : ℝ
  f32 : ℝ → ℝ

/-- ndcg.py 55-57: `_current_dataset`, `_current_rel_qid`, `_cache_idcg_score`. -/
structure NdcgState (D : Type) where
  cur : Option D
  cursor : Option Nat
  cache : List (D × List ℝ)

/-- ndcg.py 55-57: the state of a new object. -/
def ndcgFresh {D : Type} : NdcgState D := ⟨none, none, []⟩

/-- Dictionary lookup: `same` is "equal hash, and identical or `__eq__`". -/
def cacheGet {D : Type} (same : D → D → Bool) (cache : List (D × List ℝ)) (d : D) : Option (List ℝ) :=
  (cache.find? (fun e => same e.1 d)).map (·.2)

/-- ndcg.py 131-135. -/
noncomputable def ndcgRatio {S : Type} (cfg : NdcgCfg S) (dcgScore idcg : ℝ) : ℝ :=
  if idcg ≠ 0 then dcgScore / idcg else cfg.noRel

variable {R S : Type}

/-- ndcg.py 122-135, `NDCG.eval_per_query`, in any state. A missing cache entry is the `0` of the `defaultdict(int)`,
which cannot be subscripted. -/
noncomputable def ndcgPerQuery (cfg : NdcgCfg S) (same : Dataset R ℝ → Dataset R ℝ → Bool)
    (st : NdcgState (Dataset R ℝ)) (y : List ℝ) (yPred : List S) :
    NdcgState (Dataset R ℝ) × Except PyErr ℝ :=
  match dcg cfg.sort cfg.cutoff cfg.impl y yPred with
  | .error e => (st, .error e)
  | .ok dcgScore =>
    match st.cursor with
    | some k =>
      match st.cur.bind (cacheGet same st.cache) with
      | none => (st, .error .typeError)
      | some arr =>
        match arr[k]? with
        | none => (st, .error .indexError)
        | some idcg => ({ st with cursor := some (k + 1) }, .ok (ndcgRatio cfg dcgScore idcg))
    | none =>
      match dcg cfg.sortY cfg.cutoff cfg.impl y y with
      | .error e => (st, .error e)
      | .ok idcg => (st, .ok (ndcgRatio cfg dcgScore idcg))

/-- ndcg.py 90-93: the ideal scores of a dataset. -/
noncomputable def ndcgIdeal (cfg : NdcgCfg S) (d : Dataset R ℝ) : Except PyErr (List ℝ) :=
  (queryIter d d.y).mapM (fun b => do
    let v ← dcg cfg.sortY cfg.cutoff cfg.impl b.2.1 b.2.1
    pure (cfg.f32 v))

/-- metric.py 67-69 with `eval_per_query` of the NDCG object: the loop of `evalLoop`, with the state. -/
noncomputable def ndcgLoop (cfg : NdcgCfg S) (same : Dataset R ℝ → Dataset R ℝ → Bool) (store : Option ℝ → Option ℝ) :
    NdcgState (Dataset R ℝ) → Nat → List (Int × List ℝ × List S) → List (Option ℝ) →
      NdcgState (Dataset R ℝ) × Except PyErr (List (Option ℝ))
  | st, _, [], a => (st, .ok a)
  | st, i, (_, qy, qs) :: rest, a =>
    match ndcgPerQuery cfg same st qy qs with
    | (st', .error e) => (st', .error e)
    | (st', .ok v) =>
      match pySet a (i : Int) (store (some v)) with
      | .error e => (st', .error e)
      | .ok a' => ndcgLoop cfg same store st' (i + 1) rest a'

/-- metric.py 65-70, `Metric.eval`, called at ndcg.py 97. -/
noncomputable def ndcgBaseEval (cfg : NdcgCfg S) (same : Dataset R ℝ → Dataset R ℝ → Bool)
    (store : Option ℝ → Option ℝ) (st : NdcgState (Dataset R ℝ)) (d : Dataset R ℝ) (yPred : List S) :
    NdcgState (Dataset R ℝ) × Except PyErr (Option ℝ × List (Option ℝ)) :=
  match ndcgLoop cfg same store st 0 (queryIter d yPred) (List.replicate d.nQueries (some 0)) with
  | (st', .error e) => (st', .error e)
  | (st', .ok det) => (st', .ok (nanmean det, det))

/-- ndcg.py 83-97, `NDCG.eval`. -/
noncomputable def ndcgEval (cfg : NdcgCfg S) (same : Dataset R ℝ → Dataset R ℝ → Bool) (store : Option ℝ → Option ℝ)
    (st : NdcgState (Dataset R ℝ)) (d : Dataset R ℝ) (yPred : List S) :
    NdcgState (Dataset R ℝ) × Except PyErr (Option ℝ × List (Option ℝ)) :=
  match cacheGet same st.cache d with
  | some _ => ndcgBaseEval cfg same store ⟨some d, some 0, st.cache⟩ d yPred
  | none =>
    match ndcgIdeal cfg d with
    | .error e => (⟨some d, some 0, st.cache⟩, .error e)
    | .ok arr => ndcgBaseEval cfg same store ⟨some d, some 0, (d, arr) :: st.cache⟩ d yPred

/-- A call on an NDCG object. -/
inductive NdcgCall (R S : Type) where
  | eval (d : Dataset R ℝ) (yPred : List S)
  | perQuery (y : List ℝ) (yPred : List S)

/-- The state after a call. -/
noncomputable def ndcgStep (cfg : NdcgCfg S) (same : Dataset R ℝ → Dataset R ℝ → Bool) (store : Option ℝ → Option ℝ)
    (st : NdcgState (Dataset R ℝ)) : NdcgCall R S → NdcgState (Dataset R ℝ)
  | .eval d yPred => (ndcgEval cfg same store st d yPred).1
  | .perQuery y yPred => (ndcgPerQuery cfg same st y yPred).1

/-- The state after a sequence of calls on a new object. -/
noncomputable def ndcgRun (cfg : NdcgCfg S) (same : Dataset R ℝ → Dataset R ℝ → Bool) (store : Option ℝ → Option ℝ)
    (calls : List (NdcgCall R S)) : NdcgState (Dataset R ℝ) :=
  calls.foldl (ndcgStep cfg same store) ndcgFresh

end Metrics
end Verif
