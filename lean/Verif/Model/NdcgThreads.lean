/-
Model of one `NDCG` object used by several threads (`rankeval/metrics/ndcg.py` 83-135 with `metric.py` 65-70).

As in `Verif/Model/MetricThreads.lean`: a call is a sequence of steps, each one access to an attribute of the object, to the dictionary or to an array;
threads are scheduled between any two steps, and a call may be stopped at any point by an exception from outside (Ctrl-C).

Simplified: labels and predictions do not change, so that the DCG of a query is one step and the ideal scores of a dataset are one step; reading
`self._current_dataset` and looking it up in the dictionary is one step. What DCG, ratio and average are is left open (`Env`, `Call`).
-/
import Verif.Model.Ndcg

namespace Verif.Metrics.NdcgThreads
variable {D X V W : Type}

/-- Equality of datasets as dictionary keys, `n_queries`, the ideal scores of a dataset (ndcg.py 90-93), the ratio (131-135), the average (metric.py 70)
and the zero of `np.zeros`. -/
structure Env (D X V W : Type) where
  same : D → D → Bool
  nQueries : D → Nat
  ideal : D → Except PyErr (List X)
  ratio : X → X → V
  fin : List V → W
  zero : V

/-- `eval(dataset, y_pred)` with the DCG of each query, or `eval_per_query(y, y_pred)` with the DCG of `y_pred` and of `y` itself. -/
inductive Call (D X : Type) where
  | eval (d : D) (dcgs : List (Except PyErr X))
  | perQuery (x : Except PyErr X) (own : Except PyErr X)

/-- Where a call is. -/
inductive Pc (X V W : Type) where
  | begin                                      -- ndcg.py 84
  | setCursor                                  -- 85
  | test                                       -- 88
  | ideal                                      -- 90-93
  | put (arr : List X)                         -- 95
  | alloc                                      -- metric.py 65
  | dcg (i : Nat)                              -- ndcg.py 122
  | cursor (i : Nat) (x : X)                   -- 124
  | entry (i : Nat) (x : X)                    -- 126: `self._cache_idcg_score[self._current_dataset]`
  | index (i : Nat) (x : X) (arr : List X)     -- 126: `[self._current_rel_qid]`
  | incr (i : Nat) (x y : X)                   -- 127: read
  | incrStore (i : Nat) (x y : X) (k : Nat)    -- 127: write
  | load (i : Nat) (v : V)                     -- metric.py 69
  | store (i : Nat) (v : V) (r : Nat)          -- 69
  | mean                                       -- 70
  | fin (r : Nat)                              -- 70
  | ret (m : W)                                -- 70
  | done (res : Except PyErr (W × Nat))
  | doneQuery (res : Except PyErr V)
  | stopped

/-- The attributes of the object, and the arrays made so far. `_cache_idcg_score` is a `defaultdict(int)`: `none` is the `0` that it puts for a key that is
missing. -/
structure Obj (D X V : Type) where
  cur : Option D
  cursor : Option Nat
  cache : List (D × Option (List X))
  attr : Option Nat
  heap : List (List V)

/-- Lookup in the dictionary. -/
def cacheGet (same : D → D → Bool) (cache : List (D × Option (List X))) (d : D) : Option (Option (List X)) :=
  (cache.find? (fun e => same e.1 d)).map (·.2)

/-- Assignment to the dictionary: an equal key keeps its place and the old key object. -/
def cacheSet (same : D → D → Bool) : List (D × Option (List X)) → D → Option (List X) → List (D × Option (List X))
  | [], d, v => [(d, v)]
  | e :: rest, d, v => if same e.1 d then (e.1, v) :: rest else e :: cacheSet same rest d v

/-- One step of a call. -/
def stepCall (env : Env D X V W) (o : Obj D X V) : Call D X → Pc X V W → Pc X V W × Obj D X V
  | .eval d _, .begin => (.setCursor, { o with cur := some d })
  | .perQuery _ _, .begin => (.dcg 0, o)
  | _, .setCursor => (.test, { o with cursor := some 0 })
  | _, .test =>
    match o.cur.bind (cacheGet env.same o.cache) with
    | none => (.ideal, o)
    | some _ => (.alloc, o)
  | .eval d _, .ideal =>
    match env.ideal d with
    | .error e => (.done (.error e), o)
    | .ok arr => (.put arr, o)
  | .perQuery _ _, .ideal => (.stopped, o)                                            -- not reachable
  | _, .put arr =>
    match o.cur with
    | none => (.stopped, o)                                                           -- not reachable
    | some d => (.alloc, { o with cache := cacheSet env.same o.cache d (some arr) })
  | .eval d _, .alloc => (.dcg 0, { o with heap := o.heap ++ [List.replicate (env.nQueries d) env.zero], attr := some o.heap.length })
  | .perQuery _ _, .alloc => (.stopped, o)                                            -- not reachable
  | .eval _ dcgs, .dcg i =>
    match dcgs[i]? with
    | none => (.mean, o)
    | some (.error e) => (.done (.error e), o)
    | some (.ok x) => (.cursor i x, o)
  | .perQuery x _, .dcg _ =>
    match x with
    | .error e => (.doneQuery (.error e), o)
    | .ok x => (.cursor 0 x, o)
  | .eval _ _, .cursor i x => if o.cursor.isSome then (.entry i x, o) else (.stopped, o)  -- not reachable: 85 was executed
  | .perQuery _ own, .cursor i x =>
    if o.cursor.isSome then (.entry i x, o)
    else
      match own with
      | .error e => (.doneQuery (.error e), o)
      | .ok y => (.doneQuery (.ok (env.ratio x y)), o)
  | c, .entry i x =>
    let fail : Pc X V W := match c with | .eval _ _ => .done (.error .typeError) | .perQuery _ _ => .doneQuery (.error .typeError)
    match o.cur with
    | none => (.stopped, o)                                                           -- not reachable: the cursor is set after the dataset
    | some d =>
      match cacheGet env.same o.cache d with
      | none => (fail, { o with cache := cacheSet env.same o.cache d none })          -- `defaultdict` inserts 0, which has no `[]`
      | some none => (fail, o)
      | some (some arr) => (.index i x arr, o)
  | c, .index i x arr =>
    let fail : Pc X V W := match c with | .eval _ _ => .done (.error .indexError) | .perQuery _ _ => .doneQuery (.error .indexError)
    match o.cursor.bind (fun k => arr[k]?) with
    | none => (fail, o)
    | some y => (.incr i x y, o)
  | _, .incr i x y =>
    match o.cursor with
    | none => (.stopped, o)                                                           -- not reachable
    | some k => (.incrStore i x y k, o)
  | .eval _ _, .incrStore i x y k => (.load i (env.ratio x y), { o with cursor := some (k + 1) })
  | .perQuery _ _, .incrStore _ x y k => (.doneQuery (.ok (env.ratio x y)), { o with cursor := some (k + 1) })
  | _, .load i v =>
    match o.attr with
    | none => (.stopped, o)                                                           -- not reachable
    | some r => (.store i v r, o)
  | _, .store i v r =>
    match o.heap[r]? with
    | none => (.stopped, o)                                                           -- not reachable
    | some a =>
      match pySet a (i : Int) v with
      | .error e => (.done (.error e), o)
      | .ok a' => (.dcg (i + 1), { o with heap := o.heap.set r a' })
  | _, .mean =>
    match o.attr with
    | none => (.stopped, o)                                                           -- not reachable
    | some r => (.fin r, o)
  | _, .fin r =>
    match o.heap[r]? with
    | none => (.stopped, o)                                                           -- not reachable
    | some a => (.ret (env.fin a), o)
  | _, .ret m =>
    match o.attr with
    | none => (.stopped, o)                                                           -- not reachable
    | some r => (.done (.ok (m, r)), o)
  | _, .done res => (.done res, o)
  | _, .doneQuery res => (.doneQuery res, o)
  | _, .stopped => (.stopped, o)

/-- What the schedule does next: a step of call `t`, or an exception that ends it. -/
inductive Event where
  | step (t : Nat)
  | stop (t : Nat)
  deriving DecidableEq, Repr

/-- A call that has not ended is stopped. -/
def stopCall : Pc X V W → Pc X V W
  | .done res => .done res
  | .doneQuery res => .doneQuery res
  | _ => .stopped

/-- The object and the calls. -/
structure State (D X V W : Type) where
  obj : Obj D X V
  calls : List (Call D X × Pc X V W)

/-- One event. -/
def exec (env : Env D X V W) (s : State D X V W) : Event → State D X V W
  | .step t =>
    match s.calls[t]? with
    | none => s
    | some (c, pc) => ⟨(stepCall env s.obj c pc).2, s.calls.set t (c, (stepCall env s.obj c pc).1)⟩
  | .stop t =>
    match s.calls[t]? with
    | none => s
    | some (c, pc) => { s with calls := s.calls.set t (c, stopCall pc) }

/-- The state after a schedule. -/
def run (env : Env D X V W) (s : State D X V W) (events : List Event) : State D X V W := events.foldl (exec env) s

/-- A new object (ndcg.py 55-57), and the calls that are going to be made. -/
def start (calls : List (Call D X)) : State D X V W := ⟨⟨none, none, [], none, []⟩, calls.map (fun c => (c, .begin))⟩

end Verif.Metrics.NdcgThreads
