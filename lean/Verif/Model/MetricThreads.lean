/-
Model of metric objects used by several threads (`rankeval/metrics/metric.py` 65-70, `mse.py` 59-64).

`eval` keeps the array it is filling in the attribute `detailed_scores` of the metric object and reads the attribute again for each query. A call is a
sequence of steps, each one access to the attribute or to the array. Threads are scheduled between any two steps, and a call may be stopped at any point
by an exception from outside (Ctrl-C).

Simplified: labels and predictions are not changed while they are evaluated, so the evaluation of one query is one step; `nanmean` and `sum` read the
whole array in one step.
-/
import Verif.Model.Eval

namespace Verif.Metrics.Threads
variable {V W : Type}

/-- A call of `eval` on the metric object `obj`: `n_queries`, for each query the position written and what `eval_per_query` gives, and the function that
makes the average. -/
structure Call (V W : Type) where
  obj : Nat
  n : Nat
  items : List (Int × Except PyErr V)
  fin : List V → W

/-- Where a call is. `i` counts the queries, `r` is the number of an array. -/
inductive Pc (V W : Type) where
  | begin                                        -- metric.py 65 (mse.py 59)
  | eval (i : Nat)                               -- 69: right hand side
  | load (i : Nat) (p : Int) (v : V)             -- 69: read `self.detailed_scores`
  | store (i : Nat) (p : Int) (v : V) (r : Nat)  -- 69: write the element
  | mean                                         -- 70: read `self.detailed_scores`
  | fin (r : Nat)                                -- 70: `nanmean`
  | ret (m : W)                                  -- 70: read `self.detailed_scores` again
  | done (res : Except PyErr (W × Nat))          -- the array is returned by reference
  | stopped
  deriving DecidableEq

/-- The arrays made so far, each with the object it was made for, the attribute `detailed_scores` of each object, and the threads. -/
structure State (V W : Type) where
  heap : List (Nat × List V)
  attr : Nat → Option Nat
  threads : List (Call V W × Pc V W)

/-- One step of a call. -/
def stepCall (zero : V) (c : Call V W) (heap : List (Nat × List V)) (attr : Nat → Option Nat) :
    Pc V W → Pc V W × List (Nat × List V) × (Nat → Option Nat)
  | .begin => (.eval 0, heap ++ [(c.obj, List.replicate c.n zero)], fun o => if o = c.obj then some heap.length else attr o)
  | .eval i =>
    match c.items[i]? with
    | none => (.mean, heap, attr)
    | some (_, .error e) => (.done (.error e), heap, attr)
    | some (p, .ok v) => (.load i p v, heap, attr)
  | .load i p v =>
    match attr c.obj with
    | none => (.done (.error .attributeError), heap, attr)
    | some r => (.store i p v r, heap, attr)
  | .store i p v r =>
    match heap[r]? with
    | none => (.done (.error .attributeError), heap, attr)   -- not reachable: references are valid
    | some a =>
      match pySet a.2 p v with
      | .error e => (.done (.error e), heap, attr)
      | .ok a' => (.eval (i + 1), heap.set r (a.1, a'), attr)
  | .mean =>
    match attr c.obj with
    | none => (.done (.error .attributeError), heap, attr)
    | some r => (.fin r, heap, attr)
  | .fin r =>
    match heap[r]? with
    | none => (.done (.error .attributeError), heap, attr)   -- not reachable
    | some a => (.ret (c.fin a.2), heap, attr)
  | .ret m =>
    match attr c.obj with
    | none => (.done (.error .attributeError), heap, attr)
    | some r => (.done (.ok (m, r)), heap, attr)
  | .done res => (.done res, heap, attr)
  | .stopped => (.stopped, heap, attr)

/-- What the schedule does next: a step of thread `t`, or an exception that ends its call. -/
inductive Event where
  | step (t : Nat)
  | stop (t : Nat)
  deriving DecidableEq, Repr

/-- A call that has not ended is stopped. -/
def stopCall : Pc V W → Pc V W
  | .done res => .done res
  | _ => .stopped

/-- One event. -/
def exec (zero : V) (s : State V W) : Event → State V W
  | .step t =>
    match s.threads[t]? with
    | none => s
    | some (c, pc) =>
      let r := stepCall zero c s.heap s.attr pc
      ⟨r.2.1, r.2.2, s.threads.set t (c, r.1)⟩
  | .stop t =>
    match s.threads[t]? with
    | none => s
    | some (c, pc) => { s with threads := s.threads.set t (c, stopCall pc) }

/-- The state after a schedule. -/
def run (zero : V) (s : State V W) (events : List Event) : State V W := events.foldl (exec zero) s

/-- New metric objects, and the calls that are going to be made. -/
def start (calls : List (Call V W)) : State V W := ⟨[], fun _ => none, calls.map (fun c => (c, .begin))⟩

/-- The call `Metric.eval(dataset, y_pred)` on object `o` (metric.py 65-70). -/
def evalCall {R L S K : Type} [Field K] (store : Option K → Option K) (evalQ : List L → List S → Except PyErr (Option K)) (o : Nat)
    (d : Dataset R L) (yPred : List S) : Call (Option K) (Option K) :=
  ⟨o, d.nQueries, (queryIter d yPred).zipIdx.map (fun b => ((b.2 : Int), (evalQ b.1.2.1 b.1.2.2).map store)), nanmean⟩

/-- The call `MSE.eval(dataset, y_pred)` on object `o` (mse.py 59-64). -/
def mseCall {R K : Type} [Field K] [LinearOrder K] (sort : List K → List Nat) (cutoff : Option Int) (o : Nat) (d : Dataset R K) (yPred : List K) :
    Call K K :=
  ⟨o, d.nQueries, (queryIter d yPred).map (fun b => (b.1, .ok (msePerQuery sort cutoff b.2.1 b.2.2 / (d.nInstances : K)))), List.sum⟩

end Verif.Metrics.Threads
