/-
Model of `RTEnsemble.score` called by several threads on one model (`rankeval/model/rt_ensemble.py` 296-368, `rankeval/scoring/scorer.py` 45-91).

A call is a sequence of steps, each one access to the dictionary or to an attribute of a `Scorer`. Threads are scheduled between any two steps.
A call that is interrupted (Ctrl-C, out of memory) is a thread that gets no further turn.

Simplified: the kernels read only arrays that nobody changes, so that each of them is one step; an operation on a whole array (`*=`, `+=`, `sum`) is one
step. What a call returns is the content of the arrays at the time they are read. `_prune_model`, which replaces the dictionary, is left out.
-/
import Verif.Model.ScoreCache

namespace Verif.Ensemble.Threads
variable {F D : Type}

/-- Lookup in a dictionary; `same` is "equal hash, and identical or `__eq__`". -/
def dictGet (same : D → D → Bool) (cache : List (D × Nat)) (d : D) : Option Nat := (cache.find? (fun e => same e.1 d)).map (·.2)

/-- Assignment to a dictionary: an equal key keeps its place and the old key object. -/
def dictSet (same : D → D → Bool) : List (D × Nat) → D → Nat → List (D × Nat)
  | [], d, r => [(d, r)]
  | e :: rest, d, r => if same e.1 d then (e.1, r) :: rest else e :: dictSet same rest d r

/-- The arguments of a call of `score`. -/
structure Call (D : Type) where
  d : D
  detailed : Bool
  cache : Bool

/-- Where a call is. `r` is the number of the `Scorer` that the variable `scorer` refers to. -/
inductive Pc (F : Type) where
  | check                                                            -- 331-333
  | lookup                                                           -- 335: `dataset not in self._cache_scorer`
  | test                                                             -- 336: `self._cache_scorer[dataset].partial_y_pred is None`
  | create                                                           -- 338: `Scorer(self, dataset)`
  | put (r : Nat)                                                    -- 340
  | run (r : Nat)                                                    -- 342; scorer.py 85, 89: the kernel
  | storePartial (r : Nat) (p : List (List F))                       -- scorer.py 85: the second attribute assigned
  | sum (r : Nat)                                                    -- scorer.py 87
  | mulY (r : Nat)                                                   -- 344-345
  | mulP (r : Nat)                                                   -- 346-347
  | addY (r : Nat)                                                   -- 349-350
  | addP (r : Nat)                                                   -- 351-352
  | fetch                                                            -- 354
  | retY (r : Nat)                                                   -- 356-359: read `y_pred`
  | retP (r : Nat) (y : Option (List F))                             -- 357: read `partial_y_pred`
  | retL (r : Nat) (y : Option (List F)) (p : Option (List (List F)))  -- 357: read `out_leaves`
  | done (res : Except PyErr (Scorer F))

/-- The scorers created so far with their datasets (scorer.py 46-47), `_cache_scorer`, and the threads. -/
structure State (F D : Type) where
  heap : List (D × Scorer F)
  cache : List (D × Nat)
  threads : List (Call D × Pc F)

/-- The model scored: arrays, learning rate and base score do not change. -/
structure Fixed (F : Type) where
  arrays : Ensemble F
  learningRate : F
  baseScore : Option F

/-- Assignment to attributes of scorer `r`. -/
def update (heap : List (D × Scorer F)) (r : Nat) (f : Scorer F → Scorer F) : List (D × Scorer F) := heap.modify r (fun c => (c.1, f c.2))

/-- scorer.py 84-89: the kernel. A new scorer has no scores, so the test of lines 80-82 is false. -/
def runKernel (ops : FloatOps F) (ds : Rows F D) (b : Fixed F) (c : Call D) (r : Nat) (heap : List (D × Scorer F)) : Pc F × List (D × Scorer F) :=
  if c.detailed then
    match detailedScoring ops b.arrays (ds.X c.d) with
    | .error e => (.done (.error e), heap)
    | .ok (l, p) => (.storePartial r p, update heap r (fun s => { s with leaves := some l }))
  else
    match basicScoring ops b.arrays (ds.X c.d) with
    | .error e => (.done (.error e), heap)
    | .ok y => (.mulY r, update heap r (fun s => { s with yPred := some y }))

/-- rt_ensemble.py 331-359: one step of a call. -/
def stepCall (ops : FloatOps F) (ds : Rows F D) (b : Fixed F) (c : Call D) (heap : List (D × Scorer F)) (cache : List (D × Nat)) :
    Pc F → Pc F × List (D × Scorer F) × List (D × Nat)
  | .check =>
    match featureCheck b.arrays (ds.nFeatures c.d) with
    | .error e => (.done (.error e), heap, cache)
    | .ok _ => (.lookup, heap, cache)
  | .lookup =>
    match dictGet ds.same cache c.d with
    | none => (.create, heap, cache)
    | some _ => (if c.detailed then .test else .fetch, heap, cache)
  | .test =>
    match dictGet ds.same cache c.d with
    | none => (.done (.error .keyError), heap, cache)
    | some r =>
      match heap[r]? with
      | none => (.done (.error .keyError), heap, cache)   -- not reachable: references are valid
      | some cell => (if cell.2.partialY.isNone then .create else .fetch, heap, cache)
  | .create => (if c.cache then .put heap.length else .run heap.length, heap ++ [(c.d, ⟨none, none, none⟩)], cache)
  | .put r => (.run r, heap, dictSet ds.same cache c.d r)
  | .run r => let x := runKernel ops ds b c r heap; (x.1, x.2, cache)
  | .storePartial r p => (.sum r, update heap r (fun s => { s with partialY := some p }), cache)
  | .sum r => (.mulY r, update heap r (fun s => { s with yPred := s.partialY.map (·.map ops.sum) }), cache)
  | .mulY r =>
    if ops.isOne b.learningRate then (.addY r, heap, cache)
    else (if c.detailed then .mulP r else .addY r,
      update heap r (fun s => { s with yPred := s.yPred.map (·.map (fun v => ops.mul v b.learningRate)) }), cache)
  | .mulP r => (.addY r, update heap r (fun s => { s with partialY := s.partialY.map (·.map (·.map (fun v => ops.mul v b.learningRate))) }), cache)
  | .addY r =>
    match b.baseScore with
    | none => (.retY r, heap, cache)
    | some x =>
      if ops.isZero x then (.retY r, heap, cache)
      else (if c.detailed then .addP r else .retY r, update heap r (fun s => { s with yPred := s.yPred.map (·.map (fun v => ops.add v x)) }), cache)
  | .addP r =>
    match b.baseScore with
    | none => (.retY r, heap, cache)
    | some x => (.retY r, update heap r (fun s => { s with partialY := s.partialY.map (·.map (addFirst ops x)) }), cache)
  | .fetch =>
    match dictGet ds.same cache c.d with
    | none => (.done (.error .keyError), heap, cache)
    | some r => (.retY r, heap, cache)
  | .retY r =>
    let y := (heap[r]?).bind (·.2.yPred)
    (if c.detailed then .retP r y else .done (.ok ⟨y, none, none⟩), heap, cache)
  | .retP r y => (.retL r y ((heap[r]?).bind (·.2.partialY)), heap, cache)
  | .retL r y p => (.done (.ok ⟨y, p, (heap[r]?).bind (·.2.leaves)⟩), heap, cache)
  | .done res => (.done res, heap, cache)

/-- What the schedule does next: a step of thread `t`, or some thread calls `clear_cache` (rt_ensemble.py 368, one step). -/
inductive Event where
  | step (t : Nat)
  | clear
  deriving DecidableEq, Repr

/-- One event. -/
def exec (ops : FloatOps F) (ds : Rows F D) (b : Fixed F) (s : State F D) : Event → State F D
  | .clear => { s with cache := [] }
  | .step t =>
    match s.threads[t]? with
    | none => s
    | some (c, pc) =>
      let r := stepCall ops ds b c s.heap s.cache pc
      ⟨r.2.1, r.2.2, s.threads.set t (c, r.1)⟩

/-- The state after a schedule. -/
def run (ops : FloatOps F) (ds : Rows F D) (b : Fixed F) (s : State F D) (events : List Event) : State F D := events.foldl (exec ops ds b) s

/-- The state in which the calls begin, with the scorers and the dictionary left by earlier calls. -/
def start (heap : List (D × Scorer F)) (cache : List (D × Nat)) (calls : List (Call D)) : State F D :=
  ⟨heap, cache, calls.map (fun c => (c, .check))⟩

end Verif.Ensemble.Threads
