/-
Arrays as objects in memory: which arrays `RTEnsemble.score`, `Dataset` and `Metric.eval` create, keep and return
(`rankeval/model/rt_ensemble.py` 296-368, `rankeval/dataset/dataset.py` 45-84 and 405-424, `rankeval/metrics/metric.py` 60-70).

Simplified: the arrays of the model itself and the labels and query ids of a dataset are values, not objects in memory; `copy` is left out.
-/
import Verif.Model.Ensemble

namespace Verif.Heap
open Ensemble
variable {F H O : Type}

/-- An array: `y_pred`, a matrix of numbers, `out_leaves`, or the scores of queries. -/
inductive Cell (F : Type) where
  | vec (v : List F)
  | mat (m : List (List F))
  | ids (m : List (List Int))
  deriving DecidableEq, Repr

/-- scorer.py 47-57: the attributes of a `Scorer` refer to arrays. -/
structure Ref where
  yPred : Option Nat
  partialY : Option Nat
  leaves : Option Nat
  deriving DecidableEq, Repr

/-- dataset.py 45-84: a `Dataset` refers to the array `X` it was given; `other` are labels and query ids; `_hash_cached`. -/
structure Data (H O : Type) where
  x : Nat
  nFeatures : Nat
  other : O
  hashed : Option H
  deriving DecidableEq, Repr

/-- An item of `_cache_scorer`: the dictionary stores the hash of the key, the key (a dataset, by number) and the scorer. -/
structure Entry (H : Type) where
  hash : H
  key : Nat
  ref : Ref
  deriving DecidableEq, Repr

/-- An `RTEnsemble`. -/
structure Model (F H : Type) where
  arrays : Ensemble F
  learningRate : F
  baseScore : Option F
  cache : List (Entry H)

/-- All objects. -/
structure World (F H O : Type) where
  heap : List (Cell F)
  datasets : List (Data H O)
  models : List (Model F H)

/-- The matrix of a dataset, as it is now. -/
def matrixAt (heap : List (Cell F)) (a : Nat) : Option (List (List F)) :=
  match heap[a]? with
  | some (.mat m) => some m
  | _ => none

/-- dataset.py 405-416, `__hash__`: computed when first asked for, then kept. -/
def hashData (digest : List (List F) → O → H) (heap : List (Cell F)) (d : Data H O) : Option H :=
  match d.hashed with
  | some h => some h
  | none => (matrixAt heap d.x).map (fun m => digest m d.other)

/-- dataset.py 418-422, `__eq__`, by the arrays as they are now. -/
def eqData [DecidableEq O] (eqX : List (List F) → List (List F) → Bool) (heap : List (Cell F)) (a b : Data H O) : Bool :=
  match matrixAt heap a.x, matrixAt heap b.x with
  | some m, some m' => eqX m m' && decide (a.other = b.other)
  | _, _ => false

/-- Dictionary: is `e` the item of dataset `i`, whose hash is `h`? Equal hash, and identical or `__eq__`. -/
def isItem [DecidableEq H] [DecidableEq O] (eqX : List (List F) → List (List F) → Bool) (w : World F H O) (i : Nat) (d : Data H O) (h : H) (e : Entry H) : Bool :=
  decide (e.hash = h) && (e.key == i || match w.datasets[e.key]? with
    | some d' => eqData eqX w.heap d' d
    | none => false)

/-- Dictionary assignment: an equal key keeps its place and the old key object. -/
def setItem (p : Entry H → Bool) (cache : List (Entry H)) (e : Entry H) : List (Entry H) :=
  match cache with
  | [] => [e]
  | x :: rest => if p x then { x with ref := e.ref } :: rest else x :: setItem p rest e

/-- rt_ensemble.py 356-359: what is returned. -/
def returned (detailed : Bool) (r : Ref) : Ref := if detailed then r else ⟨r.yPred, none, none⟩

/-- The arrays that scoring creates (rt_ensemble.py 334-349; learning rate and base score are applied in place). -/
def cellsOf (s : Scored F) : List (Cell F) :=
  .vec s.yPred :: (match s.partialY, s.leaves with
    | some p, some l => [.mat p, .ids l]
    | _, _ => [])

/-- Where these arrays are, if they are put at the end of the memory. -/
def refOf (n : Nat) (s : Scored F) : Ref :=
  match s.partialY, s.leaves with
  | some _, some _ => ⟨some n, some (n + 1), some (n + 2)⟩
  | _, _ => ⟨some n, none, none⟩

/-- The scorer goes into the dictionary of model `j`. -/
def remember (w : World F H O) (j : Nat) (p : Entry H → Bool) (cache : Bool) (e : Entry H) : World F H O :=
  if cache then { w with models := w.models.modify j (fun m => { m with cache := setItem p m.cache e }) } else w

/-- rt_ensemble.py 334-349: a new scorer is put into the cache, then it scores. -/
def scoreAnew (ops : FloatOps F) (w : World F H O) (j : Nat) (m : Model F H) (i : Nat) (x : List (List F)) (h : H) (p : Entry H → Bool)
    (detailed cache : Bool) : World F H O × Except PyErr Ref :=
  match rawScore ops m.arrays detailed x with
  | .error e => (remember w j p cache ⟨h, i, ⟨none, none, none⟩⟩, .error e)
  | .ok s =>
    let s' := adjust ops m.learningRate m.baseScore s
    let r := refOf w.heap.length s'
    (remember { w with heap := w.heap ++ cellsOf s' } j p cache ⟨h, i, r⟩, .ok (returned detailed r))

/-- rt_ensemble.py 325-359, `models[j].score(datasets[i], detailed, cache)`. -/
def score [DecidableEq H] [DecidableEq O] (ops : FloatOps F) (digest : List (List F) → O → H) (eqX : List (List F) → List (List F) → Bool)
    (w : World F H O) (j i : Nat) (detailed cache : Bool) : World F H O × Except PyErr Ref :=
  match w.models[j]?, w.datasets[i]? with
  | some m, some d =>
    match featureCheck m.arrays d.nFeatures with
    | .error e => (w, .error e)
    | .ok _ =>
      match hashData digest w.heap d, matrixAt w.heap d.x with
      | some h, some x =>
        let w := { w with datasets := w.datasets.modify i (fun d => { d with hashed := some h }) }
        match m.cache.find? (isItem eqX w i d h) with
        | some e =>
          if detailed && e.ref.partialY.isNone then scoreAnew ops w j m i x h (isItem eqX w i d h) detailed cache
          else (w, .ok (returned detailed e.ref))
        | none => scoreAnew ops w j m i x h (isItem eqX w i d h) detailed cache
      | _, _ => (w, .error .typeError)
  | _, _ => (w, .error .indexError)

/-- What the caller may do. -/
inductive Op (F O : Type) where
  /-- `models[j].score(datasets[i], detailed, cache)` -/
  | score (j i : Nat) (detailed cache : Bool)
  /-- `models[j].clear_cache()` -/
  | clear (j : Nat)
  /-- `Dataset(X, y, qids)` for the array `X` at `a`, if there is one -/
  | dataset (a nFeatures : Nat) (other : O)
  /-- a new array: of the caller, or the scores of the queries that `Metric.eval` creates and returns (metric.py 60-70) -/
  | array (c : Cell F)
  /-- the array at `a` is overwritten -/
  | write (a : Nat) (c : Cell F)

/-- One step, and what it returns. -/
def step [DecidableEq H] [DecidableEq O] (ops : FloatOps F) (digest : List (List F) → O → H) (eqX : List (List F) → List (List F) → Bool)
    (w : World F H O) : Op F O → World F H O × Option (Except PyErr Ref)
  | .score j i detailed cache => ((score ops digest eqX w j i detailed cache).1, some (score ops digest eqX w j i detailed cache).2)
  | .clear j => ({ w with models := w.models.modify j (fun m => { m with cache := [] }) }, none)
  | .dataset a nf o => (if a < w.heap.length then { w with datasets := w.datasets ++ [⟨a, nf, o, none⟩] } else w, none)
  | .array c => ({ w with heap := w.heap ++ [c] }, none)
  | .write a c => ({ w with heap := w.heap.modify a (fun _ => c) }, none)

/-- The contents of the arrays returned, at the time of return. -/
def seen (w : World F H O) (r : Ref) : Option (Cell F) × Option (Cell F) × Option (Cell F) :=
  (r.yPred.bind (w.heap[·]?), r.partialY.bind (w.heap[·]?), r.leaves.bind (w.heap[·]?))

/-- All steps; what is returned by each, with the contents of the arrays at that time. -/
def run [DecidableEq H] [DecidableEq O] (ops : FloatOps F) (digest : List (List F) → O → H) (eqX : List (List F) → List (List F) → Bool)
    (w : World F H O) : List (Op F O) → World F H O × List (Option (Except PyErr (Ref × Option (Cell F) × Option (Cell F) × Option (Cell F))))
  | [] => (w, [])
  | op :: rest =>
    let (w', r) := step ops digest eqX w op
    let (w'', rs) := run ops digest eqX w' rest
    (w'', r.map (·.map (fun r => (r, seen w' r))) :: rs)

end Verif.Heap
