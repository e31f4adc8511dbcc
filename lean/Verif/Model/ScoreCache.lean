/-
Model of the cache of scorers of an `RTEnsemble` (`rankeval/model/rt_ensemble.py` 296-389, 391-421).
-/
import Verif.Model.Ensemble

namespace Verif
namespace Ensemble
variable {F D : Type}

/-- scorer.py 47-57: a `Scorer`; all attributes are `None` until it has scored. -/
structure Scorer (F : Type) where
  yPred : Option (List F)
  partialY : Option (List (List F))
  leaves : Option (List (List Int))
  deriving DecidableEq, Repr

/-- A scorer that has scored. -/
def Scored.toScorer (s : Scored F) : Scorer F := ⟨some s.yPred, s.partialY, s.leaves⟩

/-- An `RTEnsemble`: arrays, learning rate, base score, `_cache_scorer`. -/
structure Booster (F D : Type) where
  arrays : Ensemble F
  learningRate : F
  baseScore : Option F
  cache : List (D × Scorer F)

/-- Dictionary lookup; `same` is "equal hash, and identical or `__eq__`". -/
def scorerGet (same : D → D → Bool) (cache : List (D × Scorer F)) (d : D) : Option (Scorer F) :=
  (cache.find? (fun e => same e.1 d)).map (·.2)

/-- Dictionary assignment: an equal key keeps its place and the old key object. -/
def scorerSet (same : D → D → Bool) (cache : List (D × Scorer F)) (d : D) (s : Scorer F) : List (D × Scorer F) :=
  match cache with
  | [] => [(d, s)]
  | e :: rest => if same e.1 d then (e.1, s) :: rest else e :: scorerSet same rest d s

/-- rt_ensemble.py 356-359: the returned tuple, or only `y_pred`. -/
def result (detailed : Bool) (s : Scorer F) : Scorer F :=
  if detailed then s else ⟨s.yPred, none, none⟩

/-- What a `Dataset` contributes: its rows and `n_features`. -/
structure Rows (F D : Type) where
  X : D → List (List F)
  nFeatures : D → Nat
  same : D → D → Bool

/-- rt_ensemble.py 334-349: a new scorer is put into the cache first, then it scores. -/
def scoreAnew (ops : FloatOps F) (ds : Rows F D) (b : Booster F D) (d : D) (detailed cache : Bool) :
    Booster F D × Except PyErr (Scorer F) :=
  match rawScore ops b.arrays detailed (ds.X d) with
  | .error e =>
    (if cache then { b with cache := scorerSet ds.same b.cache d ⟨none, none, none⟩ } else b, .error e)
  | .ok s =>
    let sc := (adjust ops b.learningRate b.baseScore s).toScorer
    (if cache then { b with cache := scorerSet ds.same b.cache d sc } else b, .ok (result detailed sc))

/-- rt_ensemble.py 325-359, `score`. -/
def scoreCall (ops : FloatOps F) (ds : Rows F D) (b : Booster F D) (d : D) (detailed cache : Bool) :
    Booster F D × Except PyErr (Scorer F) :=
  match featureCheck b.arrays (ds.nFeatures d) with
  | .error e => (b, .error e)
  | .ok _ =>
    match scorerGet ds.same b.cache d with
    | none => scoreAnew ops ds b d detailed cache
    | some s =>
      if detailed && s.partialY.isNone then scoreAnew ops ds b d detailed cache
      else (b, .ok (result detailed s))

/-- rt_ensemble.py 325-338, `score` when `scorer.score` raises (out of memory, interrupt by the user). -/
def scoreInterrupted (ds : Rows F D) (b : Booster F D) (d : D) (detailed cache : Bool) : Booster F D :=
  match featureCheck b.arrays (ds.nFeatures d) with
  | .error _ => b
  | .ok _ =>
    match scorerGet ds.same b.cache d with
    | some s =>
      if detailed && s.partialY.isNone && cache then { b with cache := scorerSet ds.same b.cache d ⟨none, none, none⟩ }
      else b
    | none => if cache then { b with cache := scorerSet ds.same b.cache d ⟨none, none, none⟩ } else b

/-- rt_ensemble.py 361-368. -/
def clearCache (b : Booster F D) : Booster F D := { b with cache := [] }

/-- rt_ensemble.py 370-389 with 391-421: `deepcopy` copies the cache too; pruning resets it. -/
def copyModel (b : Booster F D) : Option Nat → Except PyErr (Booster F D)
  | none => pure b
  | some n =>
    if n ≥ b.arrays.nTrees then pure b
    else do
      let a ← prune b.arrays n
      pure { b with arrays := a, cache := [] }

/-- A call on one of the models alive (by number). -/
inductive ModelCall (D : Type) where
  | score (j : Nat) (d : D) (detailed cache : Bool)
  | interrupted (j : Nat) (d : D) (detailed cache : Bool)
  | clear (j : Nat)
  | copy (j : Nat) (nTrees : Option Nat)

/-- The models after a call; a copy is appended. A call on a model that does not exist does nothing. -/
def modelStep (ops : FloatOps F) (ds : Rows F D) (w : List (Booster F D)) : ModelCall D → List (Booster F D)
  | .score j d detailed cache => w.modify j (fun b => (scoreCall ops ds b d detailed cache).1)
  | .interrupted j d detailed cache => w.modify j (fun b => scoreInterrupted ds b d detailed cache)
  | .clear j => w.modify j clearCache
  | .copy j n =>
    match w[j]? with
    | none => w
    | some b =>
      match copyModel b n with
      | .ok b' => w ++ [b']
      | .error _ => w

/-- The models after a history of calls. -/
def modelRun (ops : FloatOps F) (ds : Rows F D) (w : List (Booster F D)) (calls : List (ModelCall D)) : List (Booster F D) :=
  calls.foldl (modelStep ops ds) w

end Ensemble
end Verif
