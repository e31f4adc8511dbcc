/-
Model of a session: models with their caches of scorers, metric objects with their states, and analyses that use them one after the other.
Simplified: datasets do not change during the session (`data` gives what a dataset object holds).
-/
import Verif.Model.Ndcg
import Verif.Model.ScoreCache
import Verif.Model.Tables

namespace Verif.Session
open Ensemble Metrics
variable {F D : Type}

/-- The result of `metric.eval`: the mean and the values of the queries. -/
abbrev Values := Option ℝ × List (Option ℝ)

/-- A metric object. All metrics but NDCG have no state that `eval` changes: their `eval` is a function of the dataset and the predictions. -/
inductive MetricObj (F : Type) where
  | stateless (eval : Dataset (List F) ℝ → List F → Except PyErr Values)
  | ndcg (cfg : NdcgCfg F) (store : Option ℝ → Option ℝ) (st : NdcgState (Dataset (List F) ℝ))

/-- The objects of a session. -/
structure State (F D : Type) where
  models : List (Booster F D)
  metrics : List (MetricObj F)

/-- What does not change: arithmetic, what dataset objects hold, and when dictionaries take them for the same key. -/
structure World (F D : Type) where
  ops : FloatOps F
  data : D → Dataset (List F) ℝ
  same : Dataset (List F) ℝ → Dataset (List F) ℝ → Bool

/-- The datasets as keys of the caches of models. -/
def World.rows (w : World F D) : Rows F D := ⟨fun d => (w.data d).X, fun d => (w.data d).nFeatures, fun a b => w.same (w.data a) (w.data b)⟩

/-- A step: the objects after it, and a result or an exception. -/
abbrev Act (F D α : Type) := State F D → State F D × Except PyErr α

def Act.andThen {α β : Type} (x : Act F D α) (k : α → Act F D β) : Act F D β := fun s =>
  match x s with
  | (s', .ok a) => k a s'
  | (s', .error e) => (s', .error e)

/-- A computation without effect on the objects. -/
def lift {α : Type} (x : Except PyErr α) : Act F D α := fun s => (s, x)

/-- A loop `for a in l` that changes `b`. -/
def loop {α β : Type} (body : β → α → Act F D β) : β → List α → Act F D β
  | b, [] => lift (.ok b)
  | b, a :: l => (body b a).andThen (fun b' => loop body b' l)

/-- rt_ensemble.py 325-359, `model.score(dataset, detailed=False, cache=cache)` for the model with number `j`. -/
def scoreModel (w : World F D) (j : Nat) (d : D) (cache : Bool) : Act F D (List F) := fun s =>
  match s.models[j]? with
  | none => (s, .error .indexError)
  | some b =>
    let r := scoreCall w.ops w.rows b d false cache
    ({ s with models := s.models.set j r.1 }, r.2.bind (fun sc => match sc.yPred with
      | some y => .ok y
      | none => .error .typeError))   -- `None` instead of predictions, after an interrupted call

/-- metric.py 65-70 or ndcg.py 83-97, `metric.eval(dataset, y_pred)`. -/
noncomputable def MetricObj.eval (same : Dataset (List F) ℝ → Dataset (List F) ℝ → Bool) (d : Dataset (List F) ℝ) (yPred : List F) :
    MetricObj F → MetricObj F × Except PyErr Values
  | .stateless f => (.stateless f, f d yPred)
  | .ndcg cfg store st => (.ndcg cfg store (ndcgEval cfg same store st d yPred).1, (ndcgEval cfg same store st d yPred).2)

/-- `metric.eval(dataset, y_pred)` for the metric with number `k`. -/
noncomputable def evalMetric (w : World F D) (k : Nat) (d : D) (yPred : List F) : Act F D Values := fun s =>
  match s.metrics[k]? with
  | none => (s, .error .indexError)
  | some o => ({ s with metrics := s.metrics.set k (o.eval w.same (w.data d) yPred).1 }, (o.eval w.same (w.data d) yPred).2)

/-- effectiveness.py 64-72, `model_performance`, for models and metrics given by their numbers. -/
noncomputable def performance (w : World F D) (store : Option ℝ → Option ℝ) (datasets : List D) (models metrics : List Nat) (cache : Bool) :
    Act F D (List (List (List (Option ℝ)))) :=
  loop (fun data di => loop (fun data mi => (scoreModel w mi.1 di.1 cache).andThen (fun yPred =>
      loop (fun data fi => (evalMetric w fi.1 di.1 yPred).andThen (fun v =>
        lift (Stat.atIndex di.2 (Stat.atIndex mi.2 (fun row => pySet row (fi.2 : Int) (store v.1))) data))) data metrics.zipIdx)) data models.zipIdx)
    (List.replicate datasets.length (Stat.zeros2 (some 0) models.length metrics.length)) datasets.zipIdx

/-- statistical.py 70-84, `statistical_significance`. -/
noncomputable def significance (w : World F D) (datasets : List D) (modelA modelB : Nat) (metrics : List Nat) (draws : Nat → Nat → List (List Bool))
    (cache : Bool) : Act F D (List (List (ℝ × ℝ))) :=
  loop (fun data di => (scoreModel w modelA di.1 cache).andThen (fun yA => (scoreModel w modelB di.1 cache).andThen (fun yB =>
      loop (fun data fi => (evalMetric w fi.1 di.1 yA).andThen (fun a => (evalMetric w fi.1 di.1 yB).andThen (fun b =>
        lift (do
          let p ← Stat.randomizationNaN a.2 b.2 (draws di.2 fi.2)
          Stat.atIndex di.2 (fun row => pySet row (fi.2 : Int) p) data)))) data metrics.zipIdx)))
    (Stat.zeros2 (0, 0) datasets.length metrics.length) datasets.zipIdx

/-- What may be done in a session: new models and new metric objects, calls on models, calls on metric objects, analyses. -/
inductive Call (F D : Type) where
  | newModel (arrays : Ensemble F) (learningRate : F) (baseScore : Option F)
  | newNdcg (cfg : NdcgCfg F) (store : Option ℝ → Option ℝ)
  | newMetric (eval : Dataset (List F) ℝ → List F → Except PyErr Values)
  | model (c : ModelCall D)
  | eval (k : Nat) (d : D) (yPred : List F)
  | perQuery (k : Nat) (y : List ℝ) (yPred : List F)
  | performance (store : Option ℝ → Option ℝ) (datasets : List D) (models metrics : List Nat) (cache : Bool)
  | significance (datasets : List D) (modelA modelB : Nat) (metrics : List Nat) (draws : Nat → Nat → List (List Bool)) (cache : Bool)

/-- The objects after a call, whether it returns or raises. -/
noncomputable def step (w : World F D) (s : State F D) : Call F D → State F D
  | .newModel a l b => { s with models := s.models ++ [⟨a, l, b, []⟩] }
  | .newNdcg cfg store => { s with metrics := s.metrics ++ [.ndcg cfg store ndcgFresh] }
  | .newMetric f => { s with metrics := s.metrics ++ [.stateless f] }
  | .model c => { s with models := modelStep w.ops w.rows s.models c }
  | .eval k d yPred => (evalMetric w k d yPred s).1
  | .perQuery k y yPred => { s with metrics := s.metrics.modify k (fun o => match o with
      | .stateless f => .stateless f
      | .ndcg cfg store st => .ndcg cfg store (ndcgPerQuery cfg w.same st y yPred).1) }
  | .performance store ds ms fs cache => (performance w store ds ms fs cache s).1
  | .significance ds a b fs draws cache => (significance w ds a b fs draws cache s).1

/-- The objects after a session that starts with none. -/
noncomputable def run (w : World F D) (calls : List (Call F D)) : State F D := calls.foldl (step w) ⟨[], []⟩

end Verif.Session
