/-
Specification of results that do not depend on what was done before.
-/
import Verif.Model.Session
import Verif.Spec.Ensemble

namespace Verif.Spec
open Session
variable {F D : Type}

/-- A metric object as it was when it was made. -/
def unusedMetric : MetricObj F → MetricObj F
  | .stateless f => .stateless f
  | .ndcg cfg store _ => .ndcg cfg store Metrics.ndcgFresh

/-- A model that has not scored yet. -/
def unusedModel (b : Ensemble.Booster F D) : Ensemble.Booster F D := { b with cache := [] }

/-- The same models and metrics, as if never used. -/
def unused (s : State F D) : State F D := ⟨s.models.map unusedModel, s.metrics.map unusedMetric⟩

/-- The predictions of model `j`, scored without cache. -/
def predictions (w : World F D) (s : State F D) (j : Nat) (d : D) : Except PyErr (List F) :=
  match s.models[j]? with
  | none => .error .indexError
  | some b => (Ensemble.scoreFresh w.ops b.arrays b.learningRate b.baseScore false (w.data d).X (w.data d).nFeatures).map (·.yPred)

/-- The values of metric `k`, given by a new object. -/
noncomputable def values (w : World F D) (s : State F D) (k : Nat) (d : D) (yPred : List F) : Except PyErr Values :=
  match s.metrics[k]? with
  | none => .error .indexError
  | some o => ((unusedMetric o).eval w.same (w.data d) yPred).2

/-- The arithmetic gives the same predictions in detailed scoring. -/
def DetailedAgrees (w : World F D) : Prop := ∀ (m : Ensemble F) (lr : F) (bs : Option F) (d : D), (∃ fo, Represents m fo) →
  (Ensemble.scoreFresh w.ops m lr bs true (w.data d).X (w.data d).nFeatures).map (·.yPred) =
    (Ensemble.scoreFresh w.ops m lr bs false (w.data d).X (w.data d).nFeatures).map (·.yPred)

/-- What a session may do: models are trees, no score call is interrupted, and detailed scores are cached only if they agree with the others. -/
def Allowed (w : World F D) : Call F D → Prop
  | .newModel a _ _ => ∃ fo, Represents a fo
  | .model (.interrupted _ _ _ _) => False
  | .model (.score _ _ true true) => DetailedAgrees w
  | _ => True

/-- Dataset objects are matrices, and objects that dictionaries take for the same key have the same content. -/
structure Clean (w : World F D) : Prop where
  rows : ∀ d, ∀ row ∈ (w.data d).X, row.length = (w.data d).nFeatures
  refl : ∀ d, w.same d d = true
  same : ∀ a b, w.same (w.data a) (w.data b) = true → w.data a = w.data b

end Verif.Spec
