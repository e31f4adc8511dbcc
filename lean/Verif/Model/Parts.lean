/-
Model of scoring a dataset and evaluating a metric on the predictions, as done for datasets and for parts of them.
-/
import Verif.Model.Ensemble
import Verif.Model.Eval

namespace Verif.Metrics

/-- effectiveness.py 66-71 (`model_performance`), for one dataset, one model and one metric: `y_pred = model.score(dataset, detailed=False)`
(rt_ensemble.py 325-359, without cache), then `metric.eval(dataset, y_pred)` (metric.py 65-70). -/
def scoreEval {F L K : Type} [Field K] (ops : FloatOps F) (m : Ensemble F) (learningRate : F) (baseScore : Option F)
    (store : Option K → Option K) (evalQ : List L → List F → Except PyErr (Option K)) (d : Dataset (List F) L) :
    Except PyErr (Option K × List (Option K)) := do
  let r ← Ensemble.scoreFresh ops m learningRate baseScore false d.X d.nFeatures
  metricEval store evalQ d r.yPred

end Verif.Metrics
