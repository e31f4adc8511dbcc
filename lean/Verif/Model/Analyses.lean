/-
Model of the other analyses of `rankeval/analysis/effectiveness.py` with their loops, on models and metric objects that keep caches.

Simplified: the labels of the axes that are given as arguments (datasets, models, metrics) are not part of the results. Arrays of cells have no bound on
counters. The sums of partial scores (tree-wise performance) and the averages are exact, conversions of tables to float32 are not modelled. Progress bars
are left out.
-/
import Verif.Model.Session
import Verif.Model.Effectiveness

namespace Verif.Session
open Ensemble Metrics
variable {F D : Type}

/-- rt_ensemble.py 325-359, `model.score(dataset, detailed=True, cache=cache)` for the model with number `j`: the partial scores. -/
def scoreDetailed (w : World F D) (j : Nat) (d : D) (cache : Bool) : Act F D (List (List F)) := fun s =>
  match s.models[j]? with
  | none => (s, .error .indexError)
  | some b =>
    let r := scoreCall w.ops w.rows b d true cache
    ({ s with models := s.models.set j r.1 }, r.2.bind (fun sc => match sc.partialY with
      | some p => .ok p
      | none => .error .typeError))

/-- `model.n_trees`. -/
def numTrees (j : Nat) : Act F D Nat := fun s => (s, match s.models[j]? with
  | none => .error .indexError
  | some b => .ok b.arrays.nTrees)

/-- effectiveness.py 122-125 and 202-205. -/
def maxTrees (models : List Nat) : Act F D Nat :=
  loop (fun m j => (numTrees j).andThen (fun n => lift (.ok (if n > m then n else m)))) 0 models

/-! ### Tree-wise performance and average contribution -/

section
variable [AddCommMonoid F]

/-- effectiveness.py 150-165: the loop over the steps `steps`, with the scores so far. -/
noncomputable def treeWiseSteps (w : World F D) (d : D) (i j : Nat) (step : Int) (partials : List (List F)) (metrics : List Nat) (steps : List Int)
    (data : List (List (List (List (Option ℝ))))) : Act F D (List F × List (List (List (List (Option ℝ))))) :=
  loop (fun st ti =>
      let yPred := List.zipWith (· + ·) st.1 (partials.map (fun r => (slice ((ti.2 : Int) * step).toNat (ti.1 + 1).toNat r).sum))
      (loop (fun data ki => (evalMetric w ki.1 d yPred).andThen (fun v =>
        lift (Stat.atIndex i (Stat.atIndex j (Stat.atIndex ti.2 (fun row => pySet row (ki.2 : Int) v.1))) data))) st.2 metrics.zipIdx).andThen (fun data =>
          lift (.ok (yPred, data))))
    (List.replicate (w.data d).X.length 0, data) steps.zipIdx

/-- effectiveness.py 122-175, `tree_wise_performance`: the labels of the axis `k`, and the table. -/
noncomputable def treeWiseTable (w : World F D) (step : Int) (datasets : List D) (models metrics : List Nat) (cache : Bool) :
    Act F D (List Int × List (List (List (List (Option ℝ))))) :=
  (maxTrees models).andThen (fun n => (lift (Eff.treeSteps step n)).andThen (fun steps =>
    (loop (fun data di => loop (fun data mi => (scoreDetailed w mi.1 di.1 cache).andThen (fun partials => (numTrees mi.1).andThen (fun n =>
        (lift (Eff.treeSteps step n)).andThen (fun steps =>
          (treeWiseSteps w di.1 di.2 mi.2 step partials metrics steps data).andThen (fun st => lift (.ok st.2)))))) data models.zipIdx)
      (List.replicate datasets.length (List.replicate models.length (List.replicate steps.length (List.replicate metrics.length none)))) datasets.zipIdx).andThen
        (fun data => lift (.ok (steps.map (· + 1), data)))))

end

/-- effectiveness.py 202-222, `tree_wise_average_contribution`. -/
def contributionTable [Field F] [LinearOrder F] (w : World F D) (datasets : List D) (models : List Nat) (cache : Bool) : Act F D (List (List (List (Option F)))) :=
  (maxTrees models).andThen (fun m =>
    loop (fun data di => loop (fun data mi => (scoreDetailed w mi.1 di.1 cache).andThen (fun partials => (numTrees mi.1).andThen (fun n =>
        lift (Stat.atIndex di.2 (fun block => pySet block (mi.2 : Int) (Eff.avgContribution m n partials)) data)))) data models.zipIdx)
      (List.replicate datasets.length (List.replicate models.length (List.replicate m none))) datasets.zipIdx)

/-! ### Query-wise performance and query classes -/

/-- effectiveness.py 271-282: the values of all queries, and the least and the greatest one. -/
noncomputable def collect (w : World F D) (datasets : List D) (models metrics : List Nat) (cache : Bool) :
    Act F D (List (List (List (List (Option ℝ)))) × Option ℝ × Option ℝ) :=
  loop (fun st di => loop (fun st mi => (scoreModel w mi.1 di.1 cache).andThen (fun yPred =>
      loop (fun st ki => (evalMetric w ki.1 di.1 yPred).andThen (fun v => lift (do
        let glob ← Stat.atIndex di.2 (Stat.atIndex mi.2 (fun row => pySet row (ki.2 : Int) v.2)) st.1
        let lo ← Eff.npReduce min v.2
        let hi ← Eff.npReduce max v.2
        pure (glob, Eff.nanReduce min st.2.1 lo, Eff.nanReduce max st.2.2 hi)))) st metrics.zipIdx)) st models.zipIdx)
    (List.replicate datasets.length (Stat.zeros2 [] models.length metrics.length), none, none) datasets.zipIdx

/-- `glob_metric_scores[i][j][k]`. -/
def pick {A : Type} (glob : List (List (List A))) (i j k : Nat) : Except PyErr A := do
  let block ← pyGet glob (i : Int)
  let row ← pyGet block (j : Int)
  pyGet row (k : Int)

/-- effectiveness.py 295-308: the curves. -/
noncomputable def fillCurves (glob : List (List (List (List (Option ℝ))))) (edges : List (Option ℝ)) (bins : Nat) (datasets : List D) (models metrics : List Nat) :
    Except PyErr (List (List (List (List (Option ℝ))))) :=
  datasets.zipIdx.foldlM (fun data di => models.zipIdx.foldlM (fun data mi => metrics.zipIdx.foldlM (fun data ki => do
      let xs ← pick glob di.2 mi.2 ki.2
      let c ← Eff.curve xs edges
      Stat.atIndex di.2 (Stat.atIndex mi.2 (fun row => pySet row (ki.2 : Int) c)) data) data) data)
    (List.replicate datasets.length (Stat.zeros2 (List.replicate bins none) models.length metrics.length))

/-- effectiveness.py 271-315, `query_wise_performance`: the labels of the bins, and the table. -/
noncomputable def queryWiseTable (w : World F D) (datasets : List D) (models metrics : List Nat) (bins : Option Nat) (start stop : Option ℝ) (cache : Bool) :
    Act F D (List (Option ℝ) × List (List (List (List (Option ℝ))))) :=
  (collect w datasets models metrics cache).andThen (fun st => lift (do
    let lo := if start.isSome then start else st.2.1
    let hi := if stop.isSome then stop else st.2.2
    let n ← match bins with
      | some b => pure b
      | none => match (datasets.map (fun d => (w.data d).queryIds.length)).max? with
        | some b => pure b
        | none => .error .valueError
    let edges := Eff.linspace lo hi n
    let data ← fillCurves st.1 edges n datasets models metrics
    let labels ← Eff.binLabels edges n
    pure (labels, data)))

/-- effectiveness.py 352-360: the values of all queries. -/
noncomputable def vectors (w : World F D) (datasets : List D) (models metrics : List Nat) (cache : Bool) : Act F D (List (List (List (List (Option ℝ))))) :=
  loop (fun glob di => loop (fun glob mi => (scoreModel w mi.1 di.1 cache).andThen (fun yPred =>
      loop (fun glob ki => (evalMetric w ki.1 di.1 yPred).andThen (fun v =>
        lift (Stat.atIndex di.2 (Stat.atIndex mi.2 (fun row => pySet row (ki.2 : Int) v.2)) glob))) glob metrics.zipIdx)) glob models.zipIdx)
    (List.replicate datasets.length (Stat.zeros2 [] models.length metrics.length)) datasets.zipIdx

section
variable {C : Type} [LinearOrder C]

/-- effectiveness.py 367-380: the means of the classes. -/
noncomputable def fillClasses (glob : List (List (List (List (Option ℝ))))) (elementwise : Bool) (classes : List (List C)) (unique : List C) (datasets : List D)
    (models metrics : List Nat) : Except PyErr (List (List (List (List (Option ℝ))))) :=
  datasets.zipIdx.foldlM (fun data di => models.zipIdx.foldlM (fun data mi => metrics.zipIdx.foldlM (fun data ki => unique.zipIdx.foldlM (fun data ci => do
      let cls ← pyGet classes (di.2 : Int)
      let scores ← pick glob di.2 mi.2 ki.2
      let v ← Eff.classCell elementwise scores cls ci.1
      Stat.atIndex di.2 (Stat.atIndex mi.2 (Stat.atIndex ki.2 (fun row => pySet row (ci.2 : Int) v))) data) data) data) data)
    (List.replicate datasets.length (Stat.zeros2 (List.replicate unique.length none) models.length metrics.length))

/-- effectiveness.py 352-386, `query_class_performance`: the classes, and the table. -/
noncomputable def queryClassTable (w : World F D) (elementwise : Bool) (datasets : List D) (models metrics : List Nat) (classes : List (List C)) (cache : Bool) :
    Act F D (List C × List (List (List (List (Option ℝ))))) :=
  (vectors w datasets models metrics cache).andThen (fun glob => lift (do
    let unique := Eff.npUniqueOf (classes.flatMap Eff.npUniqueOf)
    let data ← fillClasses glob elementwise classes unique datasets models metrics
    pure (unique, data)))

end

/-! ### Graded relevance and rank confusion -/

/-- effectiveness.py 438-445: the least and the greatest score. `glob_doc_scores` is not read. `num` gives the number that a score is, or NaN. -/
noncomputable def collectScores (w : World F D) (num : F → Option ℝ) (datasets : List D) (models : List Nat) (cache : Bool) : Act F D (Option ℝ × Option ℝ) :=
  loop (fun st di => loop (fun st j => (scoreModel w j di cache).andThen (fun yPred => lift (do
      let lo ← Eff.npReduce min (yPred.map num)
      let hi ← Eff.npReduce max (yPred.map num)
      pure (Eff.nanReduce min st.1 lo, Eff.nanReduce max st.2 hi)))) st models)
    (none, none) datasets

/-- effectiveness.py 435-478, `document_graded_relevance`: the labels, the labels of the bins, and the table. Each model scores each dataset again for each
label. -/
noncomputable def gradedTable (w : World F D) (num : F → Option ℝ) (datasets : List D) (models : List Nat) (bins : Option Nat) (start stop : Option ℝ) (cache : Bool) :
    Act F D (List ℝ × List (Option ℝ) × List (List (List (List (Option ℝ))))) :=
  (collectScores w num datasets models cache).andThen (fun st =>
    match bins with
    | none => lift (.error .typeError)
    | some n =>
      let edges := Eff.linspace (if start.isSome then start else st.1) (if stop.isSome then stop else st.2) n
      (lift (Eff.relLabels (datasets.map (fun d => (w.data d).y)))).andThen (fun labels =>
        (loop (fun data di => loop (fun data mi => loop (fun data li => (scoreModel w mi.1 di.1 cache).andThen (fun yPred => lift (do
            let c ← Eff.gradedCurve (w.data di.1).y (yPred.map num) edges li.1
            Stat.atIndex di.2 (Stat.atIndex mi.2 (fun row => pySet row (li.2 : Int) c)) data))) data labels.zipIdx) data models.zipIdx)
          (List.replicate datasets.length (Stat.zeros2 (List.replicate n none) models.length labels.length)) datasets.zipIdx).andThen (fun data => lift (do
            let coords ← Eff.binLabels edges n
            pure (labels, coords, data)))))

/-- effectiveness.py 512-537, `rank_confusion_matrix`: the labels, and the table. -/
noncomputable def confusionTable [LinearOrder F] (w : World F D) (toI : ℝ → Int) (skip : Bool) (datasets : List D) (models : List Nat) (cache : Bool) :
    Act F D (List Int × List (List (List (List Nat)))) :=
  (lift (Eff.relLabels (datasets.map (fun d => (w.data d).y)))).andThen (fun labels =>
    (loop (fun data di => loop (fun data mi => (scoreModel w mi.1 di.1 cache).andThen (fun yPred =>
        lift (((w.data di.1).queryIterator.flatMap (fun b => Eff.blockPairs b.2.1 b.2.2)).foldlM (fun data p =>
          Stat.atIndex di.2 (Stat.atIndex mi.2 (fun m => Eff.confusionPair toI skip (w.data di.1).y yPred m p)) data) data))) data models.zipIdx)
      (List.replicate datasets.length (List.replicate models.length (List.replicate labels.length (List.replicate labels.length 0)))) datasets.zipIdx).andThen
        (fun data => lift (.ok (labels.map toI, data))))

/-! ### Sessions with all analyses -/

/-- What may be done. -/
inductive AnyCall (F D : Type) where
  | basic (c : Call F D)
  | treeWise (step : Int) (datasets : List D) (models metrics : List Nat) (cache : Bool)
  | contribution (datasets : List D) (models : List Nat) (cache : Bool)
  | queryWise (datasets : List D) (models metrics : List Nat) (bins : Option Nat) (start stop : Option ℝ) (cache : Bool)
  | queryClass (elementwise : Bool) (datasets : List D) (models metrics : List Nat) (classes : List (List Nat)) (cache : Bool)
  | graded (num : F → Option ℝ) (datasets : List D) (models : List Nat) (bins : Option Nat) (start stop : Option ℝ) (cache : Bool)
  | confusion (toI : ℝ → Int) (skip : Bool) (datasets : List D) (models : List Nat) (cache : Bool)

section
variable [Field F] [LinearOrder F]

/-- The objects after a call, whether it returns or raises. -/
noncomputable def anyStep (w : World F D) (s : State F D) : AnyCall F D → State F D
  | .basic c => step w s c
  | .treeWise st ds ms ks cache => (treeWiseTable w st ds ms ks cache s).1
  | .contribution ds ms cache => (contributionTable w ds ms cache s).1
  | .queryWise ds ms ks bins start stop cache => (queryWiseTable w ds ms ks bins start stop cache s).1
  | .queryClass e ds ms ks classes cache => (queryClassTable w e ds ms ks classes cache s).1
  | .graded num ds ms bins start stop cache => (gradedTable w num ds ms bins start stop cache s).1
  | .confusion toI skip ds ms cache => (confusionTable w toI skip ds ms cache s).1

/-- The objects after a session that starts with none. -/
noncomputable def runAll (w : World F D) (calls : List (AnyCall F D)) : State F D := calls.foldl (anyStep w) ⟨[], []⟩

end

end Verif.Session
