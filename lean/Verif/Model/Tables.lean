/-
Model of the loops that fill the result tables of the analyses: `model_performance` (`rankeval/analysis/effectiveness.py`),
`statistical_significance` and `bias_variance` (`rankeval/analysis/statistical.py`), and of `_randomization` on vectors with NaN.

Simplified: the cells of the last dimension of the significance and bias/variance tables (p-values; error, bias and variance) are written
together. `store` is the conversion to float32.
-/
import Verif.Model.Statistical

namespace Verif.Stat

/-- `a[i][...] = ...`: change of a part of an array. -/
def atIndex {A : Type} (i : Nat) (f : A → Except PyErr A) (a : List A) : Except PyErr (List A) := do
  let r ← pyGet a (i : Int)
  let r' ← f r
  pySet a (i : Int) r'

/-- `np.zeros((n, m))`. -/
def zeros2 {V : Type} (zero : V) (n m : Nat) : List (List V) := List.replicate n (List.replicate m zero)

/-- effectiveness.py 64-72, `model_performance`. `score` is `model.score(dataset)`, a metric gives the mean over the queries. -/
def modelPerformance {D M S V : Type} (store : V → V) (zero : V) (score : M → D → Except PyErr (List S)) (datasets : List D) (models : List M)
    (metrics : List (D → List S → Except PyErr V)) : Except PyErr (List (List (List V))) :=
  datasets.zipIdx.foldlM (fun data di => models.zipIdx.foldlM (fun data mi => do
      let yPred ← score mi.1 di.1
      metrics.zipIdx.foldlM (fun data fi => do
        let v ← fi.1 di.1 yPred
        atIndex di.2 (atIndex mi.2 (fun row => pySet row (fi.2 : Int) (store v))) data) data) data)
    (List.replicate datasets.length (zeros2 zero models.length metrics.length))

/-! ### Randomization test with NaN -/

section
variable {K : Type} [Field K] [LinearOrder K]

/-- Operation on floats: NaN (`none`) if one side is NaN. -/
def lift2 (op : K → K → K) : Option K → Option K → Option K
  | some a, some b => some (op a b)
  | _, _ => none

/-- Comparison of floats: false if one side is NaN. -/
def cmp2 (r : K → K → Bool) : Option K → Option K → Bool
  | some a, some b => r a b
  | _, _ => false

/-- `np.sum`. -/
def sumNaN (xs : List (Option K)) : Option K := xs.foldr (lift2 (· + ·)) (some 0)

/-- `np.mean` of a vector that is not empty. -/
def avgNaN (xs : List (Option K)) : Option K := lift2 (· / ·) (sumNaN xs) (some (xs.length : K))

/-- statistical.py 154-165. -/
def swapDeltaNaN (best worst : List (Option K)) (sel : List Bool) : Option K :=
  let aSel := sumNaN (maskSelect best sel)
  let bSel := sumNaN (maskSelect worst sel)
  let aMean := lift2 (· / ·) (lift2 (· + ·) (lift2 (· - ·) (sumNaN best) aSel) bSel) (some (best.length : K))
  let bMean := lift2 (· / ·) (lift2 (· + ·) (lift2 (· - ·) (sumNaN worst) bSel) aSel) (some (best.length : K))
  lift2 (· - ·) aMean bMean

/-- statistical.py 167-170. -/
def randStepNaN (best worst : List (Option K)) (difference : Option K) (p : K × K) (sel : List Bool) : K × K :=
  let delta := swapDeltaNaN best worst sel
  (if cmp2 (fun a b => decide (a ≥ b)) delta difference then p.1 + 1 else p.1,
   if cmp2 (fun a b => decide (|a| ≥ |b|)) delta difference then p.2 + 1 else p.2)

/-- statistical.py 129-179, `_randomization`, as `randomization` with NaN. -/
def randomizationNaN (a b : List (Option K)) (sels : List (List Bool)) : Except PyErr (K × K) :=
  if sels = [] then .error .zeroDivisionError
  else if a.length ≠ b.length then .error .indexError
  else if a = [] then .ok (0, 0)
  else
    let less := cmp2 (fun x y => decide (x < y)) (avgNaN a) (avgNaN b)
    let best := if less then b else a
    let worst := if less then a else b
    let p := sels.foldl (randStepNaN best worst (lift2 (· - ·) (avgNaN best) (avgNaN worst))) (0, 0)
    .ok (p.1 / sels.length, p.2 / sels.length)

/-- statistical.py 70-84, `statistical_significance`: a metric gives the values of all queries; `draws i j` are the random subsets drawn for
dataset `i` and metric `j`. -/
def significance {D M S : Type} (score : M → D → Except PyErr (List S)) (datasets : List D) (modelA modelB : M)
    (metrics : List (D → List S → Except PyErr (List (Option K)))) (draws : Nat → Nat → List (List Bool)) : Except PyErr (List (List (K × K))) :=
  datasets.zipIdx.foldlM (fun data di => do
      let yA ← score modelA di.1
      let yB ← score modelB di.1
      metrics.zipIdx.foldlM (fun data fi => do
        let a ← fi.1 di.1 yA
        let b ← fi.1 di.1 yB
        let p ← randomizationNaN a b (draws di.2 fi.2)
        atIndex di.2 (fun row => pySet row (fi.2 : Int) p) data) data)
    (zeros2 (0, 0) datasets.length metrics.length)

end

/-- statistical.py 353-385, the loops of `bias_variance`: `cell` is the work for a dataset, algorithm and metric (`biasVarianceMse`,
`biasVarianceMetric`). The loop over the algorithms is outside of the loop over the metrics, in the table it is the other way round. -/
def biasVarianceTable {D A F V : Type} (zero : V) (cell : D → A → F → Except PyErr V) (datasets : List D) (algos : List A) (metrics : List F) :
    Except PyErr (List (List (List V))) :=
  if datasets = [] ∨ metrics = [] then .error .assertionError
  else datasets.zipIdx.foldlM (fun data di => algos.zipIdx.foldlM (fun data ai => metrics.zipIdx.foldlM (fun data fi => do
      let v ← cell di.1 ai.1 fi.1
      atIndex di.2 (atIndex fi.2 (fun row => pySet row (ai.2 : Int) v)) data) data) data)
    (List.replicate datasets.length (zeros2 zero metrics.length algos.length))

end Verif.Stat
