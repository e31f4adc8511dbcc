/-
Model of the class `Scorer` in `rankeval/scoring/scorer.py` with its accessors (for the cache of scorers in `RTEnsemble` see
`Verif/Model/ScoreCache.lean`).
-/
import Verif.Model.Ensemble

namespace Verif.Ensemble
variable {F : Type}

/-- scorer.py 45-58: the attributes of a `Scorer`. `runs` counts the calls of the scoring kernels. -/
structure ScorerObj (F : Type) where
  yPred : Option (List F)
  partialY : Option (List (List F))
  leaves : Option (List (List Int))
  runs : Nat
  deriving DecidableEq, Repr

/-- scorer.py 45-58, `__init__`. -/
def ScorerObj.new : ScorerObj F := ⟨none, none, none, 0⟩

/-- scorer.py 79-91, `score`. -/
def ScorerObj.score (ops : FloatOps F) (m : Ensemble F) (X : List (List F)) (detailed : Bool) (s : ScorerObj F) :
    Except PyErr (Option (List F) × ScorerObj F) :=
  if (!detailed && s.yPred.isSome) || (detailed && s.leaves.isSome) then pure (s.yPred, s)
  else if detailed then do
    let (leaves, part) ← detailedScoring ops m X
    let y := part.map ops.sum
    pure (some y, ⟨some y, some part, some leaves, s.runs + 1⟩)
  else do
    let y ← basicScoring ops m X
    pure (some y, { s with yPred := some y, runs := s.runs + 1 })

/-- A call of a method. -/
inductive ScorerCall where
  | score (detailed : Bool)
  | predictedScores
  | partialScores
  | predictedLeaves
  deriving DecidableEq, Repr

/-- What a method returns. -/
inductive ScorerResult (F : Type) where
  | scores (y : Option (List F))
  | partials (p : Option (List (List F)))
  | leaves (l : Option (List (List Int)))
  deriving DecidableEq, Repr

/-- scorer.py 60-144: a call. `get_predicted_leaves` (lines 142-144) reads `self.self`, which does not exist. -/
def ScorerObj.call (ops : FloatOps F) (m : Ensemble F) (X : List (List F)) (s : ScorerObj F) : ScorerCall → Except PyErr (ScorerResult F × ScorerObj F)
  | .score detailed => do
    let (y, s) ← s.score ops m X detailed
    pure (.scores y, s)
  | .predictedScores =>
    match s.yPred with
    | some y => pure (.scores (some y), s)
    | none => do
      let (_, s) ← s.score ops m X false
      pure (.scores s.yPred, s)
  | .partialScores =>
    match s.partialY with
    | some p => pure (.partials (some p), s)
    | none => do
      let (_, s) ← s.score ops m X true
      pure (.partials s.partialY, s)
  | .predictedLeaves => .error .attributeError

/-- A sequence of calls whose errors are caught; an error leaves the scorer unchanged. -/
def ScorerObj.calls (ops : FloatOps F) (m : Ensemble F) (X : List (List F)) : ScorerObj F → List ScorerCall → List (Except PyErr (ScorerResult F)) × ScorerObj F
  | s, [] => ([], s)
  | s, c :: cs =>
    match s.call ops m X c with
    | .error e => let r := ScorerObj.calls ops m X s cs; (.error e :: r.1, r.2)
    | .ok (x, s') => let r := ScorerObj.calls ops m X s' cs; (.ok x :: r.1, r.2)

end Verif.Ensemble
