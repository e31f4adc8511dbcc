/-
Specification of the sessions with all analyses.
-/
import Verif.Model.Analyses
import Verif.Spec.Session

namespace Verif.Spec
open Session
variable {F D : Type}

/-- The partial scores of model `j`, scored in detail without cache. -/
def partialScores (w : World F D) (s : State F D) (j : Nat) (d : D) : Except PyErr (List (List F)) :=
  match s.models[j]? with
  | none => .error .indexError
  | some b => (Ensemble.scoreFresh w.ops b.arrays b.learningRate b.baseScore true (w.data d).X (w.data d).nFeatures).bind (fun r => match r.partialY with
    | some p => .ok p
    | none => .error .typeError)

/-- The number of trees of model `j`. -/
def treesOf (s : State F D) (j : Nat) : Except PyErr Nat :=
  match s.models[j]? with
  | none => .error .indexError
  | some b => .ok b.arrays.nTrees

/-- What a session may do: detailed scores are cached only if they agree with the others. -/
def AllowedAny (w : World F D) : AnyCall F D → Prop
  | .basic c => Allowed w c
  | .treeWise _ _ _ _ true => DetailedAgrees w
  | .contribution _ _ true => DetailedAgrees w
  | _ => True

end Verif.Spec
