/-
Which arrays the library can get at, and what a careful caller does.
-/
import Verif.Model.Heap

namespace Verif.Heap
open Ensemble
variable {F H O : Type}

/-- The scorer refers to the array at `a`. -/
def Ref.Has (r : Ref) (a : Nat) : Prop := r.yPred = some a ∨ r.partialY = some a ∨ r.leaves = some a

/-- The library can get at the array at `a`: it is the matrix of a dataset, or an array of a cached scorer. -/
def Reaches (w : World F H O) (a : Nat) : Prop := (∃ d ∈ w.datasets, d.x = a) ∨ ∃ m ∈ w.models, ∃ e ∈ m.cache, e.ref.Has a

instance (r : Ref) (a : Nat) : Decidable (r.Has a) := inferInstanceAs (Decidable (_ ∨ _ ∨ _))

instance (w : World F H O) (a : Nat) : Decidable (Reaches w a) := inferInstanceAs (Decidable (_ ∨ _))

/-- The arrays of a scorer. -/
def contents (s : Scored F) : Option (Cell F) × Option (Cell F) × Option (Cell F) :=
  (some (.vec s.yPred), s.partialY.map .mat, s.leaves.map .ids)

/-- Without partial scores and leaves, for a basic call. -/
def shown (detailed : Bool) (c : Option (Cell F) × Option (Cell F) × Option (Cell F)) : Option (Cell F) × Option (Cell F) × Option (Cell F) :=
  if detailed then c else (c.1, none, none)

section
variable [DecidableEq H] [DecidableEq O] (ops : FloatOps F) (digest : List (List F) → O → H) (eqX : List (List F) → List (List F) → Bool)

/-- The caller does not write to arrays of the library and makes datasets of matrices. -/
def Op.Careful (w : World F H O) : Op F O → Prop
  | .write a _ => ¬ Reaches w a
  | .dataset a nf _ => ∃ X, matrixAt w.heap a = some X ∧ ∀ row ∈ X, row.length = nf
  | _ => True

def Careful (w : World F H O) : List (Op F O) → Prop
  | [] => True
  | op :: os => op.Careful w ∧ Careful (step ops digest eqX w op).1 os

end
end Verif.Heap
