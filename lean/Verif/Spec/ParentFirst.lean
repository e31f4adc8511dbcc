/-
When the nodes of a tree in a file are numbered from the root downwards.
-/
import Verif.Spec.Dump
import Verif.Spec.Arrays
import Verif.Spec.Coreml

namespace Verif.Spec
variable {F : Type}

def LTree.id : LTree F → Nat
  | .leaf i _ => i
  | .node i _ _ _ _ => i

/-- Children have greater ids than their parents (scikit-learn numbers the nodes in the order in which it creates them). -/
def LTree.IdsGrow : LTree F → Prop
  | .leaf _ _ => True
  | .node i _ _ l r => i < l.id ∧ i < r.id ∧ l.IdsGrow ∧ r.IdsGrow

/-- There are at most as many children as splits, and splits that are children come later (LightGBM and jforests number the splits in the
order in which they create them). -/
def ArrTree.SplitsGrow (a : ArrTree F) : Prop :=
  a.left.length ≤ a.features.length ∧ a.right.length ≤ a.features.length ∧
    (∀ j c : Nat, a.left[j]? = some (c : Int) → j < c) ∧ (∀ j c : Nat, a.right[j]? = some (c : Int) → j < c)

/-- Children have smaller ids than their parents (CatBoost exports the leaves first and the root last). -/
def CTree.IdsFall : CTree F → Prop
  | .leaf _ _ => True
  | .gt i _ _ y n => y.id < i ∧ n.id < i ∧ y.IdsFall ∧ n.IdsFall
  | .le i _ _ y n => y.id < i ∧ n.id < i ∧ y.IdsFall ∧ n.IdsFall

end Verif.Spec
