/-
Specification of CoreML tree ensembles.
-/
import Verif.Model.LoadCoreml
import Verif.Spec.Tree

namespace Verif.Spec
open Ensemble

/-- A tree with node ids whose inner nodes go to the first child if `x > t` (`gt`) or `x <= t` (`le`), otherwise to the second. -/
inductive CTree (F : Type) where
  | leaf (id : Nat) (v : F)
  | gt (id feature : Nat) (threshold : F) (yes no : CTree F)
  | le (id feature : Nat) (threshold : F) (yes no : CTree F)
  deriving DecidableEq, Repr

namespace CTree
variable {F : Type}

def id : CTree F → Nat
  | leaf i _ => i
  | gt i _ _ _ _ => i
  | le i _ _ _ _ => i

/-- The same tree with all tests `<=`. -/
def toTree : CTree F → Tree F
  | leaf _ v => .leaf v
  | gt _ f t y n => .node f t n.toTree y.toTree
  | le _ f t y n => .node f t y.toTree n.toTree

/-- The ids, in the order of the nodes of `toTree`. -/
def ids : CTree F → List Nat
  | leaf i _ => [i]
  | gt i _ _ y n => i :: (n.ids ++ y.ids)
  | le i _ _ y n => i :: (y.ids ++ n.ids)

/-- The nodes in the file. -/
def nodes (k : Nat) : CTree F → List (CoreNode F)
  | leaf i v => [⟨k, i, .leaf v⟩]
  | gt i f t y n => ⟨k, i, .greaterThan f t y.id n.id⟩ :: (n.nodes k ++ y.nodes k)
  | le i f t y n => ⟨k, i, .lessThanEqual f t y.id n.id⟩ :: (y.nodes k ++ n.nodes k)

/-- The value of the leaf reached in the CoreML tree. -/
def value [LT F] [LE F] (row : Nat → F) [DecidableLT F] [DecidableLE F] : CTree F → F
  | leaf _ v => v
  | gt _ f t y n => if t < row f then y.value row else n.value row
  | le _ f t y n => if row f ≤ t then y.value row else n.value row

end CTree

/-- All nodes of the trees, the first of which has number `k`. -/
def coreNodes {F : Type} : Nat → List (CTree F) → List (CoreNode F)
  | _, [] => []
  | k, t :: ts => t.nodes k ++ coreNodes (k + 1) ts

/-- The last node listed for tree `k` has the id `i`. -/
def LastListed {F : Type} (nodes : List (CoreNode F)) (k i : Nat) : Prop :=
  ∃ pre x post, nodes = pre ++ x :: post ∧ x.treeId = k ∧ x.nodeId = i ∧ ∀ y ∈ post, y.treeId ≠ k

end Verif.Spec
