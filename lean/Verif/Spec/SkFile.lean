/-
Specification for the file written by `export_scikit_model`: the number of nodes on the longest path of a tree, and whole lines.
-/
import Verif.Spec.Dump

namespace Verif.Spec

/-- The number of nodes on the longest path from the root to a leaf. -/
def LTree.levels {F : Type} : LTree F → Nat
  | .leaf _ _ => 1
  | .node _ _ _ l r => 1 + max l.levels r.levels

/-- A text of whole lines. -/
def WholeLines (s : List Char) : Prop := s = [] ∨ s.getLast? = some '\n'

end Verif.Spec
