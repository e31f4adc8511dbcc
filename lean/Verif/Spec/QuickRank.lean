/-
Specification of QuickRank documents: the elements that stand for a tree.
-/
import Verif.Model.QuickRank
import Verif.Spec.Tree

namespace Verif.Spec
open Ensemble
variable {F : Type}

/-- The `split` element of a tree: features are numbered from 1. -/
def splitXml (attrs : List (String × Text F)) : Tree F → Xml F
  | .leaf v => .elem "split" attrs none [textElem "output" (.num v)]
  | .node f t l r => .elem "split" attrs none [textElem "feature" (.int (f + 1 : Nat)), textElem "threshold" (.num t),
      splitXml [("pos", .str "left")] l, splitXml [("pos", .str "right")] r]

/-- The `tree` elements of a forest whose first tree has number `k`. -/
def forestXml : Nat → Forest F → List (Xml F)
  | _, [] => []
  | k, (t, w) :: fo => .elem "tree" [("id", .int (k + 1 : Nat)), ("weight", .num w)] none [splitXml [] t] :: forestXml (k + 1) fo

end Verif.Spec
