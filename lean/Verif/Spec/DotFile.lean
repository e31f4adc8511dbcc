/-
How many calls the drawing of a tree nests, for C121.
-/
import Verif.Spec.Graphviz

namespace Verif.Spec
variable {F : Type}

/-- The calls nested by drawing the subtree at a depth, if a box of a leaf nests `leafBox` calls and that of another node `innerBox`: each level adds
one, and a cropped node nests two. -/
def drawCalls (maxDepth : Option Nat) (leafBox innerBox : Nat) : Tree F → Nat → Nat
  | .leaf _, depth => if within maxDepth depth then leafBox else 2
  | .node _ _ l r, depth =>
    if within maxDepth depth then
      max innerBox (1 + max (drawCalls maxDepth leafBox innerBox l (depth + 1)) (drawCalls maxDepth leafBox innerBox r (depth + 1)))
    else 2

/-- The calls nested by a box: one for the node and two for its text, or those for its colour. -/
def boxCalls (coloured : Bool) (colour : Nat) : Nat := if coloured then max 3 (1 + colour) else 3

end Verif.Spec
