/-
Specification of the drawing of a tree: trees whose nodes have names.
-/
import Verif.Spec.Tree
import Verif.Model.Graphviz

namespace Verif.Spec

/-- A regression tree whose nodes have an id. -/
inductive IdTree (F : Type) where
  | leaf (id : Nat) (v : F)
  | node (id : Nat) (feature : Nat) (threshold : F) (l r : IdTree F)
  deriving DecidableEq, Repr

/-- What is tested or given out at a node. -/
inductive NodeInfo (F : Type) where
  | split (feature : Nat) (threshold : F)
  | output (value : F)
  deriving DecidableEq, Repr

/-- A node: depth, id, parent and whether it is a left child, content. -/
structure NodeItem (F : Type) where
  depth : Nat
  id : Nat
  parent : Option (Nat × Bool)
  info : NodeInfo F
  deriving DecidableEq, Repr

namespace IdTree
variable {F : Type}

/-- The tree without ids. -/
def erase : IdTree F → Tree F
  | leaf _ v => .leaf v
  | node _ f t l r => .node f t l.erase r.erase

def id : IdTree F → Nat
  | leaf i _ => i
  | node i _ _ _ _ => i

/-- All nodes, parents before children, left before right. -/
def items : IdTree F → Nat → Option (Nat × Bool) → List (NodeItem F)
  | leaf i v, depth, parent => [⟨depth, i, parent, .output v⟩]
  | node i f t l r, depth, parent =>
    ⟨depth, i, parent, .split f t⟩ :: (l.items (depth + 1) (some (i, true)) ++ r.items (depth + 1) (some (i, false)))

/-- The ids of all nodes. -/
def ids (t : IdTree F) : List Nat := (t.items 0 none).map NodeItem.id

/-- The tree with other thresholds and outputs. -/
def mapValues (g : F → F) : IdTree F → IdTree F
  | leaf i v => leaf i (g v)
  | node i f t l r => node i f (g t) (l.mapValues g) (r.mapValues g)

/-- The ids of the nodes visited by a document. -/
def path (left : Nat → F → Bool) : IdTree F → List Nat
  | leaf i _ => [i]
  | node i f t l r => i :: (if left f t then l.path left else r.path left)

end IdTree

section
variable {F K : Type}

/-- The main line of the label of a node. -/
def criterion (round : F → F) (name : Nat → Dot.FeatureText) : NodeInfo F → Dot.Criterion F
  | .split f t => .split (name f) (round t)
  | .output v => .output (round v)

/-- Whether nodes of this depth are drawn. -/
def within (maxDepth : Option Nat) (depth : Nat) : Bool := maxDepth.all (fun d => decide (depth ≤ d))

/-- What is drawn for a node: a box with its content, or `(...)` below the maximal depth, and the edge from its parent. Edges from the root
say whether they are taken if the test is true. -/
def drawItem (round : F → F) (name : Nat → Dot.FeatureText) (showId : Bool) (count : NodeItem F → Option (Nat × Option K)) (maxDepth : Option Nat)
    (n : NodeItem F) : List (Dot.Stmt F K) :=
  (if within maxDepth n.depth then
    .node n.id ⟨if showId then some (n.id : Int) else none, count n, criterion round name n.info⟩ else .cropped n.id) ::
  match n.parent with
  | none => []
  | some (p, isLeft) => [.edge p n.id (if n.depth = 1 ∧ within maxDepth n.depth then some isLeft else none)]

/-- The drawing of a tree: its nodes up to the maximal depth, and their children as `(...)`. -/
def drawing (round : F → F) (name : Nat → Dot.FeatureText) (showId : Bool) (count : NodeItem F → Option (Nat × Option K)) (maxDepth : Option Nat)
    (t : IdTree F) : List (Dot.Stmt F K) :=
  ((t.items 0 none).filter (fun n => within maxDepth (n.depth - 1))).flatMap (drawItem round name showId count maxDepth)

end
end Verif.Spec
