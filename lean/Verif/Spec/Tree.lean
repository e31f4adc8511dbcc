/-
Specification: binary regression trees and forests, independent of the array representation.
-/
import Mathlib.Data.List.Basic

namespace Verif.Spec

/-- A binary regression tree: an internal node tests `x[feature] <= threshold`. -/
inductive Tree (F : Type) where
  | leaf (v : F)
  | node (feature : Nat) (threshold : F) (l r : Tree F)
  deriving DecidableEq, Repr

namespace Tree
variable {F : Type}

/-- The value of the leaf reached, where `left f t` says whether the document goes left at a node testing feature `f` with
threshold `t`. -/
def value (left : Nat → F → Bool) : Tree F → F
  | leaf v => v
  | node f t l r => if left f t then l.value left else r.value left

def numLeaves : Tree F → Nat
  | leaf _ => 1
  | node _ _ l r => l.numLeaves + r.numLeaves

def numNodes : Tree F → Nat
  | leaf _ => 1
  | node _ _ l r => 1 + l.numNodes + r.numNodes

/-- Number of edges on the longest path to a leaf. -/
def height : Tree F → Nat
  | leaf _ => 0
  | node _ _ l r => 1 + max l.height r.height

/-- The features tested in the tree. -/
def features : Tree F → List Nat
  | leaf _ => []
  | node f _ l r => f :: (l.features ++ r.features)

/-- The thresholds and the values of the leaves. -/
def numbers : Tree F → List F
  | leaf v => [v]
  | node _ t l r => t :: (l.numbers ++ r.numbers)

/-- Position, in the order root, left subtree, right subtree, of the leaf reached. -/
def exitPos (left : Nat → F → Bool) : Tree F → Nat
  | leaf _ => 0
  | node f t l r => if left f t then 1 + l.exitPos left else 1 + l.numNodes + r.exitPos left

end Tree

/-- A document with feature values `row` goes left at a node iff its value of the feature is `<=` the threshold. -/
def goesLeft {F : Type} (le : F → F → Bool) (row : List F) (f : Nat) (t : F) : Bool :=
  match row[f]? with
  | some x => le x t
  | none => false

/-- A forest: trees with their weights. -/
abbrev Forest (F : Type) := List (Tree F × F)

/-- Total number of nodes. -/
def Forest.numNodes {F : Type} (f : Forest F) : Nat := (f.map (fun p => p.1.numNodes)).sum

/-- The contributions of the trees to the score of a document. -/
def Forest.contributions {F : Type} (mul : F → F → F) (left : Nat → F → Bool) (f : Forest F) : List F :=
  f.map (fun p => mul (p.1.value left) p.2)

end Verif.Spec
