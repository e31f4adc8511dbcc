/-
Specification of text dumps: trees whose nodes carry the ids printed in the file.
-/
import Verif.Model.LoadDump
import Verif.Spec.Tree

namespace Verif.Spec
open Ensemble

/-- A tree with node ids. -/
inductive LTree (F : Type) where
  | leaf (id : Nat) (v : F)
  | node (id feature : Nat) (threshold : F) (l r : LTree F)
  deriving DecidableEq, Repr

namespace LTree
variable {F : Type}

/-- Ids in the order root, left subtree, right subtree. -/
def ids : LTree F → List Nat
  | leaf id _ => [id]
  | node id _ _ l r => id :: (l.ids ++ r.ids)

/-- The tree without ids, thresholds changed by `g`. -/
def toTree (g : F → F) : LTree F → Tree F
  | leaf _ v => .leaf v
  | node _ f t l r => .node f (g t) (l.toTree g) (r.toTree g)

/-- The lines of the dump: depth first, the branch taken when the test is true first. -/
def dump : LTree F → List (DumpLine F)
  | leaf id v => [.leaf id v]
  | node id f t l r => .node id f t :: (l.dump ++ r.dump)

end LTree

/-- Is this a line the loaders look at? -/
def relevant {F : Type} : DumpLine F → Bool
  | .other => false
  | _ => true

/-- The dump of a forest whose first tree has number `k`. -/
def forestDump {F : Type} : Nat → List (LTree F) → List (DumpLine F)
  | _, [] => []
  | k, t :: ts => .tree k :: (t.dump ++ forestDump (k + 1) ts)

/-- The arrays of a scikit-learn tree hold, from node `i` on, the tree whose node ids are the array indices. -/
inductive SkEncodes {F : Type} (a : SkTree F) : Nat → LTree F → Prop where
  | leaf {i : Nat} {v : F} (hf : a.feature[i]? = some (-2)) (hv : a.value[i]? = some v) : SkEncodes a i (.leaf i v)
  | node {i f l r : Nat} {t : F} {tl tr : LTree F} (hf : a.feature[i]? = some (f : Int)) (ht : a.threshold[i]? = some t)
      (hl : a.childrenLeft[i]? = some (l : Int)) (hr : a.childrenRight[i]? = some (r : Int))
      (el : SkEncodes a l tl) (er : SkEncodes a r tr) : SkEncodes a i (.node i f t tl tr)

namespace LTree
variable {F : Type}

/-- Thresholds changed by `g`, leaf values by `h`. -/
def mapValues {G : Type} (g h : F → G) : LTree F → LTree G
  | leaf id v => leaf id (h v)
  | node id f t l r => node id f (g t) (l.mapValues g h) (r.mapValues g h)

/-- The value of the leaf reached, with the test `test f t` of the original library. -/
def value (test : Nat → F → Bool) : LTree F → F
  | leaf _ v => v
  | node _ f t l r => if test f t then l.value test else r.value test

end LTree
end Verif.Spec
