/-
Specification of XGBoost trees with default directions: what XGBoost itself predicts for documents some of whose features are not given.
-/
import Verif.Spec.Dump
import Verif.Spec.Svmlight
import Verif.Spec.DumpText

namespace Verif.Spec
open Ensemble
variable {F : Type}

/-- A tree of XGBoost. Each test has a direction for documents that do not give the feature: `toLeft` is `true` if `missing=` names the left child. -/
inductive XTree (F : Type) where
  | leaf (id : Nat) (v : F)
  | node (id feature : Nat) (threshold : F) (toLeft : Bool) (l r : XTree F)
  deriving DecidableEq, Repr

namespace XTree

/-- The number of the root. -/
def id : XTree F → Nat
  | leaf i _ => i
  | node i _ _ _ _ _ => i

/-- The value of the leaf reached by a document; `doc f` is the value of feature `f`, if given. -/
def value (lt : F → F → Bool) (doc : Nat → Option F) : XTree F → F
  | leaf _ v => v
  | node _ f t toLeft l r =>
    if (match doc f with | some x => lt x t | none => toLeft) then l.value lt doc else r.value lt doc

/-- The tree without directions. -/
def erase : XTree F → LTree F
  | leaf i v => .leaf i v
  | node i f t _ l r => .node i f t l.erase r.erase

/-- At every test reached by the document of a feature that is not given, the direction is the one that `zero` takes. -/
def AgreesOn (lt : F → F → Bool) (zero : F) (doc : Nat → Option F) : XTree F → Prop
  | leaf _ _ => True
  | node _ f t toLeft l r =>
    match doc f with
    | some x => if lt x t then l.AgreesOn lt zero doc else r.AgreesOn lt zero doc
    | none => toLeft = lt zero t ∧ if toLeft then l.AgreesOn lt zero doc else r.AgreesOn lt zero doc

/-- The lines of the dump of a tree, as XGBoost writes them: first the test, with the numbers of its children and the one for documents without the
feature, then the left and the right subtree. -/
inductive Lines (float : List Char → Option F) : XTree F → List (List Char) → Prop where
  | leaf {i : Nat} {v : F} {sp ids vs : List Char} (hsp : Indent sp) (hi : Numeral ids i) (hv : NumText float vs v) :
      Lines float (.leaf i v) [sp ++ ids ++ ":leaf=".toList ++ vs ++ ['\n']]
  | node {i f : Nat} {t : F} {toLeft : Bool} {l r : XTree F} {sp ids fs ts yes no : List Char} {ll lr : List (List Char)} (hsp : Indent sp)
      (hi : Numeral ids i) (hf : Numeral fs f) (ht : NumText float ts t) (hy : Numeral yes l.id) (hn : Numeral no r.id)
      (hl : Lines float l ll) (hr : Lines float r lr) :
      Lines float (.node i f t toLeft l r)
        ((sp ++ ids ++ ":[f".toList ++ fs ++ ['<'] ++ ts ++ ']' :: (" yes=".toList ++ yes ++ ",no=".toList ++ no ++ ",missing=".toList ++
          (if toLeft then yes else no) ++ ['\n'])) :: (ll ++ lr))

end XTree

/-- The lines of a dump whose first tree has number `k`. -/
inductive XLines (float : List Char → Option F) : Nat → List (XTree F) → List (List Char) → Prop where
  | nil {k : Nat} : XLines float k [] []
  | cons {k : Nat} {t : XTree F} {ts : List (XTree F)} {ds : List Char} {ll rest : List (List Char)} (hk : Numeral ds k) (ht : t.Lines float ll)
      (hs : XLines float (k + 1) ts rest) :
      XLines float k (t :: ts) (("booster[".toList ++ ds ++ ']' :: ":\n".toList) :: (ll ++ rest))

/-- The features that a row of a data file gives; column `j` of the matrix is feature `j + 1`. -/
def SvmRow.given (r : SvmRow F) (j : Nat) : Option F := (r.feats.find? (fun p => p.1 = j + 1)).map (·.2)

end Verif.Spec
