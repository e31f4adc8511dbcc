/-
Specification of files of LightGBM that have been cut off: lines that begin trees, and lines that end them.
-/
import Verif.Spec.Arrays

namespace Verif.Spec
open Ensemble
variable {F : Type}

/-- How many lines begin a tree. -/
def begunTrees (ls : List (LgbLine F)) : Nat := (ls.map (fun l => match l with | .tree _ => 1 | _ => 0)).sum

/-- How many lines have a shrinkage, with which LightGBM ends a tree. -/
def endedTrees (ls : List (LgbLine F)) : Nat := (ls.map (fun l => match l with | .shrinkage => 1 | _ => 0)).sum

end Verif.Spec
