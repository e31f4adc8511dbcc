/-
Specification for SVMlight rows whose feature ids are in any order: in which columns the values are.
-/
import Verif.Spec.Svmlight

namespace Verif.Spec
variable {F : Type}

/-- Each value goes into the column of its id, or into the next free one if this is further right. -/
def columnsFrom : Nat → List Nat → List Nat
  | _, [] => []
  | next, i :: is => max i next :: columnsFrom (max i next + 1) is

/-- The row that an ordered row would have to be in order to be loaded as `r` is. -/
def SvmRow.placed (r : SvmRow F) : SvmRow F := { r with feats := (columnsFrom 1 (r.feats.map (·.1))).zip (r.feats.map (·.2)) }

end Verif.Spec
