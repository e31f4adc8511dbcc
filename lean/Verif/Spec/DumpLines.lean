/-
Specification for the lines of a dump: how many lines of each kind there are, and how many children are still expected.
-/
import Verif.Spec.Dump

namespace Verif.Spec
open Ensemble
variable {F : Type}

/-- The number written in a line with the number of a tree. -/
def treeNumber : DumpLine F → Option Nat
  | .tree i => some i
  | _ => none

/-- The number written in a line with a node or a leaf. -/
def nodeNumber : DumpLine F → Option Nat
  | .node id _ _ => some id
  | .leaf id _ => some id
  | _ => none

/-- How many lines begin a tree. -/
def treeLineCount (ls : List (DumpLine F)) : Nat := (ls.filterMap treeNumber).length

/-- How many lines hold a node or a leaf. -/
def nodeLineCount (ls : List (DumpLine F)) : Nat := (ls.filterMap nodeNumber).length

/-- How many children are expected after the lines, if `n` were expected before: a node is the child expected first, if there is one, and has two children. -/
def expected : Nat → List (DumpLine F) → Nat
  | n, [] => n
  | n, .node .. :: ls => expected (n - 1 + 2) ls
  | n, .leaf .. :: ls => expected (n - 1) ls
  | n, _ :: ls => expected n ls

/-- How many nodes and leaves come before the last line that begins a tree; `old` and `new` are the numbers before and after it in what was
read already. -/
def earlier : Nat → Nat → List (DumpLine F) → Nat
  | old, _, [] => old
  | old, new, .tree _ :: ls => earlier (old + new) 0 ls
  | old, new, .node .. :: ls => earlier old (new + 1) ls
  | old, new, .leaf .. :: ls => earlier old (new + 1) ls
  | old, new, _ :: ls => earlier old new ls

end Verif.Spec
