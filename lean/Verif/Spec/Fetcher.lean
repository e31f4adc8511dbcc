/-
What should be on disk after a download.
-/
import Verif.Model.Fetcher

namespace Verif.Spec
open Fetch

/-- What is at path `r` below the directory where an archive was extracted, and nothing else was put. -/
def archiveTree (files : List (Path × List String)) (r : Path) : Option Node :=
  match files.find? (fun f => decide (f.1 = r)) with
  | some f => some (.file (.text f.2))
  | none => if r = [] ∨ ∃ f ∈ files, r <+: f.1 then some .dir else none

/-- The files of an archive have different names that are not empty, and no file is in the place of a directory of another one. -/
def ArchiveOk (files : List (Path × List String)) : Prop :=
  (files.map (·.1)).Nodup ∧ (∀ f ∈ files, f.1 ≠ []) ∧ ∀ f ∈ files, ∀ g ∈ files, f.1 <+: g.1 → f.1 = g.1

/-- No file of the archive is where the archive itself is stored. -/
def NameFree (archive : String) (files : List (Path × List String)) : Prop := ∀ f ∈ files, ¬ [archive] <+: f.1

/-- Whatever exists is in directories that exist. -/
def WfFs (fs : Path → Option Node) : Prop := ∀ p q, p <+: q → fs p = none → fs q = none

/-- Folder with the data of a fold. -/
def foldFolder (e : Entry) : Option Nat → Option Path
  | none => some []
  | some k => e.subfolder.map (fun s => [s ++ toString k])

end Verif.Spec
