/-
Model of `export_scikit_model` and `_export_tree` in `rankeval/model/proxy_ScikitLearn.py` (lines 174-225) with what has been written at the moment
an exception is raised, the file afterwards, and Python's limit on nested calls. The texts are those of `Verif.Model.DumpText`.

`frames` is the number of calls that can still be nested in `export_scikit_model`; a call beyond raises `RecursionError`, a `RuntimeError`.
Simplified: opening, writing and closing the file do not fail; the attributes of a model are there or not, and if they are there they have
the type they have in scikit-learn (`estimators_` is an array, the base score and the learning rate are numbers).
-/
import Verif.Model.DotFile
import Verif.Model.DumpText

namespace Verif.SkFile
open Ensemble Dot
variable {F : Type}

/-- The calls nested by the library functions: by the import in line 199, by lines 204-205 (`np.unique`, the list), by `np.argmax` in line 218. -/
structure Calls where
  imports : Nat
  unique : Nat
  argmax : Nat

/-- What `export_scikit_model` reads of a model: `estimators_` after `flatten` with the `tree_` of each element, `init_` with `quantile` and
`mean`, and `learning_rate`. `none` is an attribute that is missing. -/
structure SkModel (F : Type) where
  estimators : Option (List (Option (SkArrays F)))
  init : Option (Option F × Option F)
  learningRate : F

/-- Lines 208-223, `recurse`; the first argument is one more than the number of calls that can still be nested in it. -/
def recurseSk (pr : Printer F) (c : Calls) (t : SkArrays F) : Nat → Int → Nat → Written Unit
  | 0, _, _ => quiet (.error .runtimeError)
  | frames + 1, node, depth => do
    let f ← quiet (pyGet t.feature node)
    if f ≠ -2 then do
      let th ← quiet (pyGet t.threshold node)
      write (List.replicate depth '\t' ++ Svm.showInt node ++ ":[f".toList ++ Svm.showInt f ++ ['<', '='] ++ pr.showF th ++ [']', '\n'])
      let l ← quiet (pyGet t.childrenLeft node)
      recurseSk pr c t frames l (depth + 1)
      let r ← quiet (pyGet t.childrenRight node)
      recurseSk pr c t frames r (depth + 1)
    else do
      let vs ← quiet (pyGet t.values node)
      nested (if vs.length > 1 then c.argmax else 0) frames
      let v ← quiet (leafText pr vs)
      write (List.replicate depth '\t' ++ Svm.showInt node ++ ":leaf=".toList ++ v ++ ['\n'])

/-- Lines 197-225, `_export_tree`, called where `frames` more calls can be nested. -/
def exportTreeW (pr : Printer F) (c : Calls) (frames : Nat) (k : Nat) (t : Option (SkArrays F)) : Written Unit := do
  nested (1 + c.imports) frames
  match t with
  | none => quiet (.error .typeError)
  | some t => do
    nested (1 + c.unique) frames
    write (treeHeader k t)
    recurseSk pr c t (frames - 1) 0 1

/-- Lines 194-195: the loop over the estimators. -/
def exportTreesW (pr : Printer F) (c : Calls) (frames : Nat) : Nat → List (Option (SkArrays F)) → Written Unit
  | _, [] => pure ()
  | k, t :: ts => do
    exportTreeW pr c frames k t
    exportTreesW pr c frames (k + 1) ts

/-- Lines 189-195: what is written to the file once it is open. -/
def exportSkW (pr : Printer F) (c : Calls) (frames : Nat) (base learningRate : F) (trees : List (Option (SkArrays F))) : Written Unit := do
  write ("base_score=".toList ++ pr.showF base ++ ['\n'])
  write ("learning_rate=".toList ++ pr.showF learningRate ++ ['\n'])
  exportTreesW pr c frames 0 trees

/-- Lines 174-195, `export_scikit_model`: the result, and the text in the file afterwards; `old` is the text before. Lines 176-186 come before
the file is opened; opening it empties it. -/
def exportSkFile (pr : Printer F) (c : Calls) (frames : Nat) (model : SkModel F) (old : List Char) : Except PyErr Unit × List Char :=
  match model.estimators, model.init with
  | none, _ => (.error .typeError, old)
  | some _, none => (.error .typeError, old)
  | some _, some (none, none) => (.error .typeError, old)
  | some trees, some (some q, _) =>
    let w := exportSkW pr c frames q model.learningRate trees
    (w.result, w.text)
  | some trees, some (none, some mean) =>
    let w := exportSkW pr c frames mean model.learningRate trees
    (w.result, w.text)

end Verif.SkFile
