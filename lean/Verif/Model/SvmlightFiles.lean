/-
Model of `load_svmlight_files` in `rankeval/dataset/svmlight_format.py`: several files at once.

Simplified: files are their texts (opening, compression and closing are left out).
-/
import Verif.Model.Svmlight

namespace Verif.Svm
variable {F : Type}

/-- An element of the returned list. -/
inductive Item (F : Type) where
  | matrix (rows : List (List F)) (nFeatures : Nat)
  | labels (y : List F)
  | queryIds (qids : List Int)
  deriving DecidableEq

/-- svmlight_format.py 98-101: what `load_svmlight_file` returns. -/
def fileItems (sc : Scan F) (queryId : Bool) (file : List Char) : Except PyErr (List (Item F)) := do
  let (X, nf, y, qids) ← loadFile sc file
  if !queryId then pure [.matrix X nf, .labels y] else pure [.matrix X nf, .labels y, .queryIds qids]

/-- svmlight_format.py 146-152, `load_svmlight_files`; `next` of an empty iterator raises `StopIteration`. -/
def loadFiles (sc : Scan F) (queryId : Bool) : List (List Char) → Except PyErr (List (Item F))
  | [] => .error .stopIteration
  | f :: files => do
    let first ← fileItems sc queryId f
    files.foldlM (fun result f => do
      let items ← fileItems sc queryId f
      pure (result ++ items)) first

end Verif.Svm
