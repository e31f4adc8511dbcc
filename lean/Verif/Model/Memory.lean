/-
Model of arrays as numpy stores them, and of the two places where rankeval reads them through a bare pointer.

Simplified: strides and offsets count elements, not bytes; reading outside of the buffer is undefined behaviour (it may also find other memory).
-/
import Verif.Model.Svmlight
import Verif.Model.Feature

namespace Verif
variable {K : Type}

/-- A two-dimensional array: a view of a buffer. -/
structure Nd (K : Type) where
  buf : List K
  rows : Nat
  cols : Nat
  strideR : Int
  strideC : Int
  offset : Int
  deriving DecidableEq, Repr

namespace Nd

/-- The element of a buffer. -/
def cell (b : List K) (k : Int) : Except PyErr K :=
  if 0 ≤ k then
    match b[k.toNat]? with
    | some x => .ok x
    | none => .error .undefinedBehaviour
  else .error .undefinedBehaviour

/-- `X[i, j]` through the strides: Python, numpy and the memory views of `_efficient_scoring.pyx`. -/
def read (a : Nd K) (i j : Nat) : Except PyErr K := cell a.buf (a.offset + i * a.strideR + j * a.strideC)

/-- `data_pointer[jj]` after `i` times `data_pointer += n_features` (_svmlight_format.cpp 401-419), and `X[i * n_features + j]`
(_efficient_feature_impl.cpp): `PyArray_DATA` is the address of the first element. -/
def pointer (a : Nd K) (i j : Nat) : Except PyErr K := cell a.buf (a.offset + ((i * a.cols + j : Nat) : Int))

/-- All elements through the strides. -/
def values (a : Nd K) : Except PyErr (List (List K)) :=
  (List.range a.rows).mapM (fun i => (List.range a.cols).mapM (fun j => a.read i j))

/-- All elements through the pointer. -/
def raw (a : Nd K) : Except PyErr (List (List K)) :=
  (List.range a.rows).mapM (fun i => (List.range a.cols).mapM (fun j => a.pointer i j))

/-- `np.array(X, dtype=np.float32)` (svmlight_format.py 193): a new buffer with the order of the axes of `X` (`order='K'`). -/
def copyK (a : Nd K) : Except PyErr (Nd K) :=
  if a.strideC.natAbs ≤ a.strideR.natAbs then do
    let b ← (List.range (a.rows * a.cols)).mapM (fun k => a.read (k / a.cols) (k % a.cols))
    pure ⟨b, a.rows, a.cols, a.cols, 1, 0⟩
  else do
    let b ← (List.range (a.rows * a.cols)).mapM (fun k => a.read (k % a.rows) (k / a.rows))
    pure ⟨b, a.rows, a.cols, 1, a.rows, 0⟩

end Nd

/-- svmlight_format.py 193-206 and _svmlight_format.cpp 378-441: the text of the file for an array. -/
def Svm.dumpArray (showF : K → List Char) (X : Nd K) (y : List K) (qids : List Int) (zeroBased : Bool) : Except PyErr (List Char) := do
  let c ← X.copyK
  let rows ← c.raw
  Svm.dumpFile showF rows y qids zeroBased

/-- _efficient_feature.pyx 64-77: the importances for an array; all elements are read. -/
def importanceArray [Field K] [LinearOrder K] (m : Ensemble K) (X : Nd K) (y : List K) : Except PyErr (List K × List Nat) := do
  let rows ← X.raw
  Ensemble.featureImportance m rows.flatten X.cols X.rows y

end Verif
