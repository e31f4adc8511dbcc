/-
Model of the parts of `rankeval/dataset/_svmlight_format.cpp` that talk to the Python interpreter: reading lines with `PyFile_GetLine`,
reference counts, and who owns the memory of the arrays returned.

Simplified: a stream is the list of results of `PyFile_GetLine` before the end of the file; bytes are characters.
-/
import Verif.Model.Svmlight

namespace Verif.Svm
variable {F : Type}

/-- `std::string(PyBytes_AS_STRING(py_line))`: the constructor from a C string stops at the first NUL. -/
def cString (s : List Char) : List Char := s.takeWhile (· ≠ '\x00')

/-- _svmlight_format.cpp 318-334, `parse_file`. `none` is the result `NULL` of a stream that raises an exception; `PyBytes_AS_STRING` reads
through it. The second component counts the references to line objects that are obtained and not released. -/
def readLoop (sc : Scan F) : List (Option (List Char)) → State F → Except PyErr (State F) × Nat
  | [], s => (.ok s, 1)
  | none :: _, _ => (.error .undefinedBehaviour, 0)
  | some line :: rest, s =>
    let text := cString line
    if text = [] then (.ok s, 1)
    else
      match parseLine sc s text with
      | .error e => (.error e, 1)
      | .ok s' =>
        let r := readLoop sc rest s'
        (r.1, r.2 + 1)

/-- The results of `PyFile_GetLine` for a file that can be read. -/
def lineResults (file : List Char) : List (Option (List Char)) := (linesFrom [] file).map some

/-- `parse_file` on a file. -/
def nativeParse (sc : Scan F) (file : List Char) : Except PyErr (State F) × Nat := readLoop sc (lineResults file) ⟨[], [], [], 0⟩

/-! ### Ownership -/

/-- A vector on its way into an array: is its memory held by the `std::vector`, the references to the array object (0 when there is none),
is the memory held by the `VectorOwner` that is the base of the array, and how often the memory has been freed by that owner. -/
structure Cell where
  inVector : Bool
  refs : Nat
  owned : Bool
  frees : Nat
  deriving DecidableEq, Repr

/-- A vector that has been filled. -/
def Cell.new : Cell := ⟨true, 0, false, 0⟩

/-- `Py_DECREF`: the last reference frees the array, its base, and with it (lines 53-63) the memory. -/
def Cell.decref (c : Cell) : Cell :=
  if c.refs = 1 then (if c.owned then ⟨c.inVector, 0, false, c.frees + 1⟩ else { c with refs := 0 }) else { c with refs := c.refs - 1 }

/-- `Py_XDECREF` of a pointer that is null until the array has been returned. -/
def Cell.xdecref (c : Cell) : Cell := if c.refs = 0 then c else c.decref

/-- _svmlight_format.cpp 132-162, `to_1d_array`. `arr` and `owner` tell whether the allocations succeed. The second component is false if an
exception is thrown. -/
def to1dArray (arr owner : Bool) (c : Cell) : Cell × Bool :=
  if arr then
    let c := { c with refs := 1 }
    if owner then ({ c with inVector := false, owned := true }, true)
    else (c.xdecref, false)
  else (c, false)

/-- _svmlight_format.cpp 177-180: the arrays one after the other, until one fails. -/
def buildArrays : List (Bool × Bool) → List Cell → List Cell × Bool
  | a :: as, c :: cs =>
    match to1dArray a.1 a.2 c with
    | (c, true) => let r := buildArrays as cs; (c :: r.1, r.2)
    | (c, false) => (c :: cs, false)
  | _, cs => (cs, true)

/-- How `to_dense` ends. -/
inductive DenseResult where
  | tuple
  /-- a null pointer, with a Python exception set -/
  | null
  /-- `throw *exc` with `exc` pointing to an exception whose `catch` block has been left -/
  | danglingThrow
  deriving DecidableEq, Repr

/-- _svmlight_format.cpp 165-201, `to_dense`. `allocs` tells which allocations of arrays and owners succeed, `tuple` whether that of the tuple
does. -/
def toDense (allocs : List (Bool × Bool)) (tuple : Bool) (cells : List Cell) : List Cell × DenseResult :=
  match buildArrays allocs cells with
  | (cs, true) =>
    if tuple then (cs.map (fun c => ({ c with refs := c.refs + 1 } : Cell).xdecref), .tuple)
    else (cs.map Cell.xdecref, .null)
  | (cs, false) => (cs.map Cell.xdecref, .danglingThrow)

/-- The vectors are destroyed when `load_svmlight_file` ends: the memory they still hold is freed. -/
def Cell.unwind (c : Cell) : Cell := if c.inVector then { c with inVector := false, frees := c.frees + 1 } else c

/-- The caller drops the tuple. -/
def Cell.drop (c : Cell) : Cell := c.xdecref

end Verif.Svm
