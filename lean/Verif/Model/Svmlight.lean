/-
Model of `rankeval/dataset/svmlight_format.py` and `rankeval/dataset/_svmlight_format.cpp`: reading and writing SVMlight files.
Simplifications: compression and opening of files are left out; reading and printing of floating point numbers is a parameter
(`Scan`, `showF`; see `Verif.Spec.Digits` for the nine digits); the C `int` counters are unbounded naturals (files with 2^31
cells are not considered); integers of more than 64 bits in the file wrap around where `strtoul` would saturate; the texts contain no NUL.
-/
import Verif.Model.Dataset

namespace Verif
namespace Svm

/-- What `isspace` accepts. -/
def isSpace (c : Char) : Bool := c ∈ [' ', '\t', '\n', '\x0b', '\x0c', '\r']

/-- What `isdigit` accepts. -/
def isDigit (c : Char) : Bool := c ∈ ['0', '1', '2', '3', '4', '5', '6', '7', '8', '9']

/-- The value of a sequence of digits. -/
def digitsValue (ds : List Char) : Nat := ds.foldl (fun n c => 10 * n + (c.toNat - 48)) 0

/-- The library functions that read floating point numbers, and the constants needed. -/
structure Scan (F : Type) where
  zero : F
  /-- `in >> y`, white space skipped: the number and the text left in the stream. -/
  label : List Char → Option (F × List Char)
  /-- `sscanf` with `%lf`, narrowed to single precision when it is appended to `data`. -/
  value : List Char → Option F
  /-- svmlight_format.py 96: `inf` is replaced by the largest finite number. -/
  fixInf : F → F

/-- `in >> token` as often as possible: the words of a text. -/
def wordsFrom : List Char → List Char → List (List Char)
  | cur, [] => if cur = [] then [] else [cur]
  | cur, c :: cs => if isSpace c then (if cur = [] then wordsFrom [] cs else cur :: wordsFrom [] cs) else wordsFrom (cur ++ [c]) cs

def words (s : List Char) : List (List Char) := wordsFrom [] s

/-- The digits of `%u`, after the sign. -/
def scanDigits (neg : Bool) (s : List Char) : Option (Int × List Char) :=
  let ds := s.takeWhile isDigit
  if ds = [] then none
  else some (Dataset.castInt32 (if neg then -(digitsValue ds : Int) else digitsValue ds), s.dropWhile isDigit)

/-- `sscanf` with `%u` into an `int`: an optional sign, then digits. -/
def scanU : List Char → Option (Int × List Char)
  | '-' :: s => scanDigits true s
  | '+' :: s => scanDigits false s
  | s => scanDigits false s

/-- `sscanf(token, "qid:%u", &idx)` (_svmlight_format.cpp 274). -/
def scanQid : List Char → Option Int
  | 'q' :: 'i' :: 'd' :: ':' :: s => (scanU s).map (·.1)
  | _ => none

/-- `sscanf(token, "%u:%lf", &idx, &x)` (_svmlight_format.cpp 285). -/
def scanPair {F : Type} (sc : Scan F) (token : List Char) : Option (Int × F) :=
  match scanU token with
  | some (idx, ':' :: s) => (sc.value s).map (fun x => (idx, x))
  | _ => none

variable {F : Type}

/-- The variables of `parse_file`. -/
structure State (F : Type) where
  data : List F
  labels : List F
  qids : List Int
  maxFeature : Nat
  deriving DecidableEq, Repr

/-- `std::copy(src, src + n, dst)`. Source and destination overlap; for that `std::copy` is undefined, but libstdc++ uses `memmove` for floats,
which is what is modelled here (see `copyForward` for the plain loop). -/
def memmove (a : List F) (src dst : Int) (n : Nat) : Except PyErr (List F) :=
  if 0 ≤ src ∧ src + n ≤ a.length ∧ 0 ≤ dst ∧ dst + n ≤ a.length then
    .ok (a.take dst.toNat ++ (a.drop src.toNat).take n ++ a.drop (dst.toNat + n))
  else .error .undefinedBehaviour

/-- `std::copy` as a loop from the first to the last element. -/
def copyForward (a : List F) (src dst : Nat) : Nat → List F
  | 0 => a
  | n + 1 =>
    match a[src]? with
    | some x => copyForward (a.set dst x) (src + 1) (dst + 1) n
    | none => a

/-- _svmlight_format.cpp 227-228: zeros from position `pos`. -/
def fillZero (zero : F) (a : List F) (pos : Int) (n : Nat) : Except PyErr (List F) :=
  if 0 ≤ pos ∧ pos + n ≤ a.length then
    .ok (a.take pos.toNat ++ List.replicate n zero ++ a.drop (pos.toNat + n))
  else .error .undefinedBehaviour

/-- _svmlight_format.cpp 221-224: the copy, if there is anything to move. -/
def moveBlock (a : List F) (it move : Int) (window : Nat) : Except PyErr (List F) :=
  if move > 0 then memmove a it (it + move) window else pure a

/-- _svmlight_format.cpp 225-229: the new cells of an old row. -/
def fillBlock (zero : F) (a : List F) (i : Nat) (pos : Int) (per : Nat) : Except PyErr (List F) :=
  if i > 0 then fillZero zero a pos per else pure a

/-- _svmlight_format.cpp 220-233: one turn of the loop. The state is `(data, it - begin, move_counter)`. -/
def reshapeStep (zero : F) (old new per : Nat) (s : List F × Int × Int) (i : Nat) : Except PyErr (List F × Int × Int) := do
  let a ← moveBlock s.1 s.2.1 s.2.2 (if i = 0 then new else old)
  let a ← fillBlock zero a i (s.2.1 + s.2.2 + old) per
  pure (a, s.2.1 - old, s.2.2 - per)

/-- _svmlight_format.cpp 208-234, `reshape_data`. -/
def reshape (zero : F) (data : List F) (old new : Nat) : Except PyErr (List F) := do
  if data.length < new ∨ old = 0 then .error .undefinedBehaviour
  else
    let rows := (data.length - new) / old
    if rows = 0 then .error .undefinedBehaviour
    else
      let add := rows * (new - old)
      let per := add / rows
      let s ← (List.range (rows + 1)).foldlM (reshapeStep zero old new per)
        (data ++ List.replicate add zero, (data.length : Int) - new, (add : Int))
      pure s.1

/-- _svmlight_format.cpp 285-297: one token `fid:val`. The state is `(data, next_feature)`. -/
def addFeature (sc : Scan F) (s : List F × Nat) (token : List Char) : Except PyErr (List F × Nat) :=
  match scanPair sc token with
  | none => .error .runtimeError
  | some (idx, x) =>
    let pad := (idx - s.2).toNat
    .ok (s.1 ++ List.replicate pad sc.zero ++ [x], s.2 + pad + 1)

/-- _svmlight_format.cpp 274-278: the query id, and the tokens left. -/
def splitQid (qids : List Int) (token : List Char) (rest : List (List Char)) : List Int × List (List Char) :=
  match scanQid token with
  | none => (qids, token :: rest)
  | some q => (qids ++ [q], rest)

/-- _svmlight_format.cpp 301-312: zeros at the end of the row, and more columns if the row is wider. The state is as in `addFeature`. -/
def endRow (zero : F) (max : Nat) (s : List F × Nat) : Except PyErr (List F × Nat) := do
  let pad := max + 1 - s.2
  let data := s.1 ++ List.replicate pad zero
  let next := s.2 + pad
  if max > 0 ∧ next - 1 > max then do
    let a ← reshape zero data max (next - 1)
    pure (a, Nat.max (next - 1) max)
  else pure (data, Nat.max (next - 1) max)

/-- _svmlight_format.cpp 268-312: the row after its label. -/
def parseTokens (sc : Scan F) (s : State F) (y : F) : List (List Char) → Except PyErr (State F)
  | [] => .error .runtimeError
  | token :: tokens => do
    let (qids, toks) := splitQid s.qids token tokens
    let row ← toks.foldlM (addFeature sc) (s.data, 1)
    let (data, max) ← endRow sc.zero s.maxFeature row
    pure ⟨data, s.labels ++ [y], qids, max⟩

/-- _svmlight_format.cpp 251-312: a line that is not a comment. -/
def parseRow (sc : Scan F) (s : State F) (line : List Char) : Except PyErr (State F) :=
  match sc.label ((line.takeWhile (· ≠ '#')).dropWhile isSpace) with
  | none => .error .runtimeError
  | some (y, rest) => parseTokens sc s y (words rest)

/-- _svmlight_format.cpp 240-313, `parse_line`. All exceptions become a Python `RuntimeError` (366-370). -/
def parseLine (sc : Scan F) (s : State F) : List Char → Except PyErr (State F)
  | [] => .error .runtimeError
  | c :: cs => if c = '#' then .ok s else parseRow sc s (c :: cs)

/-- The lines of a file with their line ends. -/
def linesFrom : List Char → List Char → List (List Char)
  | cur, [] => if cur = [] then [] else [cur]
  | cur, c :: cs => if c = '\n' then (cur ++ [c]) :: linesFrom [] cs else linesFrom (cur ++ [c]) cs

/-- _svmlight_format.cpp 318-334, `parse_file`. -/
def parseFile (sc : Scan F) (file : List Char) : Except PyErr (State F) :=
  (linesFrom [] file).foldlM (parseLine sc) ⟨[], [], [], 0⟩

/-- `data.shape = (n, nf)`: the rows. -/
def chunks (nf : Nat) : Nat → List F → List (List F)
  | 0, _ => []
  | n + 1, a => a.take nf :: chunks nf n (a.drop nf)

/-- svmlight_format.py 76-101, `load_svmlight_file` with `query_id=True`: matrix, number of features, labels, query ids. -/
def loadFile (sc : Scan F) (file : List Char) : Except PyErr (List (List F) × Nat × List F × List Int) := do
  let s ← parseFile sc file
  if s.labels.length = 0 then .error .zeroDivisionError
  else
    let nf := s.data.length / s.labels.length
    if s.labels.length * nf = s.data.length then
      pure ((chunks nf s.labels.length s.data).map (List.map sc.fixInf), nf, s.labels, s.qids)
    else .error .valueError

/-- dataset.py 86-114, `Dataset.load`. -/
def loadDataset (sc : Scan F) (file : List Char) : Except PyErr (Dataset (List F) F) := do
  let (X, nf, y, qids) ← loadFile sc file
  mkDataset X nf y qids

/-- A digit. -/
def digit (d : Nat) : Char := Char.ofNat (48 + d)

/-- A natural number in decimal notation. -/
def decimal (n : Nat) : List Char := if n < 10 then [digit n] else decimal (n / 10) ++ [digit (n % 10)]

/-- `out << qid`. -/
def showInt (q : Int) : List Char := if q < 0 then '-' :: decimal q.natAbs else decimal q.natAbs

/-- _svmlight_format.cpp 415-417: one feature. -/
def dumpCell (showF : F → List Char) (zeroBased : Bool) (jj : Nat) (x : F) : List Char :=
  decimal (if zeroBased then jj else jj + 1) ++ [':'] ++ showF x ++ [' ']

/-- _svmlight_format.cpp 407-413: label and query id. -/
def dumpHead (showF : F → List Char) (qids : List Int) (i : Nat) (y : F) : Except PyErr (List Char) :=
  if (qids.length : Int) - 1 > 0 then
    match qids[i]? with
    | some q => .ok (showF y ++ [' ', 'q', 'i', 'd', ':'] ++ showInt q ++ [' '])
    | none => .error .undefinedBehaviour
  else .ok (showF y ++ [' '])

/-- _svmlight_format.cpp 406-420: one row. -/
def dumpRow (showF : F → List Char) (y : List F) (qids : List Int) (zeroBased : Bool) (i : Nat) (row : List F) :
    Except PyErr (List Char) :=
  match y[i]? with
  | none => .error .undefinedBehaviour
  | some l => do
    let head ← dumpHead showF qids i l
    pure (head ++ (row.zipIdx.map (fun p => dumpCell showF zeroBased p.2 p.1)).flatten ++ ['\n'])

/-- _svmlight_format.cpp 378-441, `dump_svmlight_file`: the text of the file. -/
def dumpFile (showF : F → List Char) (X : List (List F)) (y : List F) (qids : List Int) (zeroBased : Bool) :
    Except PyErr (List Char) := do
  let rows ← X.zipIdx.mapM (fun p => dumpRow showF y qids zeroBased p.2 p.1)
  pure rows.flatten

/-- dataset.py 157-163, `Dataset.dump`. -/
def dumpDataset (showF : F → List Char) (d : Dataset (List F) F) : Except PyErr (List Char) :=
  dumpFile showF d.X d.y d.dumpQids false

end Svm
end Verif
