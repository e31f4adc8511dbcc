/-
Model of how `rankeval/dataset/svmlight_format.py` opens, reads, writes and closes files.

Simplified: bytes are characters; a stream for reading is the list of the results of its coming `readline` calls; a stream for a descriptor reads ahead to
the end of the file when it is opened; what is written to a file arrives when it is closed, and opening it for writing empties it; the device may refuse
to write after some rows (`room`); closing does not fail.
-/
import Verif.Model.SvmlightNative
import Verif.Model.SvmlightFiles

namespace Verif.SvmIO
open Svm
variable {F : Type}

/-- The argument `f`. -/
inductive Target where
  | path (p : List Char)
  | descriptor (n : Nat)
  | stream (r : Nat)   -- a file-like object
  | other              -- anything else
  deriving DecidableEq

/-- Where the text of a stream goes. -/
inductive Sink where
  | nowhere
  | path (p : List Char)
  | descriptor (n : Nat)
  deriving DecidableEq

/-- A file object. `binary` streams return bytes from `readline` and refuse to write text. -/
structure Stream where
  isOpen : Bool
  binary : Bool
  rest : List (Option (List Char))
  written : List Char
  sink : Sink

/-- Files by path, open descriptors with what remains to be read and what was written, all file objects there are, and how many rows can be written. -/
structure World where
  disk : List Char → Option (List Char)
  descs : Nat → Option (List (Option (List Char)) × List Char)
  streams : List Stream
  room : Option Nat

/-- A compression: how a text is stored, and the results of `readline` when reading what is stored (`none` is an exception). -/
structure Codec where
  enc : List Char → List Char
  dec : List Char → List (Option (List Char))

def plain : Codec := ⟨fun s => s, lineResults⟩

/-- What may happen: a result or an exception, and the world after it. -/
abbrev Act (α : Type) := World → Except PyErr α × World

def Act.andThen {α β : Type} (x : Act α) (k : α → Act β) : Act β := fun w =>
  match x w with
  | (.ok a, w') => k a w'
  | (.error e, w') => (.error e, w')

/-- `os.path.splitext(p)[1]`: from the last dot of the last component, but dots in front of it do not count. -/
def extension (p : List Char) : List Char :=
  let base := ((p.reverse.takeWhile (· ≠ '/')).reverse).dropWhile (· = '.')
  if '.' ∈ base then '.' :: (base.reverse.takeWhile (· ≠ '.')).reverse else []

/-- svmlight_format.py 28-36. -/
def codecOf (gz bz2 : Codec) (p : List Char) : Codec :=
  if extension p = ".gz".toList then gz else if extension p = ".bz2".toList then bz2 else plain

def setDisk (w : World) (p : List Char) (s : List Char) : World := { w with disk := fun q => if q = p then some s else w.disk q }

/-- A new file object. -/
def newStream (s : Stream) : Act Nat := fun w => (.ok w.streams.length, { w with streams := w.streams ++ [s] })

/-- svmlight_format.py 16-36, `_open`. -/
def openTarget (codec : List Char → Codec) (write : Bool) : Target → Act Nat
  | .path p => fun w =>
    if write then newStream ⟨true, false, [], [], .path p⟩ (setDisk w p [])
    else
      match w.disk p with
      | none => (.error .ioError, w)
      | some raw => newStream ⟨true, true, (codec p).dec raw, [], .nowhere⟩ w
  | .descriptor n => fun w =>
    match w.descs n with
    | none => (.error .ioError, w)
    | some (rest, out) =>
      if write then newStream ⟨true, false, [], [], .descriptor n⟩ w
      else newStream ⟨true, true, rest, [], .nowhere⟩ { w with descs := fun k => if k = n then some ([], out) else w.descs k }
  | .stream _ => fun w => (.error .typeError, w)
  | .other => fun w => (.error .typeError, w)

/-- `close()`: what was written goes to the file or the descriptor, which stays open (`closefd=False`). -/
def closeStream (codec : List Char → Codec) (r : Nat) (w : World) : World :=
  match w.streams[r]? with
  | none => w
  | some s =>
    if s.isOpen then
      let w' := { w with streams := w.streams.set r { s with isOpen := false } }
      match s.sink with
      | .nowhere => w'
      | .path p => setDisk w' p ((codec p).enc s.written)
      | .descriptor n => { w' with descs := fun k => if k = n then (w'.descs k).map (fun d => (d.1, d.2 ++ s.written)) else w'.descs k }
    else w

/-- `with closing(x) as f: body`. -/
def closing {α : Type} (codec : List Char → Codec) (r : Nat) (body : Act α) : Act α := fun w => ((body w).1, closeStream codec r (body w).2)

/-- What `readLoop` leaves of the stream. -/
def readRest (sc : Scan F) : List (Option (List Char)) → State F → List (Option (List Char))
  | [], _ => []
  | none :: rest, _ => rest
  | some line :: rest, s =>
    if cString line = [] then rest
    else
      match parseLine sc s (cString line) with
      | .error _ => rest
      | .ok s' => readRest sc rest s'

/-- `_load_svmlight_file(f)`. A stream that is closed, or that returns text instead of bytes, is read through a wrong pointer. -/
def nativeLoad (sc : Scan F) (r : Nat) : Act (State F) := fun w =>
  match w.streams[r]? with
  | none => (.error .undefinedBehaviour, w)
  | some s =>
    if s.isOpen && s.binary then
      ((readLoop sc s.rest ⟨[], [], [], 0⟩).1, { w with streams := w.streams.set r { s with rest := readRest sc s.rest ⟨[], [], [], 0⟩ } })
    else (.error .undefinedBehaviour, w)

/-- svmlight_format.py 84-101: the arrays are returned in their shape. -/
def shape (sc : Scan F) (s : State F) : Except PyErr (List (List F) × Nat × List F × List Int) :=
  if s.labels.length = 0 then .error .zeroDivisionError
  else
    let nf := s.data.length / s.labels.length
    if s.labels.length * nf = s.data.length then
      pure ((chunks nf s.labels.length s.data).map (List.map sc.fixInf), nf, s.labels, s.qids)
    else .error .valueError

/-- svmlight_format.py 38-101, `load_svmlight_file`, with query ids. -/
def load (codec : List Char → Codec) (sc : Scan F) (t : Target) : Act (List (List F) × Nat × List F × List Int) :=
  let data : Act (State F) :=
    match t with
    | .stream r => nativeLoad sc r
    | t => (openTarget codec false t).andThen (fun r => closing codec r (nativeLoad sc r))
  data.andThen (fun s w => (shape sc s, w))

/-- One call of `PyFile_WriteString`: text is refused by closed streams, by binary streams, and by a full device. -/
def writeText (r : Nat) (text : List Char) : Act Unit := fun w =>
  match w.streams[r]? with
  | none => (.error .runtimeError, w)
  | some s =>
    if s.isOpen && !s.binary then
      match w.room with
      | some 0 => (.error .runtimeError, w)
      | _ => (.ok (), { w with streams := w.streams.set r { s with written := s.written ++ text }, room := w.room.map (· - 1) })
    else (.error .runtimeError, w)

/-- `_dump_svmlight_file`: row by row. -/
def nativeDump (r : Nat) : List (Except PyErr (List Char)) → Act Unit
  | [] => fun w => (.ok (), w)
  | .error e :: _ => fun w => (.error e, w)
  | .ok text :: rows => (writeText r text).andThen (fun _ => nativeDump r rows)

/-- svmlight_format.py 155-203, `dump_svmlight_file`. The conversions of the arguments come first. -/
def dump (codec : List Char → Codec) (showF : F → List Char) (args : Except PyErr (List (List F) × List F × List Int)) (zeroBased : Bool) (t : Target) :
    Act Unit := fun w =>
  match args with
  | .error e => (.error e, w)
  | .ok (X, y, qids) =>
    let rows := X.zipIdx.map (fun p => dumpRow showF y qids zeroBased p.2 p.1)
    match t with
    | .stream r => nativeDump r rows w
    | t => (openTarget codec true t).andThen (fun r => closing codec r (nativeDump r rows)) w

/-- svmlight_format.py 146-152, `load_svmlight_files`: one after the other. -/
def loadAll (codec : List Char → Codec) (sc : Scan F) (queryId : Bool) : List Target → Act (List (Item F))
  | [] => fun w => (.error .stopIteration, w)
  | t :: ts => (items t).andThen (go ts)
where
  items (t : Target) : Act (List (Item F)) := (load codec sc t).andThen (fun d w =>
    (.ok (if !queryId then [.matrix d.1 d.2.1, .labels d.2.2.1] else [.matrix d.1 d.2.1, .labels d.2.2.1, .queryIds d.2.2.2]), w))
  go : List Target → List (Item F) → Act (List (Item F))
    | [], acc => fun w => (.ok acc, w)
    | t :: ts, acc => (items t).andThen (fun x => go ts (acc ++ x))

end Verif.SvmIO
