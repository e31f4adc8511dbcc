/-
Model of `load` and `_count_nodes` in `rankeval/model/proxy_LightGBM.py` on the text of the file.

Simplified: `float` is a parameter; `int` accepts an optional sign and ASCII digits (Python also accepts underscores between digits and other
decimal digits); opening of files and the translation of line ends are left out.
-/
import Verif.Model.LoadArrays
import Verif.Model.DumpText

namespace Verif.Ensemble
open Re
variable {F : Type}

/-- proxy_LightGBM.py 38-39: `"^Tree=(\d+)"`, `"^num_leaves=(\d+)"`. -/
def lgbNumReg (key : List Char) : Re := lit key (.group (plus isDigit true))

/-- proxy_LightGBM.py 40-49: `"^split_feature=(.*)"` and so on. -/
def lgbListReg (key : List Char) : Re := lit key (.group (.star dot true))

/-- `match.group(1)` if there is a match. -/
def group1 (re : Re) (line : List Char) : Option (List Char) := (re.match line).bind List.head?

/-- `match.group(1).strip().split()` if there is a match. -/
def lgbWords (key line : List Char) : Option (List (List Char)) := (group1 (lgbListReg key) line).map (fun g => Svm.words (pyStrip g))

/-- The digits of an integer. -/
def pyDigits (ds : List Char) : Except PyErr Nat := if ds ≠ [] ∧ ds.all isDigit then pure (Svm.digitsValue ds) else .error .valueError

/-- `int(text)`. -/
def pyInt (s : List Char) : Except PyErr Int :=
  match pyStrip s with
  | '-' :: ds => do
    let n ← pyDigits ds
    pure (-(n : Int))
  | '+' :: ds => do
    let n ← pyDigits ds
    pure (n : Int)
  | ds => do
    let n ← pyDigits ds
    pure (n : Int)

/-- proxy_LightGBM.py 210-221: what a line adds to the numbers of trees and nodes. -/
def lgbTextCount (n : Nat × Nat) (line : List Char) : Nat × Nat :=
  match group1 (lgbNumReg "num_leaves=".toList) line with
  | some d => (n.1, n.2 + Svm.digitsValue d)
  | none =>
    match lgbWords "split_feature=".toList line with
    | some ws => (n.1, n.2 + ws.length)
    | none =>
      match group1 (lgbNumReg "Tree=".toList) line with
      | some _ => (n.1 + 1, n.2)
      | none => n

/-- proxy_LightGBM.py 87-124: the lines of the splits, `none` if it is another line. -/
def lgbTextSplits (float : List Char → Option F) (s : ArrState F) (line : List Char) : Except PyErr (Option (ArrState F)) :=
  match lgbWords "split_feature=".toList line with
  | some ws => do
    let fs ← ws.mapM pyInt
    let m ← writeFrom setFeature s.m s.rootNode fs
    pure (some { s with m := m, numSplits := fs.length, splitFeatures := some fs.length })
  | none =>
    match lgbWords "threshold=".toList line with
    | some ws => do
      let ts ← ws.mapM (toFloat float)
      let m ← writeFrom setValue s.m s.rootNode ts
      pure (some { s with m := m })
    | none =>
      match lgbWords "left_child=".toList line with
      | some ws => do
        let cs ← ws.mapM pyInt
        let m ← writeFrom (fun m i c => setLeft m i (childIndex s.rootNode s.numSplits c)) s.m s.rootNode cs
        pure (some { s with m := m })
      | none =>
        match lgbWords "right_child=".toList line with
        | some ws => do
          let cs ← ws.mapM pyInt
          let m ← writeFrom (fun m i c => setRight m i (childIndex s.rootNode s.numSplits c)) s.m s.rootNode cs
          pure (some { s with m := m })
        | none => pure none

/-- proxy_LightGBM.py 126-165: the other lines. `isZero` is false for NaN. -/
def lgbTextRest (one : F) (isZero : F → Bool) (float : List Char → Option F) (s : ArrState F) (line : List Char) : Except PyErr (ArrState F) :=
  match group1 (lgbListReg "shrinkage=".toList) line with
  | some _ => do
    let m ← setWeight s.m s.currTree one
    pure { s with m := m }
  | none =>
    match lgbWords "leaf_value=".toList line with
    | some ws => do
      let vs ← ws.mapM (toFloat float)
      let m ← writeFrom setValue s.m (s.rootNode + s.numSplits) vs
      match s.splitFeatures with
      | none => .error .unboundLocalError
      | some n => pure { s with m := m, numLeaves := vs.length, numSplits := n }
    | none =>
      match lgbWords "decision_type=".toList line with
      | some ws => do
        let types ← ws.mapM pyInt
        if types.any (· != 2) then .error .assertionError else pure s
      | none =>
        match lgbWords "default_value=".toList line with
        | some ws => do
          let vs ← ws.mapM (toFloat float)
          if vs.any (fun v => !isZero v) then .error .assertionError else pure s
        | none =>
          match group1 (lgbListReg "has_categorical=".toList) line with
          | some g => do
            let c ← pyInt g
            if c ≠ 0 then .error .assertionError else pure s
          | none => pure s

/-- proxy_LightGBM.py 79-165: one turn of the loop over the lines. -/
def lgbTextStep (one : F) (isZero : F → Bool) (float : List Char → Option F) (s : ArrState F) (line : List Char) : Except PyErr (ArrState F) :=
  match group1 (lgbNumReg "Tree=".toList) line with
  | some i => do
    let root := s.rootNode + (s.numLeaves + s.numSplits)
    let m ← setRoot s.m (Svm.digitsValue i) root
    pure { s with m := m, currTree := Svm.digitsValue i, rootNode := root }
  | none => do
    match ← lgbTextSplits float s line with
    | some s => pure s
    | none => lgbTextRest one isZero float s line

/-- proxy_LightGBM.py 70-165, `ProxyLightGBM.load`. -/
def lightgbmTextLoad (zero one minusOne : F) (isZero : F → Bool) (float : List Char → Option F) (file : List Char) (learningRate : F)
    (baseScore : Option F) : Except PyErr (Loaded F) := do
  let lines := Svm.linesFrom [] file
  let n := lines.foldl lgbTextCount (0, 0)
  let s ← lines.foldlM (lgbTextStep one isZero float) ⟨alloc zero minusOne n.1 n.2, 0, 0, 0, 0, none⟩
  pure ⟨s.m, learningRate, baseScore⟩

end Verif.Ensemble
