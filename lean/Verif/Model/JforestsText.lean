/-
Model of `rankeval/model/proxy_Jforests.py` on the text of the file.

Simplified: `float` is a parameter (NumPy converts the weight, a text, with it too); opening and closing of files is left out. The events are
those of the whole file (`_count_nodes` reads it to the end first, so that a `ParseError` comes before errors of `load`; when `_count_nodes` itself
meets an element without text before the place of the `ParseError`, the model gives the `ParseError`).
-/
import Verif.Model.QuickRankText

namespace Verif.Ensemble
open Etree
variable {F : Type}

/-- `s.split(" ")`, after the characters `cur`. -/
def splitSpaceFrom (cur : List Char) : List Char → List (List Char)
  | [] => [cur]
  | c :: s => if c = ' ' then cur :: splitSpaceFrom [] s else splitSpaceFrom (cur ++ [c]) s

/-- `elem.text.split(" ")`: `elem.text` is `None` if there is no text. -/
def jfWords : Option (List Char) → Except PyErr (List (List Char))
  | none => .error .attributeError
  | some t => pure (splitSpaceFrom [] t)

/-- proxy_Jforests.py 160-168: what an event adds to the numbers of trees and nodes. -/
def jfTextAdds : Event → Except PyErr (Nat × Nat)
  | .start _ _ => pure (0, 0)
  | .finish tag text =>
    if tag = "Tree".toList then pure (1, 0)
    else if tag = "SplitFeatures".toList ∨ tag = "LeafOutputs".toList then do
      let ws ← jfWords text
      pure (0, ws.length)
    else pure (0, 0)

/-- proxy_Jforests.py 152-172, `_count_nodes`, for the events after the first. -/
def jfTextCount : List Event → Except PyErr (Nat × Nat)
  | [] => pure (0, 0)
  | e :: es => do
    let (t, n) ← jfTextAdds e
    let (t', n') ← jfTextCount es
    pure (t + t', n + n')

/-- `for pos, x in enumerate(map(conv, words)): array[base + pos] = x`; `map` converts one word at a time. -/
def writeWords {α : Type} (conv : List Char → Except PyErr α) (set : Ensemble F → Int → α → Except PyErr (Ensemble F)) (m : Ensemble F) (base : Nat) :
    List (List Char) → Except PyErr (Ensemble F)
  | [] => pure m
  | w :: ws => do
    let x ← conv w
    let m ← set m base x
    writeWords conv set m (base + 1) ws

/-- `float(word)`; white space around the number is ignored. -/
def jfFloat (float : List Char → Option F) (w : List Char) : Except PyErr F := toFloat float (pyStrip w)

/-- proxy_Jforests.py 66-71: a tree begins. -/
def jfTextTree (float : List Char → Option F) (s : ArrState F) (attrs : List (List Char × List Char)) : Except PyErr (ArrState F) := do
  let root := s.rootNode + (s.numLeaves + s.numSplits)
  let m ← setRoot s.m (s.currTree + 1) root
  match attribText attrs "weight".toList with
  | none => .error .keyError
  | some w => do
    let w ← jfFloat float w
    let m ← setWeight m (s.currTree + 1) w
    pure { s with m := m, currTree := s.currTree + 1, rootNode := root }

/-- proxy_Jforests.py 73-108: the end of an element. -/
def jfTextEnd (float : List Char → Option F) (s : ArrState F) (tag : List Char) (text : Option (List Char)) : Except PyErr (ArrState F) :=
  if tag = "SplitFeatures".toList then do
    let ws ← jfWords text
    let m ← writeWords pyInt setFeature s.m s.rootNode ws
    pure { s with m := m, numSplits := ws.length }
  else if tag = "LeftChildren".toList then do
    let ws ← jfWords text
    let m ← writeWords pyInt (fun m i c => setLeft m i (childIndex s.rootNode s.numSplits c)) s.m s.rootNode ws
    pure { s with m := m }
  else if tag = "RightChildren".toList then do
    let ws ← jfWords text
    let m ← writeWords pyInt (fun m i c => setRight m i (childIndex s.rootNode s.numSplits c)) s.m s.rootNode ws
    pure { s with m := m }
  else if tag = "OriginalThresholds".toList then do
    let ws ← jfWords text
    let m ← writeWords (jfFloat float) setValue s.m s.rootNode ws
    pure { s with m := m }
  else if tag = "LeafOutputs".toList then do
    let ws ← jfWords text
    let m ← writeWords (jfFloat float) setValue s.m (s.rootNode + s.numSplits) ws
    pure { s with m := m, numLeaves := ws.length }
  else pure s

/-- proxy_Jforests.py 64-113: one turn of the loop over the events. -/
def jfTextStep (float : List Char → Option F) (s : ArrState F) : Event → Except PyErr (ArrState F)
  | .start tag attrs => if tag = "Tree".toList then jfTextTree float s attrs else pure s
  | .finish tag text => jfTextEnd float s tag text

/-- proxy_Jforests.py 48-113, `ProxyJforests.load` on the text of the file. -/
def jforestsTextLoad (float : List Char → Option F) (zero minusOne : F) (text : List Char) (learningRate : F) (baseScore : Option F) :
    Except PyErr (Loaded F) := do
  let es ← parse text
  let n ← jfTextCount (es.drop 1)
  let s ← (es.drop 1).foldlM (jfTextStep float) ⟨alloc zero minusOne n.1 n.2, -1, 0, 0, 0, none⟩
  pure ⟨s.m, learningRate, baseScore⟩

end Verif.Ensemble
