/-
Model of `rankeval/model/proxy_LightGBM.py` and `rankeval/model/proxy_Jforests.py`: trees stored as arrays of splits and of leaves.
Simplification: the files are given as the list of their lines (XML events) after matching tags and regular expressions, with the
numbers already converted.
-/
import Verif.Model.Loader

namespace Verif
namespace Ensemble
variable {F : Type}

/-- `for pos, x in enumerate(xs): array[base + pos] = x`. -/
def writeFrom {α : Type} (set : Ensemble F → Int → α → Except PyErr (Ensemble F)) (m : Ensemble F) (base : Nat) :
    List α → Except PyErr (Ensemble F)
  | [] => pure m
  | x :: xs => do
    let m ← set m base x
    writeFrom set m (base + 1) xs

/-- proxy_LightGBM.py 101-106, proxy_Jforests.py 76-81: the index of a child; negative numbers are leaves. -/
def childIndex (root numSplits : Nat) (child : Int) : Int :=
  if 0 ≤ child then root + child else root + numSplits + |child| - 1

/-- The variables of `load`; `splitFeatures` is the length of the last list read, `none` before the first one. -/
structure ArrState (F : Type) where
  m : Ensemble F
  currTree : Int
  rootNode : Nat
  numLeaves : Nat
  numSplits : Nat
  splitFeatures : Option Nat

/-- A line of a LightGBM model (proxy_LightGBM.py 37-48). -/
inductive LgbLine (F : Type) where
  | tree (i : Nat)
  | numLeaves (n : Nat)
  | splitFeature (fs : List Nat)
  | threshold (ts : List F)
  | leftChild (cs : List Int)
  | rightChild (cs : List Int)
  | shrinkage
  | leafValue (vs : List F)
  | decisionType (types : List Int)
  | defaultValue (anyNonZero : Bool)
  | hasCategorical (b : Bool)
  | other
  deriving DecidableEq, Repr

/-- proxy_LightGBM.py 205-223, `_count_nodes`. -/
def lgbCount (lines : List (LgbLine F)) : Nat × Nat :=
  ((lines.map (fun l => match l with | .tree _ => 1 | _ => 0)).sum,
   (lines.map (fun l => match l with | .numLeaves n => n | .splitFeature fs => fs.length | _ => 0)).sum)

/-- proxy_LightGBM.py 79-166: one turn of the loop over the lines. -/
def lgbStep (one : F) (s : ArrState F) : LgbLine F → Except PyErr (ArrState F)
  | .tree i => do
    let root := s.rootNode + (s.numLeaves + s.numSplits)
    let m ← setRoot s.m i root
    pure { s with m := m, currTree := i, rootNode := root }
  | .splitFeature fs => do
    let m ← writeFrom (fun m i (f : Nat) => setFeature m i f) s.m s.rootNode fs
    pure { s with m := m, numSplits := fs.length, splitFeatures := some fs.length }
  | .threshold ts => do
    let m ← writeFrom setValue s.m s.rootNode ts
    pure { s with m := m }
  | .leftChild cs => do
    let m ← writeFrom (fun m i c => setLeft m i (childIndex s.rootNode s.numSplits c)) s.m s.rootNode cs
    pure { s with m := m }
  | .rightChild cs => do
    let m ← writeFrom (fun m i c => setRight m i (childIndex s.rootNode s.numSplits c)) s.m s.rootNode cs
    pure { s with m := m }
  | .shrinkage => do
    let m ← setWeight s.m s.currTree one
    pure { s with m := m }
  | .leafValue vs => do
    let m ← writeFrom setValue s.m (s.rootNode + s.numSplits) vs
    match s.splitFeatures with
    | none => .error .unboundLocalError
    | some n => pure { s with m := m, numLeaves := vs.length, numSplits := n }
  | .decisionType types => if types.any (· != 2) then .error .assertionError else pure s
  | .defaultValue nonZero => if nonZero then .error .assertionError else pure s
  | .hasCategorical b => if b then .error .assertionError else pure s
  | .numLeaves _ => pure s
  | .other => pure s

/-- proxy_LightGBM.py 70-167, `ProxyLightGBM.load`. -/
def lightgbmLoad (zero one minusOne : F) (lines : List (LgbLine F)) (learningRate : F) (baseScore : Option F) :
    Except PyErr (Loaded F) := do
  let (nTrees, nNodes) := lgbCount lines
  let s ← lines.foldlM (lgbStep one) ⟨alloc zero minusOne nTrees nNodes, 0, 0, 0, 0, none⟩
  pure ⟨s.m, learningRate, baseScore⟩

/-- The events of a Jforests file after the first one, by tag. Lists are the numbers in the text of the element; an element without text
is `[]`. -/
inductive JfEvent (F : Type) where
  | startTree (weight : F)
  | endTree
  | splitFeatures (fs : List Nat)
  | leftChildren (cs : List Int)
  | rightChildren (cs : List Int)
  | originalThresholds (ts : List F)
  | leafOutputs (vs : List F)
  | other
  deriving DecidableEq, Repr

/-- `elem.text.split(" ")`: `elem.text` is `None` if there is no text. -/
def elemText {α : Type} (xs : List α) : Except PyErr (List α) := if xs = [] then .error .attributeError else pure xs

/-- proxy_Jforests.py 152-172, `_count_nodes`. -/
def jfCount : List (JfEvent F) → Except PyErr (Nat × Nat)
  | [] => pure (0, 0)
  | e :: es => do
    let (t, n) ← (match e with
      | .endTree => pure (1, 0)
      | .splitFeatures fs => do
        let xs ← elemText fs
        pure (0, xs.length)
      | .leafOutputs vs => do
        let xs ← elemText vs
        pure (0, xs.length)
      | _ => pure (0, 0))
    let (t', n') ← jfCount es
    pure (t + t', n + n')

/-- proxy_Jforests.py 64-113: one turn of the loop over the events. -/
def jfStep (s : ArrState F) : JfEvent F → Except PyErr (ArrState F)
  | .startTree w => do
    let root := s.rootNode + (s.numLeaves + s.numSplits)
    let m ← setRoot s.m (s.currTree + 1) root
    let m ← setWeight m (s.currTree + 1) w
    pure { s with m := m, currTree := s.currTree + 1, rootNode := root }
  | .splitFeatures fs => do
    let fs ← elemText fs
    let m ← writeFrom (fun m i (f : Nat) => setFeature m i f) s.m s.rootNode fs
    pure { s with m := m, numSplits := fs.length }
  | .leftChildren cs => do
    let cs ← elemText cs
    let m ← writeFrom (fun m i c => setLeft m i (childIndex s.rootNode s.numSplits c)) s.m s.rootNode cs
    pure { s with m := m }
  | .rightChildren cs => do
    let cs ← elemText cs
    let m ← writeFrom (fun m i c => setRight m i (childIndex s.rootNode s.numSplits c)) s.m s.rootNode cs
    pure { s with m := m }
  | .originalThresholds ts => do
    let ts ← elemText ts
    let m ← writeFrom setValue s.m s.rootNode ts
    pure { s with m := m }
  | .leafOutputs vs => do
    let vs ← elemText vs
    let m ← writeFrom setValue s.m (s.rootNode + s.numSplits) vs
    pure { s with m := m, numLeaves := vs.length }
  | .endTree => pure s
  | .other => pure s

/-- proxy_Jforests.py 48-113, `ProxyJforests.load`. -/
def jforestsLoad (zero minusOne : F) (events : List (JfEvent F)) (learningRate : F) (baseScore : Option F) :
    Except PyErr (Loaded F) := do
  let (nTrees, nNodes) ← jfCount events
  let s ← events.foldlM jfStep ⟨alloc zero minusOne nTrees nNodes, -1, 0, 0, 0, none⟩
  pure ⟨s.m, learningRate, baseScore⟩

end Ensemble
end Verif
