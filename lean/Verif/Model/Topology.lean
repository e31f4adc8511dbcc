/-
Model of `rankeval/analysis/_efficient_topological.pyx` and `rankeval/analysis/topological.py`.

Simplified: the parallel loop over the trees (lines 39-48) is run in order, each tree writing only to its own nodes; the counts stored
as float32 in the sparse matrix (line 72) are naturals (exact up to 2^24 trees); the sparse matrix is the list of its stored entries.
-/
import Verif.Model.Ensemble
import Mathlib.Data.List.Dedup
import Mathlib.Algebra.Field.Defs

namespace Verif
namespace Ensemble
variable {F : Type}

/-- The type `unsigned long long`. -/
abbrev Word := BitVec 64

/-- A write `a[i] = x` compiled with `boundscheck(False), wraparound(False)`. -/
def wr {α : Type} (a : List α) (i : Int) (x : α) : Except PyErr (List α) :=
  if 0 ≤ i ∧ i.toNat < a.length then .ok (a.set i.toNat x) else .error .undefinedBehaviour

/-- _efficient_topological.pyx 113: the masks `b`, as 64 bit patterns. -/
def msbMask : Nat → Word
  | 0 => 0x2
  | 1 => 0xC
  | 2 => 0xF0
  | 3 => 0xFF00
  | 4 => 0xFFFF0000
  | _ => 0xFFFFFFFF00000000

/-- _efficient_topological.pyx 114: the table `S`. -/
def msbShift : Nat → Nat
  | 0 => 1
  | 1 => 2
  | 2 => 4
  | 3 => 8
  | 4 => 16
  | _ => 32

/-- _efficient_topological.pyx 120-124: the loop, with `i = n - 1`; `v` is signed, so `>>` keeps the sign. -/
def msbLoop : Nat → Word → Nat → Nat
  | 0, _, r => r
  | n + 1, v, r =>
    if v &&& msbMask n ≠ 0 then msbLoop n (v.sshiftRight (msbShift n)) (r ||| msbShift n) else msbLoop n v r

/-- _efficient_topological.pyx 111-126, `most_significant_bit`. -/
def mostSignificantBit (v : Word) : Nat := msbLoop 6 v 0

/-- _efficient_topological.pyx 104-107, `_is_leaf_node`. -/
def isLeafC (m : Ensemble F) (i : Int) : Except PyErr Bool := do
  let l ← rd m.left i
  if l = -1 then
    let r ← rd m.right i
    pure (r == -1)
  else pure false

/-- The larger of two `unsigned long long`. -/
def maxWord (a b : Word) : Word := if a.toNat < b.toNat then b else a

/-- _efficient_topological.pyx 90-94: the node indices of the children. -/
def childIndices (m : Ensemble F) (idx : List Word) (mx : Word) (cur : Int) : Except PyErr (List Word × Word) := do
  let v ← rd idx cur
  let l ← rd m.left cur
  let r ← rd m.right cur
  let idx1 ← wr idx l (2 * v + 1)
  let idx2 ← wr idx1 r (2 * v + 2)
  pure (idx2, maxWord (maxWord mx (2 * v + 1)) (2 * v + 2))

/-- _efficient_topological.pyx 86-97: one round of the loop over the nodes of a tree. -/
def nodeIndexStep (m : Ensemble F) (includeLeaves : Bool) (st : List Word × Word) (cur : Int) : Except PyErr (List Word × Word) := do
  let leaf ← isLeafC m cur
  if leaf then
    if includeLeaves then pure st
    else do
      let idx ← wr st.1 cur 0
      pure (idx, st.2)
  else childIndices m st.1 st.2 cur

/-- The nodes `cur` with `root <= cur < last`. -/
def nodeRange (root last : Int) : List Int := (List.range (last - root).toNat).map (fun (i : Nat) => root + i)

/-- _efficient_topological.pyx 76-100, `_compute_node_indices`. -/
def computeNodeIndices (m : Ensemble F) (includeLeaves : Bool) (idx : List Word) (tree : Nat) (last : Int) :
    Except PyErr (List Word × Nat) := do
  let root ← rd m.root tree
  let (idx', mx) ← (nodeRange root last).foldlM (nodeIndexStep m includeLeaves) (idx, 0)
  pure (idx', mostSignificantBit (mx + 1))

/-- _efficient_topological.pyx 41. -/
def lastNode (m : Ensemble F) (tree : Nat) : Except PyErr Int :=
  if tree + 1 < m.nTrees then rd m.root (tree + 1 : Nat) else pure m.nNodes

/-- _efficient_topological.pyx 40-48: one tree. -/
def topologyTree (m : Ensemble F) (includeLeaves : Bool) (st : List Word × List Nat) (tree : Nat) :
    Except PyErr (List Word × List Nat) := do
  let last ← lastNode m tree
  let (idx, h) ← computeNodeIndices m includeLeaves st.1 tree last
  pure (idx, st.2 ++ [h])

/-- _efficient_topological.pyx 51, `np.unique(node_indices, return_counts=True)`. -/
def uniqueCounts (idx : List Word) : List (Word × Nat) :=
  (idx.dedup.insertionSort (fun a b => a.toNat ≤ b.toNat)).map (fun w => (w, idx.count w))

/-- _efficient_topological.pyx 58: `counts_view[0] = n_trees`. -/
def overwriteFirst (n : Nat) : List (Word × Nat) → Except PyErr (List (Word × Nat))
  | [] => .error .undefinedBehaviour
  | (w, _) :: l => pure ((w, n) :: l)

/-- A stored entry of the sparse matrix. -/
structure Entry where
  row : Nat
  col : Nat
  count : Nat
  deriving DecidableEq, Repr

/-- _efficient_topological.pyx 69-70. -/
def toEntry (p : Word × Nat) : Entry :=
  let row := mostSignificantBit (p.1 + 1)
  ⟨row, (p.1 + 1 - 2 ^ row).toNat, p.2⟩

/-- _efficient_topological.pyx 21-72, `efficient_topological_analysis`. -/
def topologicalAnalysis (m : Ensemble F) (includeLeaves : Bool) : Except PyErr (List Entry × List Nat) := do
  let (idx, heights) ← (List.range m.nTrees).foldlM (topologyTree m includeLeaves) (List.replicate m.nNodes 0, [])
  let counts ← overwriteFirst m.nTrees (uniqueCounts idx)
  pure (counts.map toEntry, heights)

/-- The value of the sparse matrix at a cell: stored entries at the same place are added. -/
def cell (top : List Entry) (row col : Nat) : Nat :=
  ((top.filter (fun e => e.row = row ∧ e.col = col)).map Entry.count).sum

/-- topological.py 122: a cell of `avg_tree_shape`. -/
def avgTreeShape {K : Type} [DivisionRing K] (top : List Entry) (nTrees row col : Nat) : K := (cell top row col : K) / nTrees

/-- topological.py 141-143: `fullness_per_level` at one level; `counts` are the stored entries of the row. -/
def fullness {K : Type} [DivisionRing K] (top : List Entry) (nTrees row : Nat) : K :=
  let es := top.filter (fun e => e.row = row)
  ((es.map Entry.count).sum : K) / (es.length : K) / nTrees

end Ensemble
end Verif
