/-
Model of the parallel loops of `rankeval/scoring/_efficient_scoring.pyx`: `prange` over the instances in `basic_scoring`,
over the trees in `detailed_scoring`.
-/
import Verif.Model.Ensemble

namespace Verif

/-- A parallel loop. Iteration `i` has private variables `L` and executes one atomic step at a time on the shared memory
`C → V`. -/
structure ParLoop (I C V L : Type) where
  start : L
  step : I → L → (C → V) → L × (C → V)

/-- State during the loop: the private variables of all iterations, the shared memory. -/
structure ParState (I C V L : Type) where
  priv : I → L
  mem : C → V

namespace ParLoop
variable {I C V L : Type} [DecidableEq I]

/-- One step of iteration `i`. -/
def exec (p : ParLoop I C V L) (s : ParState I C V L) (i : I) : ParState I C V L :=
  let r := p.step i (s.priv i) s.mem
  ⟨fun j => if j = i then r.1 else s.priv j, r.2⟩

/-- The state reached by a schedule: the list says which iteration makes the next step. Every execution by any number of threads
with any chunking is such a list. -/
def run (p : ParLoop I C V L) (mem : C → V) (schedule : List I) : ParState I C V L :=
  schedule.foldl p.exec ⟨fun _ => p.start, mem⟩

end ParLoop

namespace Ensemble
variable {F : Type}

/-- Private variables of an iteration of `basic_scoring`: what it does next. Cython makes `leaf_node`, `idx_tree` private to the
thread because they are assigned in the loop. -/
inductive BasicPc (F : Type) where
  | tree (k : Nat)                       -- pyx 49: test the inner loop, then read the root
  | walk (k : Nat) (cur : Int)           -- pyx 127-133: one turn of the traversal
  | load (k : Nat) (leaf : Int)          -- pyx 62: read y_view[idx_instance]
  | store (k : Nat) (leaf : Int) (y : F) -- pyx 62-63: write the sum
  | done
  | fault                                -- undefined behaviour

/-- One turn of the traversal loop: `Sum.inl` the next node, `Sum.inr` the leaf. -/
def walkStep (ops : FloatOps F) (m : Ensemble F) (row : List F) (cur : Int) : Except PyErr (Int ⊕ Int) := do
  let l ← rd m.left cur
  if l ≠ -1 then
    let r ← rd m.right cur
    if r ≠ -1 then
      let f ← rd m.feature cur
      let t ← rd m.value cur
      let x ← rd row f
      if ops.le x t then pure (.inl l) else pure (.inl r)
    else pure (.inr cur)
  else pure (.inr cur)

/-- _efficient_scoring.pyx 48-63: the steps of the iteration for instance `i`; the memory is `y`. -/
def basicLoop (ops : FloatOps F) (m : Ensemble F) (X : List (List F)) : ParLoop Nat Nat F (BasicPc F) where
  start := .tree 0
  step i pc y :=
    match X[i]? with
    | none => (pc, y)
    | some row =>
      match pc with
      | .tree k =>
        if k < m.nTrees then
          match rd m.root k with
          | .ok cur => (.walk k cur, y)
          | .error _ => (.fault, y)
        else (.done, y)
      | .walk k cur =>
        match walkStep ops m row cur with
        | .ok (.inl next) => (.walk k next, y)
        | .ok (.inr leaf) => (.load k leaf, y)
        | .error _ => (.fault, y)
      | .load k leaf => (.store k leaf (y i), y)
      | .store k leaf v =>
        match contribution ops m k leaf with
        | .ok c => (.tree (k + 1), fun j => if j = i then ops.add v c else y j)
        | .error _ => (.fault, y)
      | .done => (.done, y)
      | .fault => (.fault, y)

/-- Private variables of an iteration of `detailed_scoring` (one tree, inner loop over the instances). -/
inductive DetPc where
  | inst (i : Nat)
  | walk (i : Nat) (cur : Int)
  | storeLeaf (i : Nat) (leaf : Int)
  | storePart (i : Nat) (leaf : Int)
  | done
  | fault

/-- _efficient_scoring.pyx 92-107: the steps of the iteration for tree `k`. The memory cell `(i, k)` holds `y_leaves[i, k]` and
`partial_y[i, k]`. -/
def detLoop (ops : FloatOps F) (m : Ensemble F) (X : List (List F)) : ParLoop Nat (Nat × Nat) (Int × F) DetPc where
  start := .inst 0
  step k pc μ :=
    match pc with
    | .inst i =>
      if i < X.length then
        match rd m.root k with
        | .ok cur => (.walk i cur, μ)
        | .error _ => (.fault, μ)
      else (.done, μ)
    | .walk i cur =>
      match X[i]? with
      | none => (.fault, μ)
      | some row =>
        match walkStep ops m row cur with
        | .ok (.inl next) => (.walk i next, μ)
        | .ok (.inr leaf) => (.storeLeaf i leaf, μ)
        | .error _ => (.fault, μ)
    | .storeLeaf i leaf => (.storePart i leaf, fun c => if c = (i, k) then (leaf, (μ c).2) else μ c)
    | .storePart i leaf =>
      match contribution ops m k leaf with
      | .ok v => (.inst (i + 1), fun c => if c = (i, k) then ((μ c).1, v) else μ c)
      | .error _ => (.fault, μ)
    | .done => (.done, μ)
    | .fault => (.fault, μ)

end Ensemble
end Verif
