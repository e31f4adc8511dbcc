/-
Python and numpy primitives shared by the models.
-/
import Mathlib.Data.List.Basic
import Mathlib.Data.List.Sort
import Mathlib.Data.List.Induction
import Mathlib.Data.List.Perm.Basic
import Mathlib.Data.List.Nodup
import Mathlib.Order.Basic
import Mathlib.Tactic.Linarith

namespace Verif

/-- The Python exception classes raised by the modelled code (explicitly or by the runtime). -/
inductive PyErr where
  | exception          -- plain `Exception`
  | typeError
  | valueError
  | indexError
  | keyError
  | attributeError
  | zeroDivisionError
  | unboundLocalError
  | runtimeError
  | assertionError
  | lookupError
  | ioError
  | stopIteration
  | parseError         -- `xml.etree.ElementTree.ParseError`
  | undefinedBehaviour -- C level access outside of an array, with bounds checks switched off
  | diverges           -- the loop does not end
  deriving DecidableEq, Repr

/-- Python `a[:k]` for an integer `k`: negative `k` counts from the end. -/
def pyTake {α : Type _} (k : Int) (a : List α) : List α :=
  if 0 ≤ k then a.take k.toNat else a.take (a.length - (-k).toNat)

/-- Python `a[k:]` for an integer `k`: negative `k` counts from the end (`-0` is `0`). -/
def pyDrop {α : Type _} (k : Int) (a : List α) : List α :=
  if 0 ≤ k then a.drop k.toNat else a.drop (a.length - (-k).toNat)

/-- Python `a[i:j]` for non-negative `i`, `j`. -/
def slice {α : Type _} (i j : Nat) (a : List α) : List α := (a.take j).drop i

/-- Python/numpy `a[i]` for an integer `i`: negative `i` counts from the end,
out of range raises `IndexError`. -/
def pyGet {α : Type _} (a : List α) (i : Int) : Except PyErr α :=
  let j : Int := if 0 ≤ i then i else i + a.length
  if 0 ≤ j then
    match a[j.toNat]? with
    | some x => .ok x
    | none => .error .indexError
  else .error .indexError

/-- Python/numpy `a[i] = x` for an integer `i`, with the same index rule as `pyGet`. -/
def pySet {α : Type _} (a : List α) (i : Int) (x : α) : Except PyErr (List α) :=
  let j : Int := if 0 ≤ i then i else i + a.length
  if 0 ≤ j ∧ j.toNat < a.length then .ok (a.set j.toNat x) else .error .indexError

/-- numpy fancy indexing `v[idx]` with an index list. Positions out of range are
dropped here; it is only used with `idx` proved to be in range (see
`length_gather`), where numpy raises nothing. -/
def gather {α : Type _} (v : List α) (idx : List Nat) : List α :=
  idx.filterMap (fun i => v[i]?)

/-- numpy boolean indexing `v[mask]`. -/
def maskSelect {α : Type _} (v : List α) (mask : List Bool) : List α :=
  ((v.zip mask).filter (·.2)).map (·.1)

/-- The contract of `np.argsort(v)`: the result is a permutation of the
positions of `v` that lists the values in ascending order. Nothing is said
about ties: numpy's default sort is not stable. -/
def IsArgsort {α : Type _} [LE α] (v : List α) (idx : List Nat) : Prop :=
  idx.Perm (List.range v.length) ∧
    idx.Pairwise (fun i j => ∀ a ∈ v[i]?, ∀ b ∈ v[j]?, a ≤ b)

theorem mem_range_of_isArgsort {α : Type _} [LE α] {v : List α} {idx : List Nat}
    (h : IsArgsort v idx) {i : Nat} : i ∈ idx ↔ i < v.length := by
  rw [h.1.mem_iff, List.mem_range]

theorem gather_nil {α : Type _} (v : List α) : gather v [] = [] := rfl

theorem gather_cons {α : Type _} (v : List α) (i : Nat) (idx : List Nat) (h : i < v.length) :
    gather v (i :: idx) = v[i] :: gather v idx := by
  simp [gather, h]

theorem length_gather {α : Type _} (v : List α) (idx : List Nat)
    (h : ∀ i ∈ idx, i < v.length) : (gather v idx).length = idx.length := by
  induction idx with
  | nil => rfl
  | cons i idx ih =>
    rw [gather_cons v i idx (h i (by simp))]
    simp [ih (fun j hj => h j (by simp [hj]))]

theorem gather_append {α : Type _} (v : List α) (a b : List Nat) :
    gather v (a ++ b) = gather v a ++ gather v b := by
  simp [gather]

theorem gather_reverse {α : Type _} (v : List α) (a : List Nat) :
    gather v a.reverse = (gather v a).reverse := by
  simp [gather, List.filterMap_reverse]

theorem gather_range {α : Type _} (v : List α) : gather v (List.range v.length) = v := by
  induction v using List.reverseRecOn with
  | nil => rfl
  | append_singleton v a ih =>
    rw [List.length_append, List.length_singleton, List.range_succ, gather_append]
    congr 1
    · have : ∀ idx : List Nat, (∀ i ∈ idx, i < v.length) →
          gather (v ++ [a]) idx = gather v idx := by
        intro idx
        induction idx with
        | nil => intro _; rfl
        | cons i idx ih =>
          intro h
          have hi : i < v.length := h i (by simp)
          rw [gather_cons v i idx hi, gather_cons _ i idx (by simp; omega),
            ih (fun j hj => h j (by simp [hj]))]
          simp [List.getElem_append_left hi]
      rw [this _ (fun i hi => List.mem_range.1 hi), ih]
    · simp [gather]

theorem gather_perm {α : Type _} (v : List α) {a b : List Nat} (h : a.Perm b) :
    (gather v a).Perm (gather v b) :=
  h.filterMap _

theorem gather_take {α : Type _} (v : List α) (idx : List Nat) (k : Nat)
    (h : ∀ i ∈ idx, i < v.length) : gather v (idx.take k) = (gather v idx).take k := by
  induction idx generalizing k with
  | nil => simp [gather]
  | cons i idx ih =>
    cases k with
    | zero => simp [gather]
    | succ k =>
      rw [List.take_succ_cons, gather_cons v i _ (h i (by simp)),
        gather_cons v i _ (h i (by simp)), List.take_succ_cons,
        ih k (fun j hj => h j (by simp [hj]))]

theorem gather_map {α β : Type _} (f : α → β) (v : List α) (idx : List Nat) :
    gather (v.map f) idx = (gather v idx).map f := by
  simp [gather, List.map_filterMap]

theorem pyTake_of_nonneg {α : Type _} (k : Nat) (a : List α) : pyTake (k : Int) a = a.take k := by
  simp [pyTake]

/-- Every `a[:k]` is a prefix `a.take m`. -/
theorem pyTake_eq_take {α : Type _} (k : Int) (a : List α) :
    ∃ m, pyTake k a = a.take m ∧ m ≤ max k.toNat a.length := by
  unfold pyTake
  split
  · exact ⟨_, rfl, by omega⟩
  · exact ⟨_, rfl, by omega⟩

theorem pyTake_map {α β : Type _} (f : α → β) (k : Int) (a : List α) :
    pyTake k (a.map f) = (pyTake k a).map f := by
  unfold pyTake; split <;> simp [List.map_take]

theorem maskSelect_map {α : Type _} (v : List α) (p : α → Bool) :
    maskSelect v (v.map p) = v.filter p := by
  induction v with
  | nil => rfl
  | cons a v ih =>
    by_cases h : p a <;> simp_all [maskSelect]

theorem except_bind_ok {ε α β : Type} {x : Except ε α} {f : α → Except ε β} {b : β} (h : (x >>= f) = .ok b) :
    ∃ a, x = .ok a ∧ f a = .ok b := by
  cases x with
  | error e => cases h
  | ok a => exact ⟨a, rfl, h⟩

end Verif
