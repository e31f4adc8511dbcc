/-
Property C90: reproducible splits.
-/
import Verif.Model.Random
import Verif.Props.Dataset
import Mathlib.Data.List.Rotate

namespace Verif.Props
open Spec
variable {G R L : Type} (gen : RandomGen G)

/-- C90: with a number as `random_state`, the parts are those of the permutation the number leads to, whatever random numbers have been drawn before,
and no generator of the program is touched. -/
theorem C90_seed (w : RandomWorld G) (d : Dataset R L) {trainSize valiSize : ℚ} (h : ¬ (trainSize < 0 ∨ trainSize > 1 ∨ trainSize + valiSize > 1))
    {n : Nat} (hn : n < 2 ^ 32) :
    splitRandom gen w d trainSize valiSize (.int n) = (w, d.split trainSize valiSize (gen.permutation (gen.seeded n) d.queryIds).1) := by
  have hc : checkRandomState gen (.int (n : Int)) = .ok (.new (gen.seeded n)) := by
    simp only [checkRandomState]
    rw [if_pos ⟨by omega, by exact_mod_cast hn⟩]
    rfl
  simp only [splitRandom, hc, drawPermutation]
  rw [if_neg h]

/-- C90: the parts are a partition, for a generator that permutes (C06). -/
theorem C90_partition (hgen : ∀ g ids, (gen.permutation g ids).1.Perm ids) (w : RandomWorld G) {X : List R} {nf : Nat} {y : List L} {ids : List Int}
    {d : Dataset R L} (h : mkDataset X nf y ids = .ok d) (hy : y.length = X.length) (hc : Contiguous ids) (hu : ∀ q ∈ ids, 0 ≤ q ∧ q < 2 ^ 31)
    {trainSize valiSize : ℚ} (h0 : 0 ≤ trainSize) (hv : 0 ≤ valiSize) (h1 : trainSize + valiSize ≤ 1)
    (htest : Dataset.pyRound (trainSize * d.nQueries) + Dataset.pyRound (valiSize * d.nQueries) < d.nQueries) {n : Nat} (hn : n < 2 ^ 32) :
    ∃ p, (splitRandom gen w d trainSize valiSize (.int n)).2 = .ok p ∧ IsSplit (rows X y ids) (splitRows p) := by
  obtain ⟨p, e, -, hp⟩ := C06_split_partial h hy hc hu trainSize valiSize h0 hv h1 _ (hgen (gen.seeded n) d.queryIds) htest
  refine ⟨p, ?_, hp⟩
  rw [C90_seed gen w d (by
    rintro (h' | h' | h')
    · linarith
    · linarith
    · linarith) hn]
  exact e

/-- Calls that give the same in every state and leave all generators alone: splits with a number, cross-validation without shuffling. -/
def Stateless : RandomCall R L → Prop
  | .split _ _ _ (.int _) => True
  | .kfold _ _ false => True
  | _ => False

theorem stateless_step {c : RandomCall R L} (hc : Stateless c) (w w' : RandomWorld G) :
    (randomStep gen w c).1 = w ∧ (randomStep gen w c).2 = (randomStep gen w' c).2 := by
  cases c with
  | split d t v s =>
    cases s with
    | int n =>
      simp only [randomStep, splitRandom, checkRandomState]
      split
      · exact ⟨rfl, rfl⟩
      · split
        · rename_i e
          split at e
          · cases e
          · exact ⟨rfl, rfl⟩
        · rename_i rng e
          split at e
          · cases e
            exact ⟨rfl, rfl⟩
          · cases e
    | _ => exact hc.elim
  | kfold d n s =>
    cases s with
    | true => exact hc.elim
    | false =>
      simp only [randomStep, kfoldRandom]
      split
      · exact ⟨rfl, rfl⟩
      · exact ⟨rfl, rfl⟩
  | seedShared n => exact hc.elim
  | newObject n => exact hc.elim

/-- C90: such calls can be added anywhere in a program: they return what they return on their own and no other result changes. -/
theorem C90_insert (w w0 : RandomWorld G) (before after : List (RandomCall R L)) {c : RandomCall R L} (hc : Stateless c) :
    ∃ r1 r2, (randomRun gen w (before ++ after)).2 = r1 ++ r2 ∧ r1.length = before.length ∧
      (randomRun gen w (before ++ c :: after)).2 = r1 ++ (randomStep gen w0 c).2 :: r2 := by
  induction before generalizing w with
  | nil =>
    obtain ⟨h1, h2⟩ := stateless_step gen hc w w0
    refine ⟨[], _, rfl, rfl, ?_⟩
    simp only [List.nil_append, randomRun, h1, h2]
  | cons b before ih =>
    obtain ⟨r1, r2, e1, e2, e3⟩ := ih (randomStep gen w b).1
    refine ⟨(randomStep gen w b).2 :: r1, r2, ?_, by simp [e2], ?_⟩
    · simp only [List.cons_append, randomRun, e1]
    · simp only [List.cons_append, randomRun, e3]

/-- C90: without `random_state` the generator of `np.random` is used: after `np.random.seed(n)` the parts are those of the seed `n`. The same for a
`RandomState(n)` that has not been used. -/
theorem C90_equivalent (w : RandomWorld G) (d : Dataset R L) (trainSize valiSize : ℚ) {n : Nat} (hn : n < 2 ^ 32) :
    (randomRun gen w [.seedShared n, .split d trainSize valiSize .none]).2 = [.unit, .split (splitRandom gen w d trainSize valiSize (.int n)).2] ∧
    (randomRun gen w [.newObject n, .split d trainSize valiSize (.object w.objects.length)]).2 =
      [.unit, .split (splitRandom gen w d trainSize valiSize (.int n)).2] := by
  by_cases h : trainSize < 0 ∨ trainSize > 1 ∨ trainSize + valiSize > 1
  · constructor <;> simp only [randomRun, randomStep, splitRandom] <;> rw [if_pos h, if_pos h]
  · rw [C90_seed gen w d h hn]
    constructor
    · simp only [randomRun, randomStep, splitRandom, checkRandomState, drawPermutation]
      rw [if_neg h]
    · have e : (w.objects ++ [gen.seeded n])[w.objects.length]? = some (gen.seeded n) := by simp
      simp only [randomRun, randomStep, splitRandom, checkRandomState, drawPermutation, e]
      rw [if_neg h]

/-- C90: a split with an object advances this object only; a split without one advances the generator of `np.random` only. -/
theorem C90_frame (w : RandomWorld G) (d : Dataset R L) (trainSize valiSize : ℚ) :
    (∀ i, (splitRandom gen w d trainSize valiSize (.object i)).1.shared = w.shared ∧
      ∀ j, j ≠ i → (splitRandom gen w d trainSize valiSize (.object i)).1.objects[j]? = w.objects[j]?) ∧
    (splitRandom gen w d trainSize valiSize .none).1.objects = w.objects ∧
    splitRandom gen w d trainSize valiSize .npRandom = splitRandom gen w d trainSize valiSize .none := by
  refine ⟨fun i => ?_, ?_, rfl⟩
  · simp only [splitRandom, checkRandomState]
    split
    · exact ⟨rfl, fun _ _ => rfl⟩
    · cases hi : w.objects[i]? with
      | none => simp only [drawPermutation, hi]; exact ⟨trivial, fun _ _ => trivial⟩
      | some g =>
        simp only [drawPermutation, hi]
        refine ⟨trivial, fun j hj => ?_⟩
        exact List.getElem?_set_ne (Ne.symm hj)
  · simp only [splitRandom, checkRandomState, drawPermutation]
    split <;> rfl

/-- C90: the next split with the same object continues where the last one stopped. -/
theorem C90_object (w : RandomWorld G) (d : Dataset R L) {trainSize valiSize : ℚ} (h : ¬ (trainSize < 0 ∨ trainSize > 1 ∨ trainSize + valiSize > 1))
    {i : Nat} {g : G} (hi : w.objects[i]? = some g) :
    (splitRandom gen w d trainSize valiSize (.object i)).2 = d.split trainSize valiSize (gen.permutation g d.queryIds).1 ∧
    (splitRandom gen w d trainSize valiSize (.object i)).1.objects[i]? = some (gen.permutation g d.queryIds).2 := by
  have hlt := (List.getElem?_eq_some_iff.1 hi).1
  simp only [splitRandom, checkRandomState, drawPermutation, hi]
  rw [if_neg h]
  exact ⟨rfl, by simp [hlt]⟩

/-- C90: the next split or shuffle without an object continues where the last one stopped. -/
theorem C90_shared (w : RandomWorld G) (d : Dataset R L) {trainSize valiSize : ℚ} (h : ¬ (trainSize < 0 ∨ trainSize > 1 ∨ trainSize + valiSize > 1)) :
    splitRandom gen w d trainSize valiSize .none =
      (⟨(gen.permutation w.shared d.queryIds).2, w.objects⟩, d.split trainSize valiSize (gen.permutation w.shared d.queryIds).1) ∧
    ∀ F, F ≠ 0 → kfoldRandom gen w d F true = (⟨(gen.permutation w.shared d.queryIds).2, w.objects⟩, d.kfold (gen.permutation w.shared d.queryIds).1 F) ∧
      kfoldRandom gen w d F false = (w, d.kfold d.queryIds F) := by
  refine ⟨?_, fun F hF => ?_⟩
  · simp only [splitRandom, checkRandomState, drawPermutation]
    rw [if_neg h]
  · unfold kfoldRandom
    rw [if_neg hF, if_neg hF]
    exact ⟨rfl, rfl⟩

/-- C90: anything else as `random_state`, a negative number or one above 2^32 - 1 is a `ValueError`, wrong sizes are an `Exception`; in both cases no
generator is touched. -/
theorem C90_errors (w : RandomWorld G) (d : Dataset R L) (trainSize valiSize : ℚ) (seed : RandomState) :
    ((trainSize < 0 ∨ trainSize > 1 ∨ trainSize + valiSize > 1) → splitRandom gen w d trainSize valiSize seed = (w, .error .exception)) ∧
    (¬ (trainSize < 0 ∨ trainSize > 1 ∨ trainSize + valiSize > 1) →
      (seed = .other ∨ ∃ n : Int, seed = .int n ∧ (n < 0 ∨ 2 ^ 32 ≤ n)) → splitRandom gen w d trainSize valiSize seed = (w, .error .valueError)) := by
  refine ⟨fun h => by simp only [splitRandom]; rw [if_pos h], fun h hs => ?_⟩
  rcases hs with rfl | ⟨n, rfl, hn⟩
  · simp only [splitRandom, checkRandomState]
    rw [if_neg h]
  · have hc : checkRandomState gen (.int n) = .error .valueError := by
      simp only [checkRandomState]
      rw [if_neg (by omega)]
    simp only [splitRandom, hc]
    rw [if_neg h]

/-- C90: shuffled folds have no `random_state`; they are reproducible after `np.random.seed`, whatever was drawn before. -/
theorem C90_kfold (w w' : RandomWorld G) (d : Dataset R L) (F n : Nat) (shuffle : Bool) :
    (randomRun gen w [.seedShared n, .kfold d F shuffle]).2 = (randomRun gen w' [.seedShared n, .kfold d F shuffle]).2 := by
  simp only [randomRun, randomStep, kfoldRandom]
  split
  · rfl
  · cases shuffle <;> rfl

/-- A generator that rotates by its state, and two programs on a dataset with three queries: the split with seed 1 is the same first and last. -/
def rotatingGen : RandomGen Nat := ⟨fun g ids => (ids.rotate g, g + 1), fun n => n⟩

example : (∀ g ids, (rotatingGen.permutation g ids).1.Perm ids) ∧
    ∃ d : Dataset Nat Nat, mkDataset [10, 11, 12, 13] 1 [1, 2, 3, 4] [7, 7, 5, 9] = .ok d ∧
      d.split (1 / 3) 0 (rotatingGen.permutation (rotatingGen.seeded 1) d.queryIds).1 ≠ d.split (1 / 3) 0 (rotatingGen.permutation (rotatingGen.seeded 2) d.queryIds).1 :=
  ⟨fun g ids => ids.rotate_perm g, ⟨[10, 11, 12, 13], 1, [1, 2, 3, 4], [7, 5, 9], [0, 2, 3, 4]⟩, by decide +kernel, by decide +kernel⟩

/-- The hypotheses of `C90_partition` hold for it: its parts, seeded with 2. -/
example : ∃ p, (splitRandom rotatingGen ⟨5, []⟩ (⟨[10, 11, 12, 13], 1, [1, 2, 3, 4], [7, 5, 9], [0, 2, 3, 4]⟩ : Dataset Nat Nat) (1 / 3) (1 / 3) (.int (2 : Nat))).2 = .ok p ∧
    IsSplit (rows [10, 11, 12, 13] [1, 2, 3, 4] [7, 7, 5, 9]) (splitRows p) :=
  C90_partition rotatingGen (fun g ids => ids.rotate_perm g) ⟨5, []⟩ (X := [10, 11, 12, 13]) (nf := 1) (y := [1, 2, 3, 4]) (ids := [7, 7, 5, 9])
    (d := ⟨[10, 11, 12, 13], 1, [1, 2, 3, 4], [7, 5, 9], [0, 2, 3, 4]⟩) (trainSize := 1 / 3) (valiSize := 1 / 3) (n := 2) (by decide +kernel) rfl (by decide) (by decide) (by norm_num) (by norm_num)
    (by norm_num) (by decide +kernel) (by norm_num)

/-- The same seed in an object and in `np.random`, and the objects that are not there or not used. -/
example : (⟨5, [3, 4]⟩ : RandomWorld Nat).objects[1]? = some 4 ∧
    (splitRandom rotatingGen ⟨5, [3, 4]⟩ (⟨[10, 11, 12, 13], 1, [1, 2, 3, 4], [7, 5, 9], [0, 2, 3, 4]⟩ : Dataset Nat Nat) (1 / 3) 0 (.object 1)).1 = ⟨5, [3, 5]⟩ ∧
    (splitRandom rotatingGen ⟨5, [3, 4]⟩ (⟨[10, 11, 12, 13], 1, [1, 2, 3, 4], [7, 5, 9], [0, 2, 3, 4]⟩ : Dataset Nat Nat) (1 / 3) 0 .none).1 = ⟨6, [3, 4]⟩ ∧
    Stateless (.kfold (⟨[10, 11, 12, 13], 1, [1, 2, 3, 4], [7, 5, 9], [0, 2, 3, 4]⟩ : Dataset Nat Nat) 3 false) :=
  have h : ¬ ((1 / 3 : ℚ) < 0 ∨ (1 / 3 : ℚ) > 1 ∨ (1 / 3 : ℚ) + 0 > 1) := by norm_num
  ⟨rfl, by unfold splitRandom; rw [if_neg h]; rfl, congrArg Prod.fst (C90_shared rotatingGen _ _ h).1, trivial⟩

end Verif.Props
