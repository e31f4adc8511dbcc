/-
Model of the random number generators used by `Dataset.split` and `Dataset.kfold` (`rankeval/dataset/dataset.py`).

Simplified: the generator itself is a parameter: what `permutation` and `shuffle` give in each state, the next state, and the state made from a seed.
The generator objects of the program are a list; the one used by `np.random` is kept apart.
-/
import Verif.Model.Dataset

namespace Verif
variable {G R L : Type}

/-- The random number generator of numpy: the permutation of a list in a state, with the next state, and the state for a seed. -/
structure RandomGen (G : Type) where
  permutation : G → List Int → List Int × G
  seeded : Nat → G

/-- The states of the generator of `np.random` and of the other `RandomState` objects. -/
structure RandomWorld (G : Type) where
  shared : G
  objects : List G

/-- What is given as `random_state`: nothing, the module `np.random`, a number, one of the objects, or anything else. -/
inductive RandomState where
  | none | npRandom | int (n : Int) | object (i : Nat) | other

/-- The generator that is used: the one of `np.random`, one of the objects, or a new one. -/
inductive Rng (G : Type) where
  | shared | object (i : Nat) | new (g : G)

/-- dataset.py 393-400, `_check_random_state`. `np.random.RandomState(n)` raises a `ValueError` unless `n` is between 0 and 2^32 - 1. -/
def checkRandomState (gen : RandomGen G) : RandomState → Except PyErr (Rng G)
  | .none => .ok .shared
  | .npRandom => .ok .shared
  | .int n => if 0 ≤ n ∧ n < 2 ^ 32 then .ok (.new (gen.seeded n.toNat)) else .error .valueError
  | .object i => .ok (.object i)
  | .other => .error .valueError

/-- `rng.permutation(ids)`. A reference to an object that does not exist cannot occur in Python; it is an error here. -/
def drawPermutation (gen : RandomGen G) (w : RandomWorld G) (ids : List Int) : Rng G → RandomWorld G × Except PyErr (List Int)
  | .shared => ({ w with shared := (gen.permutation w.shared ids).2 }, .ok (gen.permutation w.shared ids).1)
  | .new g => (w, .ok (gen.permutation g ids).1)
  | .object i => match w.objects[i]? with
    | some g => ({ w with objects := w.objects.set i (gen.permutation g ids).2 }, .ok (gen.permutation g ids).1)
    | Option.none => (w, .error .runtimeError)

/-- dataset.py 196-231, `split` with the generator it uses: sizes are checked first, then a generator is chosen and advanced. -/
def splitRandom (gen : RandomGen G) (w : RandomWorld G) (d : Dataset R L) (trainSize valiSize : ℚ) (seed : RandomState) :
    RandomWorld G × Except PyErr (Dataset R L × Option (Dataset R L) × Dataset R L) :=
  if trainSize < 0 ∨ trainSize > 1 ∨ trainSize + valiSize > 1 then (w, .error .exception)
  else match checkRandomState gen seed with
    | .error e => (w, .error e)
    | .ok rng => match drawPermutation gen w d.queryIds rng with
      | (w', .error e) => (w', .error e)
      | (w', .ok perm) => (w', d.split trainSize valiSize perm)

/-- dataset.py 348-378, `kfold`, iterated to the end: always the generator of `np.random`, if at all. -/
def kfoldRandom (gen : RandomGen G) (w : RandomWorld G) (d : Dataset R L) (nFolds : Nat) (shuffle : Bool) :
    RandomWorld G × Except PyErr (List (Dataset R L × Dataset R L × Dataset R L)) :=
  if nFolds = 0 then (w, .error .zeroDivisionError)
  else if shuffle then ({ w with shared := (gen.permutation w.shared d.queryIds).2 }, d.kfold (gen.permutation w.shared d.queryIds).1 nFolds)
  else (w, d.kfold d.queryIds nFolds)

/-- A step of a program that uses random numbers. -/
inductive RandomCall (R L : Type) where
  | split (d : Dataset R L) (trainSize valiSize : ℚ) (seed : RandomState)
  | kfold (d : Dataset R L) (nFolds : Nat) (shuffle : Bool)
  | seedShared (n : Nat) -- `np.random.seed(n)`
  | newObject (n : Nat) -- `np.random.RandomState(n)`

/-- What a step returns. -/
inductive RandomResult (R L : Type) where
  | split (r : Except PyErr (Dataset R L × Option (Dataset R L) × Dataset R L))
  | kfold (r : Except PyErr (List (Dataset R L × Dataset R L × Dataset R L)))
  | unit

/-- One step. -/
def randomStep (gen : RandomGen G) (w : RandomWorld G) : RandomCall R L → RandomWorld G × RandomResult R L
  | .split d t v s => ((splitRandom gen w d t v s).1, .split (splitRandom gen w d t v s).2)
  | .kfold d n s => ((kfoldRandom gen w d n s).1, .kfold (kfoldRandom gen w d n s).2)
  | .seedShared n => ({ w with shared := gen.seeded n }, .unit)
  | .newObject n => ({ w with objects := w.objects ++ [gen.seeded n] }, .unit)

/-- A program. -/
def randomRun (gen : RandomGen G) (w : RandomWorld G) : List (RandomCall R L) → RandomWorld G × List (RandomResult R L)
  | [] => (w, [])
  | c :: cs => ((randomRun gen (randomStep gen w c).1 cs).1, (randomStep gen w c).2 :: (randomRun gen (randomStep gen w c).1 cs).2)

end Verif
