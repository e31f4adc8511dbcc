/-
Lemmas shared by the model loaders: single writes, and the state after loading some of the trees.
-/
import Verif.Model.Loader
import Verif.Lemmas.TreeStats
import Verif.Lemmas.Eval

namespace Verif
open Spec
namespace Ensemble
variable {F : Type} {m : Ensemble F}

theorem castInt16_of_lt {f : Nat} (h : f < 2 ^ 15) : castInt16 (f : Int) = f := by
  unfold castInt16
  apply Int.bmod_eq_of_le <;> omega

theorem setRoot_ok {i : Nat} (v : Int) (h : i < m.root.length) : setRoot m (i : Int) v = .ok { m with root := m.root.set i v } := by
  simp only [setRoot, pySet_ok v h, bind, Except.bind]; rfl

theorem setWeight_ok {i : Nat} (v : F) (h : i < m.weight.length) :
    setWeight m (i : Int) v = .ok { m with weight := m.weight.set i v } := by
  simp only [setWeight, pySet_ok v h, bind, Except.bind]; rfl

theorem setLeft_ok {i : Nat} (v : Int) (h : i < m.left.length) : setLeft m (i : Int) v = .ok { m with left := m.left.set i v } := by
  simp only [setLeft, pySet_ok v h, bind, Except.bind]; rfl

theorem setRight_ok {i : Nat} (v : Int) (h : i < m.right.length) :
    setRight m (i : Int) v = .ok { m with right := m.right.set i v } := by
  simp only [setRight, pySet_ok v h, bind, Except.bind]; rfl

theorem setValue_ok {i : Nat} (v : F) (h : i < m.value.length) :
    setValue m (i : Int) v = .ok { m with value := m.value.set i v } := by
  simp only [setValue, pySet_ok v h, bind, Except.bind]; rfl

theorem setFeature_ok {i f : Nat} (hf : f < 2 ^ 15) (h : i < m.feature.length) :
    setFeature m (i : Int) (f : Int) = .ok { m with feature := m.feature.set i (f : Int) } := by
  simp only [setFeature, pySet_ok _ h, bind, Except.bind, castInt16_of_lt hf]; rfl

/-- The four node arrays have length `N`. -/
structure NodeLen (m : Ensemble F) (N : Nat) : Prop where
  left : m.left.length = N
  right : m.right.length = N
  value : m.value.length = N
  feature : m.feature.length = N

/-- Node `i` is as after `initialize`, except perhaps its value. -/
structure Blank (m : Ensemble F) (i : Nat) : Prop where
  left : m.left[i]? = some (-1)
  right : m.right[i]? = some (-1)
  feature : m.feature[i]? = some (-1)

/-- The node arrays agree at `i`. -/
structure Agree (m m' : Ensemble F) (i : Nat) : Prop where
  left : m'.left[i]? = m.left[i]?
  right : m'.right[i]? = m.right[i]?
  value : m'.value[i]? = m.value[i]?
  feature : m'.feature[i]? = m.feature[i]?

theorem Agree.refl (m : Ensemble F) (i : Nat) : Agree m m i := ⟨rfl, rfl, rfl, rfl⟩

theorem Agree.trans {m m' m'' : Ensemble F} {i : Nat} (h : Agree m m' i) (h' : Agree m' m'' i) : Agree m m'' i :=
  ⟨by rw [h'.left, h.left], by rw [h'.right, h.right], by rw [h'.value, h.value], by rw [h'.feature, h.feature]⟩

theorem Blank.agree {m m' : Ensemble F} {i : Nat} (h : Blank m i) (ha : Agree m m' i) : Blank m' i :=
  ⟨by rw [ha.left, h.left], by rw [ha.right, h.right], by rw [ha.feature, h.feature]⟩

theorem encodes_agree {m m' : Ensemble F} {i : Nat} {t : Spec.Tree F} {s : List Nat} (h : Encodes m i t s)
    (ha : ∀ j ∈ s, Agree m m' j) : Encodes m' i t s :=
  h.congr (fun j hj => (ha j hj).left) (fun j hj => (ha j hj).right) (fun j hj => (ha j hj).feature)
    (fun j hj => (ha j hj).value)

/-- State after the first `k` trees of `fo` have been loaded. -/
structure LoadedTrees (fo : Forest F) (k : Nat) (m : Ensemble F) : Prop where
  nTrees : m.nTrees = fo.length
  nNodes : m.nNodes = Forest.numNodes fo
  len : NodeLen m (Forest.numNodes fo)
  root_len : m.root.length = fo.length
  weight_len : m.weight.length = fo.length
  roots : ∀ j < k, m.root[j]? = some (treeStart fo j : Int)
  weights : ∀ j < k, m.weight[j]? = (fo[j]?).map (·.2)
  trees : ∀ j < k, ∀ t w, fo[j]? = some (t, w) → ∃ s, Encodes m (treeStart fo j) t s ∧
    s.Perm (List.range' (treeStart fo j) t.numNodes)
  blank : ∀ i, treeStart fo k ≤ i → i < Forest.numNodes fo → Blank m i

theorem loadedTrees_alloc (fo : Forest F) (zero minusOne : F) {nt nn : Nat} (ht : nt = fo.length) (hn : nn = Forest.numNodes fo) :
    LoadedTrees fo 0 (alloc zero minusOne nt nn) := by
  subst ht hn
  refine ⟨rfl, rfl, ⟨?_, ?_, ?_, ?_⟩, ?_, ?_, ?_, ?_, ?_, ?_⟩
  any_goals simp [alloc]
  intro i _ hi
  constructor <;> simp [hi]

/-- Loading one more tree: the nodes of the earlier trees are untouched, those of the later ones are still blank. -/
theorem LoadedTrees.step {fo : Forest F} {k : Nat} {m m' : Ensemble F} (h : LoadedTrees fo k m) {t : Spec.Tree F} {w : F}
    (hk : fo[k]? = some (t, w)) (hnt : m'.nTrees = m.nTrees) (hnn : m'.nNodes = m.nNodes)
    (hlen : NodeLen m' (Forest.numNodes fo))
    (hroot : m'.root = m.root.set k (treeStart fo k : Int)) (hweight : m'.weight = m.weight.set k w)
    (hagree : ∀ i, i < treeStart fo k ∨ treeStart fo (k + 1) ≤ i → Agree m m' i)
    {s : List Nat} (hs : Encodes m' (treeStart fo k) t s) (hperm : s.Perm (List.range' (treeStart fo k) t.numNodes)) :
    LoadedTrees fo (k + 1) m' := by
  have hklt : k < fo.length := (List.getElem?_eq_some_iff.1 hk).1
  have hstart := treeStart_succ hk
  refine ⟨by rw [hnt, h.nTrees], by rw [hnn, h.nNodes], hlen, by rw [hroot, List.length_set, h.root_len],
    by rw [hweight, List.length_set, h.weight_len], ?_, ?_, ?_, ?_⟩
  · intro j hj
    rw [hroot]
    by_cases hjk : k = j
    · subst hjk
      rw [List.getElem?_set_self (by rw [h.root_len]; exact hklt)]
    · rw [List.getElem?_set_ne hjk]
      exact h.roots j (by omega)
  · intro j hj
    rw [hweight]
    by_cases hjk : k = j
    · subst hjk
      rw [List.getElem?_set_self (by rw [h.weight_len]; exact hklt), hk]; rfl
    · rw [List.getElem?_set_ne hjk]
      exact h.weights j (by omega)
  · intro j hj t' w' hj'
    by_cases hjk : k = j
    · subst hjk
      rw [hk] at hj'
      cases hj'
      exact ⟨s, hs, hperm⟩
    · obtain ⟨s', hs', hperm'⟩ := h.trees j (by omega) t' w' hj'
      refine ⟨s', encodes_agree hs' (fun i hi => ?_), hperm'⟩
      have hi' := hperm'.mem_iff.1 hi
      rw [List.mem_range'_1] at hi'
      have h1 := treeStart_succ hj'
      have h2 := treeStart_mono fo (a := j + 1) (b := k) (by omega)
      exact hagree i (Or.inl (by omega))
  · intro i hi hi'
    exact (h.blank i (by omega) hi').agree (hagree i (Or.inr hi))

theorem LoadedTrees.represents {fo : Forest F} {m : Ensemble F} (h : LoadedTrees fo fo.length m) : Represents m fo where
  nTrees := h.nTrees
  nNodes := h.nNodes
  left_len := by rw [h.len.left, h.nNodes]
  right_len := by rw [h.len.right, h.nNodes]
  value_len := by rw [h.len.value, h.nNodes]
  feature_len := by rw [h.len.feature, h.nNodes]
  weight := by
    apply List.ext_getElem?
    intro j
    rw [List.getElem?_map]
    by_cases hj : j < fo.length
    · exact h.weights j hj
    · rw [List.getElem?_eq_none_iff.2 (by rw [h.weight_len]; omega), List.getElem?_eq_none_iff.2 (by omega)]; rfl
  root := by
    apply List.ext_getElem?
    intro j
    rw [List.getElem?_map]
    by_cases hj : j < fo.length
    · rw [h.roots j hj, List.getElem?_range hj]; rfl
    · rw [List.getElem?_eq_none_iff.2 (by rw [h.root_len]; omega), List.getElem?_eq_none_iff.2 (by simpa using hj)]; rfl
  trees := fun k t w hk => h.trees k (List.getElem?_eq_some_iff.1 hk).1 t w hk

end Ensemble
end Verif
