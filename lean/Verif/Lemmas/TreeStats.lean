/-
Lemmas for the tree statistics and for pruning.
-/
import Verif.Lemmas.Ensemble
import Verif.Lemmas.Dataset

namespace Verif
open Spec
variable {F : Type} {m : Ensemble F} {fo : Forest F}

namespace Spec

theorem Encodes.congr {m' : Ensemble F} {i : Nat} {t : Tree F} {s : List Nat} (h : Encodes m i t s)
    (hl : ∀ j ∈ s, m'.left[j]? = m.left[j]?) (hr : ∀ j ∈ s, m'.right[j]? = m.right[j]?)
    (hf : ∀ j ∈ s, m'.feature[j]? = m.feature[j]?) (hv : ∀ j ∈ s, m'.value[j]? = m.value[j]?) : Encodes m' i t s := by
  induction h with
  | leaf h1 h2 h3 h4 =>
    exact .leaf (by rw [hl _ (by simp), h1]) (by rw [hr _ (by simp), h2]) (by rw [hf _ (by simp), h3])
      (by rw [hv _ (by simp), h4])
  | node h1 h2 h3 h4 el er ihl ihr =>
    exact .node (by rw [hl _ (by simp), h1]) (by rw [hr _ (by simp), h2]) (by rw [hf _ (by simp), h3])
      (by rw [hv _ (by simp), h4])
      (ihl (fun j hj => hl j (by simp [hj])) (fun j hj => hr j (by simp [hj])) (fun j hj => hf j (by simp [hj]))
        (fun j hj => hv j (by simp [hj])))
      (ihr (fun j hj => hl j (by simp [hj])) (fun j hj => hr j (by simp [hj])) (fun j hj => hf j (by simp [hj]))
        (fun j hj => hv j (by simp [hj])))

theorem Encodes.count_leaves {i : Nat} {t : Tree F} {s : List Nat} (h : Encodes m i t s) :
    s.countP (fun j => m.left[j]? == some (-1)) = t.numLeaves := by
  induction h with
  | leaf h1 => simp [h1, Tree.numLeaves]
  | @node i f l r th tl tr sl sr h1 _ _ _ _ _ ihl ihr =>
    have : (some (l : Int) == some (-1)) = false := by
      rw [beq_eq_false_iff_ne]
      simp only [ne_eq, Option.some.injEq]
      omega
    rw [List.countP_cons, List.countP_append, ihl, ihr, h1, this, Tree.numLeaves]
    simp

theorem slice_countP {α : Type} (p : α → Bool) : ∀ (n a : Nat) (v : List α), a + n ≤ v.length →
    (slice a (a + n) v).countP p = (List.range' a n).countP (fun j => (v[j]?).any p)
  | 0, a, v, h => by
    have : slice a (a + 0) v = [] := by
      apply List.eq_nil_of_length_eq_zero
      simp [slice]
    rw [this]; simp
  | n + 1, a, v, h => by
    have ha : a < v.length := by omega
    have : slice a (a + (n + 1)) v = v[a] :: slice (a + 1) (a + 1 + n) v := by
      unfold slice
      rw [List.drop_eq_getElem_cons (by simp; omega)]
      congr 1
      · simp
      · congr 2; omega
    rw [this, List.countP_cons, slice_countP p n (a + 1) v (by omega), List.range'_succ, List.countP_cons,
      List.getElem?_eq_getElem ha]
    simp

theorem heightNode_encodes {i : Nat} {t : Tree F} {s : List Nat} (h : Encodes m i t s) :
    ∀ fuel depth, t.height < fuel → Ensemble.heightNode m fuel (i : Int) depth = .ok (depth + t.height) := by
  induction h with
  | leaf h1 =>
    intro fuel depth hf
    cases fuel with
    | zero => simp at hf
    | succ n => simp [Ensemble.heightNode, pyGet_ok h1, bind, Except.bind, pure, Except.pure, Tree.height]
  | @node i f l r th tl tr sl sr h1 h2 _ _ _ _ ihl ihr =>
    intro fuel depth hf
    cases fuel with
    | zero => simp at hf
    | succ n =>
      simp only [Tree.height] at hf
      have hne : (l : Int) ≠ -1 := by omega
      simp only [Ensemble.heightNode, pyGet_ok h1, pyGet_ok h2, bind, Except.bind, hne, ↓reduceIte,
        ihl n (depth + 1) (by omega), ihr n (depth + 1) (by omega), pure, Except.pure, Tree.height, Except.ok.injEq]
      omega

theorem nextRoot_eq (h : Represents m fo) {k : Nat} {t : Tree F} {w : F} (hk : fo[k]? = some (t, w)) :
    Ensemble.nextRoot m k = .ok ((treeStart fo k + t.numNodes : Nat) : Int) := by
  have hlt : k < fo.length := (List.getElem?_eq_some_iff.1 hk).1
  unfold Ensemble.nextRoot
  rw [← treeStart_succ hk]
  by_cases hc : k + 1 = m.nTrees
  · rw [if_pos hc, hc, h.nTrees, treeStart_length, h.nNodes]
    rfl
  · rw [if_neg hc]
    have hlt' : k + 1 < fo.length := by rw [h.nTrees] at hc; omega
    exact pyGet_ok (h.root_get (List.getElem?_eq_getElem hlt'))

theorem treeStart_take (fo : Forest F) {n k : Nat} (h : k ≤ n) : treeStart (fo.take n) k = treeStart fo k := by
  simp [treeStart, List.take_take, Nat.min_eq_left h]

theorem prune_represents (h : Represents m fo) (n : Nat) :
    ∃ m', Ensemble.prune m n = .ok m' ∧ Represents m' (fo.take n) := by
  unfold Ensemble.prune
  by_cases hn : n ≥ m.nTrees
  · rw [if_pos hn]
    refine ⟨m, rfl, ?_⟩
    rw [List.take_of_length_le (by rw [← h.nTrees]; exact hn)]
    exact h
  · rw [if_neg hn]
    have hlt : n < fo.length := by rw [← h.nTrees]; omega
    have hroot := h.root_get (List.getElem?_eq_getElem hlt)
    simp only [pyGet_ok hroot, bind, Except.bind, pure, Except.pure, Int.toNat_natCast]
    have hle : treeStart fo n ≤ m.nNodes := by rw [h.nNodes]; exact treeStart_le _ _
    have hpy : ∀ {α : Type} (a : List α), pyTake ((treeStart fo n : Nat) : Int) a = a.take (treeStart fo n) := by
      intro α a; simp [pyTake]
    refine ⟨_, rfl, ?_⟩
    constructor
    · simp; omega
    · simp only [treeStart]
    · simp only [hpy, List.length_take, h.left_len]; omega
    · simp only [hpy, List.length_take, h.right_len]; omega
    · simp only [hpy, List.length_take, h.value_len]; omega
    · simp only [hpy, List.length_take, h.feature_len]; omega
    · simp [h.weight, List.map_take]
    · simp only [h.root, List.length_take, Nat.min_eq_left hlt.le]
      rw [← List.map_take, List.take_range, Nat.min_eq_left hlt.le]
      apply List.map_congr_left
      intro k hk
      rw [treeStart_take fo (by rw [List.mem_range] at hk; omega)]
    · intro k t w hk
      have hkn : k < n := by
        by_contra hc
        rw [List.getElem?_take_eq_none (by omega)] at hk
        cases hk
      rw [List.getElem?_take_of_lt hkn] at hk
      obtain ⟨s, hs, hp⟩ := h.trees k t w hk
      refine ⟨s, ?_, by rw [treeStart_take fo hkn.le]; exact hp⟩
      rw [treeStart_take fo hkn.le]
      have hb : ∀ j ∈ s, j < treeStart fo n := by
        intro j hj
        rw [hp.mem_iff, List.mem_range'_1] at hj
        have := treeStart_mono fo (show k + 1 ≤ n by omega)
        rw [treeStart_succ hk] at this
        omega
      apply hs.congr
      · intro j hj; simp only [hpy]; exact List.getElem?_take_of_lt (hb j hj)
      · intro j hj; simp only [hpy]; exact List.getElem?_take_of_lt (hb j hj)
      · intro j hj; simp only [hpy]; exact List.getElem?_take_of_lt (hb j hj)
      · intro j hj; simp only [hpy]; exact List.getElem?_take_of_lt (hb j hj)

end Spec
end Verif
