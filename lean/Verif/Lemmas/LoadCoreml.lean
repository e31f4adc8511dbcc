/-
Lemmas for the CoreML loader.
-/
import Verif.Spec.Coreml
import Verif.Lemmas.Loader

namespace Verif
open Spec
namespace Ensemble
variable {F : Type} {m : Ensemble F}

/-- The index of node `i` of tree `k` if every tree has `n` nodes. -/
def corePos (n k i : Nat) : Nat := k * n + (n - 1 - i)

theorem remap_pos {n i : Nat} (k : Nat) (h : i < n) : remapNodeId i n + ((k * n : Nat) : Int) = (corePos n k i : Nat) := by
  unfold remapNodeId corePos
  omega

theorem pos_remap {n i : Nat} (k : Nat) (h : i < n) : ((k * n : Nat) : Int) + remapNodeId i n = (corePos n k i : Nat) := by
  rw [Int.add_comm, remap_pos k h]

theorem corePos_lt {n k i K : Nat} (hi : i < n) (hk : k < K) : corePos n k i < K * n := by
  unfold corePos
  have : (k + 1) * n ≤ K * n := Nat.mul_le_mul_right _ hk
  rw [Nat.add_mul] at this
  omega

/-- The arrays hold the data of the node. -/
def NodeAt (n : Nat) (m : Ensemble F) (x : CoreNode F) : Prop :=
  (∃ v, x.behavior = .leaf v ∧ m.value[corePos n x.treeId x.nodeId]? = some v ∧ Blank m (corePos n x.treeId x.nodeId)) ∨
  (∃ f t l r, coreChildren x.behavior = some (f, t, l, r) ∧ m.value[corePos n x.treeId x.nodeId]? = some t ∧
    m.feature[corePos n x.treeId x.nodeId]? = some (f : Int) ∧
    m.left[corePos n x.treeId x.nodeId]? = some (corePos n x.treeId l : Int) ∧
    m.right[corePos n x.treeId x.nodeId]? = some (corePos n x.treeId r : Int))

/-- Ids, numbers of trees and features are in range, the behaviour is supported. -/
def GoodNode (n K : Nat) (x : CoreNode F) : Prop :=
  x.nodeId < n ∧ x.treeId < K ∧ ((∃ v, x.behavior = .leaf v) ∨
    ∃ f t l r, coreChildren x.behavior = some (f, t, l, r) ∧ f < 2 ^ 15 ∧ l < n ∧ r < n)

theorem NodeAt.agree {n : Nat} {m m' : Ensemble F} {x : CoreNode F} (h : NodeAt n m x) (ha : Agree m m' (corePos n x.treeId x.nodeId)) :
    NodeAt n m' x := by
  rcases h with ⟨v, h1, h2, h3⟩ | ⟨f, t, l, r, h1, h2, h3, h4, h5⟩
  · exact Or.inl ⟨v, h1, by rw [ha.value, h2], h3.agree ha⟩
  · exact Or.inr ⟨f, t, l, r, h1, by rw [ha.value, h2], by rw [ha.feature, h3], by rw [ha.left, h4], by rw [ha.right, h5]⟩

/-- What stays the same, or changes in a known way, while nodes are read. -/
structure CoreFrame (one : F) (n K : Nat) (m m' : Ensemble F) : Prop where
  nTrees : m'.nTrees = m.nTrees
  nNodes : m'.nNodes = m.nNodes
  len : NodeLen m' (K * n)
  root_len : m'.root.length = K
  weight_len : m'.weight.length = K
  root : ∀ k : Nat, m.root[k]? = some ((k * n : Nat) : Int) → m'.root[k]? = some ((k * n : Nat) : Int)
  weight : ∀ k : Nat, m.weight[k]? = some one → m'.weight[k]? = some one

theorem CoreFrame.trans {one : F} {n K : Nat} {m m' m'' : Ensemble F} (h : CoreFrame one n K m m') (h' : CoreFrame one n K m' m'') :
    CoreFrame one n K m m'' :=
  ⟨by rw [h'.nTrees, h.nTrees], by rw [h'.nNodes, h.nNodes], h'.len, h'.root_len, h'.weight_len,
    fun k hk => h'.root k (h.root k hk), fun k hk => h'.weight k (h.weight k hk)⟩

theorem coreStep_ok (one : F) {n K : Nat} {x : CoreNode F} (hx : GoodNode n K x) (hlen : NodeLen m (K * n)) (hr : m.root.length = K)
    (hw : m.weight.length = K) (hblank : Blank m (corePos n x.treeId x.nodeId)) :
    ∃ m', coreStep one n m x = .ok m' ∧ NodeAt n m' x ∧ (∀ i, i ≠ corePos n x.treeId x.nodeId → Agree m m' i) ∧
      CoreFrame one n K m m' ∧
      (x.nodeId + 1 = n → m'.root[x.treeId]? = some ((x.treeId * n : Nat) : Int) ∧ m'.weight[x.treeId]? = some one) := by
  obtain ⟨k, i, b⟩ := x
  obtain ⟨hi, hk, hb⟩ := hx
  simp only at hi hk hb hblank
  have hpos := corePos_lt hi hk
  -- the first part: root and weight
  obtain ⟨m1, e1, hm1, hroot⟩ : ∃ m1, coreRoot one (remapNodeId i n) m k (k * n) = Except.ok m1 ∧
      (m1 = m ∨ m1 = { m with root := m.root.set k ((k * n : Nat) : Int), weight := m.weight.set k one }) ∧
      (i + 1 = n → m1.root[k]? = some ((k * n : Nat) : Int) ∧ m1.weight[k]? = some one) := by
    unfold coreRoot
    by_cases h0 : remapNodeId i n = 0
    · rw [if_pos h0, setRoot_ok _ (by omega)]
      simp only [bind, Except.bind]
      rw [setWeight_ok _ (by simp only; omega)]
      refine ⟨_, rfl, Or.inr rfl, fun _ => ⟨?_, ?_⟩⟩
      · simp only; rw [List.getElem?_set_self (by omega)]
      · simp only; rw [List.getElem?_set_self (by omega)]
    · rw [if_neg h0]
      refine ⟨m, rfl, Or.inl rfl, fun h => ?_⟩
      unfold remapNodeId at h0
      omega
  have hl1 : NodeLen m1 (K * n) := by
    rcases hm1 with rfl | rfl
    · exact hlen
    · exact ⟨hlen.left, hlen.right, hlen.value, hlen.feature⟩
  have ha1 : ∀ j, Agree m m1 j := by
    rcases hm1 with rfl | rfl
    · exact fun j => Agree.refl _ j
    · exact fun j => ⟨rfl, rfl, rfl, rfl⟩
  have hf1 : CoreFrame one n K m m1 := by
    rcases hm1 with rfl | rfl
    · exact ⟨rfl, rfl, hlen, hr, hw, fun _ h => h, fun _ h => h⟩
    · refine ⟨rfl, rfl, hl1, by simp [hr], by simp [hw], ?_, ?_⟩
      · intro j hj
        simp only
        by_cases hkj : k = j
        · subst hkj; rw [List.getElem?_set_self (by omega)]
        · rw [List.getElem?_set_ne hkj]; exact hj
      · intro j hj
        simp only
        by_cases hkj : k = j
        · subst hkj; rw [List.getElem?_set_self (by omega)]
        · rw [List.getElem?_set_ne hkj]; exact hj
  have hb1 := hblank.agree (ha1 _)
  have hp := remap_pos k hi
  rcases hb with ⟨v, rfl⟩ | ⟨f, t, l, r, hc, hf, hl, hr'⟩
  · refine ⟨{ m1 with value := m1.value.set (corePos n k i) v }, ?_, ?_, ?_, ?_, hroot⟩
    · unfold coreStep
      simp only
      rw [hp, e1]
      simp only [bind, Except.bind, coreData]
      rw [setValue_ok _ (by rw [hl1.value]; exact hpos)]
    · refine Or.inl ⟨v, rfl, ?_, ⟨hb1.left, hb1.right, hb1.feature⟩⟩
      simp only
      rw [List.getElem?_set_self (by rw [hl1.value]; exact hpos)]
    · intro j hj
      refine (ha1 j).trans ⟨rfl, rfl, ?_, rfl⟩
      simp only
      rw [List.getElem?_set_ne (Ne.symm hj)]
    · exact hf1.trans ⟨rfl, rfl, ⟨hl1.left, hl1.right, by simp [hl1.value], hl1.feature⟩, hf1.root_len, hf1.weight_len,
        fun _ h => h, fun _ h => h⟩
  · refine ⟨⟨m1.nTrees, m1.nNodes, m1.root, m1.weight, m1.left.set (corePos n k i) (corePos n k l : Int),
      m1.right.set (corePos n k i) (corePos n k r : Int), m1.value.set (corePos n k i) t,
      m1.feature.set (corePos n k i) (f : Int)⟩, ?_, ?_, ?_, ?_, hroot⟩
    · have hstep : coreData n m1 (corePos n k i : Int) (k * n) b = (do
              let m ← setValue m1 (corePos n k i : Int) t
              let m ← setFeature m (corePos n k i : Int) f
              let m ← setLeft m (corePos n k i : Int) (((k * n : Nat) : Int) + remapNodeId l n)
              setRight m (corePos n k i : Int) (((k * n : Nat) : Int) + remapNodeId r n)) := by
        cases b with
        | leaf v => simp [coreChildren] at hc
        | greaterThan _ _ _ _ => simp only [coreData, hc]
        | lessThanEqual _ _ _ _ => simp only [coreData, hc]
        | unsupported => simp [coreChildren] at hc
      unfold coreStep
      simp only
      rw [hp, e1]
      simp only [bind, Except.bind] at hstep ⊢
      rw [hstep]
      rw [pos_remap k hl, pos_remap k hr', setValue_ok _ (by rw [hl1.value]; exact hpos)]
      simp only
      rw [setFeature_ok hf (by simp only; rw [hl1.feature]; exact hpos)]
      simp only
      rw [setLeft_ok _ (by simp only; rw [hl1.left]; exact hpos)]
      simp only
      rw [setRight_ok _ (by simp only; rw [hl1.right]; exact hpos)]
    · refine Or.inr ⟨f, t, l, r, hc, ?_, ?_, ?_, ?_⟩ <;> simp only
      · rw [List.getElem?_set_self (by rw [hl1.value]; exact hpos)]
      · rw [List.getElem?_set_self (by rw [hl1.feature]; exact hpos)]
      · rw [List.getElem?_set_self (by rw [hl1.left]; exact hpos)]
      · rw [List.getElem?_set_self (by rw [hl1.right]; exact hpos)]
    · intro j hj
      refine (ha1 j).trans ⟨?_, ?_, ?_, ?_⟩ <;> simp only <;> rw [List.getElem?_set_ne (Ne.symm hj)]
    · exact hf1.trans ⟨rfl, rfl, ⟨by simp [hl1.left], by simp [hl1.right], by simp [hl1.value], by simp [hl1.feature]⟩, hf1.root_len,
        hf1.weight_len, fun _ h => h, fun _ h => h⟩

/-- Nodes with different positions, in any order. -/
theorem core_fold (one : F) {n K : Nat} (xs : List (CoreNode F)) (hx : ∀ x ∈ xs, GoodNode n K x)
    (hnd : (xs.map (fun x => corePos n x.treeId x.nodeId)).Nodup) (m : Ensemble F) (hlen : NodeLen m (K * n))
    (hr : m.root.length = K) (hw : m.weight.length = K) (hblank : ∀ x ∈ xs, Blank m (corePos n x.treeId x.nodeId)) :
    ∃ m', xs.foldlM (coreStep one n) m = .ok m' ∧ (∀ x ∈ xs, NodeAt n m' x) ∧
      (∀ i, i ∉ xs.map (fun x => corePos n x.treeId x.nodeId) → Agree m m' i) ∧ CoreFrame one n K m m' ∧
      ∀ x ∈ xs, x.nodeId + 1 = n → m'.root[x.treeId]? = some ((x.treeId * n : Nat) : Int) ∧ m'.weight[x.treeId]? = some one := by
  induction xs generalizing m with
  | nil =>
    refine ⟨m, rfl, by simp, fun i _ => Agree.refl _ i, ⟨rfl, rfl, hlen, hr, hw, fun _ h => h, fun _ h => h⟩, by simp⟩
  | cons x xs ih =>
    obtain ⟨m1, e1, hat, hag, hfr, hro⟩ := coreStep_ok one (hx x (by simp)) hlen hr hw (hblank x (by simp))
    rw [List.map_cons, List.nodup_cons] at hnd
    have hne : ∀ y ∈ xs, corePos n y.treeId y.nodeId ≠ corePos n x.treeId x.nodeId := by
      intro y hy h
      exact hnd.1 (h ▸ List.mem_map_of_mem hy)
    obtain ⟨m2, e2, hat2, hag2, hfr2, hro2⟩ := ih (fun y hy => hx y (by simp [hy])) hnd.2 m1 hfr.len hfr.root_len hfr.weight_len
      (fun y hy => (hblank y (by simp [hy])).agree (hag _ (hne y hy)))
    refine ⟨m2, ?_, ?_, ?_, hfr.trans hfr2, ?_⟩
    · rw [List.foldlM_cons, e1]; exact e2
    · intro y hy
      rcases List.mem_cons.1 hy with rfl | hy
      · exact hat.agree (hag2 _ hnd.1)
      · exact hat2 y hy
    · intro i hi
      rw [List.map_cons, List.mem_cons, not_or] at hi
      exact (hag i hi.1).trans (hag2 i hi.2)
    · intro y hy hn
      rcases List.mem_cons.1 hy with rfl | hy
      · exact ⟨hfr2.root _ (hro hn).1, hfr2.weight _ (hro hn).2⟩
      · exact hro2 y hy hn

theorem CTree.id_mem (t : CTree F) : t.id ∈ t.ids := by cases t <;> simp [CTree.id, CTree.ids]

theorem core_encodes {n k : Nat} (t : CTree F) (h : ∀ x ∈ t.nodes k, NodeAt n m x) :
    Encodes m (corePos n k t.id) t.toTree (t.ids.map (corePos n k)) := by
  induction t with
  | leaf i v =>
    have := h ⟨k, i, .leaf v⟩ (by simp [CTree.nodes])
    rcases this with ⟨v', h1, h2, h3⟩ | ⟨f, t, l, r, h1, _⟩
    · simp only [CoreBehavior.leaf.injEq] at h1
      subst h1
      exact .leaf h3.left h3.right h3.feature h2
    · simp [coreChildren] at h1
  | gt i f t y nn ihy ihn =>
    have := h ⟨k, i, .greaterThan f t y.id nn.id⟩ (by simp [CTree.nodes])
    rcases this with ⟨v', h1, _⟩ | ⟨f', t', l', r', h1, h2, h3, h4, h5⟩
    · simp at h1
    · simp only [coreChildren, Option.some.injEq, Prod.mk.injEq] at h1
      obtain ⟨rfl, rfl, rfl, rfl⟩ := h1
      rw [CTree.ids, List.map_cons, List.map_append]
      exact .node h4 h5 h3 h2 (ihn (fun x hx => h x (by simp [CTree.nodes, hx]))) (ihy (fun x hx => h x (by simp [CTree.nodes, hx])))
  | le i f t y nn ihy ihn =>
    have := h ⟨k, i, .lessThanEqual f t y.id nn.id⟩ (by simp [CTree.nodes])
    rcases this with ⟨v', h1, _⟩ | ⟨f', t', l', r', h1, h2, h3, h4, h5⟩
    · simp at h1
    · simp only [coreChildren, Option.some.injEq, Prod.mk.injEq] at h1
      obtain ⟨rfl, rfl, rfl, rfl⟩ := h1
      rw [CTree.ids, List.map_cons, List.map_append]
      exact .node h4 h5 h3 h2 (ihy (fun x hx => h x (by simp [CTree.nodes, hx]))) (ihn (fun x hx => h x (by simp [CTree.nodes, hx])))

theorem nodes_map (t : CTree F) (k : Nat) : (t.nodes k).map (fun x => (x.treeId, x.nodeId)) = t.ids.map (fun i => (k, i)) := by
  induction t with
  | leaf => rfl
  | gt _ _ _ _ _ ihy ihn => simp [CTree.nodes, CTree.ids, ihy, ihn]
  | le _ _ _ _ _ ihy ihn => simp [CTree.nodes, CTree.ids, ihy, ihn]

theorem nodes_good {n K k : Nat} (hk : k < K) (t : CTree F) (hi : ∀ i ∈ t.ids, i < n) (hf : ∀ f ∈ t.toTree.features, f < 2 ^ 15) :
    ∀ x ∈ t.nodes k, GoodNode n K x := by
  induction t with
  | leaf i v =>
    intro x hx
    simp only [CTree.nodes, List.mem_singleton] at hx
    subst hx
    exact ⟨hi i (by simp [CTree.ids]), hk, Or.inl ⟨v, rfl⟩⟩
  | gt i f t y nn ihy ihn =>
    simp only [CTree.ids, CTree.toTree, Spec.Tree.features, List.mem_cons, List.mem_append] at hi hf
    intro x hx
    simp only [CTree.nodes, List.mem_cons, List.mem_append] at hx
    rcases hx with rfl | hx | hx
    · exact ⟨hi i (by simp), hk, Or.inr ⟨f, t, nn.id, y.id, rfl, hf f (by simp), hi _ (by simp [CTree.id_mem]), hi _ (by simp [CTree.id_mem])⟩⟩
    · exact ihn (fun j hj => hi j (by simp [hj])) (fun j hj => hf j (by simp [hj])) x hx
    · exact ihy (fun j hj => hi j (by simp [hj])) (fun j hj => hf j (by simp [hj])) x hx
  | le i f t y nn ihy ihn =>
    simp only [CTree.ids, CTree.toTree, Spec.Tree.features, List.mem_cons, List.mem_append] at hi hf
    intro x hx
    simp only [CTree.nodes, List.mem_cons, List.mem_append] at hx
    rcases hx with rfl | hx | hx
    · exact ⟨hi i (by simp), hk, Or.inr ⟨f, t, y.id, nn.id, rfl, hf f (by simp), hi _ (by simp [CTree.id_mem]), hi _ (by simp [CTree.id_mem])⟩⟩
    · exact ihy (fun j hj => hi j (by simp [hj])) (fun j hj => hf j (by simp [hj])) x hx
    · exact ihn (fun j hj => hi j (by simp [hj])) (fun j hj => hf j (by simp [hj])) x hx

theorem CTree.length_ids (t : CTree F) : t.ids.length = t.toTree.numNodes := by
  induction t with
  | leaf => rfl
  | gt _ _ _ _ _ ihy ihn => simp only [CTree.ids, CTree.toTree, Spec.Tree.numNodes, List.length_cons, List.length_append, ihy, ihn]; omega
  | le _ _ _ _ _ ihy ihn => simp only [CTree.ids, CTree.toTree, Spec.Tree.numNodes, List.length_cons, List.length_append, ihy, ihn]; omega

theorem ids_pos_perm {n : Nat} (k : Nat) {l : List Nat} (h : l.Perm (List.range n)) :
    (l.map (corePos n k)).Perm (List.range' (k * n) n) := by
  have h1 : (l.map (corePos n k)).Nodup := by
    refine List.Nodup.map_on ?_ ((h.nodup_iff).2 List.nodup_range)
    intro x hx y hy hxy
    have hx' := List.mem_range.1 (h.mem_iff.1 hx)
    have hy' := List.mem_range.1 (h.mem_iff.1 hy)
    unfold corePos at hxy
    omega
  have h2 : (List.range' (k * n) n).Nodup := List.nodup_range'
  rw [List.perm_ext_iff_of_nodup h1 h2]
  intro j
  rw [List.mem_map, List.mem_range'_1]
  constructor
  · rintro ⟨i, hi, rfl⟩
    have hi' := List.mem_range.1 (h.mem_iff.1 hi)
    unfold corePos
    omega
  · rintro ⟨h3, h4⟩
    refine ⟨n - 1 - (j - k * n), h.mem_iff.2 (List.mem_range.2 (by omega)), ?_⟩
    unfold corePos
    omega

theorem nodes_pos (n k : Nat) (t : CTree F) :
    (t.nodes k).map (fun x => corePos n x.treeId x.nodeId) = t.ids.map (corePos n k) := by
  have := congrArg (List.map (fun p : Nat × Nat => corePos n p.1 p.2)) (nodes_map t k)
  simpa [List.map_map, Function.comp_def] using this

theorem coreNodes_pos {n : Nat} (ts : List (CTree F)) (k : Nat) (h : ∀ t ∈ ts, t.ids.Perm (List.range n)) :
    ((coreNodes k ts).map (fun x => corePos n x.treeId x.nodeId)).Perm (List.range' (k * n) (ts.length * n)) := by
  induction ts generalizing k with
  | nil => simp [coreNodes]
  | cons t ts ih =>
    rw [coreNodes, List.map_append, nodes_pos, List.length_cons, Nat.add_mul, Nat.one_mul, Nat.add_comm (ts.length * n) n,
      ← List.range'_append_1]
    refine (ids_pos_perm k (h t (by simp))).append ?_
    have := ih (k + 1) (fun t ht => h t (by simp [ht]))
    rwa [Nat.add_mul, Nat.one_mul] at this

theorem mem_coreNodes {ts : List (CTree F)} {k : Nat} {x : CoreNode F} :
    x ∈ coreNodes k ts ↔ ∃ (j : Nat) (t : CTree F), ts[j]? = some t ∧ x ∈ t.nodes (k + j) := by
  induction ts generalizing k with
  | nil => simp [coreNodes]
  | cons t ts ih =>
    rw [coreNodes, List.mem_append, ih]
    constructor
    · rintro (h | ⟨j, t', h1, h2⟩)
      · exact ⟨0, t, rfl, by simpa using h⟩
      · exact ⟨j + 1, t', by simpa using h1, by rw [show k + (j + 1) = k + 1 + j by omega]; exact h2⟩
    · rintro ⟨j, t', h1, h2⟩
      cases j with
      | zero => simp at h1; subst h1; exact Or.inl (by simpa using h2)
      | succ j => exact Or.inr ⟨j, t', by simpa using h1, by rw [show k + 1 + j = k + (j + 1) by omega]; exact h2⟩

theorem foldl_max_eq {l : List Nat} {M : Nat} (h1 : ∀ x ∈ l, x ≤ M) (h2 : M ∈ l) (a : Nat) (ha : a ≤ M) : l.foldl max a = M := by
  induction l generalizing a with
  | nil => simp at h2
  | cons x l ih =>
    rw [List.foldl_cons]
    have hx := h1 x (by simp)
    rcases List.mem_cons.1 h2 with rfl | h2
    · have : ∀ (l : List Nat) (a : Nat), (∀ x ∈ l, x ≤ a) → l.foldl max a = a := by
        intro l
        induction l with
        | nil => intro a _; rfl
        | cons y l ih => intro a h; rw [List.foldl_cons, max_eq_left (h y (by simp)), ih a (fun z hz => h z (by simp [hz]))]
      rw [max_eq_right ha]
      exact this l _ (fun y hy => h1 y (by simp [hy]))
    · exact ih (fun y hy => h1 y (by simp [hy])) h2 _ (max_le ha hx)

theorem foldl_set_length (xs : List (CoreNode F)) (a : List Nat) :
    (xs.foldl (fun a x => a.set x.treeId (x.nodeId % 2 ^ 16)) a).length = a.length := by
  induction xs generalizing a with
  | nil => rfl
  | cons x xs ih => rw [List.foldl_cons, ih, List.length_set]

theorem foldl_set_other {xs : List (CoreNode F)} {k : Nat} (h : ∀ y ∈ xs, y.treeId ≠ k) (a : List Nat) :
    (xs.foldl (fun a x => a.set x.treeId (x.nodeId % 2 ^ 16)) a)[k]? = a[k]? := by
  induction xs generalizing a with
  | nil => rfl
  | cons x xs ih =>
    rw [List.foldl_cons, ih (fun y hy => h y (by simp [hy])), List.getElem?_set_ne (h x (by simp))]

theorem coreLast_get {xs : List (CoreNode F)} {empty : Nat → List Nat} {K k i : Nat} (he : (empty K).length = K) (hk : k < K)
    (h : LastListed xs k i) : (coreLast empty K xs)[k]? = some (i % 2 ^ 16) := by
  obtain ⟨pre, x, post, rfl, h1, h2, h3⟩ := h
  unfold coreLast
  rw [List.foldl_append, List.foldl_cons, foldl_set_other h3, h1, h2, List.getElem?_set_self (by rw [foldl_set_length, he]; exact hk)]

theorem forest_numNodes_const {fo : Forest F} {n : Nat} (h : ∀ p ∈ fo, p.1.numNodes = n) : Forest.numNodes fo = fo.length * n := by
  unfold Forest.numNodes
  rw [List.eq_replicate_of_mem (l := fo.map (fun p => p.1.numNodes)) (a := n) (by
    intro b hb
    obtain ⟨p, hp, rfl⟩ := List.mem_map.1 hb
    exact h p hp)]
  simp

end Ensemble
end Verif
