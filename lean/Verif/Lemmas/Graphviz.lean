/-
Lemmas about `export_graphviz`.
-/
import Verif.Model.Graphviz
import Verif.Spec.Graphviz
import Verif.Lemmas.Ensemble

namespace Verif
open Spec Ensemble Dot
variable {F K : Type}

namespace Spec.IdTree

/-- The arrays hold the tree at its ids. -/
def Holds (m : Ensemble F) : IdTree F → Prop
  | leaf i v => m.left[i]? = some (-1) ∧ m.right[i]? = some (-1) ∧ m.feature[i]? = some (-1) ∧ m.value[i]? = some v
  | node i f t l r => m.left[i]? = some (l.id : Int) ∧ m.right[i]? = some (r.id : Int) ∧ m.feature[i]? = some (f : Int) ∧ m.value[i]? = some t ∧
      Holds m l ∧ Holds m r

theorem items_ids (it : IdTree F) : ∀ d p, (it.items d p).map NodeItem.id = it.ids := by
  unfold ids
  induction it with
  | leaf i v => intro d p; rfl
  | node i f t l r ihl ihr =>
    intro d p
    simp only [items, List.map_cons, List.map_append]
    rw [ihl (d + 1), ihr (d + 1), ihl (0 + 1), ihr (0 + 1)]

theorem ids_leaf (i : Nat) (v : F) : (leaf i v).ids = [i] := rfl

theorem ids_node (i f : Nat) (t : F) (l r : IdTree F) : (node i f t l r).ids = i :: (l.ids ++ r.ids) := by
  show (items _ 0 none).map NodeItem.id = _
  simp only [items, List.map_cons, List.map_append, items_ids]

theorem id_mem (it : IdTree F) : it.id ∈ it.ids := by
  cases it with
  | leaf i v => simp [ids_leaf, id]
  | node i f t l r => simp [ids_node, id]

theorem _root_.Verif.Spec.Encodes.idTree {m : Ensemble F} {i : Nat} {t : Tree F} {s : List Nat} (h : Encodes m i t s) :
    ∃ it : IdTree F, it.erase = t ∧ it.ids = s ∧ it.id = i ∧ it.Holds m := by
  induction h with
  | leaf hl hr hf hv => exact ⟨.leaf _ _, rfl, rfl, rfl, hl, hr, hf, hv⟩
  | node hl hr hf hv _ _ ihl ihr =>
    obtain ⟨a, a1, a2, a3, a4⟩ := ihl
    obtain ⟨b, b1, b2, b3, b4⟩ := ihr
    refine ⟨.node _ _ _ a b, ?_, ?_, rfl, ?_, ?_, hf, hv, a4, b4⟩
    · simp [erase, a1, b1]
    · rw [ids_node, a2, b2]
    · rw [a3]; exact hl
    · rw [b3]; exact hr

theorem _root_.Verif.Spec.Encodes.unique {m : Ensemble F} {i : Nat} {t : Tree F} {s : List Nat} (h : Encodes m i t s) :
    ∀ {t' s'}, Encodes m i t' s' → t' = t ∧ s' = s := by
  induction h with
  | leaf hl hr hf hv =>
    intro t' s' h'
    cases h' with
    | leaf hl' hr' hf' hv' => rw [hv] at hv'; cases hv'; exact ⟨rfl, rfl⟩
    | node hl' hr' hf' hv' _ _ => rw [hl] at hl'; simp at hl'
  | node hl hr hf hv _ _ ihl ihr =>
    intro t' s' h'
    cases h' with
    | leaf hl' hr' hf' hv' => rw [hl] at hl'; simp at hl'
    | node hl' hr' hf' hv' el' er' =>
      rw [hl] at hl'; rw [hr] at hr'; rw [hf] at hf'; rw [hv] at hv'
      simp at hl' hr' hf' hv'
      subst hl' hr' hf' hv'
      obtain ⟨rfl, rfl⟩ := ihl el'
      obtain ⟨rfl, rfl⟩ := ihr er'
      exact ⟨rfl, rfl⟩

/-- The leaf at which a document leaves the tree. -/
def exitId (left : Nat → F → Bool) : IdTree F → Nat
  | leaf i _ => i
  | node _ f t l r => if left f t then l.exitId left else r.exitId left

theorem exitId_mem (left : Nat → F → Bool) (it : IdTree F) : it.exitId left ∈ it.ids := by
  induction it with
  | leaf i v => simp [exitId, ids_leaf]
  | node i f t l r ihl ihr =>
    rw [exitId, ids_node]
    split <;> simp [ihl, ihr]

theorem path_subset (left : Nat → F → Bool) (it : IdTree F) : ∀ j ∈ it.path left, j ∈ it.ids := by
  induction it with
  | leaf i v => simp [path, ids_leaf]
  | node i f t l r ihl ihr =>
    intro j hj
    rw [path] at hj
    rw [ids_node]
    rcases List.mem_cons.1 hj with rfl | hj
    · simp
    · split at hj
      · simp [ihl j hj]
      · simp [ihr j hj]

theorem numNodes_erase (it : IdTree F) : it.erase.numNodes = it.ids.length := by
  induction it with
  | leaf i v => rfl
  | node i f t l r ihl ihr => rw [ids_node]; simp [erase, Tree.numNodes, ihl, ihr]; omega

theorem ids_exitPos (left : Nat → F → Bool) (it : IdTree F) : it.ids[it.erase.exitPos left]? = some (it.exitId left) := by
  induction it with
  | leaf i v => rfl
  | node i f t l r ihl ihr =>
    rw [ids_node, erase, Tree.exitPos, exitId]
    split
    · rw [Nat.add_comm, List.getElem?_cons_succ, List.getElem?_append_left, ihl]
      rw [← numNodes_erase]
      exact Tree.exitPos_lt _ _
    · rw [show 1 + l.erase.numNodes + r.erase.exitPos left = (l.ids.length + r.erase.exitPos left) + 1 by rw [numNodes_erase]; omega,
        List.getElem?_cons_succ, List.getElem?_append_right (by omega), Nat.add_sub_cancel_left, ihr]

end Spec.IdTree

namespace Dot
open Spec.IdTree

theorem isLeafNode_leaf {m : Ensemble F} {i : Nat} (hl : m.left[i]? = some (-1)) (hr : m.right[i]? = some (-1)) :
    isLeafNode m (i : Int) = .ok true := by
  unfold isLeafNode
  rw [pyGet_ok hl, pyGet_ok hr]
  rfl

theorem isLeafNode_node {m : Ensemble F} {i l : Nat} (hl : m.left[i]? = some (l : Int)) : isLeafNode m (i : Int) = .ok false := by
  unfold isLeafNode
  rw [pyGet_ok hl]
  simp only [bind, Except.bind]
  rw [if_neg (by omega)]
  rfl

/-- The value of a key. -/
def cnt (d : Counts) (k : Int) : Nat := (getCount d k).1

theorem cnt_eq (d : Counts) (k : Int) : cnt d k = (d.lookup k).elim 0 id := by
  unfold cnt getCount
  cases d.lookup k <;> rfl

theorem lookup_append_new (d : Counts) (k : Int) (v : Nat) (j : Int) (h : d.lookup k = none) :
    (d ++ [(k, v)]).lookup j = if j = k then some v else d.lookup j := by
  rw [List.lookup_append]
  by_cases hj : j = k
  · subst hj
    simp [h]
  · have : (j == k) = false := by simpa using hj
    simp [hj, List.lookup_cons, this]

theorem cnt_getCount (d : Counts) (k j : Int) : cnt (getCount d k).2 j = cnt d j := by
  rw [cnt_eq, cnt_eq]
  unfold getCount
  cases h : d.lookup k with
  | some v => rfl
  | none =>
    simp only
    rw [lookup_append_new d k 0 j h]
    split
    · rename_i hj; subst hj; simp [h]
    · rfl

theorem lookup_map_set (d : Counts) (k : Int) (v : Nat) (j : Int) :
    (d.map (fun p => if p.1 = k then (k, v) else p)).lookup j = if j = k then (d.lookup k).map (fun _ => v) else d.lookup j := by
  induction d with
  | nil => simp
  | cons p d ih =>
    obtain ⟨a, b⟩ := p
    rw [List.map_cons]
    by_cases ha : a = k
    · subst ha
      simp only [if_true, List.lookup_cons]
      by_cases hj : j = a
      · subst hj; simp
      · have : (j == a) = false := by simpa using hj
        simp only [this, ih, hj, if_false]
    · simp only [ha, if_false, List.lookup_cons]
      by_cases hj : j = k
      · subst hj
        have : (j == a) = false := by simpa using fun h => ha h.symm
        simp only [this, ih, if_true]
      · simp only [ih, hj, if_false]

theorem cnt_setCount (d : Counts) (k : Int) (v : Nat) (j : Int) : cnt (setCount d k v) j = if j = k then v else cnt d j := by
  rw [cnt_eq, cnt_eq]
  unfold setCount
  cases h : d.lookup k with
  | some w =>
    simp only
    rw [lookup_map_set, h]
    split <;> simp
  | none =>
    simp only
    rw [lookup_append_new d k v j h]
    split <;> simp

theorem mem_of_lookup {d : Counts} {k : Int} {v : Nat} (h : d.lookup k = some v) : (k, v) ∈ d := by
  induction d with
  | nil => simp at h
  | cons p d ih =>
    obtain ⟨a, b⟩ := p
    rw [List.lookup_cons] at h
    by_cases hk : k = a
    · subst hk
      simp at h
      simp [h]
    · have : (k == a) = false := by simpa using hk
      rw [this] at h
      exact List.mem_cons_of_mem _ (ih h)

theorem getCount_le {d : Counts} {B : Nat} (h : ∀ p ∈ d, p.2 ≤ B) (k : Int) : ∀ p ∈ (getCount d k).2, p.2 ≤ B := by
  unfold getCount
  split
  · exact h
  · intro p hp
    rcases List.mem_append.1 hp with hp | hp
    · exact h p hp
    · simp at hp; subst hp; simp

theorem setCount_le {d : Counts} {B : Nat} (h : ∀ p ∈ d, p.2 ≤ B) (k : Int) {v : Nat} (hv : v ≤ B) : ∀ p ∈ setCount d k v, p.2 ≤ B := by
  unfold setCount
  split
  · intro p hp
    obtain ⟨q, hq, rfl⟩ := List.mem_map.1 hp
    split
    · exact hv
    · exact h q hq
  · intro p hp
    rcases List.mem_append.1 hp with hp | hp
    · exact h p hp
    · simp at hp; subst hp; exact hv

theorem getCount_mem (d : Counts) (k : Int) : (k, (getCount d k).1) ∈ (getCount d k).2 := by
  unfold getCount
  cases h : d.lookup k with
  | some v => exact mem_of_lookup h
  | none => simp

theorem setCount_mem (d : Counts) (k : Int) (v : Nat) : (k, v) ∈ setCount d k v := by
  have h : (setCount d k v).lookup k = some v := by
    unfold setCount
    cases h : d.lookup k with
    | some w => simp only; rw [lookup_map_set, h]; simp
    | none => simp only; rw [lookup_append_new d k v k h]; simp
  exact mem_of_lookup h

theorem exOk {A B : Type} (x : A) (f : A → Except PyErr B) : (Except.ok x >>= f) = f x := rfl

/-- The recursion counts, for each node, the documents that pass it. -/
theorem recursiveCount_eq {m : Ensemble F} {it : IdTree F} (h : it.Holds m) (hnd : it.ids.Nodup) :
    ∀ (X : List (Nat → F → Bool)) (d : Counts) (B fuel : Nat), it.erase.height < fuel → X.length ≤ B → (∀ p ∈ d, p.2 ≤ B) →
      (∀ j ∈ it.ids, isLeafNode m (j : Int) = .ok true → cnt d (j : Int) = X.countP (fun left => it.exitId left = j)) →
      ∃ d', recursiveCount m fuel d (it.id : Int) = .ok (X.length, d') ∧ (∀ j ∈ it.ids, cnt d' (j : Int) = X.countP (fun left => j ∈ it.path left)) ∧
        (∀ j : Nat, j ∉ it.ids → cnt d' (j : Int) = cnt d (j : Int)) ∧ (∀ p ∈ d', p.2 ≤ B) ∧ ((it.id : Int), X.length) ∈ d' := by
  induction it with
  | leaf i v =>
    intro X d B fuel hfuel hB hd hc
    obtain ⟨hl, hr, hf, hv⟩ := h
    obtain ⟨fuel, rfl⟩ := Nat.exists_eq_succ_of_ne_zero (by omega : fuel ≠ 0)
    have hleaf := isLeafNode_leaf hl hr
    have hci : cnt d (i : Int) = X.length := by
      rw [hc i (by simp [ids_leaf]) hleaf]
      simp [exitId]
    have hci' : (getCount d (i : Int)).1 = X.length := hci
    refine ⟨(getCount d (i : Int)).2, ?_, ?_, ?_, getCount_le hd _, ?_⟩
    · unfold recursiveCount
      rw [show (leaf i v).id = i from rfl, hleaf, exOk, if_pos rfl]
      rw [← hci']
      rfl
    · intro j hj
      simp only [ids_leaf, List.mem_singleton] at hj
      subst hj
      rw [cnt_getCount, hci]
      simp [path]
    · intro j _
      rw [cnt_getCount]
    · have := getCount_mem d (i : Int)
      rw [hci'] at this
      exact this
  | node i f t l r ihl ihr =>
    intro X d B fuel hfuel hB hd hc
    obtain ⟨hl, hr, hf, hv, Hl, Hr⟩ := h
    rw [ids_node, List.nodup_cons, List.nodup_append] at hnd
    obtain ⟨hi, hnl, hnr, hdis⟩ := hnd
    simp only [List.mem_append, not_or] at hi
    simp only [erase, Spec.Tree.height] at hfuel
    obtain ⟨fuel, rfl⟩ := Nat.exists_eq_succ_of_ne_zero (by omega : fuel ≠ 0)
    have hlr : ∀ j, j ∈ l.ids → j ∈ r.ids → False := fun j h1 h2 => hdis j h1 j h2 rfl
    obtain ⟨d1, e1, c1, k1, b1, -⟩ := ihl Hl hnl (X.filter (fun left => left f t)) d B fuel (by omega) (le_trans (List.length_filter_le _ _) hB) hd (by
      intro j hj hleaf
      rw [hc j (by rw [ids_node]; simp [hj]) hleaf, List.countP_filter]
      apply List.countP_congr
      intro left _
      simp only [exitId]
      split
      · rename_i h0; simp [h0]
      · rename_i h0
        simp only [h0, decide_eq_true_eq, Bool.and_false]
        simp
        intro h1
        exact hlr j hj (h1 ▸ exitId_mem left r))
    obtain ⟨d2, e2, c2, k2, b2, -⟩ := ihr Hr hnr (X.filter (fun left => !left f t)) d1 B fuel (by omega) (le_trans (List.length_filter_le _ _) hB) b1 (by
      intro j hj hleaf
      rw [k1 j (fun h0 => hlr j h0 hj), hc j (by rw [ids_node]; simp [hj]) hleaf, List.countP_filter]
      apply List.countP_congr
      intro left _
      simp only [exitId]
      split
      · rename_i h0
        simp only [h0, decide_eq_true_eq, Bool.not_true, Bool.and_false]
        simp
        intro h1
        exact hlr j (h1 ▸ exitId_mem left l) hj
      · rename_i h0; simp [h0])
    have hsum : (X.filter (fun left => left f t)).length + (X.filter (fun left => !left f t)).length = X.length :=
      (List.length_eq_length_filter_add _).symm
    refine ⟨setCount d2 (i : Int) X.length, ?_, ?_, ?_, setCount_le b2 _ hB, setCount_mem _ _ _⟩
    · unfold recursiveCount
      rw [show (node i f t l r).id = i from rfl, isLeafNode_node hl, exOk, if_neg (by simp), pyGet_ok hl, exOk, e1, exOk]
      simp only
      rw [pyGet_ok hr, exOk, e2, exOk, hsum]
      rfl
    · intro j hj
      rw [ids_node, List.mem_cons, List.mem_append] at hj
      rw [cnt_setCount]
      by_cases hji : j = i
      · subst hji
        simp [path]
      · rw [if_neg (by omega)]
        rcases hj with rfl | hj | hj
        · exact absurd rfl hji
        · rw [k2 j (fun h0 => hlr j hj h0), c1 j hj, List.countP_filter]
          apply List.countP_congr
          intro left _
          simp only [path, List.mem_cons, hji, false_or]
          split
          · rename_i h0; simp [h0]
          · rename_i h0
            simp only [h0, Bool.and_false]
            simp
            intro h1
            exact hlr j hj (path_subset left r j h1)
        · rw [c2 j hj, List.countP_filter]
          apply List.countP_congr
          intro left _
          simp only [path, List.mem_cons, hji, false_or]
          split
          · rename_i h0
            simp only [h0, Bool.not_true, Bool.and_false]
            simp
            intro h1
            exact hlr j (path_subset left l j h1) hj
          · rename_i h0; simp [h0]
    · intro j hj
      rw [ids_node, List.mem_cons, List.mem_append, not_or, not_or] at hj
      rw [cnt_setCount, if_neg (by omega), k2 j hj.2.2, k1 j hj.2.1]

theorem items_depth (it : IdTree F) : ∀ d p, ∀ n ∈ it.items d p, d ≤ n.depth := by
  induction it with
  | leaf i v => intro d p n hn; simp [items] at hn; simp [hn]
  | node i f t l r ihl ihr =>
    intro d p n hn
    simp only [items, List.mem_cons, List.mem_append] at hn
    rcases hn with rfl | hn | hn
    · exact le_rfl
    · have := ihl _ _ n hn; omega
    · have := ihr _ _ n hn; omega

theorem within_le {mx : Option Nat} {a b : Nat} (hab : a ≤ b) (h : within mx b = true) : within mx a = true := by
  cases mx with
  | none => rfl
  | some d => simp [within] at h ⊢; omega

section
variable [Field K] {round : F → F} {m : Ensemble F} {o : Options} {treeId : Nat} {counts : Option (Counts × Nat)}

/-- The count of a node in the label. -/
def itemCount (o : Options) (counts : Option (Counts × Nat)) (n : NodeItem F) : Option (Nat × Option K) :=
  countLabel o counts (match n.info with | .output _ => true | .split _ _ => false) n.id

theorem nodeText_leaf {i : Nat} {v : F} (h : (IdTree.leaf i v).Holds m) {name : Nat → FeatureText} (d : Nat) (p : Option (Nat × Bool)) :
    nodeText (K := K) round m o counts (i : Int) = .ok ⟨if o.nodeIds then some (i : Int) else none, itemCount o counts ⟨d, i, p, .output v⟩,
      criterion round name (.output v)⟩ := by
  obtain ⟨hl, hr, hf, hv⟩ := h
  unfold nodeText
  rw [isLeafNode_leaf hl hr, exOk, pyGet_ok hv, exOk]
  rfl

theorem nodeText_node {i f : Nat} {t : F} {l r : IdTree F} (h : (IdTree.node i f t l r).Holds m) {name : Nat → FeatureText}
    (hname : match o.featureNames with | none => name f = .index f | some names => ∃ s, names[f]? = some s ∧ name f = .name s)
    (d : Nat) (p : Option (Nat × Bool)) :
    nodeText (K := K) round m o counts (i : Int) = .ok ⟨if o.nodeIds then some (i : Int) else none, itemCount o counts ⟨d, i, p, .split f t⟩,
      criterion round name (.split f t)⟩ := by
  obtain ⟨hl, hr, hf, hv, -, -⟩ := h
  unfold nodeText
  rw [isLeafNode_node hl, exOk, pyGet_ok hv, exOk]
  simp only [Bool.false_eq_true, if_false]
  rw [pyGet_ok hf, exOk]
  cases hn : o.featureNames with
  | none =>
    rw [hn] at hname
    simp only at hname
    simp only [featureText, hn, criterion, hname]
    rfl
  | some names =>
    rw [hn] at hname
    obtain ⟨s, h1, h2⟩ := hname
    simp only [featureText, hn, criterion, h2]
    rw [pyGet_ok h1]
    rfl

/-- Names for the features of a tree. -/
def NamesFor (o : Options) (name : Nat → FeatureText) (f : Nat) : Prop :=
  match o.featureNames with
  | none => name f = .index f
  | some names => ∃ s, names[f]? = some s ∧ name f = .name s

theorem recurse_eq {name : Nat → FeatureText} {root : Nat} (hroot : m.root[treeId]? = some (root : Int)) {it : IdTree F} (h : it.Holds m)
    (hnd : it.ids.Nodup) (hname : ∀ f ∈ it.erase.features, NamesFor o name f) :
    ∀ (fuel depth : Nat) (p : Option (Nat × Bool)), it.erase.height < fuel → within o.maxDepth (depth - 1) = true →
      (match p with
        | none => depth = 0 ∧ it.id = root
        | some (q, isLeft) => 1 ≤ depth ∧ root ∉ it.ids ∧ (depth = 1 ↔ q = root) ∧ ∃ l : Nat, m.left[q]? = some (l : Int) ∧ (isLeft = true ↔ l = it.id)) →
      recurse (K := K) round m o treeId counts fuel (it.id : Int) (p.map (fun q => (q.1 : Int))) depth =
        .ok (((it.items depth p).filter (fun n => within o.maxDepth (n.depth - 1))).flatMap
          (drawItem round name o.nodeIds (itemCount o counts) o.maxDepth)) := by
  have hbad : ∀ {it : IdTree F} {p : Option (Nat × Bool)} {depth : Nat}, (match p with
        | none => depth = 0 ∧ it.id = root
        | some (q, isLeft) => 1 ≤ depth ∧ root ∉ it.ids ∧ (depth = 1 ↔ q = root) ∧ ∃ l : Nat, m.left[q]? = some (l : Int) ∧ (isLeft = true ↔ l = it.id)) →
      parentIsLeaf m (p.map (fun q => (q.1 : Int))) = .ok false := by
    intro it p depth hp
    cases p with
    | none => rfl
    | some q => exact isLeafNode_node hp.2.2.2.choose_spec.1
  have hedge : ∀ {it : IdTree F} {p : Option (Nat × Bool)} {depth : Nat}, within o.maxDepth depth = true → (match p with
        | none => depth = 0 ∧ it.id = root
        | some (q, isLeft) => 1 ≤ depth ∧ root ∉ it.ids ∧ (depth = 1 ↔ q = root) ∧ ∃ l : Nat, m.left[q]? = some (l : Int) ∧ (isLeft = true ↔ l = it.id)) →
      edgeTo (F := F) (K := K) m treeId (p.map (fun q => (q.1 : Int))) (it.id : Int) = .ok (match p with
        | none => []
        | some (q, isLeft) => [.edge q it.id (if depth = 1 ∧ within o.maxDepth depth then some isLeft else none)]) := by
    intro it p depth hw hp
    cases p with
    | none => rfl
    | some q =>
      obtain ⟨q, b⟩ := q
      obtain ⟨h1, h2, h3, l, h4, h5⟩ := hp
      show edgeTo m treeId (some (q : Int)) (it.id : Int) = _
      unfold edgeTo
      simp only
      rw [pyGet_ok hroot, exOk]
      by_cases hq : q = root
      · subst hq
        rw [if_pos rfl, pyGet_ok h4, exOk]
        have h6 := h3.2 rfl
        subst h6
        simp only [hw, if_true, and_self]
        have : ((l : Int) == (it.id : Int)) = b := by
          rw [Bool.eq_iff_iff, beq_iff_eq, Nat.cast_inj]
          exact h5.symm
        rw [this]
        rfl
      · rw [if_neg (by omega)]
        simp only [h3, hq, false_and, if_false]
        rfl
  induction it with
  | leaf i v =>
    intro fuel depth p hfuel hpar hp
    obtain ⟨fuel, rfl⟩ := Nat.exists_eq_succ_of_ne_zero (by omega : fuel ≠ 0)
    unfold recurse
    rw [hbad hp, exOk]
    simp only [Bool.false_eq_true, if_false]
    simp only [items, List.filter_cons, List.filter_nil, hpar, if_true, List.flatMap_cons, List.flatMap_nil, List.append_nil]
    by_cases hw : within o.maxDepth depth = true
    · rw [if_pos (show Option.all (fun d => decide (depth ≤ d)) o.maxDepth = true from hw)]
      have h0 := h
      obtain ⟨hl, hr, -, -⟩ := h
      have hid : (IdTree.leaf i v).id = i := rfl
      rw [hid, isLeafNode_leaf hl hr, exOk, nodeText_leaf h0 (name := name) depth p, exOk]
      have he := hedge (it := IdTree.leaf i v) hw hp
      rw [hid] at he
      rw [he, exOk, if_pos rfl]
      unfold drawItem
      simp only [hw, if_true]
      cases p <;> rfl
    · rw [if_neg (by simpa [within] using hw)]
      unfold drawItem
      simp only [hw]
      cases p with
      | none => rfl
      | some q => simp [IdTree.id]; rfl
  | node i f t l r ihl ihr =>
    intro fuel depth p hfuel hpar hp
    simp only [erase, Spec.Tree.height] at hfuel
    obtain ⟨fuel, rfl⟩ := Nat.exists_eq_succ_of_ne_zero (by omega : fuel ≠ 0)
    have hid : (IdTree.node i f t l r).id = i := rfl
    unfold recurse
    rw [hbad hp, exOk]
    simp only [Bool.false_eq_true, if_false]
    by_cases hw : within o.maxDepth depth = true
    · rw [if_pos (show Option.all (fun d => decide (depth ≤ d)) o.maxDepth = true from hw)]
      have h0 := h
      obtain ⟨hl, hr, -, -, Hl, Hr⟩ := h
      have hnd0 := hnd
      rw [ids_node, List.nodup_cons, List.nodup_append] at hnd
      obtain ⟨hi, hnl, hnr, hdis⟩ := hnd
      simp only [List.mem_append, not_or] at hi
      have hne : l.id ≠ r.id := fun h1 => hdis l.id (id_mem l) r.id (id_mem r) h1
      have hrootl : root ∉ l.ids ∧ root ∉ r.ids ∧ (depth + 1 = 1 ↔ i = root) := by
        cases p with
        | none =>
          obtain ⟨h1, h2⟩ := hp
          rw [hid] at h2
          subst h2
          exact ⟨hi.1, hi.2, by simp [h1]⟩
        | some q =>
          obtain ⟨h1, h2, -⟩ := hp
          rw [ids_node, List.mem_cons, List.mem_append, not_or, not_or] at h2
          exact ⟨h2.2.1, h2.2.2, by constructor <;> intro h3 <;> [omega; exact absurd h3.symm h2.1]⟩
      rw [hid, isLeafNode_node hl, exOk, nodeText_node h0 (name := name) (hname f (by simp [erase, Spec.Tree.features])) depth p, exOk]
      have he := hedge (it := IdTree.node i f t l r) hw hp
      rw [hid] at he
      rw [he, exOk, if_neg (by simp), pyGet_ok hl, exOk]
      have hleft := ihl Hl hnl (fun g hg => hname g (by simp [erase, Spec.Tree.features, hg])) fuel (depth + 1) (some (i, true)) (by omega) hw
        ⟨by omega, hrootl.1, hrootl.2.2, l.id, hl, by simp⟩
      have hright := ihr Hr hnr (fun g hg => hname g (by simp [erase, Spec.Tree.features, hg])) fuel (depth + 1) (some (i, false)) (by omega) hw
        ⟨by omega, hrootl.2.1, hrootl.2.2, l.id, hl, by simp [hne]⟩
      simp only [Option.map_some] at hleft hright
      rw [hleft, exOk, pyGet_ok hr, exOk, hright, exOk]
      simp only [items, List.filter_cons, hpar, if_true, List.flatMap_cons, List.filter_append, List.flatMap_append]
      congr 1
      rw [← List.append_assoc]
      congr 2
      unfold drawItem
      simp only [hw, if_true]
      cases p <;> rfl
    · rw [if_neg (by simpa [within] using hw)]
      have hnil : ∀ (s : IdTree F) q, (s.items (depth + 1) q).filter (fun n => within o.maxDepth (n.depth - 1)) = [] := by
        intro s q
        rw [List.filter_eq_nil_iff]
        intro n hn h1
        have := items_depth s _ _ n hn
        exact hw (within_le (by omega) h1)
      simp only [items, List.filter_cons, hpar, if_true, List.filter_append, hnil, List.append_nil, List.flatMap_cons, List.flatMap_nil]
      unfold drawItem
      simp only [hw]
      cases p with
      | none => rfl
      | some q => simp [hid]; rfl

end

end Dot
end Verif
