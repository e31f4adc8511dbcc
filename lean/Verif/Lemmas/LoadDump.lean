/-
Lemmas for the loaders of text dumps: the stack machine rebuilds each tree.
-/
import Verif.Spec.Dump
import Verif.Lemmas.Loader

namespace Verif
open Spec
namespace Ensemble
variable {F : Type}

/-- Where the loop puts the nodes of a tree, in the order of the lines. -/
def dumpPos (cfg : DumpCfg F) (root : Nat) : Nat → LTree F → List Nat
  | num, .leaf id _ => [(if cfg.fileIds then id else num) + root]
  | num, .node id _ _ l r =>
    ((if cfg.fileIds then id else num) + root) ::
      (dumpPos cfg root (num + 1) l ++ dumpPos cfg root (num + 1 + (l.toTree cfg.threshold).numNodes) r)

theorem dumpPos_ids {cfg : DumpCfg F} (h : cfg.fileIds = true) (root num : Nat) (t : LTree F) :
    dumpPos cfg root num t = t.ids.map (· + root) := by
  induction t generalizing num with
  | leaf id v => simp [dumpPos, LTree.ids, h]
  | node id f th l r ihl ihr => simp [dumpPos, LTree.ids, h, ihl, ihr]

theorem dumpPos_count {cfg : DumpCfg F} (h : cfg.fileIds = false) (root num : Nat) (t : LTree F) :
    dumpPos cfg root num t = List.range' (num + root) (t.toTree cfg.threshold).numNodes := by
  induction t generalizing num with
  | leaf id v => simp [dumpPos, LTree.toTree, Spec.Tree.numNodes, h]
  | node id f th l r ihl ihr =>
    simp only [dumpPos, h, ihl, ihr, LTree.toTree, Spec.Tree.numNodes, Bool.false_eq_true, ↓reduceIte]
    rw [Nat.add_assoc 1, Nat.add_comm 1, List.range'_succ]
    congr 1
    have e1 : num + 1 + root = num + root + 1 := by omega
    have e2 : num + 1 + (l.toTree cfg.threshold).numNodes + root = num + root + 1 + 1 * (l.toTree cfg.threshold).numNodes := by omega
    rw [e1, e2, List.range'_append]

theorem dumpPos_length (cfg : DumpCfg F) (root num : Nat) (t : LTree F) :
    (dumpPos cfg root num t).length = (t.toTree cfg.threshold).numNodes := by
  induction t generalizing num with
  | leaf id v => rfl
  | node id f th l r ihl ihr =>
    simp only [dumpPos, List.length_cons, List.length_append, ihl, ihr, LTree.toTree, Spec.Tree.numNodes]; omega

theorem dumpPos_head (cfg : DumpCfg F) (root num : Nat) (t : LTree F) : ∃ i s, dumpPos cfg root num t = i :: s := by
  cases t <;> exact ⟨_, _, rfl⟩

/-- The link from the parent to node `n`. -/
def linked (m : Ensemble F) : List (Nat × Bool) → Nat → Ensemble F
  | [], _ => m
  | (p, true) :: _, n => { m with left := m.left.set p (n : Int) }
  | (p, false) :: _, n => { m with right := m.right.set p (n : Int) }

theorem linkParent_ok {m : Ensemble F} {N : Nat} (hlen : NodeLen m N) (q : List (Nat × Bool)) (n : Nat)
    (hq : ∀ p ∈ q.head?, p.1 < N) : linkParent m q n = .ok (linked m q n, q.tail) := by
  match q, hq with
  | [], _ => rfl
  | (p, true) :: q, hq =>
    have : p < m.left.length := by rw [hlen.left]; exact hq (p, true) rfl
    simp only [linkParent, setLeft_ok _ this, bind, Except.bind]; rfl
  | (p, false) :: q, hq =>
    have : p < m.right.length := by rw [hlen.right]; exact hq (p, false) rfl
    simp only [linkParent, setRight_ok _ this, bind, Except.bind]; rfl

theorem linked_len {m : Ensemble F} {N : Nat} (hlen : NodeLen m N) (q : List (Nat × Bool)) (n : Nat) :
    NodeLen (linked m q n) N := by
  match q with
  | [] => exact hlen
  | (p, true) :: q => exact ⟨by simp [linked, hlen.left], hlen.right, hlen.value, hlen.feature⟩
  | (p, false) :: q => exact ⟨hlen.left, by simp [linked, hlen.right], hlen.value, hlen.feature⟩

theorem linked_agree (m : Ensemble F) (q : List (Nat × Bool)) (n : Nat) {i : Nat} (hq : ∀ p ∈ q.head?, p.1 ≠ i) :
    Agree m (linked m q n) i := by
  match q, hq with
  | [], _ => exact Agree.refl m i
  | (p, true) :: q, hq => exact ⟨List.getElem?_set_ne (hq (p, true) rfl), rfl, rfl, rfl⟩
  | (p, false) :: q, hq => exact ⟨rfl, List.getElem?_set_ne (hq (p, false) rfl), rfl, rfl⟩

theorem linked_congr {m m' : Ensemble F} (q : List (Nat × Bool)) (n : Nat) {i : Nat} (h : Agree m m' i)
    (hl : m'.left.length = m.left.length) (hr : m'.right.length = m.right.length) :
    Agree (linked m q n) (linked m' q n) i := by
  match q with
  | [] => exact h
  | (p, true) :: q =>
    refine ⟨?_, h.right, h.value, h.feature⟩
    simp only [linked]
    by_cases hp : p = i
    · subst hp
      simp only [List.getElem?_set_self', h.left]
    · rw [List.getElem?_set_ne hp, List.getElem?_set_ne hp, h.left]
  | (p, false) :: q =>
    refine ⟨h.left, ?_, h.value, h.feature⟩
    simp only [linked]
    by_cases hp : p = i
    · subst hp
      simp only [List.getElem?_set_self', h.right]
    · rw [List.getElem?_set_ne hp, List.getElem?_set_ne hp, h.right]

theorem linked_fields (m : Ensemble F) (q : List (Nat × Bool)) (n : Nat) :
    (linked m q n).nTrees = m.nTrees ∧ (linked m q n).nNodes = m.nNodes ∧ (linked m q n).root = m.root ∧
      (linked m q n).weight = m.weight := by
  match q with
  | [] => exact ⟨rfl, rfl, rfl, rfl⟩
  | (p, true) :: q => exact ⟨rfl, rfl, rfl, rfl⟩
  | (p, false) :: q => exact ⟨rfl, rfl, rfl, rfl⟩

/-- The features of a tree fit into `int16`. -/
def SmallFeatures (t : Spec.Tree F) : Prop := ∀ f ∈ t.features, f < 2 ^ 15

/-- The lines of one tree, read in a state with room for it at the positions `dumpPos`. -/
theorem dump_tree (cfg : DumpCfg F) (N : Nat) (t : LTree F) : ∀ (s : DumpState F) (hlen : NodeLen s.m N)
    (hpos : ∀ i ∈ dumpPos cfg s.rootNode s.numNodes t, i < N ∧ Blank s.m i)
    (hnd : (dumpPos cfg s.rootNode s.numNodes t).Nodup)
    (hq : ∀ p ∈ s.queue.head?, p.1 < N ∧ p.1 ∉ dumpPos cfg s.rootNode s.numNodes t)
    (hf : SmallFeatures (t.toTree cfg.threshold)),
    ∃ m' i tl, t.dump.foldlM (dumpStep cfg) s =
        .ok { s with m := m', numNodes := s.numNodes + (t.toTree cfg.threshold).numNodes, queue := s.queue.tail } ∧
      dumpPos cfg s.rootNode s.numNodes t = i :: tl ∧ NodeLen m' N ∧
      Encodes m' i (t.toTree cfg.threshold) (dumpPos cfg s.rootNode s.numNodes t) ∧
      (∀ j, j ∉ dumpPos cfg s.rootNode s.numNodes t → Agree (linked s.m s.queue i) m' j) ∧
      m'.nTrees = s.m.nTrees ∧ m'.nNodes = s.m.nNodes ∧ m'.root = s.m.root ∧ m'.weight = s.m.weight := by
  induction t with
  | leaf id v =>
    intro s hlen hpos hnd hq hf
    simp only [dumpPos] at hpos hnd hq ⊢
    generalize hn : (if cfg.fileIds then id else s.numNodes) + s.rootNode = n at *
    have hnN := (hpos n (by simp)).1
    have hb := (hpos n (by simp)).2
    have hlen1 : NodeLen ({ s.m with value := s.m.value.set n v } : Ensemble F) N :=
      ⟨hlen.left, hlen.right, by simp [hlen.value], hlen.feature⟩
    have hag : Agree ({ s.m with value := s.m.value.set n v } : Ensemble F)
        (linked { s.m with value := s.m.value.set n v } s.queue n) n :=
      linked_agree _ _ _ (fun p hp h => (hq p hp).2 (by simp [h]))
    refine ⟨linked { s.m with value := s.m.value.set n v } s.queue n, n, [], ?_, rfl, linked_len hlen1 _ _, ?_, ?_, ?_⟩
    · simp only [LTree.dump, List.foldlM_cons, List.foldlM_nil, dumpStep, hn]
      rw [setValue_ok v (by rw [hlen.value]; exact hnN)]
      simp only [bind, Except.bind]
      rw [linkParent_ok hlen1 s.queue n (fun p hp => (hq p hp).1)]
      simp only [pure, Except.pure]
      rfl
    · exact .leaf (by rw [hag.left]; exact hb.left) (by rw [hag.right]; exact hb.right)
        (by rw [hag.feature]; exact hb.feature)
        (by rw [hag.value]; exact List.getElem?_set_self (by rw [hlen.value]; exact hnN))
    · intro j hj
      have hjn : n ≠ j := by simpa [eq_comm] using hj
      exact linked_congr s.queue n ⟨rfl, rfl, List.getElem?_set_ne hjn, rfl⟩ rfl rfl
    · exact linked_fields _ _ _
  | node id f th l r ihl ihr =>
    intro s hlen hpos hnd hq hf
    simp only [dumpPos] at hpos hnd hq ⊢
    generalize hn : (if cfg.fileIds then id else s.numNodes) + s.rootNode = n at *
    have hnN := (hpos n (by simp)).1
    have hfsm : f < 2 ^ 15 := hf f (by simp [LTree.toTree, Tree.features])
    -- the node line
    let m0 : Ensemble F := { s.m with feature := s.m.feature.set n (f : Int), value := s.m.value.set n (cfg.threshold th) }
    have hlen0 : NodeLen m0 N := ⟨hlen.left, hlen.right, by simp [m0, hlen.value], by simp [m0, hlen.feature]⟩
    let m1 := linked m0 s.queue n
    have hlen1 : NodeLen m1 N := linked_len hlen0 _ _
    let s1 : DumpState F := { s with m := m1, numNodes := s.numNodes + 1, queue := (n, true) :: (n, false) :: s.queue.tail }
    have hstep : dumpStep cfg s (.node id f th) = .ok s1 := by
      simp only [dumpStep, hn]
      rw [setFeature_ok hfsm (by rw [hlen.feature]; exact hnN)]
      simp only [bind, Except.bind]
      rw [setValue_ok _ (by show n < s.m.value.length; rw [hlen.value]; exact hnN)]
      simp only []
      rw [linkParent_ok (m := m0) hlen0 s.queue n (fun p hp => (hq p hp).1)]
      rfl
    rw [List.nodup_cons, List.nodup_append] at hnd
    obtain ⟨hn_notin, hndl, hndr, hdisj⟩ := hnd
    have hnl : n ∉ dumpPos cfg s.rootNode (s.numNodes + 1) l := fun h => hn_notin (List.mem_append_left _ h)
    have hnr : n ∉ dumpPos cfg s.rootNode (s.numNodes + 1 + (l.toTree cfg.threshold).numNodes) r :=
      fun h => hn_notin (List.mem_append_right _ h)
    have hag1 : ∀ j, j ∈ dumpPos cfg s.rootNode (s.numNodes + 1) l ++
        dumpPos cfg s.rootNode (s.numNodes + 1 + (l.toTree cfg.threshold).numNodes) r → Agree s.m m1 j := by
      intro j hj
      have hjn : n ≠ j := fun h => hn_notin (h ▸ hj)
      have h0 : Agree s.m m0 j := ⟨rfl, rfl, List.getElem?_set_ne hjn, List.getElem?_set_ne hjn⟩
      exact h0.trans (linked_agree m0 s.queue n (fun p hp h => (hq p hp).2 (List.mem_cons_of_mem _ (h ▸ hj))))
    have hposl : ∀ i ∈ dumpPos cfg s.rootNode (s.numNodes + 1) l, i < N ∧ Blank m1 i := by
      intro i hi
      obtain ⟨h1, h2⟩ := hpos i (List.mem_cons_of_mem _ (List.mem_append_left _ hi))
      exact ⟨h1, h2.agree (hag1 i (List.mem_append_left _ hi))⟩
    have hfl : SmallFeatures (l.toTree cfg.threshold) := fun f' hf' => hf f' (by simp [LTree.toTree, Tree.features, hf'])
    have hfr : SmallFeatures (r.toTree cfg.threshold) := fun f' hf' => hf f' (by simp [LTree.toTree, Tree.features, hf'])
    obtain ⟨m2, il, tl, h2run, h2pos, h2len, h2enc, h2ag, h2nt, h2nn, h2root, h2w⟩ := ihl s1 hlen1 hposl hndl
      (by
        intro p hp
        have : p = (n, true) := by simpa [s1, eq_comm] using hp
        subst this
        exact ⟨hnN, hnl⟩) hfl
    -- state after the left subtree
    let s2 : DumpState F := { s1 with m := m2, numNodes := s1.numNodes + (l.toTree cfg.threshold).numNodes, queue := s1.queue.tail }
    have hil : ∀ j, j ≠ n → j ∉ dumpPos cfg s.rootNode (s.numNodes + 1) l → Agree m1 m2 j := by
      intro j hjn hj
      exact (linked_agree m1 s1.queue il (fun p hp h => by
        have : p = (n, true) := by simpa [s1, eq_comm] using hp
        subst this
        exact hjn h.symm)).trans (h2ag j hj)
    have hposr : ∀ i ∈ dumpPos cfg s.rootNode (s.numNodes + 1 + (l.toTree cfg.threshold).numNodes) r, i < N ∧ Blank m2 i := by
      intro i hi
      obtain ⟨h1, h2⟩ := hpos i (List.mem_cons_of_mem _ (List.mem_append_right _ hi))
      refine ⟨h1, (h2.agree (hag1 i (List.mem_append_right _ hi))).agree (hil i (fun h => hnr (h ▸ hi)) ?_)⟩
      intro hil'
      exact hdisj i hil' i hi rfl
    obtain ⟨m3, ir, tr, h3run, h3pos, h3len, h3enc, h3ag, h3nt, h3nn, h3root, h3w⟩ := ihr s2 h2len hposr hndr
      (by
        intro p hp
        have : p = (n, false) := by simpa [s1, s2, eq_comm] using hp
        subst this
        exact ⟨hnN, hnr⟩) hfr
    have hir : ∀ j, j ≠ n → j ∉ dumpPos cfg s.rootNode (s.numNodes + 1 + (l.toTree cfg.threshold).numNodes) r → Agree m2 m3 j := by
      intro j hjn hj
      exact (linked_agree m2 s2.queue ir (fun p hp h => by
        have : p = (n, false) := by simpa [s1, s2, eq_comm] using hp
        subst this
        exact hjn h.symm)).trans (h3ag j hj)
    -- node `n` in the final state
    have hag0n : Agree m0 m1 n := linked_agree m0 s.queue n (fun p hp h => (hq p hp).2 (by simp [h]))
    have h2n := h2ag n hnl
    have h3n := h3ag n hnr
    have hl1 : m1.left.length = N := hlen1.left
    have hr2 : m2.right.length = N := h2len.right
    refine ⟨m3, n, _, ?_, rfl, h3len, ?_, ?_, ?_⟩
    · simp only [LTree.dump, List.foldlM_cons, List.foldlM_append, hstep, bind, Except.bind]
      rw [h2run]
      simp only []
      have : ({ s1 with m := m2, numNodes := s1.numNodes + (l.toTree cfg.threshold).numNodes, queue := s1.queue.tail } : DumpState F)
          = s2 := rfl
      rw [this, h3run]
      simp only [s2, s1, LTree.toTree, Spec.Tree.numNodes, List.tail_cons, Except.ok.injEq, DumpState.mk.injEq, true_and, and_true]
      omega
    · refine .node (l := il) (r := ir) ?_ ?_ ?_ ?_ ?_ ?_
      · rw [h3n.left]
        show m2.left[n]? = _
        rw [h2n.left]
        exact List.getElem?_set_self (by rw [hl1]; exact hnN)
      · rw [h3n.right]
        exact List.getElem?_set_self (by rw [hr2]; exact hnN)
      · rw [h3n.feature]
        show m2.feature[n]? = _
        rw [h2n.feature]
        show m1.feature[n]? = _
        rw [hag0n.feature]
        exact List.getElem?_set_self (by rw [hlen.feature]; exact hnN)
      · rw [h3n.value]
        show m2.value[n]? = _
        rw [h2n.value]
        show m1.value[n]? = _
        rw [hag0n.value]
        exact List.getElem?_set_self (by rw [hlen.value]; exact hnN)
      · refine encodes_agree h2enc (fun j hj => hir j (fun h => hnl (h ▸ hj)) (fun hjr => hdisj j hj j hjr rfl))
      · exact h3enc
    · intro j hj
      rw [List.mem_cons, List.mem_append] at hj
      push Not at hj
      obtain ⟨hjn, hjl, hjr⟩ := hj
      have h01 : Agree (linked s.m s.queue n) m1 j :=
        linked_congr s.queue n ⟨rfl, rfl, List.getElem?_set_ne (Ne.symm hjn), List.getElem?_set_ne (Ne.symm hjn)⟩ rfl rfl
      exact (h01.trans (hil j hjn hjl)).trans (hir j hjn hjr)
    · obtain ⟨e1, e2, e3, e4⟩ := linked_fields m0 s.queue n
      exact ⟨by rw [h3nt]; show m2.nTrees = _; rw [h2nt]; exact e1, by rw [h3nn]; show m2.nNodes = _; rw [h2nn]; exact e2,
        by rw [h3root]; show m2.root = _; rw [h2root]; exact e3, by rw [h3w]; show m2.weight = _; rw [h2w]; exact e4⟩

/-- The ids in the file number the nodes of a tree, starting with 0 at the root (only used by ScikitLearn). -/
def GoodIds (cfg : DumpCfg F) (t : LTree F) : Prop :=
  cfg.fileIds = true → t.ids.Perm (List.range t.ids.length) ∧ t.ids.head? = some 0

theorem ids_length (g : F → F) (t : LTree F) : t.ids.length = (t.toTree g).numNodes := by
  induction t with
  | leaf id v => rfl
  | node id f th l r ihl ihr =>
    simp only [LTree.ids, List.length_cons, List.length_append, ihl, ihr, LTree.toTree, Spec.Tree.numNodes]; omega

theorem dumpPos_perm {cfg : DumpCfg F} {t : LTree F} (h : GoodIds cfg t) (root : Nat) :
    (dumpPos cfg root 0 t).Perm (List.range' root (t.toTree cfg.threshold).numNodes) ∧
    (dumpPos cfg root 0 t).head? = some root := by
  cases hb : cfg.fileIds with
  | true =>
    obtain ⟨h1, h2⟩ := h hb
    rw [dumpPos_ids hb]
    constructor
    · refine (h1.map _).trans ?_
      have e : (fun x : Nat => x + root) = (fun x => root + x) := by funext x; omega
      rw [ids_length cfg.threshold, List.range_eq_range', e, List.map_add_range', Nat.add_zero]
    · rw [List.head?_map, h2]; simp
  | false =>
    rw [dumpPos_count hb, Nat.zero_add]
    refine ⟨List.Perm.refl _, ?_⟩
    have := (t.toTree cfg.threshold).numNodes_pos
    obtain ⟨n, hn⟩ := Nat.exists_eq_succ_of_ne_zero this.ne'
    rw [hn, List.range'_succ]; rfl

/-- The forest of a dump. -/
def dumpForest (cfg : DumpCfg F) (ts : List (LTree F)) : Forest F := ts.map (fun t => (t.toTree cfg.threshold, cfg.one))

theorem dump_forest (cfg : DumpCfg F) (all : List (LTree F)) (hids : ∀ t ∈ all, GoodIds cfg t)
    (hf : ∀ t ∈ all, SmallFeatures (t.toTree cfg.threshold)) :
    ∀ (ts : List (LTree F)) (k : Nat) (s : DumpState F), all.drop k = ts → k + ts.length = all.length →
      LoadedTrees (dumpForest cfg all) k s.m → s.queue = [] → s.rootNode + s.numNodes = treeStart (dumpForest cfg all) k →
      ∃ s', (forestDump k ts).foldlM (dumpStep cfg) s = .ok s' ∧ Represents s'.m (dumpForest cfg all) ∧
        s'.learningRate = s.learningRate ∧ s'.baseScore = s.baseScore := by
  intro ts
  induction ts with
  | nil =>
    intro k s hd hk hl hq hr
    refine ⟨s, rfl, ?_, rfl, rfl⟩
    have : k = (dumpForest cfg all).length := by simpa [dumpForest] using hk
    rw [this] at hl
    exact hl.represents
  | cons t ts ih =>
    intro k s hd hk hl hq hr
    have hklt : k < all.length := by simp at hk; omega
    have hget : all[k]? = some t := by
      have := congrArg (·[0]?) hd
      simpa using this
    have hmem : t ∈ all := List.mem_of_getElem? hget
    have hfo : (dumpForest cfg all)[k]? = some (t.toTree cfg.threshold, cfg.one) := by
      simp [dumpForest, hget]
    have hsucc := treeStart_succ hfo
    have hNle := treeStart_le (dumpForest cfg all) (k + 1)
    obtain ⟨hperm, hhead⟩ := dumpPos_perm (hids t hmem) (treeStart (dumpForest cfg all) k)
    generalize hst : treeStart (dumpForest cfg all) k = st at *
    let m1 : Ensemble F := { s.m with root := s.m.root.set k (st : Int), weight := s.m.weight.set k cfg.one }
    let s1 : DumpState F := { s with m := m1, rootNode := st, numNodes := 0 }
    have hstep : dumpStep cfg s (.tree k) = .ok s1 := by
      have hlr : k < s.m.root.length := by rw [hl.root_len]; simpa [dumpForest] using hklt
      have hlw : k < s.m.weight.length := by rw [hl.weight_len]; simpa [dumpForest] using hklt
      simp only [dumpStep, hq, ↓reduceIte, hr]
      rw [setRoot_ok _ hlr]
      simp only [bind, Except.bind]
      rw [setWeight_ok _ (by exact hlw)]
      simp only [pure, Except.pure, s1, m1, hq]
    have hin : ∀ i ∈ dumpPos cfg st 0 t, st ≤ i ∧ i < st + (t.toTree cfg.threshold).numNodes := by
      intro i hi
      have := hperm.mem_iff.1 hi
      rw [List.mem_range'_1] at this
      exact this
    have hlen1 : NodeLen m1 (Forest.numNodes (dumpForest cfg all)) := ⟨hl.len.left, hl.len.right, hl.len.value, hl.len.feature⟩
    obtain ⟨m2, i, tl, hrun, hpos, hlen2, henc, hag, hnt, hnn, hroot, hweight⟩ :=
      dump_tree cfg (Forest.numNodes (dumpForest cfg all)) t s1 hlen1
        (by
          intro i hi
          have := hin i hi
          have hlt : i < Forest.numNodes (dumpForest cfg all) := by omega
          have hb := hl.blank i (by rw [hst]; exact this.1) hlt
          exact ⟨hlt, ⟨hb.left, hb.right, hb.feature⟩⟩)
        (hperm.nodup_iff.2 List.nodup_range')
        (by intro p hp; simp [s1, hq] at hp)
        (hf t hmem)
    have hi : i = st := by
      have : (dumpPos cfg s1.rootNode s1.numNodes t).head? = some st := hhead
      rw [hpos] at this
      simpa using this
    subst hi
    have hloaded : LoadedTrees (dumpForest cfg all) (k + 1) m2 := by
      refine hl.step hfo (by rw [hnt]) (by rw [hnn]) hlen2 (by rw [hroot, hst]) (by rw [hweight]) ?_ (s := dumpPos cfg i 0 t) ?_ ?_
      · intro j hj
        have hnot : j ∉ dumpPos cfg s1.rootNode s1.numNodes t := by
          intro hjm
          have := hin j hjm
          rw [hst] at hj
          omega
        have := hag j hnot
        simp only [s1, hq, linked] at this
        exact ⟨this.left, this.right, this.value, this.feature⟩
      · rw [hst]; exact henc
      · rw [hst]; exact hperm
    obtain ⟨s', h1, h2, h3, h4⟩ := ih (k + 1)
      { s1 with m := m2, numNodes := s1.numNodes + (t.toTree cfg.threshold).numNodes, queue := s1.queue.tail }
      (by rw [← List.drop_drop, hd]; rfl) (by simp at hk; omega) hloaded (by simp [s1, hq])
      (by show i + (0 + _) = _; rw [hsucc]; omega)
    refine ⟨s', ?_, h2, h3, h4⟩
    simp only [forestDump, List.foldlM_cons, List.foldlM_append, hstep, bind, Except.bind]
    rw [hrun]
    exact h1

theorem count_dump (g : F → F) (t : LTree F) : dumpCount t.dump = (0, (t.toTree g).numNodes) := by
  induction t with
  | leaf id v => rfl
  | node id f th l r ihl ihr =>
    simp only [dumpCount, Prod.mk.injEq] at ihl ihr
    simp only [dumpCount, LTree.dump, List.countP_cons, List.countP_append, ihl.1, ihl.2, ihr.1, ihr.2, LTree.toTree,
      Spec.Tree.numNodes, Prod.mk.injEq]
    simp; omega

theorem count_forestDump (cfg : DumpCfg F) (ts : List (LTree F)) (k : Nat) :
    dumpCount (forestDump k ts) = ((dumpForest cfg ts).length, Forest.numNodes (dumpForest cfg ts)) := by
  induction ts generalizing k with
  | nil => rfl
  | cons t ts ih =>
    have h1 := count_dump cfg.threshold t
    have h2 := ih (k + 1)
    simp only [dumpCount, Prod.mk.injEq] at h1 h2
    simp only [dumpCount, forestDump, List.countP_cons, List.countP_append, h1.1, h1.2, h2.1, h2.2, Prod.mk.injEq]
    simp [dumpForest, Forest.numNodes]

/-- Lines that match nothing are skipped. -/
theorem foldlM_other (cfg : DumpCfg F) (lines : List (DumpLine F)) (s : DumpState F) :
    lines.foldlM (dumpStep cfg) s =
      (lines.filter relevant).foldlM (dumpStep cfg) s := by
  induction lines generalizing s with
  | nil => rfl
  | cons l lines ih =>
    cases l with
    | other =>
      rw [List.foldlM_cons]
      exact ih s
    | _ =>
      rw [List.filter_cons_of_pos (by rfl), List.foldlM_cons, List.foldlM_cons]
      congr 1
      funext s'
      exact ih s'

theorem dumpCount_other (lines : List (DumpLine F)) :
    dumpCount (lines.filter relevant) = dumpCount lines := by
  simp only [dumpCount, List.countP_filter, Prod.mk.injEq]
  constructor <;>
  · apply List.countP_congr
    intro l _
    cases l <;> simp [relevant]

end Ensemble
end Verif
