/-
All trees: the stored indices and their counts.
-/
import Verif.Lemmas.Topology

namespace Verif
open Ensemble Spec
variable {F : Type} {m : Ensemble F} {fo : Forest F}

/-- Children are in the same tree. -/
theorem children_before (h : Represents m fo) {k p j : Nat} (hk : k ≤ fo.length) (hp : p < treeStart fo k)
    (hc : m.left[p]? = some (j : Int) ∨ m.right[p]? = some (j : Int)) : j < treeStart fo k := by
  have hpn : p < m.nNodes := by rw [h.nNodes]; exact lt_of_lt_of_le hp (treeStart_le fo k)
  obtain ⟨k', t, w, hk', h1, h2⟩ := h.node_in_tree hpn
  obtain ⟨s, hs, hperm⟩ := h.trees k' t w hk'
  have hmem : p ∈ s := by rw [hperm.mem_iff, List.mem_range'_1]; exact ⟨h1, h2⟩
  have hjs : j ∈ s := by
    rcases hs.node_cases p hmem with ⟨a, b, _⟩ | ⟨l, r, f, a, b, _, _, hl, hr⟩
    · rw [a, b] at hc
      simp only [Option.some.injEq] at hc
      omega
    · rw [a, b] at hc
      simp only [Option.some.injEq, Nat.cast_inj] at hc
      rcases hc with rfl | rfl
      · exact hl
      · exact hr
  rw [hperm.mem_iff, List.mem_range'_1] at hjs
  have hlt : k' < k := by
    by_contra hge
    have := treeStart_mono fo (show k ≤ k' by omega)
    omega
  have h3 := treeStart_mono fo (show k' + 1 ≤ k by omega)
  rw [treeStart_succ hk'] at h3
  omega

/-- The stored words of a tree. -/
def treeWords (incl : Bool) (t : Spec.Tree F) : List Word := (heaps t 0).map (fun q => BitVec.ofNat 64 (stored incl q))

theorem slice_eq_map {α : Type} : ∀ (n a : Nat) (v w : List α), a + n ≤ v.length → (∀ i, a ≤ i → i < a + n → v[i]? = w[i - a]?) → w.length = n →
    (v.drop a).take n = w := by
  intro n a v w hl hv hw
  apply List.ext_getElem?
  intro i
  rw [List.getElem?_take]
  by_cases hi : i < n
  · rw [if_pos hi, List.getElem?_drop, hv (a + i) (by omega) (by omega)]
    congr 1
    omega
  · rw [if_neg hi, List.getElem?_eq_none (by omega)]

/-- One tree: the words of its nodes are a permutation of the words of the tree. -/
theorem computeNodeIndices_spec (h : Represents m fo) (hpf : ParentFirst m) (incl : Bool) {k : Nat} {t : Spec.Tree F} {w : F}
    (hk : fo[k]? = some (t, w)) (hheight : t.height < 63) {arr0 : List Word} (hlen : arr0.length = m.nNodes)
    (h0 : arr0[treeStart fo k]? = some 0) :
    ∃ arr, computeNodeIndices m incl arr0 k ((treeStart fo k + t.numNodes : Nat) : Int) = .ok (arr, t.height) ∧
      arr.length = m.nNodes ∧ (∀ j, j < treeStart fo k ∨ treeStart fo k + t.numNodes ≤ j → arr[j]? = arr0[j]?) ∧
      ((arr.drop (treeStart fo k)).take t.numNodes).Perm (treeWords incl t) := by
  obtain ⟨s, hs, hperm⟩ := h.trees k t w hk
  have hnodup : s.Nodup := hperm.nodup_iff.2 List.nodup_range'
  have hlt : k < fo.length := (List.getElem?_eq_some_iff.1 hk).1
  have hslen : s.length = (heaps t 0).length := by rw [hs.length, heaps_length]
  have hfst : (s.zip (heaps t 0)).map Prod.fst = s := List.map_fst_zip (by omega)
  have hend : treeStart fo k + t.numNodes ≤ m.nNodes := h.numNodes_le hk
  have hpow : 2 ^ t.height ≤ 2 ^ 62 := Nat.pow_le_pow_right (by norm_num) (by omega)
  have hrange : ∀ j u, (j, u) ∈ s.zip (heaps t 0) → treeStart fo k ≤ j ∧ j < treeStart fo k + t.numNodes := by
    intro j u hm
    have := (List.of_mem_zip hm).1
    rwa [hperm.mem_iff, List.mem_range'_1] at this
  have hmem : ∀ j, treeStart fo k ≤ j → j < treeStart fo k + t.numNodes → ∃ y c, (j, y, c) ∈ s.zip (heaps t 0) := by
    intro j h1 h2
    have : j ∈ s := by rw [hperm.mem_iff, List.mem_range'_1]; exact ⟨h1, h2⟩
    rw [← hfst, List.mem_map] at this
    obtain ⟨⟨j', y, c⟩, hm, rfl⟩ := this
    exact ⟨y, c, hm⟩
  obtain ⟨arr, mx, e, inv⟩ := loop_all (incl := incl) (encodes_heapPairs hs 0) (fun j u v h1 h2 => zip_functional hnodup h1 h2) hpf
    hmem hrange (fun j y c hm => by
      have := (heaps_lt t 0 _ (List.of_mem_zip hm).2).1
      simp only at this
      omega) (by omega) h0 (fun p j hp hc => children_before h (by omega) hp hc) t.numNodes le_rfl
  have havail : ∀ j y c, (j, y, c) ∈ s.zip (heaps t 0) → j = treeStart fo k ∨ ∃ p, p < treeStart fo k + t.numNodes ∧
      (m.left[p]? = some (j : Int) ∨ m.right[p]? = some (j : Int)) := by
    intro j y c hm
    rcases (encodes_heapPairs hs 0).parent j y c hm with h1 | ⟨p, z, d, h1, h2⟩
    · exact Or.inl h1
    · exact Or.inr ⟨p, (hrange p _ h1).2, h2⟩
  have hmx1 : ∀ q ∈ heaps t 0, q.1 ≤ mx.toNat := by
    intro q hq
    have hsnd : (s.zip (heaps t 0)).map Prod.snd = heaps t 0 := List.map_snd_zip (by omega)
    rw [← hsnd, List.mem_map] at hq
    obtain ⟨⟨j, y, c⟩, hm, rfl⟩ := hq
    exact (inv.vals j y c hm (havail j y c hm)).2
  have hheightEq : mostSignificantBit (mx + 1) = t.height := by
    obtain ⟨q, hq, hle⟩ := heaps_deep t 0
    have h1 := hmx1 q hq
    obtain ⟨j, y, c, hm, he⟩ := inv.max
    have h2 := (heaps_lt t 0 _ (List.of_mem_zip hm).2).1
    simp only at h2
    have h3 : (mx + 1).toNat = mx.toNat + 1 := by
      rw [BitVec.toNat_add]
      show (mx.toNat + 1) % 2 ^ 64 = _
      rw [Nat.mod_eq_of_lt (by omega)]
    have hsucc : 2 ^ (t.height + 1) = 2 * 2 ^ t.height := Nat.pow_succ'
    apply mostSignificantBit_eq <;> rw [h3] <;> omega
  refine ⟨arr, ?_, by rw [inv.len, hlen], inv.outside, ?_⟩
  · unfold computeNodeIndices
    rw [rd_ok (h.root_get hk)]
    simp only [bind, Except.bind]
    have hnr : nodeRange (treeStart fo k : Int) ((treeStart fo k + t.numNodes : Nat) : Int) =
        (List.range t.numNodes).map (fun (i : Nat) => (treeStart fo k : Int) + i) := by
      unfold nodeRange
      congr 2
      omega
    rw [hnr, e]
    simp only [pure, Except.pure]
    rw [hheightEq]
  · have hvals : s.map (fun j => arr[j]?) = (heaps t 0).map (fun q => some (BitVec.ofNat 64 (stored incl q))) := by
      have h1 : s.map (fun j => arr[j]?) = (s.zip (heaps t 0)).map (fun p => arr[p.1]?) := by
        conv_lhs => rw [← hfst]
        rw [List.map_map]
        rfl
      have h2 : (heaps t 0).map (fun q => some (BitVec.ofNat 64 (stored incl q))) =
          (s.zip (heaps t 0)).map (fun p => some (BitVec.ofNat 64 (stored incl p.2))) := by
        have hsnd : (s.zip (heaps t 0)).map Prod.snd = heaps t 0 := List.map_snd_zip (by omega)
        conv_lhs => rw [← hsnd]
        rw [List.map_map]
        rfl
      rw [h1, h2]
      apply List.map_congr_left
      rintro ⟨j, y, c⟩ hm
      have := (inv.vals j y c hm (havail j y c hm)).1
      rw [if_pos (hrange j _ hm).2] at this
      exact this
    have hsl : ((arr.drop (treeStart fo k)).take t.numNodes).map some = (List.range' (treeStart fo k) t.numNodes).map (fun j => arr[j]?) := by
      apply List.ext_getElem?
      intro i
      rw [List.getElem?_map, List.getElem?_map, List.getElem?_take]
      by_cases hi : i < t.numNodes
      · rw [if_pos hi, List.getElem?_drop, List.getElem?_range' hi, Option.map_some]
        have : treeStart fo k + i < arr.length := by rw [inv.len]; omega
        simp [List.getElem?_eq_getElem this]
      · rw [if_neg hi, List.getElem?_eq_none (by simpa using hi)]
        rfl
    have hp2 := (hperm.map (fun j => arr[j]?)).symm
    rw [← hsl, hvals] at hp2
    have hp3 := hp2.filterMap id
    simpa [treeWords, List.filterMap_map, Function.comp_def] using hp3

/-- All trees up to the `k`-th. -/
theorem topologyTrees_spec (h : Represents m fo) (hpf : ParentFirst m) (incl : Bool) (hh : ∀ p ∈ fo, p.1.height < 63) :
    ∀ k, k ≤ fo.length → ∃ arr, (List.range k).foldlM (topologyTree m incl) (List.replicate m.nNodes 0, []) =
        .ok (arr, (fo.take k).map (fun p => p.1.height)) ∧ arr.length = m.nNodes ∧
      (∀ j, treeStart fo k ≤ j → j < m.nNodes → arr[j]? = some 0) ∧
      (arr.take (treeStart fo k)).Perm ((fo.take k).flatMap (fun p => treeWords incl p.1))
  | 0, _ => ⟨List.replicate m.nNodes 0, rfl, by simp, fun j _ hj => by simp [List.getElem?_replicate, hj], by
      simp [treeStart, Forest.numNodes]⟩
  | k + 1, hk => by
    obtain ⟨arr, e, hl, hz, hp⟩ := topologyTrees_spec h hpf incl hh k (by omega)
    obtain ⟨⟨t, w⟩, hget⟩ : ∃ p, fo[k]? = some p := ⟨_, List.getElem?_eq_getElem (by omega)⟩
    have hmem : (t, w) ∈ fo := List.mem_of_getElem? hget
    have hnn := h.numNodes_le hget
    have hpos := Spec.Tree.numNodes_pos t
    obtain ⟨arr', e', hl', ho', hp'⟩ := computeNodeIndices_spec h hpf incl hget (hh _ hmem) hl (hz _ le_rfl (by omega))
    have htake : fo.take (k + 1) = fo.take k ++ [(t, w)] := by rw [List.take_add_one, hget]; rfl
    refine ⟨arr', ?_, hl', ?_, ?_⟩
    · rw [List.range_succ, foldlM_ok_append e]
      have hstep : topologyTree m incl (arr, (fo.take k).map (fun p => p.1.height)) k =
          .ok (arr', (fo.take k).map (fun p => p.1.height) ++ [t.height]) := by
        unfold topologyTree
        rw [lastNode_eq h hget]
        simp only [bind, Except.bind]
        rw [e']
        rfl
      rw [foldlM_ok_cons hstep, foldlM_ok_nil, htake, List.map_append]
      rfl
    · intro j h1 h2
      rw [treeStart_succ hget] at h1
      rw [ho' j (Or.inr h1)]
      exact hz j (by omega) h2
    · rw [treeStart_succ hget, List.take_add, htake, List.flatMap_append]
      have heq : arr'.take (treeStart fo k) = arr.take (treeStart fo k) := by
        apply List.ext_getElem?
        intro i
        rw [List.getElem?_take, List.getElem?_take]
        by_cases hi : i < treeStart fo k
        · rw [if_pos hi, if_pos hi, ho' i (Or.inl hi)]
        · rw [if_neg hi, if_neg hi]
      rw [heq]
      simp only [List.flatMap_cons, List.flatMap_nil, List.append_nil]
      exact hp.append hp'

/-- The list of stored words. -/
theorem topology_words (h : Represents m fo) (hpf : ParentFirst m) (incl : Bool) (hh : ∀ p ∈ fo, p.1.height < 63) :
    ∃ arr, (List.range m.nTrees).foldlM (topologyTree m incl) (List.replicate m.nNodes 0, []) =
        .ok (arr, fo.map (fun p => p.1.height)) ∧ arr.Perm (fo.flatMap (fun p => treeWords incl p.1)) := by
  obtain ⟨arr, e, hl, _, hp⟩ := topologyTrees_spec h hpf incl hh fo.length le_rfl
  rw [List.take_length] at e hp
  rw [treeStart_length, ← h.nNodes, ← hl, List.take_length] at hp
  exact ⟨arr, by rw [h.nTrees]; exact e, hp⟩

/-! ### Counting -/

/-- Indices in a subtree have the root of the subtree as ancestor. -/
theorem heaps_ancestor (t : Spec.Tree F) : ∀ x, ∀ q ∈ heaps t x, ∃ k, (q.1 + 1) / 2 ^ k = x + 1 := by
  induction t with
  | leaf v => intro x q hq; simp [heaps] at hq; subst hq; exact ⟨0, by simp⟩
  | node f th l r ihl ihr =>
    intro x q hq
    rw [heaps, List.mem_cons, List.mem_append] at hq
    rcases hq with rfl | hq | hq
    · exact ⟨0, by simp⟩
    · obtain ⟨k, hk⟩ := ihl _ q hq
      exact ⟨k + 1, by rw [pow_succ, ← Nat.div_div_eq_div_mul, hk]; omega⟩
    · obtain ⟨k, hk⟩ := ihr _ q hq
      exact ⟨k + 1, by rw [pow_succ, ← Nat.div_div_eq_div_mul, hk]; omega⟩

/-- Different siblings are not ancestors of the same index. -/
theorem sibling_disjoint {v x k n : Nat} (h1 : (v + 1) / 2 ^ k = 2 * x + 2) (h2 : (v + 1) / 2 ^ n = 2 * x + 3) : False := by
  rcases lt_trichotomy k n with h | h | h
  · obtain ⟨d, rfl⟩ : ∃ d, n = k + (d + 1) := ⟨n - k - 1, by omega⟩
    rw [Nat.pow_add, ← Nat.div_div_eq_div_mul, h1] at h2
    have : (2 * x + 2) / 2 ^ (d + 1) ≤ 2 * x + 2 := Nat.div_le_self _ _
    omega
  · subst h
    omega
  · obtain ⟨d, rfl⟩ : ∃ d, k = n + (d + 1) := ⟨k - n - 1, by omega⟩
    rw [Nat.pow_add, ← Nat.div_div_eq_div_mul, h2, pow_succ', ← Nat.div_div_eq_div_mul] at h1
    have : (2 * x + 3) / 2 / 2 ^ d ≤ (2 * x + 3) / 2 := Nat.div_le_self _ _
    omega

theorem countP_zero_of {α : Type} {p : α → Bool} {l : List α} (h : ∀ a ∈ l, p a = false) : l.countP p = 0 := by
  rw [List.countP_eq_zero]
  intro a ha
  rw [h a ha]
  simp

theorem hasNode_node (incl : Bool) (f : Nat) (th : F) (l r : Spec.Tree F) (n p : Nat) :
    (Spec.Tree.node f th l r).hasNode incl (n + 1) p = if p < 2 ^ n then l.hasNode incl n p else r.hasNode incl n (p - 2 ^ n) := by
  unfold Spec.Tree.hasNode
  rw [Spec.Tree.nodeAt]
  by_cases h : p < 2 ^ n
  · rw [if_pos h, if_pos h]
  · rw [if_neg h, if_neg h]

/-- A level and position below the root `x` occurs once if the node is there. -/
theorem heaps_count (incl : Bool) (t : Spec.Tree F) : ∀ (x level pos : Nat), pos < 2 ^ level →
    (heaps t x).countP (fun q => q.1 == (x + 1) * 2 ^ level - 1 + pos && (incl || q.2)) = if t.hasNode incl level pos then 1 else 0 := by
  induction t with
  | leaf v =>
    intro x level pos hpos
    cases level with
    | zero =>
      have : pos = 0 := by omega
      subst this
      simp [heaps, Spec.Tree.hasNode, Spec.Tree.nodeAt, Spec.Tree.isInner, List.countP_cons]
    | succ n =>
      have hne : ¬ x = (x + 1) * 2 ^ (n + 1) - 1 + pos := by
        have : (x + 1) * 2 ≤ (x + 1) * 2 ^ (n + 1) := Nat.mul_le_mul_left _ (by rw [pow_succ]; have := Nat.pow_pos (n := n) (show 0 < 2 by norm_num); omega)
        omega
      simp [heaps, Spec.Tree.hasNode, Spec.Tree.nodeAt, List.countP_cons, hne]
  | node f th l r ihl ihr =>
    intro x level pos hpos
    rw [heaps, List.countP_cons, List.countP_append]
    cases level with
    | zero =>
      have : pos = 0 := by omega
      subst this
      have hl0 : (heaps l (2 * x + 1)).countP (fun q => q.1 == (x + 1) * 2 ^ 0 - 1 + 0 && (incl || q.2)) = 0 := by
        apply countP_zero_of
        intro q hq
        have := (heaps_lt l _ q hq).2
        have hne : ¬ q.1 = (x + 1) * 2 ^ 0 - 1 + 0 := by omega
        rw [beq_eq_false_iff_ne.2 hne, Bool.false_and]
      have hr0 : (heaps r (2 * x + 2)).countP (fun q => q.1 == (x + 1) * 2 ^ 0 - 1 + 0 && (incl || q.2)) = 0 := by
        apply countP_zero_of
        intro q hq
        have := (heaps_lt r _ q hq).2
        have hne : ¬ q.1 = (x + 1) * 2 ^ 0 - 1 + 0 := by omega
        rw [beq_eq_false_iff_ne.2 hne, Bool.false_and]
      rw [hl0, hr0]
      simp [Spec.Tree.hasNode, Spec.Tree.nodeAt, Spec.Tree.isInner]
    | succ n =>
      have hpn : 0 < 2 ^ n := Nat.pow_pos (by norm_num)
      have hsucc : 2 ^ (n + 1) = 2 * 2 ^ n := Nat.pow_succ'
      have hx : (x + 1) * 2 ^ (n + 1) = (2 * x + 1 + 1) * 2 ^ n := by rw [hsucc]; ring
      have hx2 : (2 * x + 2 + 1) * 2 ^ n = (2 * x + 1 + 1) * 2 ^ n + 2 ^ n := by ring
      have hbig : (2 * x + 1 + 1) * 1 ≤ (2 * x + 1 + 1) * 2 ^ n := Nat.mul_le_mul_left _ hpn
      rw [hx]
      have hroot : ¬ x = (2 * x + 1 + 1) * 2 ^ n - 1 + pos := by omega
      by_cases hc : pos < 2 ^ n
      · have hr0 : (heaps r (2 * x + 2)).countP (fun q => q.1 == (2 * x + 1 + 1) * 2 ^ n - 1 + pos && (incl || q.2)) = 0 := by
          apply countP_zero_of
          intro q hq
          obtain ⟨k, hk⟩ := heaps_ancestor r _ q hq
          have hne : ¬ q.1 = (2 * x + 1 + 1) * 2 ^ n - 1 + pos := by
            intro he
            refine sibling_disjoint (v := q.1) (x := x) (k := n) (n := k) ?_ hk
            rw [he, show (2 * x + 1 + 1) * 2 ^ n - 1 + pos + 1 = pos + 2 ^ n * (2 * x + 2) by
              rw [Nat.mul_comm (2 ^ n), show (2 * x + 2) * 2 ^ n = (2 * x + 1 + 1) * 2 ^ n from rfl]; omega, Nat.add_mul_div_left _ _ hpn, Nat.div_eq_of_lt hc]
            omega
          rw [beq_eq_false_iff_ne.2 hne, Bool.false_and]
        rw [ihl (2 * x + 1) n pos hc, hr0]
        simp only [beq_eq_false_iff_ne.2 hroot, Bool.false_and, Bool.false_eq_true, if_false, Nat.add_zero]
        rw [hasNode_node, if_pos hc]
      · have hl0 : (heaps l (2 * x + 1)).countP (fun q => q.1 == (2 * x + 1 + 1) * 2 ^ n - 1 + pos && (incl || q.2)) = 0 := by
          apply countP_zero_of
          intro q hq
          obtain ⟨k, hk⟩ := heaps_ancestor l _ q hq
          have hne : ¬ q.1 = (2 * x + 1 + 1) * 2 ^ n - 1 + pos := by
            intro he
            refine sibling_disjoint (v := q.1) (x := x) (k := k) (n := n) hk ?_
            rw [he, show (2 * x + 1 + 1) * 2 ^ n - 1 + pos + 1 = (pos - 2 ^ n) + 2 ^ n * (2 * x + 3) by
              rw [Nat.mul_comm (2 ^ n), show 2 * x + 3 = 2 * x + 2 + 1 by omega, hx2]; omega,
              Nat.add_mul_div_left _ _ hpn, Nat.div_eq_of_lt (by omega)]
            omega
          rw [beq_eq_false_iff_ne.2 hne, Bool.false_and]
        have hshift : (2 * x + 1 + 1) * 2 ^ n - 1 + pos = (2 * x + 2 + 1) * 2 ^ n - 1 + (pos - 2 ^ n) := by
          rw [hx2]; omega
        rw [hl0, hshift, ihr (2 * x + 2) n (pos - 2 ^ n) (by omega), ← hshift]
        simp only [beq_eq_false_iff_ne.2 hroot, Bool.false_and, Bool.false_eq_true, if_false, Nat.add_zero, Nat.zero_add]
        rw [hasNode_node, if_neg hc]

/-- Nodes exist only within the level and the height. -/
theorem nodeAt_some (t : Spec.Tree F) : ∀ (level pos : Nat) (s : Spec.Tree F), t.nodeAt level pos = some s → level ≤ t.height ∧ pos < 2 ^ level := by
  induction t with
  | leaf v =>
    intro level pos s h
    cases level with
    | zero => simp [Spec.Tree.nodeAt] at h; simp [h.1]
    | succ n => simp [Spec.Tree.nodeAt] at h
  | node f th l r ihl ihr =>
    intro level pos s h
    cases level with
    | zero => simp [Spec.Tree.nodeAt] at h; simp [h.1]
    | succ n =>
      rw [Spec.Tree.nodeAt] at h
      have hsucc : 2 ^ (n + 1) = 2 * 2 ^ n := Nat.pow_succ'
      rw [Spec.Tree.height]
      split at h
      · have := ihl _ _ _ h
        omega
      · have := ihr _ _ _ h
        omega

theorem hasNode_true {incl : Bool} {t : Spec.Tree F} {level pos : Nat} (h : t.hasNode incl level pos = true) :
    level ≤ t.height ∧ pos < 2 ^ level := by
  unfold Spec.Tree.hasNode at h
  split at h
  · rename_i s hs
    exact nodeAt_some t _ _ _ hs
  · simp at h

/-- The number of trees storing a word is the number of trees having the node. -/
theorem count_words (incl : Bool) (hh : ∀ p ∈ fo, p.1.height < 63) {level pos : Nat} (hl : level < 63) (hl0 : 0 < level) (hp : pos < 2 ^ level) :
    (fo.flatMap (fun p => treeWords incl p.1)).count (BitVec.ofNat 64 (2 ^ level - 1 + pos)) =
      fo.countP (fun p => p.1.hasNode incl level pos) := by
  have hle : 2 ^ (level + 1) ≤ 2 ^ 63 := Nat.pow_le_pow_right (by norm_num) (by omega)
  have hsucc : 2 ^ (level + 1) = 2 * 2 ^ level := Nat.pow_succ'
  have hge : 2 ^ 1 ≤ 2 ^ level := Nat.pow_le_pow_right (by norm_num) (by omega)
  rw [List.count_flatMap]
  have hone : ∀ p ∈ fo, (treeWords incl p.1).count (BitVec.ofNat 64 (2 ^ level - 1 + pos)) = if p.1.hasNode incl level pos then 1 else 0 := by
    intro p hpm
    rw [← heaps_count incl p.1 0 level pos hp]
    unfold treeWords
    rw [List.count, List.countP_map]
    apply List.countP_congr
    intro q hq
    have hqb := (heaps_lt p.1 0 q hq).1
    have hpow : 2 ^ p.1.height ≤ 2 ^ 62 := Nat.pow_le_pow_right (by norm_num) (by have := hh p hpm; omega)
    have hst : stored incl q ≤ q.1 := by unfold stored; split <;> omega
    simp only [Function.comp_apply, beq_iff_eq, Bool.and_eq_true, Nat.zero_add, Nat.one_mul]
    rw [← BitVec.toNat_inj, toNat_ofNat_lt (by omega), toNat_ofNat_lt (by omega)]
    unfold stored
    by_cases hc : (incl || q.2) = true
    · rw [if_pos hc]; simp [hc]
    · rw [if_neg hc]
      constructor
      · intro h0; omega
      · intro h0; exact absurd h0.2 hc
  simp only [Function.comp_def]
  rw [List.map_congr_left hone]
  clear hone hh
  induction fo with
  | nil => rfl
  | cons p fo ih =>
    rw [List.map_cons, List.sum_cons, List.countP_cons, ih]
    omega

/-- Every stored word is the index of a level and position. -/
theorem words_form (incl : Bool) (hh : ∀ p ∈ fo, p.1.height < 63) {w : Word} (hw : w ∈ fo.flatMap (fun p => treeWords incl p.1)) :
    ∃ level pos, level < 63 ∧ pos < 2 ^ level ∧ w = BitVec.ofNat 64 (2 ^ level - 1 + pos) := by
  rw [List.mem_flatMap] at hw
  obtain ⟨p, hpm, hw⟩ := hw
  unfold treeWords at hw
  rw [List.mem_map] at hw
  obtain ⟨q, hq, rfl⟩ := hw
  have hqb := (heaps_lt p.1 0 q hq).1
  have hpow : 2 ^ p.1.height ≤ 2 ^ 62 := Nat.pow_le_pow_right (by norm_num) (by have := hh p hpm; omega)
  have hst : stored incl q ≤ q.1 := by unfold stored; split <;> omega
  have h1 := Nat.pow_log_le_self 2 (x := stored incl q + 1) (by omega)
  have h2 := Nat.lt_pow_succ_log_self (b := 2) (by norm_num) (stored incl q + 1)
  have hsucc : 2 ^ (Nat.log 2 (stored incl q + 1) + 1) = 2 * 2 ^ Nat.log 2 (stored incl q + 1) := Nat.pow_succ'
  have hlt : 2 ^ Nat.log 2 (stored incl q + 1) < 2 ^ 63 := by omega
  refine ⟨Nat.log 2 (stored incl q + 1), stored incl q + 1 - 2 ^ Nat.log 2 (stored incl q + 1),
    (Nat.pow_lt_pow_iff_right (by norm_num)).1 hlt, by rw [Nat.succ_eq_add_one] at h2; omega, ?_⟩
  congr 1
  omega

end Verif
