/-
The loop over the nodes of a tree computes heap indices.
-/
import Verif.Lemmas.TopologyBits
import Verif.Lemmas.TreeStats
import Verif.Lemmas.QuickRank
import Verif.Spec.Topology

namespace Verif
open Ensemble Spec
variable {F : Type}

/-- Heap indices of the nodes of a tree whose root has index `x` (root, left subtree, right subtree), and whether they are inner. -/
def heaps : Spec.Tree F → Nat → List (Nat × Bool)
  | .leaf _, x => [(x, false)]
  | .node _ _ l r, x => (x, true) :: (heaps l (2 * x + 1) ++ heaps r (2 * x + 2))

/-- The index stored in the end. -/
def stored (incl : Bool) (q : Nat × Bool) : Nat := if incl || q.2 then q.1 else 0

theorem heaps_length (t : Spec.Tree F) : ∀ x, (heaps t x).length = t.numNodes := by
  induction t with
  | leaf v => intro x; rfl
  | node f th l r ihl ihr => intro x; simp [heaps, Spec.Tree.numNodes, ihl, ihr]; omega

theorem heaps_head (t : Spec.Tree F) (x : Nat) : ∃ b, (x, b) ∈ heaps t x := by
  cases t <;> simp [heaps]

theorem zip_functional {α β : Type} : ∀ {s : List α} {h : List β}, s.Nodup → ∀ {j : α} {u v : β}, (j, u) ∈ s.zip h → (j, v) ∈ s.zip h → u = v
  | [], _, _, _, _, _, h1, _ => by simp at h1
  | _ :: _, [], _, _, _, _, h1, _ => by simp at h1
  | a :: s, b :: h, hn, j, u, v, h1, h2 => by
    rw [List.zip_cons_cons, List.mem_cons, Prod.mk.injEq] at h1 h2
    rw [List.nodup_cons] at hn
    rcases h1 with ⟨rfl, rfl⟩ | h1 <;> rcases h2 with ⟨h2, rfl⟩ | h2
    · rfl
    · exact absurd (List.of_mem_zip h2).1 hn.1
    · subst h2
      exact absurd (List.of_mem_zip h1).1 hn.1
    · exact zip_functional hn.2 h1 h2

/-- What the pairs (node, heap index) of an encoded tree satisfy. -/
structure HeapPairs (m : Ensemble F) (i x : Nat) (ps : List (Nat × Nat × Bool)) : Prop where
  root : ∃ b, (i, x, b) ∈ ps
  kind : ∀ j y b, (j, y, b) ∈ ps → (b = false ∧ m.left[j]? = some (-1) ∧ m.right[j]? = some (-1)) ∨
    (b = true ∧ ∃ (l r : Nat) (bl br : Bool), m.left[j]? = some (l : Int) ∧ m.right[j]? = some (r : Int) ∧
      (l, 2 * y + 1, bl) ∈ ps ∧ (r, 2 * y + 2, br) ∈ ps)
  parent : ∀ j y b, (j, y, b) ∈ ps → j = i ∨ ∃ p z c, (p, z, c) ∈ ps ∧ (m.left[p]? = some (j : Int) ∨ m.right[p]? = some (j : Int))

theorem encodes_heapPairs {m : Ensemble F} {i : Nat} {t : Spec.Tree F} {s : List Nat} (h : Encodes m i t s) :
    ∀ x, HeapPairs m i x (s.zip (heaps t x)) := by
  induction h with
  | @leaf i v hl hr hf hv =>
    intro x
    refine ⟨⟨false, by simp [heaps]⟩, ?_, ?_⟩
    · intro j y b hm
      simp only [heaps, List.zip_cons_cons, List.zip_nil_right, List.mem_singleton, Prod.mk.injEq] at hm
      obtain ⟨rfl, rfl, rfl⟩ := hm
      exact Or.inl ⟨rfl, hl, hr⟩
    · intro j y b hm
      simp only [heaps, List.zip_cons_cons, List.zip_nil_right, List.mem_singleton, Prod.mk.injEq] at hm
      exact Or.inl hm.1
  | @node i f l r th tl tr sl sr hl hr hf hv el er ihl ihr =>
    intro x
    have hz : (i :: (sl ++ sr)).zip (heaps (.node f th tl tr) x) =
        (i, x, true) :: (sl.zip (heaps tl (2 * x + 1)) ++ sr.zip (heaps tr (2 * x + 2))) := by
      rw [heaps, List.zip_cons_cons, List.zip_append (by rw [el.length, heaps_length])]
    rw [hz]
    have Hl := ihl (2 * x + 1)
    have Hr := ihr (2 * x + 2)
    refine ⟨⟨true, by simp⟩, ?_, ?_⟩
    · intro j y b hm
      rw [List.mem_cons, List.mem_append] at hm
      rcases hm with hm | hm | hm
      · simp only [Prod.mk.injEq] at hm
        obtain ⟨rfl, rfl, rfl⟩ := hm
        obtain ⟨bl, hbl⟩ := Hl.root
        obtain ⟨br, hbr⟩ := Hr.root
        exact Or.inr ⟨rfl, l, r, bl, br, hl, hr, by simp [hbl], by simp [hbr]⟩
      · rcases Hl.kind j y b hm with h | ⟨h0, l', r', bl, br, h1, h2, h3, h4⟩
        · exact Or.inl h
        · exact Or.inr ⟨h0, l', r', bl, br, h1, h2, by simp [h3], by simp [h4]⟩
      · rcases Hr.kind j y b hm with h | ⟨h0, l', r', bl, br, h1, h2, h3, h4⟩
        · exact Or.inl h
        · exact Or.inr ⟨h0, l', r', bl, br, h1, h2, by simp [h3], by simp [h4]⟩
    · intro j y b hm
      rw [List.mem_cons, List.mem_append] at hm
      rcases hm with hm | hm | hm
      · simp only [Prod.mk.injEq] at hm
        exact Or.inl hm.1
      · right
        rcases Hl.parent j y b hm with rfl | ⟨p, z, c, h1, h2⟩
        · exact ⟨i, x, true, by simp, Or.inl hl⟩
        · exact ⟨p, z, c, by simp [h1], h2⟩
      · right
        rcases Hr.parent j y b hm with rfl | ⟨p, z, c, h1, h2⟩
        · exact ⟨i, x, true, by simp, Or.inr hr⟩
        · exact ⟨p, z, c, by simp [h1], h2⟩

theorem wr_ok {α : Type} {a : List α} {i : Nat} (x : α) (h : i < a.length) : wr a (i : Int) x = .ok (a.set i x) := by
  unfold wr
  rw [if_pos ⟨by omega, by simpa using h⟩]
  simp

theorem isLeafC_leaf {m : Ensemble F} {j : Nat} (hl : m.left[j]? = some (-1)) (hr : m.right[j]? = some (-1)) :
    isLeafC m (j : Int) = .ok true := by
  unfold isLeafC
  rw [rd_ok hl]
  simp only [bind, Except.bind, if_true]
  rw [rd_ok hr]
  rfl

theorem isLeafC_inner {m : Ensemble F} {j l : Nat} (hl : m.left[j]? = some (l : Int)) : isLeafC m (j : Int) = .ok false := by
  unfold isLeafC
  rw [rd_ok hl]
  simp only [bind, Except.bind]
  rw [if_neg (by omega)]
  rfl

theorem word_child (y c : Nat) : (2 * BitVec.ofNat 64 y + BitVec.ofNat 64 c : Word) = BitVec.ofNat 64 (2 * y + c) := by
  rw [BitVec.ofNat_add, BitVec.ofNat_mul]
  rfl

theorem maxWord_toNat (a b : Word) : (maxWord a b).toNat = max a.toNat b.toNat := by
  unfold maxWord
  split <;> omega

/-- State of the loop after the nodes `a, ..., a + n - 1`. -/
structure LoopInv (m : Ensemble F) (incl : Bool) (ps : List (Nat × Nat × Bool)) (a b : Nat) (arr0 : List Word) (n : Nat)
    (arr : List Word) (mx : Word) : Prop where
  len : arr.length = arr0.length
  outside : ∀ j, j < a ∨ b ≤ j → arr[j]? = arr0[j]?
  vals : ∀ j y c, (j, y, c) ∈ ps → (j = a ∨ ∃ p, p < a + n ∧ (m.left[p]? = some (j : Int) ∨ m.right[p]? = some (j : Int))) →
    arr[j]? = some (BitVec.ofNat 64 (if j < a + n then stored incl (y, c) else y)) ∧ y ≤ mx.toNat
  max : ∃ j y c, (j, y, c) ∈ ps ∧ y = mx.toNat

section loop
variable {m : Ensemble F} {incl : Bool} {ps : List (Nat × Nat × Bool)} {a b : Nat} {arr0 : List Word}

theorem loopInv_zero (hp : HeapPairs m a 0 ps) (hfun : ∀ j u v, (j, u) ∈ ps → (j, v) ∈ ps → u = v) (hpf : ParentFirst m)
    (hrange : ∀ j u, (j, u) ∈ ps → a ≤ j ∧ j < b) (h0 : arr0[a]? = some 0)
    (hself : ∀ p j : Nat, p < a → (m.left[p]? = some (j : Int) ∨ m.right[p]? = some (j : Int)) → j < a) :
    LoopInv m incl ps a b arr0 0 arr0 0 := by
  obtain ⟨b0, hb0⟩ := hp.root
  refine ⟨rfl, fun _ _ => rfl, ?_, ⟨a, 0, b0, hb0, rfl⟩⟩
  intro j y c hm hav
  have hj : j = a := by
    rcases hav with h | ⟨p, hpl, hc⟩
    · exact h
    · have h1 := hself p j (by omega) hc
      have h2 := hrange j _ hm
      omega
  subst hj
  have := hfun j _ _ hm hb0
  rw [Prod.mk.injEq] at this
  obtain ⟨rfl, rfl⟩ := this
  rw [if_neg (by omega), h0]
  exact ⟨rfl, by simp⟩

theorem loopInv_step (hp : HeapPairs m a 0 ps) (hfun : ∀ j u v, (j, u) ∈ ps → (j, v) ∈ ps → u = v) (hpf : ParentFirst m)
    (hmem : ∀ j, a ≤ j → j < b → ∃ y c, (j, y, c) ∈ ps) (hrange : ∀ j u, (j, u) ∈ ps → a ≤ j ∧ j < b)
    (hbound : ∀ j y c, (j, y, c) ∈ ps → y < 2 ^ 63) (hlen : b ≤ arr0.length) {n : Nat} (hn : a + n < b) {arr : List Word} {mx : Word}
    (inv : LoopInv m incl ps a b arr0 n arr mx) :
    ∃ arr' mx', nodeIndexStep m incl (arr, mx) ((a : Int) + (n : Nat)) = .ok (arr', mx') ∧
      LoopInv m incl ps a b arr0 (n + 1) arr' mx' := by
  obtain ⟨y, c, hcur⟩ := hmem (a + n) (by omega) hn
  have hav : a + n = a ∨ ∃ p, p < a + n ∧ (m.left[p]? = some ((a + n : Nat) : Int) ∨ m.right[p]? = some ((a + n : Nat) : Int)) := by
    rcases hp.parent _ _ _ hcur with h | ⟨p, z, d, _, h2⟩
    · exact Or.inl h
    · exact Or.inr ⟨p, hpf p _ h2, h2⟩
  obtain ⟨hval, hle⟩ := inv.vals _ _ _ hcur hav
  rw [if_neg (by omega)] at hval
  have hcast : (a : Int) + (n : Nat) = ((a + n : Nat) : Int) := by push_cast; rfl
  rw [hcast]
  rcases hp.kind _ _ _ hcur with ⟨rfl, hl, hr⟩ | ⟨rfl, l, r, bl, br, hl, hr, hml, hmr⟩
  · -- a leaf
    have havail : ∀ j : Nat, (j = a ∨ ∃ p, p < a + (n + 1) ∧ (m.left[p]? = some (j : Int) ∨ m.right[p]? = some (j : Int))) →
        (j = a ∨ ∃ p, p < a + n ∧ (m.left[p]? = some (j : Int) ∨ m.right[p]? = some (j : Int))) := by
      rintro j (h | ⟨p, hpl, hc⟩)
      · exact Or.inl h
      · by_cases he : p = a + n
        · subst he
          rw [hl, hr] at hc
          simp only [Option.some.injEq] at hc
          omega
        · exact Or.inr ⟨p, by omega, hc⟩
    unfold nodeIndexStep
    rw [isLeafC_leaf hl hr]
    simp only [bind, Except.bind, if_true]
    cases incl with
    | true =>
      refine ⟨arr, mx, rfl, inv.len, inv.outside, ?_, inv.max⟩
      intro j y' c' hm hav'
      obtain ⟨h1, h2⟩ := inv.vals j y' c' hm (havail j hav')
      refine ⟨?_, h2⟩
      rw [h1]
      simp [stored]
    | false =>
      rw [if_neg (by simp), wr_ok 0 (by rw [inv.len]; omega)]
      refine ⟨_, _, rfl, by rw [List.length_set]; exact inv.len, ?_, ?_, inv.max⟩
      · intro j hj
        rw [List.getElem?_set_ne (by omega)]
        exact inv.outside j hj
      · intro j y' c' hm hav'
        obtain ⟨h1, h2⟩ := inv.vals j y' c' hm (havail j hav')
        refine ⟨?_, h2⟩
        by_cases he : j = a + n
        · subst he
          have := hfun _ _ _ hm hcur
          rw [Prod.mk.injEq] at this
          obtain ⟨rfl, rfl⟩ := this
          rw [List.getElem?_set_self (by rw [inv.len]; omega), if_pos (by omega)]
          simp [stored]
        · rw [List.getElem?_set_ne (by omega), h1]
          by_cases hlt : j < a + n
          · rw [if_pos hlt, if_pos (by omega)]
          · rw [if_neg hlt, if_neg (by omega)]
  · -- an inner node
    have hlr := hrange _ _ hml
    have hrr := hrange _ _ hmr
    have hlpf := hpf _ _ (Or.inl hl)
    have hrpf := hpf _ _ (Or.inr hr)
    have hne : l ≠ r := by
      intro he
      subst he
      have := hfun _ _ _ hml hmr
      rw [Prod.mk.injEq] at this
      omega
    unfold nodeIndexStep
    rw [isLeafC_inner hl]
    simp only [bind, Except.bind]
    rw [if_neg (by simp)]
    unfold childIndices
    rw [rd_ok hval]
    simp only [bind, Except.bind]
    rw [rd_ok hl]
    simp only
    rw [rd_ok hr]
    simp only
    rw [wr_ok _ (by rw [inv.len]; omega)]
    simp only
    rw [wr_ok _ (by rw [List.length_set, inv.len]; omega)]
    have hc1 : (2 * BitVec.ofNat 64 y + 1 : Word) = BitVec.ofNat 64 (2 * y + 1) := word_child y 1
    have hc2 : (2 * BitVec.ofNat 64 y + 2 : Word) = BitVec.ofNat 64 (2 * y + 2) := word_child y 2
    rw [hc1, hc2]
    have hb2 := hbound _ _ _ hmr
    have hmxv : (maxWord (maxWord mx (BitVec.ofNat 64 (2 * y + 1))) (BitVec.ofNat 64 (2 * y + 2))).toNat = max mx.toNat (2 * y + 2) := by
      rw [maxWord_toNat, maxWord_toNat, toNat_ofNat_lt (by omega), toNat_ofNat_lt (by omega)]
      omega
    refine ⟨_, _, rfl, ?_, ?_, ?_, ?_⟩
    · rw [List.length_set, List.length_set]; exact inv.len
    · intro j hj
      rw [List.getElem?_set_ne (by omega), List.getElem?_set_ne (by omega)]
      exact inv.outside j hj
    · intro j y' c' hm hav'
      rw [hmxv]
      by_cases hjr : j = r
      · subst hjr
        have := hfun _ _ _ hm hmr
        rw [Prod.mk.injEq] at this
        obtain ⟨rfl, rfl⟩ := this
        rw [List.getElem?_set_self (by rw [List.length_set, inv.len]; omega), if_neg (by omega)]
        exact ⟨rfl, le_max_right _ _⟩
      · by_cases hjl : j = l
        · subst hjl
          have := hfun _ _ _ hm hml
          rw [Prod.mk.injEq] at this
          obtain ⟨rfl, rfl⟩ := this
          rw [List.getElem?_set_ne (by omega), List.getElem?_set_self (by rw [inv.len]; omega), if_neg (by omega)]
          exact ⟨rfl, (Nat.le_succ _).trans (le_max_right _ _)⟩
        · have hav2 : j = a ∨ ∃ p, p < a + n ∧ (m.left[p]? = some (j : Int) ∨ m.right[p]? = some (j : Int)) := by
            rcases hav' with h | ⟨p, hpl, hc⟩
            · exact Or.inl h
            · by_cases he : p = a + n
              · subst he
                rw [hl, hr] at hc
                simp only [Option.some.injEq] at hc
                omega
              · exact Or.inr ⟨p, by omega, hc⟩
          obtain ⟨h1, h2⟩ := inv.vals j y' c' hm hav2
          refine ⟨?_, h2.trans (le_max_left _ _)⟩
          rw [List.getElem?_set_ne (by omega), List.getElem?_set_ne (by omega), h1]
          by_cases he : j = a + n
          · subst he
            have := hfun _ _ _ hm hcur
            rw [Prod.mk.injEq] at this
            obtain ⟨rfl, rfl⟩ := this
            rw [if_neg (by omega), if_pos (by omega)]
            simp [stored]
          · by_cases hlt : j < a + n
            · rw [if_pos hlt, if_pos (by omega)]
            · rw [if_neg hlt, if_neg (by omega)]
    · rw [hmxv]
      obtain ⟨j, y', c', hm, he⟩ := inv.max
      by_cases hc : mx.toNat ≤ 2 * y + 2
      · exact ⟨r, _, br, hmr, by omega⟩
      · exact ⟨j, y', c', hm, by omega⟩

theorem loop_all (hp : HeapPairs m a 0 ps) (hfun : ∀ j u v, (j, u) ∈ ps → (j, v) ∈ ps → u = v) (hpf : ParentFirst m)
    (hmem : ∀ j, a ≤ j → j < b → ∃ y c, (j, y, c) ∈ ps) (hrange : ∀ j u, (j, u) ∈ ps → a ≤ j ∧ j < b)
    (hbound : ∀ j y c, (j, y, c) ∈ ps → y < 2 ^ 63) (hlen : b ≤ arr0.length) (h0 : arr0[a]? = some 0)
    (hself : ∀ p j : Nat, p < a → (m.left[p]? = some (j : Int) ∨ m.right[p]? = some (j : Int)) → j < a) :
    ∀ n, a + n ≤ b → ∃ arr mx, ((List.range n).map (fun (i : Nat) => (a : Int) + i)).foldlM (nodeIndexStep m incl) (arr0, 0) = .ok (arr, mx) ∧
      LoopInv m incl ps a b arr0 n arr mx
  | 0, _ => ⟨arr0, 0, rfl, loopInv_zero hp hfun hpf hrange h0 hself⟩
  | n + 1, hn => by
    obtain ⟨arr, mx, e, inv⟩ := loop_all hp hfun hpf hmem hrange hbound hlen h0 hself n (by omega)
    obtain ⟨arr', mx', e', inv'⟩ := loopInv_step hp hfun hpf hmem hrange hbound hlen (by omega) inv
    refine ⟨arr', mx', ?_, inv'⟩
    rw [List.range_succ, List.map_append, foldlM_ok_append e]
    show [(a : Int) + (n : Nat)].foldlM _ _ = _
    rw [foldlM_ok_cons e', foldlM_ok_nil]

end loop

/-- Heap indices are bounded by the height. -/
theorem heaps_lt (t : Spec.Tree F) : ∀ x, ∀ q ∈ heaps t x, q.1 + 2 ≤ (x + 2) * 2 ^ t.height ∧ x ≤ q.1 := by
  induction t with
  | leaf v => intro x q hq; simp [heaps] at hq; subst hq; simp [Spec.Tree.height]
  | node f th l r ihl ihr =>
    intro x q hq
    have hpow : 2 ^ (1 + max l.height r.height) = 2 * 2 ^ max l.height r.height := by rw [Nat.add_comm, Nat.pow_succ']
    have hpp : 0 < 2 ^ max l.height r.height := Nat.pow_pos (by norm_num)
    have e1 : (x + 2) * 2 ^ (Spec.Tree.node f th l r).height = (2 * x + 4) * 2 ^ max l.height r.height := by
      rw [Spec.Tree.height, hpow]; ring
    rw [e1]
    rw [heaps, List.mem_cons, List.mem_append] at hq
    rcases hq with rfl | hq | hq
    · refine ⟨?_, le_rfl⟩
      simp only
      calc x + 2 ≤ (2 * x + 4) * 1 := by omega
        _ ≤ _ := Nat.mul_le_mul_left _ hpp
    · have h1 := ihl _ q hq
      have h2 : 2 ^ l.height ≤ 2 ^ max l.height r.height := Nat.pow_le_pow_right (by norm_num) (le_max_left _ _)
      refine ⟨h1.1.trans ?_, by omega⟩
      exact Nat.mul_le_mul (by omega) h2
    · have h1 := ihr _ q hq
      have h2 : 2 ^ r.height ≤ 2 ^ max l.height r.height := Nat.pow_le_pow_right (by norm_num) (le_max_right _ _)
      refine ⟨h1.1.trans ?_, by omega⟩
      exact Nat.mul_le_mul (by omega) h2

/-- Some heap index is at the level of the height. -/
theorem heaps_deep (t : Spec.Tree F) : ∀ x, ∃ q ∈ heaps t x, (x + 1) * 2 ^ t.height ≤ q.1 + 1 := by
  induction t with
  | leaf v => intro x; exact ⟨_, List.mem_singleton.2 rfl, by simp [Spec.Tree.height]⟩
  | node f th l r ihl ihr =>
    intro x
    have hpow : 2 ^ (1 + max l.height r.height) = 2 * 2 ^ max l.height r.height := by rw [Nat.add_comm, Nat.pow_succ']
    rw [Spec.Tree.height, hpow]
    rcases le_total l.height r.height with h | h
    · obtain ⟨q, hq, hle⟩ := ihr (2 * x + 2)
      refine ⟨q, by simp [heaps, hq], ?_⟩
      rw [max_eq_right h]
      refine le_trans ?_ hle
      rw [← Nat.mul_assoc]
      exact Nat.mul_le_mul_right _ (by omega)
    · obtain ⟨q, hq, hle⟩ := ihl (2 * x + 1)
      refine ⟨q, by simp [heaps, hq], ?_⟩
      rw [max_eq_left h]
      refine le_trans ?_ hle
      rw [← Nat.mul_assoc]
      exact Nat.mul_le_mul_right _ (by omega)

theorem lastNode_eq {m : Ensemble F} {fo : Forest F} (h : Represents m fo) {k : Nat} {t : Spec.Tree F} {w : F} (hk : fo[k]? = some (t, w)) :
    lastNode m k = .ok ((treeStart fo k + t.numNodes : Nat) : Int) := by
  have hlt : k < fo.length := (List.getElem?_eq_some_iff.1 hk).1
  unfold lastNode
  rw [← treeStart_succ hk]
  by_cases hc : k + 1 < m.nTrees
  · rw [if_pos hc]
    have hlt' : k + 1 < fo.length := by rw [h.nTrees] at hc; omega
    exact rd_ok (h.root_get (List.getElem?_eq_getElem hlt'))
  · rw [if_neg hc]
    have : k + 1 = fo.length := by rw [h.nTrees] at hc; omega
    rw [this, treeStart_length, h.nNodes]
    rfl

end Verif
