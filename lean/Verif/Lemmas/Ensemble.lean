/-
From the node arrays to trees.
-/
import Verif.Spec.Ensemble
import Mathlib.Tactic.Ring
import Mathlib.Data.List.Perm.Basic

namespace Verif
open Spec
variable {F : Type}

theorem rd_ok {α : Type} {a : List α} {i : Nat} {x : α} (h : a[i]? = some x) : Ensemble.rd a (i : Int) = .ok x := by
  simp [Ensemble.rd, h]

theorem pyGet_ok {α : Type} {a : List α} {i : Nat} {x : α} (h : a[i]? = some x) : pyGet a (i : Int) = .ok x := by
  have : i < a.length := by
    rw [List.getElem?_eq_some_iff] at h
    exact h.1
  simp [pyGet, h]

theorem mapM_ok {α β : Type} {f : α → Except PyErr β} {g : α → β} : ∀ {l : List α}, (∀ a ∈ l, f a = .ok (g a)) →
    l.mapM f = .ok (l.map g)
  | [], _ => rfl
  | a :: l, h => by
    rw [List.mapM_cons, h a (by simp), mapM_ok (fun b hb => h b (by simp [hb]))]
    rfl

theorem mapM_range' {β : Type} {f : Nat → Except PyErr β} : ∀ (l : List β) (k : Nat),
    (∀ (j : Nat) b, l[j]? = some b → f (k + j) = .ok b) → (List.range' k l.length).mapM f = .ok l
  | [], _, _ => rfl
  | b :: l, k, h => by
    rw [List.length_cons, List.range'_succ, List.mapM_cons, show f k = .ok b by simpa using h 0 b (by simp),
      mapM_range' l (k + 1) (fun j c hc => by rw [← h (j + 1) c (by simpa using hc)]; congr 1; omega)]
    rfl

theorem mapM_range {β : Type} {f : Nat → Except PyErr β} (l : List β)
    (h : ∀ (j : Nat) b, l[j]? = some b → f j = .ok b) : (List.range l.length).mapM f = .ok l := by
  rw [List.range_eq_range']
  exact mapM_range' l 0 (by simpa using h)

namespace Spec
namespace Tree

theorem numNodes_pos (t : Tree F) : 0 < t.numNodes := by
  cases t <;> simp [numNodes]

theorem numLeaves_pos (t : Tree F) : 0 < t.numLeaves := by
  induction t with
  | leaf => simp [numLeaves]
  | node _ _ l r ihl _ => simp [numLeaves]; omega

theorem height_lt_numNodes (t : Tree F) : t.height < t.numNodes := by
  induction t with
  | leaf => simp [height, numNodes]
  | node _ _ l r ihl ihr => simp only [height, numNodes]; omega

theorem exitPos_lt (left : Nat → F → Bool) (t : Tree F) : t.exitPos left < t.numNodes := by
  induction t with
  | leaf => simp [exitPos, numNodes]
  | node f th l r ihl ihr => simp only [exitPos, numNodes]; split <;> omega

theorem numNodes_eq (t : Tree F) : t.numNodes = 2 * t.numLeaves - 1 := by
  induction t with
  | leaf => simp [numNodes, numLeaves]
  | node _ _ l r ihl ihr =>
    simp only [numNodes, numLeaves, ihl, ihr]
    have := numLeaves_pos l
    have := numLeaves_pos r
    omega

end Tree

theorem Encodes.length {m : Ensemble F} {i : Nat} {t : Tree F} {s : List Nat} (h : Encodes m i t s) :
    s.length = t.numNodes := by
  induction h with
  | leaf => rfl
  | node _ _ _ _ _ _ ihl ihr => simp only [List.length_cons, List.length_append, ihl, ihr, Tree.numNodes]; omega

theorem Encodes.head {m : Ensemble F} {i : Nat} {t : Tree F} {s : List Nat} (h : Encodes m i t s) :
    i ∈ s := by cases h <;> simp

theorem Encodes.mem_lt {m : Ensemble F} {i : Nat} {t : Tree F} {s : List Nat} (h : Encodes m i t s) :
    ∀ j ∈ s, j < m.left.length := by
  induction h with
  | leaf hl => simp only [List.mem_singleton, forall_eq]; exact (List.getElem?_eq_some_iff.1 hl).1
  | node hl _ _ _ _ _ ihl ihr =>
    intro j hj
    simp only [List.mem_cons, List.mem_append] at hj
    rcases hj with rfl | hj | hj
    · exact (List.getElem?_eq_some_iff.1 hl).1
    · exact ihl j hj
    · exact ihr j hj

/-- The features tested by an encoded tree are in the feature array. -/
theorem Encodes.features_mem {m : Ensemble F} {i : Nat} {t : Tree F} {s : List Nat} (h : Encodes m i t s) :
    ∀ f ∈ t.features, (f : Int) ∈ m.feature := by
  induction h with
  | leaf => simp [Tree.features]
  | node _ _ hf _ _ _ ihl ihr =>
    intro f hf'
    simp only [Tree.features, List.mem_cons, List.mem_append] at hf'
    rcases hf' with rfl | h | h
    · exact List.mem_of_getElem? hf
    · exact ihl f h
    · exact ihr f h

/-- Following the arrays reaches the leaf of the tree. -/
theorem traverse_encodes (ops : FloatOps F) {m : Ensemble F} (row : List F) {i : Nat} {t : Tree F} {s : List Nat}
    (h : Encodes m i t s) (hf : ∀ f ∈ t.features, f < row.length) :
    ∃ e : Nat, s[t.exitPos (goesLeft ops.le row)]? = some e ∧
      m.value[e]? = some (t.value (goesLeft ops.le row)) ∧ m.left[e]? = some (-1) ∧ m.right[e]? = some (-1) ∧
      ∀ fuel, t.height < fuel → Ensemble.traverse ops m row fuel (i : Int) = .ok (e : Int) := by
  induction h with
  | @leaf i v hl hr hf hv =>
    refine ⟨i, by simp [Tree.exitPos], by simpa [Tree.value] using hv, hl, hr, ?_⟩
    intro fuel hfuel
    cases fuel with
    | zero => simp at hfuel
    | succ n => simp [Ensemble.traverse, rd_ok hl, bind, Except.bind, pure, Except.pure]
  | @node i f l r th tl tr sl sr hl hr hfe hv el er ihl ihr =>
    have hfl := ihl (fun f hf' => hf f (by simp [Tree.features, hf']))
    have hfr := ihr (fun f hf' => hf f (by simp [Tree.features, hf']))
    have hlt : f < row.length := hf f (by simp [Tree.features])
    have hrow : row[f]? = some row[f] := List.getElem?_eq_getElem hlt
    have hgo : goesLeft ops.le row f th = ops.le row[f] th := by simp [goesLeft, hrow]
    have hlne : (l : Int) ≠ -1 := by omega
    have hrne : (r : Int) ≠ -1 := by omega
    by_cases hc : ops.le row[f] th = true
    · obtain ⟨e, h1, h2, h3, h3', h4⟩ := hfl
      refine ⟨e, ?_, ?_, h3, h3', ?_⟩
      · simp only [Tree.exitPos, hgo, hc, ↓reduceIte]
        rw [Nat.add_comm, List.getElem?_cons_succ, List.getElem?_append_left]
        · exact h1
        · rw [el.length]; exact Tree.exitPos_lt _ _
      · simpa only [Tree.value, hgo, hc, ↓reduceIte] using h2
      · intro fuel hfuel
        cases fuel with
        | zero => simp at hfuel
        | succ n =>
          simp only [Tree.height] at hfuel
          have := h4 n (by omega)
          simp [Ensemble.traverse, rd_ok hl, rd_ok hr, rd_ok hfe, rd_ok hv, rd_ok hrow, bind, Except.bind, hlne, hrne, hc, this]
    · obtain ⟨e, h1, h2, h3, h3', h4⟩ := hfr
      have hc' : ops.le row[f] th = false := by simpa using hc
      refine ⟨e, ?_, ?_, h3, h3', ?_⟩
      · simp only [Tree.exitPos, hgo, hc', Bool.false_eq_true, ↓reduceIte]
        rw [Nat.add_assoc, Nat.add_comm, List.getElem?_cons_succ, List.getElem?_append_right (by rw [el.length]; omega),
          el.length, Nat.add_sub_cancel_left]
        exact h1
      · simpa only [Tree.value, hgo, hc', Bool.false_eq_true, ↓reduceIte] using h2
      · intro fuel hfuel
        cases fuel with
        | zero => simp at hfuel
        | succ n =>
          simp only [Tree.height] at hfuel
          have := h4 n (by omega)
          simp [Ensemble.traverse, rd_ok hl, rd_ok hr, rd_ok hfe, rd_ok hv, rd_ok hrow, bind, Except.bind, hlne, hrne, hc', this]

theorem numNodes_append (a b : Forest F) : Forest.numNodes (a ++ b) = Forest.numNodes a + Forest.numNodes b := by
  simp [Forest.numNodes]

theorem treeStart_succ {fo : Forest F} {k : Nat} {t : Tree F} {w : F} (h : fo[k]? = some (t, w)) :
    treeStart fo (k + 1) = treeStart fo k + t.numNodes := by
  unfold treeStart
  rw [List.take_add_one, h, numNodes_append]
  simp [Forest.numNodes]

theorem treeStart_le (fo : Forest F) (k : Nat) : treeStart fo k ≤ Forest.numNodes fo := by
  conv_rhs => rw [← List.take_append_drop k fo, numNodes_append]
  exact Nat.le_add_right _ _

theorem treeStart_length (fo : Forest F) : treeStart fo fo.length = Forest.numNodes fo := by
  simp [treeStart]

theorem treeStart_mono (fo : Forest F) {a b : Nat} (h : a ≤ b) : treeStart fo a ≤ treeStart fo b := by
  unfold treeStart
  have : fo.take a = (fo.take b).take a := by rw [List.take_take, Nat.min_eq_left h]
  rw [this]
  exact treeStart_le _ _

section repr
variable {m : Ensemble F} {fo : Forest F}

theorem Represents.root_get (h : Represents m fo) {k : Nat} {p : Tree F × F} (hk : fo[k]? = some p) :
    m.root[k]? = some (treeStart fo k : Int) := by
  have hlt : k < fo.length := (List.getElem?_eq_some_iff.1 hk).1
  simp [h.root, List.getElem?_range hlt]

theorem Represents.weight_get (h : Represents m fo) {k : Nat} {p : Tree F × F} (hk : fo[k]? = some p) :
    m.weight[k]? = some p.2 := by
  simp [h.weight, hk]

theorem Represents.numNodes_le (h : Represents m fo) {k : Nat} {t : Tree F} {w : F} (hk : fo[k]? = some (t, w)) :
    treeStart fo k + t.numNodes ≤ m.nNodes := by
  rw [← treeStart_succ hk, h.nNodes]
  exact treeStart_le _ _

theorem exitLeaf_represents (ops : FloatOps F) (h : Represents m fo) (row : List F)
    (hf : ∀ p ∈ fo, ∀ f ∈ p.1.features, f < row.length) {k : Nat} {t : Tree F} {w : F} (hk : fo[k]? = some (t, w))
    {s : List Nat} (hs : Encodes m (treeStart fo k) t s) :
    ∃ e : Nat, s[t.exitPos (goesLeft ops.le row)]? = some e ∧ Ensemble.exitLeaf ops m row k = .ok (e : Int) ∧
      m.left[e]? = some (-1) ∧ m.right[e]? = some (-1) ∧
      Ensemble.contribution ops m k (e : Int) = .ok (ops.mul (t.value (goesLeft ops.le row)) w) := by
  obtain ⟨e, h1, h2, h3, h3', h4⟩ := traverse_encodes ops row hs (hf _ (List.mem_of_getElem? hk))
  refine ⟨e, h1, ?_, h3, h3', ?_⟩
  · have hfuel : t.height < m.left.length + 1 := by
      have := Tree.height_lt_numNodes t
      have := h.numNodes_le hk
      rw [h.left_len]; omega
    simp only [Ensemble.exitLeaf, rd_ok (h.root_get hk), bind, Except.bind, h4 _ hfuel]
  · simp only [Ensemble.contribution, rd_ok h2, rd_ok (h.weight_get hk), bind, Except.bind, pure, Except.pure]

theorem basicRow_eq (ops : FloatOps F) (h : Represents m fo) (row : List F)
    (hf : ∀ p ∈ fo, ∀ f ∈ p.1.features, f < row.length) : ∀ (n k : Nat) (acc : F), k + n = fo.length →
    Ensemble.basicRow ops m row (List.range' k n) acc =
      .ok ((Forest.contributions ops.mul (goesLeft ops.le row) (fo.drop k)).foldl ops.add acc)
  | 0, k, acc, hk => by
    have : fo.drop k = [] := by rw [List.drop_eq_nil_iff]; omega
    simp [Ensemble.basicRow, this, Forest.contributions, pure, Except.pure]
  | n + 1, k, acc, hk => by
    have hlt : k < fo.length := by omega
    obtain ⟨⟨t, w⟩, hp⟩ : ∃ p, fo[k] = p := ⟨_, rfl⟩
    have hget : fo[k]? = some (t, w) := by rw [List.getElem?_eq_getElem hlt, hp]
    obtain ⟨s, hs, _⟩ := h.trees k t w hget
    obtain ⟨e, _, h2, _, _, h5⟩ := exitLeaf_represents ops h row hf hget hs
    rw [List.range'_succ, Ensemble.basicRow]
    simp only [h2, h5, bind, Except.bind]
    rw [basicRow_eq ops h row hf n (k + 1) _ (by omega), List.drop_eq_getElem_cons hlt, hp]
    simp [Forest.contributions]

theorem detailedCell_eq (ops : FloatOps F) (h : Represents m fo) (row : List F)
    (hf : ∀ p ∈ fo, ∀ f ∈ p.1.features, f < row.length) {k : Nat} {t : Tree F} {w : F} (hk : fo[k]? = some (t, w))
    {s : List Nat} (hs : Encodes m (treeStart fo k) t s) :
    ∃ e : Nat, s[t.exitPos (goesLeft ops.le row)]? = some e ∧ m.left[e]? = some (-1) ∧ m.right[e]? = some (-1) ∧
      Ensemble.detailedCell ops m row k = .ok ((e : Int), ops.mul (t.value (goesLeft ops.le row)) w) := by
  obtain ⟨e, h1, h2, h3, h4, h5⟩ := exitLeaf_represents ops h row hf hk hs
  exact ⟨e, h1, h3, h4, by simp only [Ensemble.detailedCell, h2, h5, bind, Except.bind, pure, Except.pure]⟩

theorem le_foldl_max : ∀ (l : List Int) (a : Int), a ≤ l.foldl max a ∧ ∀ x ∈ l, x ≤ l.foldl max a
  | [], a => by simp
  | b :: l, a => by
    obtain ⟨h1, h2⟩ := le_foldl_max l (max a b)
    rw [List.foldl_cons]
    refine ⟨le_trans (le_max_left a b) h1, fun x hx => ?_⟩
    rcases List.mem_cons.1 hx with rfl | hx
    · exact le_trans (le_max_right _ _) h1
    · exact h2 x hx

theorem foldl_max_mem : ∀ (l : List Int) (a : Int), l.foldl max a = a ∨ l.foldl max a ∈ l
  | [], a => by simp
  | b :: l, a => by
    rw [List.foldl_cons]
    rcases foldl_max_mem l (max a b) with h | h
    · rw [h]
      rcases max_choice a b with h' | h' <;> simp [h']
    · exact Or.inr (by simp [h])

theorem featureCheck_iff {nf : Nat} (hne : m.feature ≠ []) :
    (Ensemble.featureCheck m nf = .ok () ∧ ∀ f ∈ m.feature, f < nf) ∨
    (Ensemble.featureCheck m nf = .error .runtimeError ∧ ∃ f ∈ m.feature, (nf : Int) ≤ f) := by
  unfold Ensemble.featureCheck
  cases hm : m.feature with
  | nil => exact (hne hm).elim
  | cons f fs =>
    simp only
    obtain ⟨h1, h2⟩ := le_foldl_max fs f
    by_cases hc : fs.foldl max f + 1 > (nf : Int)
    · right
      rw [if_pos hc]
      refine ⟨rfl, fs.foldl max f, ?_, by omega⟩
      rcases foldl_max_mem fs f with h | h
      · rw [h]; simp
      · simp [h]
    · left
      rw [if_neg hc]
      refine ⟨rfl, fun x hx => ?_⟩
      rcases List.mem_cons.1 hx with rfl | hx
      · omega
      · have := h2 x hx; omega

/-- Every node belongs to a tree. -/
theorem Represents.node_in_tree (h : Represents m fo) {i : Nat} (hi : i < m.nNodes) :
    ∃ k t w, fo[k]? = some (t, w) ∧ treeStart fo k ≤ i ∧ i < treeStart fo k + t.numNodes := by
  have : ∀ n, n ≤ fo.length → i < treeStart fo n →
      ∃ k t w, fo[k]? = some (t, w) ∧ treeStart fo k ≤ i ∧ i < treeStart fo k + t.numNodes := by
    intro n
    induction n with
    | zero => intro _ h0; simp [treeStart, Forest.numNodes] at h0
    | succ n ih =>
      intro hn hlt
      by_cases hc : i < treeStart fo n
      · exact ih (by omega) hc
      · obtain ⟨⟨t, w⟩, hp⟩ : ∃ p, fo[n] = p := ⟨_, rfl⟩
        have hget : fo[n]? = some (t, w) := by rw [List.getElem?_eq_getElem (by omega), hp]
        exact ⟨n, t, w, hget, by omega, by rw [← treeStart_succ hget]; exact hlt⟩
  exact this fo.length le_rfl (by rw [treeStart_length, ← h.nNodes]; exact hi)

/-- What an encoded tree says about one of its nodes. -/
theorem Encodes.node_cases {i : Nat} {t : Tree F} {s : List Nat} (h : Encodes m i t s) :
    ∀ j ∈ s, (m.left[j]? = some (-1) ∧ m.right[j]? = some (-1) ∧ m.feature[j]? = some (-1)) ∨
      ∃ l r f : Nat, m.left[j]? = some (l : Int) ∧ m.right[j]? = some (r : Int) ∧ m.feature[j]? = some (f : Int) ∧
        f ∈ t.features ∧ l ∈ s ∧ r ∈ s := by
  induction h with
  | leaf hl hr hf hv => intro j hj; rw [List.mem_singleton] at hj; subst hj; exact Or.inl ⟨hl, hr, hf⟩
  | @node i f l r th tl tr sl sr hl hr hf hv el er ihl ihr =>
    intro j hj
    simp only [List.mem_cons, List.mem_append] at hj
    rcases hj with rfl | hj | hj
    · refine Or.inr ⟨l, r, f, hl, hr, hf, by simp [Tree.features], ?_, ?_⟩
      · simp [el.head]
      · simp [er.head]
    · rcases ihl j hj with h | ⟨a, b, c, h1, h2, h3, h4, h5, h6⟩
      · exact Or.inl h
      · exact Or.inr ⟨a, b, c, h1, h2, h3, by simp [Tree.features, h4], by simp [h5], by simp [h6]⟩
    · rcases ihr j hj with h | ⟨a, b, c, h1, h2, h3, h4, h5, h6⟩
      · exact Or.inl h
      · exact Or.inr ⟨a, b, c, h1, h2, h3, by simp [Tree.features, h4], by simp [h5], by simp [h6]⟩

theorem Represents.node_cases (h : Represents m fo) {j : Nat} (hj : j < m.nNodes) :
    ∃ k t w, fo[k]? = some (t, w) ∧ treeStart fo k ≤ j ∧ j < treeStart fo k + t.numNodes ∧
    ((m.left[j]? = some (-1) ∧ m.right[j]? = some (-1) ∧ m.feature[j]? = some (-1)) ∨
      ∃ l r f : Nat, m.left[j]? = some (l : Int) ∧ m.right[j]? = some (r : Int) ∧ m.feature[j]? = some (f : Int) ∧
        f ∈ t.features) := by
  obtain ⟨k, t, w, hk, h1, h2⟩ := h.node_in_tree hj
  obtain ⟨s, hs, hp⟩ := h.trees k t w hk
  have hm : j ∈ s := by
    rw [hp.mem_iff, List.mem_range'_1]
    exact ⟨h1, h2⟩
  rcases hs.node_cases j hm with h3 | ⟨l, r, f, a, b, c, d, _⟩
  · exact ⟨k, t, w, hk, h1, h2, Or.inl h3⟩
  · exact ⟨k, t, w, hk, h1, h2, Or.inr ⟨l, r, f, a, b, c, d⟩⟩

end repr
end Spec
end Verif
