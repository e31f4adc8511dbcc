/-
Properties C44 (topological analysis) and C45 (fullness of levels).
-/
import Verif.Lemmas.TopologyCount
import Mathlib.Algebra.Order.Field.Rat
import Mathlib.Algebra.BigOperators.Group.List.Basic
import Mathlib.Tactic.FieldSimp

namespace Verif.Props
open Ensemble Spec
variable {F : Type} {m : Ensemble F} {fo : Forest F}

/-- The entries of the matrix are exactly the nodes present in some tree, each once, with the number of trees having it. -/
structure Counts (incl : Bool) (fo : Forest F) (top : List Entry) : Prop where
  nodup : (top.map (fun e => (e.row, e.col))).Nodup
  count : ∀ e ∈ top, e.count = Forest.having incl fo e.row e.col ∧ 0 < e.count
  complete : ∀ row col, 0 < Forest.having incl fo row col → ∃ e ∈ top, e.row = row ∧ e.col = col

theorem zero_mem_words (incl : Bool) (hne : fo ≠ []) : (0 : Word) ∈ fo.flatMap (fun p => treeWords incl p.1) := by
  obtain ⟨p, fo', rfl⟩ := List.exists_cons_of_ne_nil hne
  obtain ⟨b, hb⟩ := heaps_head p.1 0
  rw [List.mem_flatMap]
  refine ⟨p, by simp, ?_⟩
  unfold treeWords
  rw [List.mem_map]
  refine ⟨_, hb, ?_⟩
  unfold stored
  split <;> rfl

/-- C44: for an ensemble with parents stored before children and trees of height below 63, the analysis gives the heights of the trees,
and its matrix holds for each level and position the number of trees having a node there. -/
theorem C44_topology_partial (h : Represents m fo) (hne : fo ≠ []) (hpf : ParentFirst m) (hh : ∀ p ∈ fo, p.1.height < 63) (incl : Bool) :
    ∃ top, topologicalAnalysis m incl = .ok (top, fo.map (fun p => p.1.height)) ∧ Counts incl fo top := by
  obtain ⟨arr, e, hperm⟩ := topology_words h hpf incl hh
  obtain ⟨ws, hws⟩ : ∃ ws, arr.dedup.insertionSort (fun a b => a.toNat ≤ b.toNat) = ws := ⟨_, rfl⟩
  have hwsp : ws.Perm arr.dedup := hws ▸ List.perm_insertionSort _ _
  have hmem : ∀ w, w ∈ ws ↔ w ∈ fo.flatMap (fun p => treeWords incl p.1) := by
    intro w
    rw [hwsp.mem_iff, List.mem_dedup, hperm.mem_iff]
  have hnd : ws.Nodup := hwsp.nodup_iff.2 (List.nodup_dedup _)
  have hsorted : ws.Pairwise (fun a b => a.toNat ≤ b.toNat) := by
    rw [← hws]
    haveI : Std.Total (fun a b : Word => a.toNat ≤ b.toNat) := ⟨fun a b => le_total _ _⟩
    haveI : IsTrans Word (fun a b : Word => a.toNat ≤ b.toNat) := ⟨fun a b c => le_trans⟩
    exact List.pairwise_insertionSort _ _
  obtain ⟨rest, hrest⟩ : ∃ rest, ws = 0 :: rest := by
    have h0 := (hmem 0).2 (zero_mem_words incl hne)
    match ws, h0, hsorted with
    | w :: rest, h0, hsorted =>
      rw [List.pairwise_cons] at hsorted
      rcases List.mem_cons.1 h0 with h0 | h0
      · exact ⟨rest, by rw [h0]⟩
      · have hle := hsorted.1 0 h0
        have hw0 : w = 0 := by
          apply BitVec.eq_of_toNat_eq
          have : (0 : Word).toNat = 0 := rfl
          omega
        exact ⟨rest, by rw [hw0]⟩
  have hcount : ∀ w, arr.count w = (fo.flatMap (fun p => treeWords incl p.1)).count w := fun w => hperm.count_eq w
  have huc : uniqueCounts arr = (0, arr.count 0) :: rest.map (fun w => (w, arr.count w)) := by
    unfold uniqueCounts
    rw [hws, hrest]
    rfl
  have hzero : ∀ n, toEntry (0, n) = ⟨0, 0, n⟩ := fun n => toEntry_heap (level := 0) (pos := 0) (by omega) (by norm_num)
  refine ⟨⟨0, 0, fo.length⟩ :: rest.map (fun w => toEntry (w, arr.count w)), ?_, ?_⟩
  · unfold topologicalAnalysis
    rw [e]
    simp only [bind, Except.bind]
    rw [huc]
    unfold overwriteFirst
    simp only [pure, Except.pure, List.map_cons, List.map_map, Function.comp_def]
    rw [hzero, h.nTrees]
  · have hform : ∀ w ∈ rest, ∃ level pos, 0 < level ∧ level < 63 ∧ pos < 2 ^ level ∧ w = BitVec.ofNat 64 (2 ^ level - 1 + pos) ∧
        toEntry (w, arr.count w) = ⟨level, pos, fo.countP (fun p => p.1.hasNode incl level pos)⟩ := by
      intro w hw
      obtain ⟨level, pos, h1, h2, h3⟩ := words_form incl hh ((hmem w).1 (by rw [hrest]; simp [hw]))
      have hpos : 0 < level := by
        by_contra hc
        have : level = 0 := by omega
        subst this
        have : pos = 0 := by omega
        subst this
        rw [hrest, List.nodup_cons] at hnd
        rw [h3] at hw
        exact hnd.1 hw
      refine ⟨level, pos, hpos, h1, h2, h3, ?_⟩
      rw [hcount, h3, count_words incl hh h1 hpos h2, toEntry_heap h1 h2]
    rw [hrest, List.nodup_cons] at hnd
    refine ⟨?_, ?_, ?_⟩
    · rw [List.map_cons, List.nodup_cons, List.map_map]
      constructor
      · intro hc
        rw [List.mem_map] at hc
        obtain ⟨w, hw, he⟩ := hc
        obtain ⟨level, pos, h0, _, _, _, h5⟩ := hform w hw
        simp only [Function.comp_apply, h5, Prod.mk.injEq] at he
        omega
      · apply List.Nodup.map_on _ hnd.2
        intro a ha b hb heq
        obtain ⟨la, pa, _, _, _, ha4, ha5⟩ := hform a ha
        obtain ⟨lb, pb, _, _, _, hb4, hb5⟩ := hform b hb
        simp only [Function.comp_apply, ha5, hb5, Prod.mk.injEq] at heq
        rw [ha4, hb4, heq.1, heq.2]
    · intro en hen
      rcases List.mem_cons.1 hen with rfl | hen
      · simp only [Forest.having, and_self, if_true]
        exact ⟨trivial, List.length_pos_iff.2 hne⟩
      · rw [List.mem_map] at hen
        obtain ⟨w, hw, rfl⟩ := hen
        obtain ⟨level, pos, h0, h1, h2, h4, h5⟩ := hform w hw
        have hc : 0 < arr.count w := by
          rw [hcount]
          exact List.count_pos_iff.2 ((hmem w).1 (by rw [hrest]; simp [hw]))
        rw [hcount, h4, count_words incl hh h1 h0 h2] at hc
        rw [h5]
        unfold Forest.having
        rw [if_neg (by simp only; omega)]
        exact ⟨rfl, hc⟩
    · intro row col hpos
      unfold Forest.having at hpos
      by_cases hc : row = 0 ∧ col = 0
      · exact ⟨_, List.mem_cons_self, hc.1.symm, hc.2.symm⟩
      · rw [if_neg hc] at hpos
        obtain ⟨p, hpm, hp⟩ := List.countP_pos_iff.1 hpos
        obtain ⟨h1, h2⟩ := hasNode_true hp
        have hlt : row < 63 := lt_of_le_of_lt h1 (hh p hpm)
        have hr0 : 0 < row := by
          by_contra hr
          have hr : row = 0 := by omega
          subst hr
          have : col = 0 := by omega
          exact hc ⟨rfl, this⟩
        have hw : BitVec.ofNat 64 (2 ^ row - 1 + col) ∈ ws := by
          rw [hmem, ← List.count_pos_iff, count_words incl hh hlt hr0 h2]
          exact hpos
        rw [hrest] at hw
        have hne0 : (BitVec.ofNat 64 (2 ^ row - 1 + col) : Word) ≠ 0 := by
          intro he
          have hle : 2 ^ (row + 1) ≤ 2 ^ 63 := Nat.pow_le_pow_right (by norm_num) (by omega)
          have hsucc : 2 ^ (row + 1) = 2 * 2 ^ row := Nat.pow_succ'
          have hge : 2 ^ 1 ≤ 2 ^ row := Nat.pow_le_pow_right (by norm_num) (by omega)
          have := congrArg BitVec.toNat he
          rw [toNat_ofNat_lt (by omega)] at this
          have h00 : (0 : Word).toNat = 0 := rfl
          omega
        have hw2 : BitVec.ofNat 64 (2 ^ row - 1 + col) ∈ rest := (List.mem_cons.1 hw).resolve_left hne0
        refine ⟨_, List.mem_cons_of_mem _ (List.mem_map_of_mem hw2), ?_⟩
        rw [toEntry_heap hlt h2]
        exact ⟨rfl, rfl⟩

/-- The value of each cell of the matrix is the number of trees having the node. -/
theorem C44_cell {incl : Bool} {top : List Entry} (h : Counts incl fo top) (row col : Nat) : cell top row col = Forest.having incl fo row col := by
  unfold cell
  by_cases hp : 0 < Forest.having incl fo row col
  · obtain ⟨e, he, h1, h2⟩ := h.complete row col hp
    have hfil : top.filter (fun e => e.row = row ∧ e.col = col) = [e] := by
      have hnd := h.nodup
      clear hp
      have : ∀ l : List Entry, (l.map (fun e => (e.row, e.col))).Nodup → e ∈ l → l.filter (fun e => e.row = row ∧ e.col = col) = [e] := by
        intro l
        induction l with
        | nil => intro _ hm; simp at hm
        | cons a l ih =>
          intro hn hm
          rw [List.map_cons, List.nodup_cons] at hn
          rcases List.mem_cons.1 hm with rfl | hm
          · rw [List.filter_cons_of_pos (by simp [h1, h2])]
            congr 1
            rw [List.filter_eq_nil_iff]
            intro x hx hc
            simp only [decide_eq_true_eq] at hc
            apply hn.1
            rw [List.mem_map]
            exact ⟨x, hx, by rw [hc.1, hc.2, h1, h2]⟩
          · rw [List.filter_cons_of_neg, ih hn.2 hm]
            intro hc
            simp only [decide_eq_true_eq] at hc
            apply hn.1
            rw [List.mem_map]
            exact ⟨e, hm, by rw [hc.1, hc.2, h1, h2]⟩
      exact this top hnd he
    rw [hfil, List.map_singleton, List.sum_singleton, (h.count e he).1, h1, h2]
  · have hnil : top.filter (fun e => e.row = row ∧ e.col = col) = [] := by
      rw [List.filter_eq_nil_iff]
      intro e he hc
      simp only [decide_eq_true_eq] at hc
      have := h.count e he
      rw [hc.1, hc.2] at this
      omega
    rw [hnil]
    simp only [List.map_nil, List.sum_nil]
    omega

theorem having_le (incl : Bool) (fo : Forest F) (row col : Nat) : Forest.having incl fo row col ≤ fo.length := by
  unfold Forest.having
  split
  · exact le_rfl
  · exact List.countP_le_length

/-- The cells of `avg_tree_shape` are the fractions of trees having the node; they are in [0, 1]. -/
theorem C44_avg_tree_shape {incl : Bool} {top : List Entry} (h : Counts incl fo top) (hne : fo ≠ []) (row col : Nat) :
    avgTreeShape (K := ℚ) top fo.length row col = (Forest.having incl fo row col : ℚ) / fo.length ∧
    0 ≤ avgTreeShape (K := ℚ) top fo.length row col ∧ avgTreeShape (K := ℚ) top fo.length row col ≤ 1 := by
  have he : avgTreeShape (K := ℚ) top fo.length row col = (Forest.having incl fo row col : ℚ) / fo.length := by
    unfold avgTreeShape
    rw [C44_cell h]
  have hpos : (0 : ℚ) < fo.length := by exact_mod_cast List.length_pos_iff.2 hne
  refine ⟨he, ?_, ?_⟩
  · rw [he]; positivity
  · rw [he, div_le_one hpos]
    exact_mod_cast having_le incl fo row col

/-! ### Concrete cases -/

/-- Two trees: root with a right inner child, and a stump. -/
def topoForest : Forest Nat :=
  [(.node 0 1 (.leaf 5) (.node 1 2 (.leaf 6) (.leaf 7)), 1), (.node 0 3 (.leaf 8) (.leaf 9), 1)]

/-- Their arrays. -/
def topoEnsemble : Ensemble Nat where
  nTrees := 2
  nNodes := 8
  root := [0, 5]
  weight := [1, 1]
  left := [1, -1, 3, -1, -1, 6, -1, -1]
  right := [2, -1, 4, -1, -1, 7, -1, -1]
  value := [1, 5, 2, 6, 7, 3, 8, 9]
  feature := [0, -1, 1, -1, -1, 0, -1, -1]

theorem topo_represents : Represents topoEnsemble topoForest := by
  refine ⟨rfl, rfl, rfl, rfl, rfl, rfl, rfl, rfl, ?_⟩
  intro k t w hk
  match k, hk with
  | 0, hk =>
    simp only [topoForest, List.getElem?_cons_zero, Option.some.injEq, Prod.mk.injEq] at hk
    obtain ⟨rfl, rfl⟩ := hk
    exact ⟨[0, 1, 2, 3, 4], .node (l := 1) (r := 2) (f := 0) rfl rfl rfl rfl (.leaf rfl rfl rfl rfl)
      (.node (l := 3) (r := 4) (f := 1) rfl rfl rfl rfl (.leaf rfl rfl rfl rfl) (.leaf rfl rfl rfl rfl)), by decide⟩
  | 1, hk =>
    simp only [topoForest, List.getElem?_cons_succ, List.getElem?_cons_zero, Option.some.injEq, Prod.mk.injEq] at hk
    obtain ⟨rfl, rfl⟩ := hk
    exact ⟨[5, 6, 7], .node (l := 6) (r := 7) (f := 0) rfl rfl rfl rfl (.leaf rfl rfl rfl rfl) (.leaf rfl rfl rfl rfl), by decide⟩
  | k + 2, hk => simp [topoForest] at hk

theorem topo_parentFirst : ParentFirst topoEnsemble := by
  have hd : ∀ i < 8, ∀ j < 8, (topoEnsemble.left[i]? = some ((j : Nat) : Int) ∨ topoEnsemble.right[i]? = some ((j : Nat) : Int)) → i < j := by
    decide
  have hb : ∀ i < 8, ∀ x ∈ [topoEnsemble.left[i]?, topoEnsemble.right[i]?], ∀ y ∈ x, y < 8 := by decide
  intro i j hc
  have hi : i < 8 := by
    by_contra hge
    rw [List.getElem?_eq_none (show topoEnsemble.left.length ≤ i from by simpa [topoEnsemble] using hge),
      List.getElem?_eq_none (show topoEnsemble.right.length ≤ i from by simpa [topoEnsemble] using hge)] at hc
    simp at hc
  refine hd i hi j ?_ hc
  rcases hc with hc | hc
  · have := hb i hi _ (by simp) _ hc
    omega
  · have := hb i hi _ (by simp) _ hc
    omega

/-- The hypotheses of C44 hold for these trees; level 2 has positions 2 and 3 in one tree. -/
example : Represents topoEnsemble topoForest ∧ topoForest ≠ [] ∧ ParentFirst topoEnsemble ∧ (∀ p ∈ topoForest, p.1.height < 63) ∧
    topologicalAnalysis topoEnsemble true = .ok ([⟨0, 0, 2⟩, ⟨1, 0, 2⟩, ⟨1, 1, 2⟩, ⟨2, 2, 1⟩, ⟨2, 3, 1⟩], [2, 1]) ∧
    topologicalAnalysis topoEnsemble false = .ok ([⟨0, 0, 2⟩, ⟨1, 1, 1⟩], [2, 1]) :=
  ⟨topo_represents, by simp [topoForest], topo_parentFirst, by decide, by decide +kernel, by decide +kernel⟩

/-- An ensemble with a child (node 1) stored before its parent (node 3). -/
def badOrder : Ensemble Nat where
  nTrees := 1
  nNodes := 7
  root := [0]
  weight := [1]
  left := [2, 5, -1, 4, -1, -1, -1]
  right := [3, 6, -1, 1, -1, -1, -1]
  value := [1, 3, 5, 2, 6, 7, 8]
  feature := [0, 0, -1, 0, -1, -1, -1]

def badOrderForest : Forest Nat := [(.node 0 1 (.leaf 5) (.node 0 2 (.leaf 6) (.node 0 3 (.leaf 7) (.leaf 8))), 1)]

theorem badOrder_represents : Represents badOrder badOrderForest := by
  refine ⟨rfl, rfl, rfl, rfl, rfl, rfl, rfl, rfl, ?_⟩
  intro k t w hk
  match k, hk with
  | 0, hk =>
    simp only [badOrderForest, List.getElem?_cons_zero, Option.some.injEq, Prod.mk.injEq] at hk
    obtain ⟨rfl, rfl⟩ := hk
    exact ⟨[0, 2, 3, 4, 1, 5, 6], .node (l := 2) (r := 3) (f := 0) rfl rfl rfl rfl (.leaf rfl rfl rfl rfl)
      (.node (l := 4) (r := 1) (f := 0) rfl rfl rfl rfl (.leaf rfl rfl rfl rfl)
        (.node (l := 5) (r := 6) (f := 0) rfl rfl rfl rfl (.leaf rfl rfl rfl rfl) (.leaf rfl rfl rfl rfl))), by decide⟩
  | k + 1, hk => simp [badOrderForest] at hk

/-- The code relies on parents being stored before children: otherwise heights and counts are wrong. -/
theorem C44_violated_child_first : Represents badOrder badOrderForest ∧ (∀ p ∈ badOrderForest, p.1.height < 63) ∧
    ∃ top, topologicalAnalysis badOrder true = .ok (top, [2]) ∧ badOrderForest.map (fun p => p.1.height) = [3] ∧
      cell top 1 0 = 2 ∧ Forest.having true badOrderForest 1 0 = 1 :=
  ⟨badOrder_represents, by decide, [⟨0, 0, 1⟩, ⟨1, 0, 2⟩, ⟨1, 1, 2⟩, ⟨2, 2, 1⟩, ⟨2, 3, 1⟩], by decide +kernel, by decide, by decide, by decide⟩

/-- A chain of 64 nodes going left; node `i` has the left child `i + 1` and the right child `65 + i`. -/
def deepChain : Ensemble Nat where
  nTrees := 1
  nNodes := 129
  root := [0]
  weight := [1]
  left := (List.range 64).map (fun i => (i : Int) + 1) ++ List.replicate 65 (-1)
  right := (List.range 64).map (fun i => (i : Int) + 65) ++ List.replicate 65 (-1)
  value := List.replicate 129 0
  feature := List.replicate 64 0 ++ List.replicate 65 (-1)

/-- The bound on the height is needed: for a tree of height 64 the 64 bit index wraps around and the height is given as 0. -/
theorem C44_violated_deep : heightTrees deepChain = .ok [64] ∧
    (topologicalAnalysis deepChain true).map (fun r => r.2) = .ok [0] := by
  constructor <;> decide +kernel

/-! ### Fullness -/

theorem sum_le_length_mul {n : Nat} : ∀ {l : List Nat}, (∀ x ∈ l, x ≤ n) → l.sum ≤ l.length * n ∧ (l.sum = l.length * n ↔ ∀ x ∈ l, x = n)
  | [], _ => by simp
  | a :: l, h => by
    have ha := h a (by simp)
    obtain ⟨h1, h2⟩ := sum_le_length_mul (n := n) (l := l) (fun x hx => h x (by simp [hx]))
    rw [List.sum_cons, List.length_cons, Nat.succ_mul]
    refine ⟨by omega, ?_⟩
    rw [List.forall_mem_cons, ← h2]
    omega

/-- C45: the fullness of a level that occurs in some tree is in [0, 1], and it is 1 exactly if every position of the level present in
some tree is present in all trees. -/
theorem C45_fullness_partial {incl : Bool} {top : List Entry} (h : Counts incl fo top) (hne : fo ≠ []) {row col : Nat}
    (hrow : 0 < Forest.having incl fo row col) :
    0 ≤ fullness (K := ℚ) top fo.length row ∧ fullness (K := ℚ) top fo.length row ≤ 1 ∧
    (fullness (K := ℚ) top fo.length row = 1 ↔ ∀ c, 0 < Forest.having incl fo row c → Forest.having incl fo row c = fo.length) := by
  obtain ⟨es, hes⟩ : ∃ es, top.filter (fun e => e.row = row) = es := ⟨_, rfl⟩
  have hmem : ∀ e, e ∈ es ↔ e ∈ top ∧ e.row = row := by
    intro e
    rw [← hes, List.mem_filter, decide_eq_true_eq]
  have hn : (0 : ℚ) < fo.length := by exact_mod_cast List.length_pos_iff.2 hne
  obtain ⟨e, he, he1, _⟩ := h.complete row col hrow
  have hlen : 0 < es.length := List.length_pos_of_mem ((hmem e).2 ⟨he, he1⟩)
  have hl : (0 : ℚ) < es.length := by exact_mod_cast hlen
  obtain ⟨hle, heq⟩ := sum_le_length_mul (n := fo.length) (l := es.map Entry.count) (by
    intro x hx
    rw [List.mem_map] at hx
    obtain ⟨e, he, rfl⟩ := hx
    rw [(h.count e ((hmem e).1 he).1).1]
    exact having_le _ _ _ _)
  rw [List.length_map] at hle heq
  have hleq : (((es.map Entry.count).sum : ℕ) : ℚ) ≤ es.length * fo.length := by exact_mod_cast hle
  have hf : fullness (K := ℚ) top fo.length row = ((es.map Entry.count).sum : ℕ) / (es.length * fo.length : ℚ) := by
    unfold fullness
    simp only
    rw [hes, div_div]
  rw [hf]
  refine ⟨by positivity, by rw [div_le_one (by positivity)]; exact hleq, ?_⟩
  rw [div_eq_one_iff_eq (by positivity)]
  have hcast : ((((es.map Entry.count).sum : ℕ) : ℚ) = es.length * fo.length) ↔ (es.map Entry.count).sum = es.length * fo.length := by
    norm_cast
  rw [hcast, heq]
  constructor
  · intro hall c hc
    obtain ⟨e, he, h1, h2⟩ := h.complete row c hc
    have := hall e.count (List.mem_map_of_mem ((hmem e).2 ⟨he, h1⟩))
    rw [(h.count e he).1, h1, h2] at this
    exact this
  · intro hall x hx
    rw [List.mem_map] at hx
    obtain ⟨e, he, rfl⟩ := hx
    obtain ⟨h1, h2⟩ := (hmem e).1 he
    have hc := h.count e h1
    rw [hc.1, h2]
    apply hall
    rw [← h2, ← hc.1]
    exact hc.2

/-- The case of the example above: level 1 is full in both trees. -/
example : Counts true topoForest [⟨0, 0, 2⟩, ⟨1, 0, 2⟩, ⟨1, 1, 2⟩, ⟨2, 2, 1⟩, ⟨2, 3, 1⟩] ∧ topoForest ≠ [] ∧
    0 < Forest.having true topoForest 2 3 := by
  refine ⟨?_, by simp [topoForest], by decide⟩
  obtain ⟨top, h1, h2⟩ := C44_topology_partial topo_represents (by simp [topoForest]) topo_parentFirst (by decide) true
  have h3 : topologicalAnalysis topoEnsemble true = .ok ([⟨0, 0, 2⟩, ⟨1, 0, 2⟩, ⟨1, 1, 2⟩, ⟨2, 2, 1⟩, ⟨2, 3, 1⟩], [2, 1]) := by decide +kernel
  rw [h3] at h1
  injection h1 with h1
  rw [Prod.mk.injEq] at h1
  rw [h1.1]
  exact h2

/-- The first of the two trees alone. -/
def lopsided : Ensemble Nat where
  nTrees := 1
  nNodes := 5
  root := [0]
  weight := [1]
  left := [1, -1, 3, -1, -1]
  right := [2, -1, 4, -1, -1]
  value := [1, 5, 2, 6, 7]
  feature := [0, -1, 1, -1, -1]

theorem lopsided_represents : Represents lopsided (topoForest.take 1) := by
  refine ⟨rfl, rfl, rfl, rfl, rfl, rfl, rfl, rfl, ?_⟩
  intro k t w hk
  match k, hk with
  | 0, hk =>
    simp only [topoForest, List.take_succ_cons, List.getElem?_cons_zero, Option.some.injEq, Prod.mk.injEq] at hk
    obtain ⟨rfl, rfl⟩ := hk
    exact ⟨[0, 1, 2, 3, 4], .node (l := 1) (r := 2) (f := 0) rfl rfl rfl rfl (.leaf rfl rfl rfl rfl)
      (.node (l := 3) (r := 4) (f := 1) rfl rfl rfl rfl (.leaf rfl rfl rfl rfl) (.leaf rfl rfl rfl rfl)), by decide⟩
  | k + 1, hk => simp [topoForest] at hk

/-- C45 does not hold as documented: level 2 of this tree has two of four nodes, and its fullness is 1. -/
theorem C45_violated : ∃ top, Represents lopsided (topoForest.take 1) ∧ topologicalAnalysis lopsided true = .ok (top, [2]) ∧
    fullness (K := ℚ) top 1 2 = 1 ∧ Forest.having true (topoForest.take 1) 2 0 = 0 := by
  refine ⟨[⟨0, 0, 1⟩, ⟨1, 0, 1⟩, ⟨1, 1, 1⟩, ⟨2, 2, 1⟩, ⟨2, 3, 1⟩], lopsided_represents, by decide +kernel, ?_, by decide⟩
  unfold fullness
  norm_num

end Verif.Props
