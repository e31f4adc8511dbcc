/-
Property C43: loading CatBoost models in CoreML format.
-/
import Verif.Lemmas.LoadCoreml
import Verif.Props.LoadDump

namespace Verif.Props
open Spec Ensemble
variable {F : Type}

theorem coreCount_eq {F : Type} {empty : Nat → List Nat} {nodes : List (CoreNode F)} {K n : Nat} (hnpos : 0 < n) (hn : n < 2 ^ 16)
    (hempty : ∀ K, (empty K).length = K) (hlast : ∀ k < K, LastListed nodes k (n - 1)) (hKpos : 0 < K) (htree : ∀ x ∈ nodes, x.treeId < K) :
    coreCount empty nodes = .ok (K, K * n) := by
  have hlastmem : K - 1 ∈ nodes.map (·.treeId) := by
    obtain ⟨pre, x, post, e, h1, _⟩ := hlast (K - 1) (by omega)
    exact List.mem_map.2 ⟨x, by rw [e]; simp, h1⟩
  have hmax : (nodes.map (·.treeId)).foldl max 0 + 1 = K := by
    rw [foldl_max_eq (M := K - 1) ?_ hlastmem 0 (by omega)]
    · omega
    · intro k hk
      obtain ⟨x, hx, rfl⟩ := List.mem_map.1 hk
      have := htree x hx
      omega
  have hnn : nodes ≠ [] := by rintro rfl; simp at hlastmem
  have hlastlist : coreLast empty K nodes = List.replicate K (n - 1) := by
    apply List.ext_getElem?
    intro k
    by_cases hk : k < K
    · rw [coreLast_get (hempty _) hk (hlast k hk), List.getElem?_replicate, if_pos hk, Nat.mod_eq_of_lt (by omega)]
    · rw [List.getElem?_eq_none_iff.2 (by unfold coreLast; rw [foldl_set_length, hempty]; omega),
        List.getElem?_eq_none_iff.2 (by simpa using hk)]
  unfold coreCount
  rw [if_neg hnn, hmax]
  simp only [hlastlist, List.map_replicate, List.sum_replicate, pure, Except.pure]
  rw [Nat.sub_add_cancel (by omega), Nat.mod_eq_of_lt hn]
  simp

/-- C43, proved part: if all trees have the same number `n ≤ 65535` of nodes, with ids `0 .. n-1`, the root having the id `n - 1` and being
the last node listed for its tree, then loading gives exactly these trees in order, each with weight 1. The nodes of different trees
may be interleaved, and `np.empty` may contain anything. Features below 2^15.
Missing: trees of different sizes and trees with more nodes, see `C43_violated` and `C43_count_wraps`. -/
theorem C43_load_partial (zero one minusOne half : F) (empty : Nat → List Nat) {nodes : List (CoreNode F)} {ts : List (CTree F)} {n : Nat}
    (hne : ts ≠ []) (hn : n < 2 ^ 16) (hempty : ∀ K, (empty K).length = K) (hnodes : nodes.Perm (coreNodes 0 ts))
    (hids : ∀ t ∈ ts, t.ids.Perm (List.range n)) (hroot : ∀ t ∈ ts, t.id = n - 1)
    (hlast : ∀ k < ts.length, LastListed nodes k (n - 1)) (hf : ∀ t ∈ ts, ∀ f ∈ t.toTree.features, f < 2 ^ 15)
    (lr : F) (bs : Option F) (nTrees : Option Nat) :
    ∃ m, rtEnsemble half .catBoost (catboostLoad zero one minusOne empty nodes) lr bs nTrees = .ok ⟨m, lr, bs⟩ ∧
      Represents m ((ts.map (fun t => (t.toTree, one))).take (nTrees.elim ts.length id)) := by
  set fo : Forest F := ts.map (fun t => (t.toTree, one)) with hfo
  have hKpos : 0 < ts.length := List.length_pos_iff.2 hne
  have hnpos : 0 < n := by
    obtain ⟨t, ts', rfl⟩ := List.exists_cons_of_ne_nil hne
    have h1 := CTree.id_mem t
    rw [(hids t (by simp)).mem_iff, List.mem_range] at h1
    omega
  have hlenfo : fo.length = ts.length := by simp [hfo]
  have hsize : ∀ p ∈ fo, p.1.numNodes = n := by
    intro p hp
    obtain ⟨t, ht, rfl⟩ := List.mem_map.1 hp
    rw [← CTree.length_ids, (hids t ht).length_eq, List.length_range]
  have htotal : Forest.numNodes fo = ts.length * n := by rw [forest_numNodes_const hsize, hlenfo]
  have hstart : ∀ k ≤ ts.length, treeStart fo k = k * n := by
    intro k hk
    unfold treeStart
    rw [forest_numNodes_const (fun p hp => hsize p (List.mem_of_mem_take hp)), List.length_take, hlenfo, min_eq_left hk]
  -- membership
  have hmem : ∀ x ∈ nodes, ∃ (j : Nat) (t : CTree F), ts[j]? = some t ∧ x ∈ t.nodes j := by
    intro x hx
    obtain ⟨j, t, h1, h2⟩ := mem_coreNodes.1 (hnodes.mem_iff.1 hx)
    exact ⟨j, t, h1, by simpa using h2⟩
  have htree : ∀ (k : Nat) (t : CTree F), ∀ x ∈ t.nodes k, x.treeId = k ∧ x.nodeId ∈ t.ids := by
    intro k t x hx
    have : (x.treeId, x.nodeId) ∈ (t.nodes k).map (fun x => (x.treeId, x.nodeId)) :=
      List.mem_map_of_mem (f := fun x : CoreNode F => (x.treeId, x.nodeId)) hx
    rw [nodes_map] at this
    obtain ⟨i, hi, he⟩ := List.mem_map.1 this
    cases he
    exact ⟨rfl, hi⟩
  have hgood : ∀ x ∈ nodes, GoodNode n ts.length x := by
    intro x hx
    obtain ⟨j, t, h1, h2⟩ := hmem x hx
    have ht := List.mem_of_getElem? h1
    exact nodes_good (List.getElem?_eq_some_iff.1 h1).1 t
      (fun i hi => List.mem_range.1 ((hids t ht).mem_iff.1 hi)) (hf t ht) x h2
  have hnd : (nodes.map (fun x => corePos n x.treeId x.nodeId)).Nodup := by
    have := (hnodes.map (fun x => corePos n x.treeId x.nodeId)).trans (coreNodes_pos ts 0 hids)
    exact (this.nodup_iff).2 List.nodup_range'
  -- the count
  have hcount : coreCount empty nodes = .ok (ts.length, ts.length * n) :=
    coreCount_eq hnpos hn hempty hlast hKpos (fun x hx => (hgood x hx).2.1)
  -- the loop
  obtain ⟨m, e, hat, _, hfr, hro⟩ := core_fold one nodes hgood hnd (alloc zero minusOne ts.length (ts.length * n))
    ⟨by simp [alloc], by simp [alloc], by simp [alloc], by simp [alloc]⟩ (by simp [alloc]) (by simp [alloc])
    (fun x hx => by
      have := corePos_lt (hgood x hx).1 (hgood x hx).2.1
      constructor <;> simp [alloc, this])
  have hload : catboostLoad zero one minusOne empty nodes lr bs = .ok ⟨m, lr, bs⟩ := by
    unfold catboostLoad
    rw [hcount]
    simp only [bind, Except.bind]
    rw [Nat.mul_div_cancel_left _ hKpos, e]
    rfl
  have hrep : Represents m fo := by
    apply LoadedTrees.represents
    have hnode : ∀ (k : Nat) t, ts[k]? = some t → ∀ x ∈ t.nodes k, NodeAt n m x := by
      intro k t hk x hx
      refine hat x (hnodes.mem_iff.2 (mem_coreNodes.2 ⟨k, t, hk, by simpa using hx⟩))
    have hrk : ∀ k < ts.length, m.root[k]? = some ((k * n : Nat) : Int) ∧ m.weight[k]? = some one := by
      intro k hk
      obtain ⟨pre, x, post, e, h1, h2, _⟩ := hlast k hk
      have := hro x (by rw [e]; simp) (by omega)
      rwa [h1] at this
    refine ⟨by rw [hfr.nTrees]; exact hlenfo.symm, by rw [hfr.nNodes]; exact htotal.symm, htotal ▸ hfr.len,
      by rw [hfr.root_len, hlenfo], by rw [hfr.weight_len, hlenfo], ?_, ?_, ?_, ?_⟩
    · intro j hj
      rw [hlenfo] at hj
      rw [(hrk j hj).1, hstart j (by omega)]
    · intro j hj
      rw [hlenfo] at hj
      rw [(hrk j hj).2, hfo, List.getElem?_map, List.getElem?_eq_getElem hj]
      rfl
    · intro j hj t w htw
      rw [hlenfo] at hj
      rw [hfo, List.getElem?_map, List.getElem?_eq_getElem hj, Option.map_some] at htw
      cases htw
      have hts : ts[j]? = some ts[j] := List.getElem?_eq_getElem hj
      have ht : ts[j] ∈ ts := List.getElem_mem hj
      have henc := core_encodes ts[j] (hnode j _ hts)
      refine ⟨ts[j].ids.map (corePos n j), ?_, ?_⟩
      rotate_left
      · rw [hstart j (by omega), ← CTree.length_ids, (hids _ ht).length_eq, List.length_range]
        exact ids_pos_perm j (hids _ ht)
      · have : corePos n j ts[j].id = treeStart fo j := by
          rw [hroot _ ht, hstart j (by omega)]
          unfold corePos
          omega
        rw [this] at henc
        exact henc
    · intro i hi hi'
      rw [htotal] at hi'
      rw [hlenfo, hstart _ le_rfl] at hi
      omega
  have := C35_loading (half := half) (format := .catBoost) (load := catboostLoad zero one minusOne empty nodes) (bs := bs)
    (by simpa using hload) hrep nTrees
  rw [hlenfo] at this
  exact this

/-- C43: the loaded tree takes the same decisions as the CoreML tree. -/
theorem C43_value [LinearOrder F] (t : CTree F) (row : List F) (x : Nat → F) (hrow : ∀ f ∈ t.toTree.features, row[f]? = some (x f)) :
    t.toTree.value (goesLeft (fun a b => decide (a ≤ b)) row) = t.value x := by
  induction t with
  | leaf => rfl
  | gt i f th y n ihy ihn =>
    simp only [CTree.toTree, Spec.Tree.features, List.mem_cons, List.mem_append] at hrow
    have hf : goesLeft (fun a b => decide (a ≤ b)) row f th = decide (x f ≤ th) := by
      unfold goesLeft; rw [hrow f (by simp)]
    simp only [CTree.toTree, Spec.Tree.value, CTree.value, hf, ihy (fun g hg => hrow g (by simp [hg])),
      ihn (fun g hg => hrow g (by simp [hg]))]
    rcases le_or_gt (x f) th with h | h
    · simp [h, not_lt.2 h]
    · simp [h, not_le.2 h]
  | le i f th y n ihy ihn =>
    simp only [CTree.toTree, Spec.Tree.features, List.mem_cons, List.mem_append] at hrow
    have hf : goesLeft (fun a b => decide (a ≤ b)) row f th = decide (x f ≤ th) := by
      unfold goesLeft; rw [hrow f (by simp)]
    simp only [CTree.toTree, Spec.Tree.value, CTree.value, hf, ihy (fun g hg => hrow g (by simp [hg])),
      ihn (fun g hg => hrow g (by simp [hg]))]
    simp

/-- C43: if a file loads, all its inner nodes have a supported condition. -/
theorem C43_rejects (zero one minusOne half : F) (empty : Nat → List Nat) {nodes : List (CoreNode F)} {lr : F} {bs : Option F}
    {nTrees : Option Nat} {l : Loaded F}
    (h : rtEnsemble half .catBoost (catboostLoad zero one minusOne empty nodes) lr bs nTrees = .ok l) :
    ∀ x ∈ nodes, x.behavior ≠ .unsupported := by
  have key : ∀ (n : Nat) (xs : List (CoreNode F)) m m', xs.foldlM (coreStep one n) m = .ok m' →
      ∀ x ∈ xs, x.behavior ≠ .unsupported := by
    intro n xs
    induction xs with
    | nil => intro _ _ _ x hx; cases hx
    | cons y xs ih =>
      intro m m' hm x hx
      rw [List.foldlM_cons] at hm
      obtain ⟨m1, h1, h2⟩ := except_bind_ok hm
      rcases List.mem_cons.1 hx with rfl | hx
      · intro hb
        unfold coreStep at h1
        obtain ⟨m2, _, h4⟩ := except_bind_ok h1
        rw [hb] at h4
        cases h4
      · exact ih m1 m' h2 x hx
  unfold rtEnsemble at h
  obtain ⟨l', hl, _⟩ := except_bind_ok h
  unfold catboostLoad at hl
  obtain ⟨c, _, hl⟩ := except_bind_ok hl
  obtain ⟨m, hm, _⟩ := except_bind_ok hl
  exact key _ _ _ _ hm

/-- Two trees with three nodes. -/
def ctrees0 : List (CTree ℚ) :=
  [.gt 2 4 (1 / 2) (.leaf 1 10) (.leaf 0 20), .le 2 3 7 (.leaf 1 30) (.leaf 0 40)]

/-- C43: the two trees with interleaved nodes meet the hypotheses, and what is loaded. -/
example : [⟨0, 0, .leaf 20⟩, ⟨1, 0, .leaf 40⟩, ⟨1, 1, .leaf 30⟩, ⟨0, 1, .leaf 10⟩, ⟨1, 2, .lessThanEqual 3 7 1 0⟩,
      ⟨0, 2, .greaterThan 4 (1 / 2) 1 0⟩].Perm (coreNodes 0 ctrees0) ∧ (∀ t ∈ ctrees0, t.ids.Perm (List.range 3) ∧ t.id = 2) ∧
    catboostLoad 0 1 (-1) (fun K => List.replicate K 99) [⟨0, 0, .leaf 20⟩, ⟨1, 0, .leaf 40⟩, ⟨1, 1, .leaf 30⟩, ⟨0, 1, .leaf 10⟩,
      ⟨1, 2, .lessThanEqual 3 7 1 0⟩, ⟨0, 2, .greaterThan 4 (1 / 2) 1 0⟩] (1 : ℚ) none =
      .ok ⟨⟨2, 6, [0, 3], [1, 1], [2, -1, -1, 4, -1, -1], [1, -1, -1, 5, -1, -1], [1 / 2, 10, 20, 7, 30, 40],
        [4, -1, -1, 3, -1, -1]⟩, 1, none⟩ := by
  decide +kernel

/-- The nodes of the two trees. -/
def cnodes0 : List (CoreNode ℚ) := [⟨0, 0, .leaf 20⟩, ⟨1, 0, .leaf 40⟩, ⟨1, 1, .leaf 30⟩, ⟨0, 1, .leaf 10⟩, ⟨1, 2, .lessThanEqual 3 7 1 0⟩,
  ⟨0, 2, .greaterThan 4 (1 / 2) 1 0⟩]

theorem cnodes0_last : ∀ k < ctrees0.length, LastListed cnodes0 k (3 - 1) := by
  intro k hk
  match k, hk with
  | 0, _ => exact ⟨[⟨0, 0, .leaf 20⟩, ⟨1, 0, .leaf 40⟩, ⟨1, 1, .leaf 30⟩, ⟨0, 1, .leaf 10⟩, ⟨1, 2, .lessThanEqual 3 7 1 0⟩],
      ⟨0, 2, .greaterThan 4 (1 / 2) 1 0⟩, [], rfl, rfl, rfl, by simp⟩
  | 1, _ => exact ⟨[⟨0, 0, .leaf 20⟩, ⟨1, 0, .leaf 40⟩, ⟨1, 1, .leaf 30⟩, ⟨0, 1, .leaf 10⟩], ⟨1, 2, .lessThanEqual 3 7 1 0⟩,
      [⟨0, 2, .greaterThan 4 (1 / 2) 1 0⟩], rfl, rfl, rfl, by simp⟩

/-- They meet the hypotheses of `C43_load_partial`; with `n_trees=1` the first tree is loaded. -/
example : ∃ m, rtEnsemble (1 / 2 : ℚ) .catBoost (catboostLoad 0 1 (-1) (fun K => List.replicate K 99) cnodes0) 1 none (some 1) = .ok ⟨m, 1, none⟩ ∧
    Represents m [(.node 4 (1 / 2) (.leaf 20) (.leaf 10), 1)] :=
  C43_load_partial (0 : ℚ) 1 (-1) (1 / 2) (fun K => List.replicate K 99) (nodes := cnodes0) (ts := ctrees0) (n := 3) (by simp [ctrees0]) (by norm_num)
    (by simp) (by decide +kernel) (by decide +kernel) (by decide +kernel) cnodes0_last (by decide +kernel) 1 none (some 1)

/-- A tree with one node and a tree with three nodes. -/
def ctrees1 : List (CTree ℚ) := [.leaf 0 5, .gt 2 4 1 (.leaf 1 10) (.leaf 0 20)]

/-- Their nodes, the roots last. -/
def cnodes1 : List (CoreNode ℚ) := [⟨0, 0, .leaf 5⟩, ⟨1, 0, .leaf 20⟩, ⟨1, 1, .leaf 10⟩, ⟨1, 2, .greaterThan 4 1 1 0⟩]

/-- C43 is violated for trees of different sizes: a tree with one node and a tree with three nodes. The file loads without an error, but
the arrays do not represent the two trees. -/
theorem C43_violated : ∃ (ts : List (CTree ℚ)) (nodes : List (CoreNode ℚ)), nodes.Perm (coreNodes 0 ts) ∧
    (∀ t ∈ ts, t.ids.Perm (List.range (t.id + 1))) ∧ (∀ (k : Nat) t, ts[k]? = some t → LastListed nodes k t.id) ∧
    ∃ m, rtEnsemble 0 .catBoost (catboostLoad 0 1 (-1) (fun K => List.replicate K 99) nodes) 1 none none = .ok m ∧
      ¬ Represents m.arrays (ts.map (fun t => (t.toTree, 1))) := by
  refine ⟨ctrees1, cnodes1, by decide +kernel, by decide +kernel, ?_, ⟨⟨2, 4, [-1, 2], [0, 1], [-1, 3, -1, -1], [-1, 2, -1, -1], [-1, 1, 10, 20], [-1, 4, -1, -1]⟩, 1, none⟩,
    by decide +kernel, ?_⟩
  · intro k t hk
    match k with
    | 0 =>
      cases hk
      exact ⟨[], ⟨0, 0, .leaf 5⟩, cnodes1.tail, rfl, rfl, rfl, by decide +kernel⟩
    | 1 =>
      cases hk
      exact ⟨cnodes1.take 3, ⟨1, 2, .greaterThan 4 1 1 0⟩, [], rfl, rfl, rfl, by simp⟩
    | k + 2 => cases hk
  · intro h
    have := h.root
    revert this
    decide +kernel

/-- C43: the number of nodes of a tree of depth 16 (2^17 - 1 nodes, the deepest tree CatBoost can learn) does not fit the uint16 array:
65535 nodes are counted instead of 131071. -/
theorem C43_count_wraps {nodes : List (CoreNode F)} (empty : Nat → List Nat) (hempty : (empty 1).length = 1)
    (h0 : ∀ x ∈ nodes, x.treeId = 0) (hlast : LastListed nodes 0 (2 ^ 17 - 2)) : coreCount empty nodes = .ok (1, 65535) := by
  have hne : nodes ≠ [] := by
    obtain ⟨pre, x, post, rfl, _⟩ := hlast
    simp
  have hmax : (nodes.map (·.treeId)).foldl max 0 = 0 := by
    obtain ⟨x, xs, rfl⟩ := List.exists_cons_of_ne_nil hne
    refine foldl_max_eq (M := 0) ?_ (List.mem_map.2 ⟨x, by simp, h0 x (by simp)⟩) 0 le_rfl
    intro k hk
    obtain ⟨y, hy, rfl⟩ := List.mem_map.1 hk
    rw [h0 y hy]
  have h1 := coreLast_get hempty (by omega) hlast
  have h2 : (coreLast empty 1 nodes).length = 1 := by unfold coreLast; rw [foldl_set_length, hempty]
  obtain ⟨v, hv⟩ := List.length_eq_one_iff.1 h2
  rw [hv] at h1
  simp only [List.getElem?_cons_zero, Option.some.injEq] at h1
  unfold coreCount
  rw [if_neg hne, hmax]
  simp only [Nat.zero_add, hv, h1]
  rfl

/-- C43: a list of nodes with the id 2^17 - 2 last. -/
example : LastListed [(⟨0, 0, .leaf (1 : ℚ)⟩ : CoreNode ℚ), ⟨0, 2 ^ 17 - 2, .greaterThan 0 1 1 0⟩] 0 (2 ^ 17 - 2) :=
  ⟨[⟨0, 0, .leaf 1⟩], ⟨0, 2 ^ 17 - 2, .greaterThan 0 1 1 0⟩, [], rfl, rfl, rfl, by simp⟩

end Verif.Props
