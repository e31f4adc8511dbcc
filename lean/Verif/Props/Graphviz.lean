/-
Properties C65 (drawing of trees), C66 (counts of documents in the drawing), C67 (feature names in the drawing).
-/
import Verif.Lemmas.DotCounts
import Verif.Lemmas.Graphviz
import Verif.Props.Scoring

namespace Verif.Props
open Spec Ensemble Dot
variable {F K : Type}

section
variable {m : Ensemble F} {fo : Forest F} {k : Nat} {t : Spec.Tree F} {w : F}

theorem idTree_of (h : Represents m fo) (hk : fo[k]? = some (t, w)) :
    ∃ it : IdTree F, it.erase = t ∧ it.id = treeStart fo k ∧ it.ids.Perm (List.range' (treeStart fo k) t.numNodes) ∧ it.ids.Nodup ∧ it.Holds m := by
  obtain ⟨s, hs, hp⟩ := h.trees k t w hk
  obtain ⟨it, h1, h2, h3, h4⟩ := hs.idTree
  refine ⟨it, h1, h3, by rw [h2]; exact hp, ?_, h4⟩
  rw [h2, hp.nodup_iff]
  exact List.nodup_range'

theorem outputBounds_ok (h : Represents m fo) (hk : fo[k]? = some (t, w)) : outputBounds m k = .ok () := by
  have hsize : (fo.map (fun p => (p.1.numNodes : Int)))[k]? = some (t.numNodes : Int) := by simp [hk]
  have hleafs : ∀ i ∈ List.range t.numNodes, isLeafNode m ((treeStart fo k : Int) + ((i : Nat) : Int)) = .ok ((m.left[treeStart fo k + i]? == some (-1))) := by
    intro i hi
    rw [List.mem_range] at hi
    have hlt : treeStart fo k + i < m.nNodes := by
      have := h.numNodes_le hk
      omega
    rw [show (treeStart fo k : Int) + (i : Int) = ((treeStart fo k + i : Nat) : Int) by push_cast; rfl]
    rcases C36_is_leaf h hlt with ⟨h1, h2, -⟩ | ⟨h1, l, r, h2, -⟩
    · rw [h1, h2]; rfl
    · rw [h1, h2]
      have : (some (l : Int) == some (-1)) = false := by
        rw [beq_eq_false_iff_ne]
        intro h0
        simp at h0
      rw [this]
  unfold outputBounds
  rw [pyGet_ok (h.root_get hk), exOk, (C36_num_nodes h).1, exOk, pyGet_ok hsize, exOk, Int.toNat_natCast, mapM_ok hleafs, exOk, if_pos]
  · rfl
  · obtain ⟨s, hs, hp⟩ := h.trees k t w hk
    obtain ⟨it, h1, h2, h3, h4⟩ := hs.idTree
    have hex : ∃ j ∈ it.ids, m.left[j]? = some (-1) := by
      clear h1 h2 h3
      induction it with
      | leaf i v => exact ⟨i, by simp [IdTree.ids_leaf], h4.1⟩
      | node i f t l r ihl ihr =>
        obtain ⟨j, hj, hl⟩ := ihl h4.2.2.2.2.1
        exact ⟨j, by rw [IdTree.ids_node]; simp [hj], hl⟩
    obtain ⟨j, hj, hl⟩ := hex
    rw [h2, hp.mem_iff, List.mem_range'_1] at hj
    rw [List.any_eq_true]
    refine ⟨true, ?_, rfl⟩
    rw [List.mem_map]
    refine ⟨j - treeStart fo k, by rw [List.mem_range]; omega, ?_⟩
    rw [show treeStart fo k + (j - treeStart fo k) = j by omega, hl]
    rfl

variable [Field K] {round : F → F} {o : Options}

theorem export_eq (h : Represents m fo) (hk : fo[k]? = some (t, w)) {it : IdTree F} (h1 : it.erase = t) (h2 : it.id = treeStart fo k)
    (h3 : it.ids.Nodup) (h4 : it.Holds m) (hnames : namesCheck m o.featureNames = .ok ()) {name : Nat → FeatureText}
    (hname : ∀ f ∈ t.features, NamesFor o name f) {leaves : Option (List (List Int))} {counts : Option (Counts × Nat)}
    (hc : counting m o k leaves = .ok counts) :
    exportGraphviz (K := K) round m o k leaves = .ok (drawing round name o.nodeIds (itemCount o counts) o.maxDepth it) := by
  have hlt : k < fo.length := by
    by_contra h0
    rw [List.getElem?_eq_none (by omega)] at hk
    cases hk
  unfold exportGraphviz
  rw [hnames, exOk, if_neg (by rw [h.nTrees]; omega), hc, exOk, pyGet_ok (h.root_get hk), exOk, ← h2]
  have hfuel : it.erase.height < m.left.length + 1 := by
    have h5 := Tree.height_lt_numNodes t
    have h6 := h.numNodes_le hk
    rw [h1, h.left_len]; omega
  exact recurse_eq (name := name) (h2 ▸ h.root_get hk) h4 h3 (by rw [h1]; exact hname) _ 0 none hfuel (by
    cases o.maxDepth <;> simp [within]) ⟨rfl, rfl⟩

/-! ### C65 -/

/-- C65: for each tree of the ensemble the drawing consists of a box for each node of the tree up to the maximal depth, with its test or its
output, `(...)` for their children, and the edges to their parents; the ids used in the drawing are distinct. -/
theorem C65_drawing (h : Represents m fo) (hk : fo[k]? = some (t, w)) (round : F → F) (o : Options) (ho : o.featureNames = none) :
    ∃ it : IdTree F, it.erase = t ∧ it.ids.Nodup ∧ it.ids.Perm (List.range' (treeStart fo k) t.numNodes) ∧
      exportGraphviz (K := K) round m o k none = .ok (drawing round (fun f => .index f) o.nodeIds (fun _ => none) o.maxDepth it) := by
  obtain ⟨it, h1, h2, hp, h3, h4⟩ := idTree_of h hk
  refine ⟨it, h1, h3, hp, ?_⟩
  exact export_eq h hk h1 h2 h3 h4 (by rw [ho]; rfl) (fun f _ => by unfold NamesFor; rw [ho]) (counts := none)
    (by unfold counting; rw [outputBounds_ok h hk]; rfl)

/-- C65: a tree that does not exist is an error. -/
theorem C65_tree_id (h : Represents m fo) (hk : fo.length ≤ k) (round : F → F) (o : Options) (ho : o.featureNames = none)
    (leaves : Option (List (List Int))) : exportGraphviz (K := K) round m o k leaves = .error .valueError := by
  unfold exportGraphviz
  rw [ho]
  show (Except.ok () >>= fun _ => _) = _
  rw [exOk, if_pos (by rw [h.nTrees]; omega)]

theorem draw_parse (round : F → F) {name : Nat → FeatureText} (hname : Function.Injective name) (showId : Bool) :
    ∀ (a b : IdTree F) (d : Nat) (p : Option (Nat × Bool)) (x y : List (Stmt F K)),
      (a.items d p).flatMap (drawItem round name showId (fun _ => none) none) ++ x = (b.items d p).flatMap (drawItem round name showId (fun _ => none) none) ++ y →
      a.mapValues round = b.mapValues round ∧ x = y := by
  have hw : ∀ d, within none d = true := fun _ => rfl
  intro a
  induction a with
  | leaf i v =>
    intro b d p x y h
    cases b with
    | leaf j u =>
      cases p <;>
      · simp [IdTree.items, drawItem, hw, criterion] at h
        simp [IdTree.mapValues, h]
    | node j f s l r =>
      cases p <;>
      · simp [IdTree.items, drawItem, hw, criterion] at h
  | node i f s l r ihl ihr =>
    intro b d p x y h
    cases b with
    | leaf j u =>
      cases p <;>
      · simp [IdTree.items, drawItem, hw, criterion] at h
    | node j g u l' r' =>
      have h0 : i = j ∧ f = g ∧ round s = round u ∧
          (l.items (d + 1) (some (i, true))).flatMap (drawItem round name showId (fun _ => none) none) ++
            ((r.items (d + 1) (some (i, false))).flatMap (drawItem (K := K) round name showId (fun _ => none) none) ++ x) =
          (l'.items (d + 1) (some (j, true))).flatMap (drawItem round name showId (fun _ => none) none) ++
            ((r'.items (d + 1) (some (j, false))).flatMap (drawItem round name showId (fun _ => none) none) ++ y) := by
        cases p with
        | none =>
          simp [IdTree.items, drawItem, hw, criterion] at h
          exact ⟨h.1.1, hname h.1.2.2.1, h.1.2.2.2, h.2⟩
        | some q =>
          simp [IdTree.items, drawItem, hw, criterion] at h
          exact ⟨h.1.1, hname h.1.2.2.1, h.1.2.2.2, h.2.2⟩
      obtain ⟨rfl, rfl, h1, h2⟩ := h0
      obtain ⟨h3, h4⟩ := ihl l' _ _ _ _ h2
      obtain ⟨h5, h6⟩ := ihr r' _ _ _ _ h4
      simp [IdTree.mapValues, h1, h3, h5, h6]

/-- C65: the full drawing determines the tree up to rounding: different trees have different drawings. -/
theorem C65_determines (round : F → F) {name : Nat → FeatureText} (hname : Function.Injective name) (showId : Bool) {a b : IdTree F}
    (h : drawing (K := K) round name showId (fun _ => none) none a = drawing round name showId (fun _ => none) none b) :
    a.mapValues round = b.mapValues round := by
  have hf : ∀ l : List (NodeItem F), l.filter (fun n => within none (n.depth - 1)) = l := by
    intro l
    rw [List.filter_eq_self]
    intro n _
    rfl
  unfold drawing at h
  rw [hf, hf] at h
  exact (draw_parse round hname showId a b 0 none [] [] (by simpa using h)).1

/-- The first tree of the ensemble of C29, up to depth 0 and in full. -/
example : exportGraphviz (K := ℚ) id ens0 { maxDepth := some 0 } 0 none =
      .ok [.node 0 ⟨none, none, .split (.index 0) (1 / 2)⟩, .cropped 1, .edge 0 1 none, .cropped 2, .edge 0 2 none] ∧
    (exportGraphviz (K := ℚ) id ens0 {} 0 none).map List.length = .ok 9 ∧ forest0[0]? = some (forest0[0].1, forest0[0].2) := by
  decide +kernel

/-! ### C66 -/

theorem lookup_map_key (l : List Int) (g : Int → Nat) (j : Int) : (l.map (fun i => (i, g i))).lookup j = if j ∈ l then some (g j) else none := by
  induction l with
  | nil => simp
  | cons a l ih =>
    rw [List.map_cons, List.lookup_cons]
    by_cases hj : j = a
    · subst hj; simp
    · have : (j == a) = false := by simpa using hj
      simp [this, ih, hj]

theorem cnt_leafCounts (col : List Int) (j : Int) : cnt (leafCounts col) j = col.count j := by
  rw [cnt_eq]
  unfold leafCounts
  rw [lookup_map_key]
  simp only [(List.perm_insertionSort (· ≤ ·) col.dedup).mem_iff, List.mem_dedup]
  split
  · rfl
  · rename_i h0
    rw [List.count_eq_zero_of_not_mem h0]
    rfl

theorem leafCounts_le (col : List Int) : ∀ p ∈ leafCounts col, p.2 ≤ col.length := by
  intro p hp
  unfold leafCounts at hp
  obtain ⟨i, -, rfl⟩ := List.mem_map.1 hp
  exact List.count_le_length

theorem foldl_max_eq : ∀ (l : List Nat) (a B : Nat), a ≤ B → (∀ x ∈ l, x ≤ B) → (a = B ∨ B ∈ l) → l.foldl max a = B
  | [], a, B, _, _, h => by simpa using h
  | x :: l, a, B, ha, hl, h => by
    rw [List.foldl_cons]
    refine foldl_max_eq l _ B (max_le ha (hl x (by simp))) (fun y hy => hl y (by simp [hy])) ?_
    have hx := hl x (by simp)
    rcases h with h | h
    · left; rw [h]; exact max_eq_left hx
    · rcases List.mem_cons.1 h with h | h
      · left; rw [← h]; exact max_eq_right ha
      · exact Or.inr h

theorem maxCount_eq {l : List Nat} {B : Nat} (h1 : ∀ x ∈ l, x ≤ B) (h2 : B ∈ l) : maxCount l = .ok B := by
  cases l with
  | nil => cases h2
  | cons a l =>
    show Except.ok _ = _
    rw [foldl_max_eq l a B (h1 a (by simp)) (fun x hx => h1 x (by simp [hx])) (by simpa [eq_comm] using h2)]

/-- Documents that pass a node. -/
def passing (left : List F → Nat → F → Bool) (X : List (List F)) (it : IdTree F) (id : Nat) : Nat := X.countP (fun row => id ∈ it.path (left row))

/-- The counts of the nodes and the bound of the colours. -/
theorem countAll_eq (ops : FloatOps F) {X : List (List F)} {nf : Nat} (h : Represents m fo) (hX : ∀ row ∈ X, row.length = nf)
    (hc : featureCheck m nf = .ok ()) (hk : fo[k]? = some (t, w)) {it : IdTree F} (h1 : it.erase = t) (h2 : it.id = treeStart fo k)
    (h3 : it.ids.Nodup) (h4 : it.Holds m) {leaves : List (List Int)} {part : List (List F)} (hd : detailedScoring ops m X = .ok (leaves, part)) :
    ∃ counts : Counts, ((∀ j ∈ it.ids, cnt counts (j : Int) = passing (goesLeft ops.le) X it j) ∧
        ∀ n, n ∈ counts.map (·.2) ↔ ∃ j ∈ it.ids, passing (goesLeft ops.le) X it j = n) ∧
      (o.labelAll = true → countAll m o k leaves = .ok (counts, X.length)) ∧
      (o.labelAll = false → X ≠ [] → ∃ b, (∃ j ∈ it.ids, b = passing (goesLeft ops.le) X it j ∧ isLeafNode m (j : Int) = .ok true) ∧
        (∀ j ∈ it.ids, isLeafNode m (j : Int) = .ok true → passing (goesLeft ops.le) X it j ≤ b) ∧ countAll m o k leaves = .ok (counts, b) ∧
        ∃ col, leaves.mapM (fun row => pyGet row (k : Int)) = .ok col ∧ maxCount ((leafCounts col).map (·.2)) = .ok b ∧ ∀ n, n ∈ (leafCounts col).map (·.2) ↔
          ∃ j ∈ it.ids, isLeafNode m (j : Int) = .ok true ∧ 0 < passing (goesLeft ops.le) X it j ∧ passing (goesLeft ops.le) X it j = n) := by
  obtain ⟨leaves', hd', hlen, hrows⟩ := C30_detailed ops h hX hc
  rw [hd] at hd'
  obtain ⟨rfl, -⟩ : leaves = leaves' ∧ True := by cases hd'; exact ⟨rfl, trivial⟩
  -- the column of the tree
  have henc : ∀ s, Encodes m (treeStart fo k) t s → s = it.ids := by
    intro s hs
    obtain ⟨s', hs', -⟩ := h.trees k t w hk
    obtain ⟨it', a1, a2, a3, a4⟩ := hs.idTree
    have huniq : ∀ (a b : IdTree F), a.Holds m → b.Holds m → a.id = b.id → a = b := by
      intro a
      induction a with
      | leaf i v =>
        intro b ha hb hab
        cases b with
        | leaf j u =>
          simp only [IdTree.id] at hab
          subst hab
          have := ha.2.2.2
          rw [hb.2.2.2] at this
          cases this
          rfl
        | node j f s l r =>
          simp only [IdTree.id] at hab
          subst hab
          have := ha.1
          rw [hb.1] at this
          simp at this
      | node i f s l r ihl ihr =>
        intro b ha hb hab
        cases b with
        | leaf j u =>
          simp only [IdTree.id] at hab
          subst hab
          have := ha.1
          rw [hb.1] at this
          simp at this
        | node j g u l' r' =>
          simp only [IdTree.id] at hab
          subst hab
          obtain ⟨x1, x2, x3, x4, x5, x6⟩ := ha
          obtain ⟨y1, y2, y3, y4, y5, y6⟩ := hb
          rw [x1] at y1; rw [x2] at y2; rw [x3] at y3; rw [x4] at y4
          simp at y1 y2 y3 y4
          rw [ihl l' x5 y5 y1, ihr r' x6 y6 y2, y3, y4]
    rw [← a2, huniq it' it a4 h4 (by rw [a3, h2])]
  have hcol : leaves.mapM (fun row => pyGet row (k : Int)) = .ok (X.map (fun row => ((it.exitId (goesLeft ops.le row) : Nat) : Int))) := by
    have hgen : ∀ (X' : List (List F)) (ls : List (List Int)), ls.length = X'.length →
        (∀ (i : Nat) row, X'[i]? = some row → ∃ l, ls[i]? = some l ∧ l[k]? = some ((it.exitId (goesLeft ops.le row) : Nat) : Int)) →
        ls.mapM (fun row => pyGet row (k : Int)) = .ok (X'.map (fun row => ((it.exitId (goesLeft ops.le row) : Nat) : Int))) := by
      intro X'
      induction X' with
      | nil => intro ls hl _; obtain rfl := List.length_eq_zero_iff.1 hl; rfl
      | cons row X' ih =>
        intro ls hl hh
        cases ls with
        | nil => simp at hl
        | cons l ls =>
          obtain ⟨l', e1, e2⟩ := hh 0 row rfl
          simp at e1
          subst e1
          rw [List.mapM_cons, pyGet_ok e2, exOk, ih ls (by simpa using hl) (fun i r hr => hh (i + 1) r (by simpa using hr)), exOk]
          rfl
    refine hgen X leaves hlen ?_
    intro i row hrow
    obtain ⟨ls, e1, -, e3⟩ := hrows i row hrow
    obtain ⟨s, e, f1, f2, f3, -⟩ := e3 k t w hk
    refine ⟨ls, e1, ?_⟩
    rw [f3]
    rw [henc s f1, ← h1, IdTree.ids_exitPos] at f2
    cases f2
    rfl
  have hfuel : it.erase.height < m.left.length + 1 := by
    have h5 := Tree.height_lt_numNodes t
    have h6 := h.numNodes_le hk
    rw [h1, h.left_len]; omega
  have hcount : ∀ j : Nat, (X.map (fun row => ((it.exitId (goesLeft ops.le row) : Nat) : Int))).count (j : Int) =
      (X.map (goesLeft ops.le)).countP (fun left => it.exitId left = j) := by
    intro j
    rw [List.count, List.countP_map, List.countP_map]
    apply List.countP_congr
    intro row _
    simp
  obtain ⟨d', r1, r2, -, r4, r5⟩ := recursiveCount_eq h4 h3 (X.map (goesLeft ops.le))
    (leafCounts (X.map (fun row => ((it.exitId (goesLeft ops.le row) : Nat) : Int)))) X.length _ hfuel (by simp)
    (by simpa using leafCounts_le (X.map (fun row => ((it.exitId (goesLeft ops.le row) : Nat) : Int))))
    (fun j _ _ => by rw [cnt_leafCounts, hcount])
  rw [List.length_map] at r1 r5
  have hpass : ∀ j ∈ it.ids, cnt d' (j : Int) = passing (goesLeft ops.le) X it j := by
    intro j hj
    rw [r2 j hj, List.countP_map]
    rfl
  have hrun : countAll m o k leaves = (do
      let bound ← maxCount (if o.labelAll then d'.map (·.2) else
        (leafCounts (X.map (fun row => ((it.exitId (goesLeft ops.le row) : Nat) : Int)))).map (·.2))
      pure (d', bound)) := by
    unfold countAll
    rw [hcol, exOk, pyGet_ok (h.root_get hk), exOk, ← h2, r1, exOk]
  have hnums : ∀ n, n ∈ d'.map (·.2) ↔ ∃ j ∈ it.ids, passing (goesLeft ops.le) X it j = n := by
    have hk0 : IdTree.keys (leafCounts (X.map (fun row => ((it.exitId (goesLeft ops.le row) : Nat) : Int)))) =
        (X.map (fun row => ((it.exitId (goesLeft ops.le row) : Nat) : Int))).dedup.insertionSort (· ≤ ·) := by
      simp [IdTree.keys, leafCounts, Function.comp_def]
    obtain ⟨k1, k2⟩ := IdTree.recursiveCount_keys h4 _ _ _ _ r1 (by
      rw [hk0, (List.perm_insertionSort (· ≤ ·) _).nodup_iff]
      exact List.nodup_dedup _)
    have k3 : ∀ j, j ∈ IdTree.keys d' ↔ ∃ i ∈ it.ids, ((i : Nat) : Int) = j := by
      intro j
      rw [k2 j, hk0, (List.perm_insertionSort (· ≤ ·) _).mem_iff, List.mem_dedup]
      refine ⟨?_, Or.inr⟩
      rintro (h0 | h0)
      · obtain ⟨row, -, e⟩ := List.mem_map.1 h0
        exact ⟨_, IdTree.exitId_mem _ _, e⟩
      · exact h0
    have k4 : ∀ p ∈ d', cnt d' p.1 = p.2 := by
      intro p hp
      show (getCount d' p.1).1 = p.2
      unfold getCount
      rw [IdTree.lookup_of_mem k1 hp]
    intro n
    constructor
    · intro hn
      obtain ⟨p, hp, rfl⟩ := List.mem_map.1 hn
      obtain ⟨i, hi, e⟩ := (k3 p.1).1 (List.mem_map.2 ⟨p, hp, rfl⟩)
      exact ⟨i, hi, by rw [← hpass i hi, e, k4 p hp]⟩
    · rintro ⟨j, hj, rfl⟩
      obtain ⟨p, hp, e⟩ := List.mem_map.1 ((k3 (j : Int)).2 ⟨j, hj, rfl⟩)
      refine List.mem_map.2 ⟨p, hp, ?_⟩
      rw [← hpass j hj, ← e, k4 p hp]
  refine ⟨d', ⟨hpass, hnums⟩, ?_, ?_⟩
  · intro ho
    rw [hrun, ho, if_pos rfl, maxCount_eq (B := X.length), exOk]
    · rfl
    · intro x hx
      obtain ⟨p, hp, rfl⟩ := List.mem_map.1 hx
      exact r4 p hp
    · exact List.mem_map.2 ⟨_, r5, rfl⟩
  · intro ho hne
    -- a leaf passes the documents that leave there
    have hleafpass : ∀ (a : IdTree F), a.Holds m → a.ids.Nodup → ∀ j ∈ a.ids, isLeafNode m (j : Int) = .ok true → ∀ left : Nat → F → Bool,
        j ∈ a.path left ↔ a.exitId left = j := by
      intro a
      induction a with
      | leaf i v =>
        intro _ _ j hj _ left
        simp [IdTree.path, IdTree.exitId, eq_comm]
      | node i f s l r ihl ihr =>
        intro ha hn j hj hleaf left
        obtain ⟨x1, x2, x3, x4, x5, x6⟩ := ha
        rw [IdTree.ids_node, List.nodup_cons, List.nodup_append] at hn
        obtain ⟨-, hnl, hnr, hdis⟩ := hn
        have hji : j ≠ i := by
          rintro rfl
          rw [isLeafNode_node x1] at hleaf
          cases hleaf
        rw [IdTree.ids_node, List.mem_cons, List.mem_append] at hj
        rw [IdTree.path, IdTree.exitId, List.mem_cons]
        simp only [hji, false_or]
        rcases hj with hj | hj | hj
        · exact absurd hj hji
        · split
          · exact ihl x5 hnl j hj hleaf left
          · constructor
            · intro h0; exact absurd rfl (hdis j hj j (IdTree.path_subset left r j h0))
            · intro h0; exact absurd rfl (hdis j hj j (h0 ▸ IdTree.exitId_mem left r))
        · split
          · constructor
            · intro h0; exact absurd rfl (hdis j (IdTree.path_subset left l j h0) j hj)
            · intro h0; exact absurd rfl (hdis j (h0 ▸ IdTree.exitId_mem left l) j hj)
          · exact ihr x6 hnr j hj hleaf left
    have hexit_leaf : ∀ (a : IdTree F), a.Holds m → ∀ left : Nat → F → Bool, isLeafNode m (a.exitId left : Int) = .ok true := by
      intro a
      induction a with
      | leaf i v => intro ha left; exact isLeafNode_leaf ha.1 ha.2.1
      | node i f s l r ihl ihr =>
        intro ha left
        rw [IdTree.exitId]
        split
        · exact ihl ha.2.2.2.2.1 left
        · exact ihr ha.2.2.2.2.2 left
    have hp : ∀ j ∈ it.ids, isLeafNode m (j : Int) = .ok true → passing (goesLeft ops.le) X it j =
        (X.map (fun row => ((it.exitId (goesLeft ops.le row) : Nat) : Int))).count (j : Int) := by
      intro j hj hleaf
      rw [hcount, List.countP_map]
      unfold passing
      apply List.countP_congr
      intro row _
      simp [hleafpass it h4 h3 j hj hleaf]
    generalize hcol' : X.map (fun row => ((it.exitId (goesLeft ops.le row) : Nat) : Int)) = col at *
    have hcne : (leafCounts col).map (·.2) ≠ [] := by
      intro h0
      have h5 : col.dedup = [] := by
        have h6 : ((col.dedup.insertionSort (· ≤ ·)).map (fun i => (i, col.count i))).map (·.2) = [] := h0
        rw [List.map_eq_nil_iff, List.map_eq_nil_iff] at h6
        have := (List.perm_insertionSort (· ≤ ·) col.dedup).length_eq
        rw [h6] at this
        exact List.length_eq_zero_iff.1 this.symm
      rw [List.dedup_eq_nil] at h5
      rw [← hcol'] at h5
      rw [List.map_eq_nil_iff] at h5
      exact hne h5
    obtain ⟨b, hb1, hb2⟩ : ∃ b, b ∈ (leafCounts col).map (·.2) ∧ ∀ x ∈ (leafCounts col).map (·.2), x ≤ b := by
      generalize (leafCounts col).map (·.2) = l at hcne
      clear hrun hp hcount hcol r1 r2 r4 r5
      induction l with
      | nil => exact absurd rfl hcne
      | cons a l ih =>
        by_cases hl : l = []
        · subst hl; exact ⟨a, by simp, by simp⟩
        · obtain ⟨b, hb1, hb2⟩ := ih hl
          rcases le_total a b with hab | hab
          · exact ⟨b, by simp [hb1], by simpa [hab] using hb2⟩
          · exact ⟨a, by simp, by simpa using fun x hx => le_trans (hb2 x hx) hab⟩
    refine ⟨b, ?_, ?_, ?_, col, hcol, maxCount_eq hb2 hb1, fun n => ⟨fun hn => ?_, ?_⟩⟩
    · obtain ⟨p, hp1, rfl⟩ := List.mem_map.1 hb1
      unfold leafCounts at hp1
      obtain ⟨i, hi, rfl⟩ := List.mem_map.1 hp1
      rw [(List.perm_insertionSort (· ≤ ·) col.dedup).mem_iff, List.mem_dedup, ← hcol', List.mem_map] at hi
      obtain ⟨row, hrow, rfl⟩ := hi
      refine ⟨it.exitId (goesLeft ops.le row), IdTree.exitId_mem _ _, ?_, hexit_leaf it h4 _⟩
      rw [hp _ (IdTree.exitId_mem _ _) (hexit_leaf it h4 _)]
    · intro j hj hleaf
      rw [hp j hj hleaf]
      by_cases hjc : (j : Int) ∈ col
      · apply hb2
        refine List.mem_map.2 ⟨((j : Int), col.count (j : Int)), ?_, rfl⟩
        exact List.mem_map.2 ⟨_, by rw [(List.perm_insertionSort (· ≤ ·) col.dedup).mem_iff, List.mem_dedup]; exact hjc, rfl⟩
      · rw [List.count_eq_zero_of_not_mem hjc]; exact Nat.zero_le _
    · rw [hrun, ho, if_neg (by simp), maxCount_eq hb2 hb1, exOk]
      rfl
    · obtain ⟨p, hp1, rfl⟩ := List.mem_map.1 hn
      unfold leafCounts at hp1
      obtain ⟨i, hi, rfl⟩ := List.mem_map.1 hp1
      rw [(List.perm_insertionSort (· ≤ ·) col.dedup).mem_iff, List.mem_dedup] at hi
      have hi0 := hi
      rw [← hcol', List.mem_map] at hi
      obtain ⟨row, hrow, rfl⟩ := hi
      have e := hp _ (IdTree.exitId_mem (goesLeft ops.le row) it) (hexit_leaf it h4 _)
      exact ⟨_, IdTree.exitId_mem _ _, hexit_leaf it h4 _, by rw [e]; exact List.count_pos_iff.2 hi0, e⟩
    · rintro ⟨j, hj, hleaf, hpos, rfl⟩
      rw [hp j hj hleaf] at hpos ⊢
      exact List.mem_map.2 ⟨((j : Int), col.count (j : Int)), List.mem_map.2 ⟨_, by
        rw [(List.perm_insertionSort (· ≤ ·) col.dedup).mem_iff, List.mem_dedup]; exact List.count_pos_iff.1 hpos, rfl⟩, rfl⟩

/-- C66: with the leaves of detailed scoring and `label='all'`, each node shows the number of documents of the dataset that pass it, and as
percentage that of all documents. -/
theorem C66_counts (ops : FloatOps F) {X : List (List F)} {nf : Nat} (h : Represents m fo) (hX : ∀ row ∈ X, row.length = nf)
    (hc : featureCheck m nf = .ok ()) (hk : fo[k]? = some (t, w)) {leaves : List (List Int)} {part : List (List F)}
    (hd : detailedScoring ops m X = .ok (leaves, part)) (round : F → F) (o : Options) (ho : o.featureNames = none) (hall : o.labelAll = true)
    (hs : o.labelShow = true) :
    ∃ it : IdTree F, it.erase = t ∧ it.ids.Nodup ∧ it.ids.Perm (List.range' (treeStart fo k) t.numNodes) ∧
      exportGraphviz (K := K) round m o k (some leaves) = .ok (drawing round (fun f => .index f) o.nodeIds
        (fun n => some (passing (goesLeft ops.le) X it n.id,
          if o.proportion then some ((passing (goesLeft ops.le) X it n.id : K) / X.length * 100) else none)) o.maxDepth it) := by
  obtain ⟨it, h1, h2, hp, h3, h4⟩ := idTree_of h hk
  refine ⟨it, h1, h3, hp, ?_⟩
  obtain ⟨counts, ⟨hcnt, -⟩, hrun, -⟩ := countAll_eq (o := o) ops h hX hc hk h1 h2 h3 h4 hd
  rw [export_eq h hk h1 h2 h3 h4 (by rw [ho]; rfl) (name := fun f => .index f) (fun f _ => by unfold NamesFor; rw [ho])
    (leaves := some leaves) (counts := some (counts, X.length)) (by show (countAll m o k leaves >>= fun c => pure (some c)) = _; rw [hrun hall]; rfl)]
  congr 1
  unfold drawing
  apply List.flatMap_congr
  intro n hn
  have hmem : n.id ∈ it.ids := by
    rw [← IdTree.items_ids it 0 none]
    exact List.mem_map.2 ⟨n, (List.mem_filter.1 hn).1, rfl⟩
  have hcn : (getCount counts (n.id : Int)).1 = passing (goesLeft ops.le) X it n.id := hcnt n.id hmem
  unfold drawItem
  simp only [itemCount, countLabel, hs, hall, Bool.true_or, Bool.and_true, if_true, hcn]

/-- C66 for `label='leaves'`: the leaves show the number of documents that leave the tree there, but the percentage is relative to the
leaf with the most documents. -/
theorem C66_leaves_partial (ops : FloatOps F) {X : List (List F)} {nf : Nat} (h : Represents m fo) (hX : ∀ row ∈ X, row.length = nf) (hne : X ≠ [])
    (hc : featureCheck m nf = .ok ()) (hk : fo[k]? = some (t, w)) {leaves : List (List Int)} {part : List (List F)}
    (hd : detailedScoring ops m X = .ok (leaves, part)) (round : F → F) (o : Options) (ho : o.featureNames = none) (hall : o.labelAll = false)
    (hs : o.labelShow = true) :
    ∃ (it : IdTree F) (b : Nat), it.erase = t ∧ it.ids.Nodup ∧ it.ids.Perm (List.range' (treeStart fo k) t.numNodes) ∧
      (∃ j ∈ it.ids, b = passing (goesLeft ops.le) X it j ∧ isLeafNode m (j : Int) = .ok true) ∧
      (∀ j ∈ it.ids, isLeafNode m (j : Int) = .ok true → passing (goesLeft ops.le) X it j ≤ b) ∧
      exportGraphviz (K := K) round m o k (some leaves) = .ok (drawing round (fun f => .index f) o.nodeIds
        (fun n => match n.info with
          | .output _ => some (passing (goesLeft ops.le) X it n.id, if o.proportion then some ((passing (goesLeft ops.le) X it n.id : K) / b * 100) else none)
          | .split _ _ => none) o.maxDepth it) := by
  obtain ⟨it, h1, h2, hp, h3, h4⟩ := idTree_of h hk
  obtain ⟨counts, ⟨hcnt, -⟩, -, hrun⟩ := countAll_eq (o := o) ops h hX hc hk h1 h2 h3 h4 hd
  obtain ⟨b, hb1, hb2, hb3, -⟩ := hrun hall hne
  refine ⟨it, b, h1, h3, hp, hb1, hb2, ?_⟩
  rw [export_eq h hk h1 h2 h3 h4 (by rw [ho]; rfl) (name := fun f => .index f) (fun f _ => by unfold NamesFor; rw [ho])
    (leaves := some leaves) (counts := some (counts, b)) (by show (countAll m o k leaves >>= fun c => pure (some c)) = _; rw [hb3]; rfl)]
  congr 1
  unfold drawing
  apply List.flatMap_congr
  intro n hn
  have hmem : n.id ∈ it.ids := by
    rw [← IdTree.items_ids it 0 none]
    exact List.mem_map.2 ⟨n, (List.mem_filter.1 hn).1, rfl⟩
  have hcn : (getCount counts (n.id : Int)).1 = passing (goesLeft ops.le) X it n.id := hcnt n.id hmem
  unfold drawItem
  obtain ⟨dp, i, par, info⟩ := n
  cases info <;> simp only [itemCount, countLabel, hs, hall, Bool.false_or, Bool.true_and, Bool.and_true, Bool.and_false, Bool.false_eq_true, if_true, if_false] <;>
    simp_all

/-- C66 is violated for `label='leaves'`: of three documents the two in one leaf are shown as 100 percent, the other as 50 percent. -/
theorem C66_violated_percentage :
    detailedScoring (exactOps ℚ) ens0 [[0, 9], [1, 4], [0, 3]] = .ok ([[1, 5], [4, 5], [1, 5]], [[2, 7], [10, 7], [2, 7]]) ∧
    exportGraphviz (K := ℚ) id ens0 { labelAll := false, labelShow := true, proportion := true } 0 (some [[1, 5], [4, 5], [1, 5]]) =
    .ok [.node 0 ⟨none, none, .split (.index 0) (1 / 2)⟩, .node 1 ⟨none, some (2, some 100), .output 1⟩, .edge 0 1 (some true),
      .node 2 ⟨none, none, .split (.index 1) 3⟩, .edge 0 2 (some false), .node 3 ⟨none, some (0, some 0), .output (-2)⟩, .edge 2 3 none,
      .node 4 ⟨none, some (1, some 50), .output 5⟩, .edge 2 4 none] := by
  decide +kernel

/-- The same with `label='all'`. -/
example : exportGraphviz (K := ℚ) id ens0 { labelShow := true, proportion := true, maxDepth := some 1 } 0 (some [[1, 5], [4, 5], [1, 5], [4, 5]]) =
    .ok [.node 0 ⟨none, some (4, some 100), .split (.index 0) (1 / 2)⟩, .node 1 ⟨none, some (2, some 50), .output 1⟩, .edge 0 1 (some true),
      .node 2 ⟨none, some (2, some 50), .split (.index 1) 3⟩, .edge 0 2 (some false), .cropped 3, .edge 2 3 none, .cropped 4, .edge 2 4 none] := by
  decide +kernel

/-! ### C67 -/

/-- C67: the check accepts a list of names exactly if it is not longer than the largest feature of the ensemble asks for. -/
theorem C67_check (m : Ensemble F) (hm : m.feature ≠ []) (names : List String) :
    (namesCheck m (some names) = .ok () ∧ ∃ f ∈ m.feature, (names.length : Int) ≤ f + 1) ∨
    (namesCheck m (some names) = .error .valueError ∧ ∀ f ∈ m.feature, f + 1 < names.length) := by
  unfold namesCheck
  cases hf : m.feature with
  | nil => exact absurd hf hm
  | cons f fs =>
    simp only
    by_cases hc : (names.length : Int) > fs.foldl max f + 1
    · rw [if_pos hc]
      refine Or.inr ⟨rfl, fun g hg => ?_⟩
      have hle := le_foldl_max fs f
      rcases List.mem_cons.1 hg with rfl | hg
      · omega
      · have := hle.2 g hg; omega
    · rw [if_neg hc]
      refine Or.inl ⟨rfl, fs.foldl max f, ?_, by omega⟩
      rcases foldl_max_mem fs f with h0 | h0
      · rw [h0]; simp
      · simp [h0]

/-- C67: a list with exactly one name for each feature up to the largest one is used. -/
theorem C67_names_partial (h : Represents m fo) (hk : fo[k]? = some (t, w)) (round : F → F) (o : Options) {names : List String}
    (ho : o.featureNames = some names) {g : Int} (hg : g ∈ m.feature) (hmax : ∀ f ∈ m.feature, f ≤ g) (hlen : (names.length : Int) = g + 1) :
    ∃ (it : IdTree F) (name : Nat → FeatureText), it.erase = t ∧ it.ids.Nodup ∧ (∀ f ∈ t.features, ∃ s, names[f]? = some s ∧ name f = .name s) ∧
      exportGraphviz (K := K) round m o k none = .ok (drawing round name o.nodeIds (fun _ => none) o.maxDepth it) := by
  obtain ⟨it, h1, h2, hp, h3, h4⟩ := idTree_of h hk
  obtain ⟨s, hs, -⟩ := h.trees k t w hk
  have hnames : ∀ f ∈ t.features, ∃ s, names[f]? = some s ∧ (match names[f]? with | some s => FeatureText.name s | none => .index f) = .name s := by
    intro f hf
    have := hmax _ (hs.features_mem f hf)
    have hlt : f < names.length := by omega
    exact ⟨names[f], List.getElem?_eq_getElem hlt, by rw [List.getElem?_eq_getElem hlt]⟩
  refine ⟨it, fun f => match names[f]? with | some s => .name s | none => .index f, h1, h3, hnames, ?_⟩
  refine export_eq h hk h1 h2 h3 h4 ?_ (fun f hf => by unfold NamesFor; rw [ho]; exact hnames f hf) (counts := none)
    (by unfold counting; rw [outputBounds_ok h hk]; rfl)
  rw [ho]
  rcases C67_check m (List.ne_nil_of_mem hg) names with ⟨h0, -⟩ | ⟨-, h0⟩
  · exact h0
  · have := h0 g hg; omega

/-- C67 is violated: a list with a name for each feature of the dataset is rejected if the ensemble does not use the last ones; a list that is
too short passes the check and fails while drawing. -/
theorem C67_violated :
    exportGraphviz (K := ℚ) id ens0 { featureNames := some ["length", "score", "rank"] } 0 none = .error .valueError ∧
    exportGraphviz (K := ℚ) id ens0 { featureNames := some ["length"] } 0 none = .error .indexError ∧
    (exportGraphviz (K := ℚ) id ens0 { featureNames := some ["length", "score"] } 0 none).isOk = true := by
  decide +kernel

example : ens0.feature = [0, -1, 1, -1, -1, -1] ∧
    exportGraphviz (K := ℚ) id ens0 { featureNames := some ["length", "score"], maxDepth := some 0 } 0 none =
      .ok [.node 0 ⟨none, none, .split (.name "length") (1 / 2)⟩, .cropped 1, .edge 0 1 none, .cropped 2, .edge 0 2 none] := by
  decide +kernel

end
end Verif.Props
