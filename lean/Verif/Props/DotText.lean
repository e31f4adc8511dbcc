/-
Property C104 (the text written by `export_graphviz`, read as DOT, is the drawing).
-/
import Verif.Lemmas.DotTree
import Verif.Props.Graphviz
import Mathlib.Order.Bounds.Basic

namespace Verif.Props
open Spec Ensemble Dot Spec.DotText
variable {F : Type} [Field F] [LinearOrder F] [IsStrictOrderedRing F]
variable {m : Ensemble F} {fo : Forest F} {k : Nat} {t : Spec.Tree F} {w : F}

/-- The outputs of the leaves of a tree. -/
def leafOutputs (it : IdTree F) : Set F := {v | ∃ n ∈ it.items 0 none, n.info = .output v}

omit [Field F] [IsStrictOrderedRing F] in
theorem bounds_spec {l : List F} (hne : l ≠ []) : ∃ lo hi, bounds l = .ok (lo, hi) ∧ IsLeast {v | v ∈ l} lo ∧ IsGreatest {v | v ∈ l} hi := by
  cases l with
  | nil => exact absurd rfl hne
  | cons a l =>
    refine ⟨_, _, rfl, ?_, ?_⟩
    · clear hne
      induction l generalizing a with
      | nil => exact ⟨by simp, fun v hv => by simp at hv; simp [hv]⟩
      | cons b l ih =>
        rw [List.foldl_cons]
        obtain ⟨h1, h2⟩ := ih (min a b)
        refine ⟨?_, fun v hv => ?_⟩
        · simp only [Set.mem_ofPred_eq, List.mem_cons] at h1 ⊢
          rcases h1 with h1 | h1
          · rcases min_choice a b with h | h <;> rw [h] at h1 ⊢ <;> simp [h1]
          · exact Or.inr (Or.inr h1)
        · simp only [Set.mem_ofPred_eq, List.mem_cons] at hv
          have h3 : l.foldl min (min a b) ≤ min a b := h2 (by simp)
          rcases hv with rfl | rfl | hv
          · exact le_trans h3 (min_le_left _ _)
          · exact le_trans h3 (min_le_right _ _)
          · exact h2 (by simp [hv])
    · clear hne
      induction l generalizing a with
      | nil => exact ⟨by simp, fun v hv => by simp at hv; simp [hv]⟩
      | cons b l ih =>
        rw [List.foldl_cons]
        obtain ⟨h1, h2⟩ := ih (max a b)
        refine ⟨?_, fun v hv => ?_⟩
        · simp only [Set.mem_ofPred_eq, List.mem_cons] at h1 ⊢
          rcases h1 with h1 | h1
          · rcases max_choice a b with h | h <;> rw [h] at h1 ⊢ <;> simp [h1]
          · exact Or.inr (Or.inr h1)
        · simp only [Set.mem_ofPred_eq, List.mem_cons] at hv
          have h3 : max a b ≤ l.foldl max (max a b) := h2 (by simp)
          rcases hv with rfl | rfl | hv
          · exact le_trans (le_max_left _ _) h3
          · exact le_trans (le_max_right _ _) h3
          · exact h2 (by simp [hv])

theorem filterM_ok {A : Type} {f : A → Except PyErr Bool} {g : A → Bool} {l : List A} (h : ∀ a ∈ l, f a = .ok (g a)) : l.filterM f = .ok (l.filter g) := by
  have key : ∀ acc, l.filterAuxM f acc = .ok ((l.filter g).reverse ++ acc) := by
    induction l with
    | nil => intro acc; rfl
    | cons a l ih =>
      intro acc
      rw [List.filterAuxM, h a (List.mem_cons_self ..), exOk, ih (fun b hb => h b (List.mem_cons_of_mem _ hb)), List.filter_cons]
      cases g a
      · rfl
      · simp
  unfold List.filterM
  rw [key, exOk]
  simp
  rfl

omit [Field F] [LinearOrder F] [IsStrictOrderedRing F] in
theorem item_left {it : IdTree F} (h : it.Holds m) : ∀ d p, ∀ n ∈ it.items d p,
    (∀ v, n.info = .output v → m.left[n.id]? = some (-1)) ∧ ∀ f v, n.info = .split f v → ∃ l : Nat, m.left[n.id]? = some (l : Int) := by
  induction it with
  | leaf i v =>
    intro d p n hn
    simp only [IdTree.items, List.mem_singleton] at hn
    subst hn
    exact ⟨fun _ _ => h.1, fun _ _ h0 => by cases h0⟩
  | node i f t l r ihl ihr =>
    intro d p n hn
    simp only [IdTree.items, List.mem_cons, List.mem_append] at hn
    rcases hn with rfl | hn | hn
    · exact ⟨(fun _ h0 => by cases h0), fun _ _ _ => ⟨_, h.1⟩⟩
    · exact ihl h.2.2.2.2.1 _ _ n hn
    · exact ihr h.2.2.2.2.2 _ _ n hn

omit [Field F] [IsStrictOrderedRing F] in
theorem valueBounds_ok (h : Represents m fo) (hk : fo[k]? = some (t, w)) {it : IdTree F} (h2 : it.ids.Perm (List.range' (treeStart fo k) t.numNodes))
    (h4 : it.Holds m) : ∃ lo hi, valueBounds m k = .ok (lo, hi) ∧ IsLeast (leafOutputs it) lo ∧ IsGreatest (leafOutputs it) hi := by
  have hsize : (fo.map (fun p => (p.1.numNodes : Int)))[k]? = some (t.numNodes : Int) := by simp [hk]
  have hleafs : ∀ i ∈ List.range t.numNodes, isLeafNode m ((treeStart fo k : Int) + ((i : Nat) : Int)) = .ok ((m.left[treeStart fo k + i]? == some (-1))) := by
    intro i hi
    rw [List.mem_range] at hi
    have hlt : treeStart fo k + i < m.nNodes := by
      have := h.numNodes_le hk
      omega
    rw [show (treeStart fo k : Int) + (i : Int) = ((treeStart fo k + i : Nat) : Int) by push_cast; rfl]
    rcases C36_is_leaf h hlt with ⟨h1, h2, -⟩ | ⟨h1, l, r, h2, -⟩
    · rw [h1, h2]; rfl
    · rw [h1, h2]
      have : (some (l : Int) == some (-1)) = false := by
        rw [beq_eq_false_iff_ne]
        intro h0
        simp at h0
      rw [this]
  -- a leaf among the ids is an item
  have hitem : ∀ i < t.numNodes, m.left[treeStart fo k + i]? = some (-1) →
      ∃ n ∈ it.items 0 none, n.id = treeStart fo k + i ∧ ∃ v, n.info = .output v ∧ m.value[treeStart fo k + i]? = some v := by
    intro i hi hl
    have hj : treeStart fo k + i ∈ it.ids := by
      rw [h2.mem_iff, List.mem_range'_1]; omega
    obtain ⟨n, hn, hid⟩ := List.mem_map.1 (show treeStart fo k + i ∈ (it.items 0 none).map NodeItem.id from hj)
    cases hinfo : n.info with
    | output v => exact ⟨n, hn, hid, v, hinfo, hid ▸ item_value h4 0 none n hn v hinfo⟩
    | split f v =>
      obtain ⟨l, e⟩ := (item_left h4 0 none n hn).2 f v hinfo
      rw [hid, hl] at e
      simp at e
  have hvals : ∃ g : Nat → F, ∀ i ∈ (List.range t.numNodes).filter (fun i => m.left[treeStart fo k + i]? == some (-1)),
      m.value[treeStart fo k + i]? = some (g i) := by
    refine ⟨fun i => (m.value[treeStart fo k + i]?).getD w, fun i hi => ?_⟩
    rw [List.mem_filter, List.mem_range] at hi
    obtain ⟨n, -, -, v, -, hv⟩ := hitem i hi.1 (by simpa using hi.2)
    simp [hv]
  obtain ⟨g, hg⟩ := hvals
  have hset : {v | v ∈ ((List.range t.numNodes).filter (fun i => m.left[treeStart fo k + i]? == some (-1))).map g} = leafOutputs it := by
    ext v
    simp only [Set.mem_ofPred_eq, leafOutputs]
    constructor
    · intro hv
      obtain ⟨i, hi, rfl⟩ := List.mem_map.1 hv
      have hgi := hg i hi
      rw [List.mem_filter, List.mem_range] at hi
      obtain ⟨n, hn, hid, u, hu, hvu⟩ := hitem i hi.1 (by simpa using hi.2)
      rw [hgi] at hvu
      cases hvu
      exact ⟨n, hn, hu⟩
    · rintro ⟨n, hn, hv⟩
      have hid : n.id ∈ it.ids := List.mem_map.2 ⟨n, hn, rfl⟩
      rw [h2.mem_iff, List.mem_range'_1] at hid
      have hl := (item_left h4 0 none n hn).1 v hv
      have hval := item_value h4 0 none n hn v hv
      have e : treeStart fo k + (n.id - treeStart fo k) = n.id := by omega
      have hmem : n.id - treeStart fo k ∈ (List.range t.numNodes).filter (fun i => m.left[treeStart fo k + i]? == some (-1)) := by
        rw [List.mem_filter, List.mem_range, e, hl]
        exact ⟨by omega, rfl⟩
      refine List.mem_map.2 ⟨_, hmem, ?_⟩
      have := hg _ hmem
      rw [e, hval] at this
      exact (Option.some.inj this).symm
  have hne : ((List.range t.numNodes).filter (fun i => m.left[treeStart fo k + i]? == some (-1))).map g ≠ [] := by
    have hex : ∀ (a : IdTree F) d p, ∃ n ∈ a.items d p, ∃ v, n.info = .output v := by
      intro a
      induction a with
      | leaf i v => intro d p; exact ⟨_, List.mem_singleton.2 rfl, v, rfl⟩
      | node i f t l r ihl ihr =>
        intro d p
        obtain ⟨n, hn, hv⟩ := ihl (d + 1) (some (i, true))
        exact ⟨n, by simp [IdTree.items, hn], hv⟩
    obtain ⟨n, hn, v, hv⟩ := hex it 0 none
    have : v ∈ leafOutputs it := ⟨n, hn, hv⟩
    rw [← hset] at this
    exact List.ne_nil_of_mem this
  obtain ⟨lo, hi, b1, b2, b3⟩ := bounds_spec hne
  rw [hset] at b2 b3
  refine ⟨lo, hi, ?_, b2, b3⟩
  unfold valueBounds
  rw [pyGet_ok (h.root_get hk), exOk, (C36_num_nodes h).1, exOk, pyGet_ok hsize, exOk, Int.toNat_natCast, filterM_ok hleafs, exOk,
    Verif.mapM_ok (g := g) (fun i hi => by
      rw [show (treeStart fo k : Int) + (i : Int) = ((treeStart fo k + i : Nat) : Int) by push_cast; rfl]
      exact pyGet_ok (hg i hi)), exOk, b1]

/-- The names of the features of a tree are those given, and may stand in a label. -/
def GoodNames (special : Bool) (names : Option (List String)) (name : Nat → FeatureText) (t : Spec.Tree F) : Prop :=
  ∀ f ∈ t.features, (names = none → name f = .index f) ∧
    ∀ l, names = some l → ∃ s, l[f]? = some s ∧ name f = .name s ∧ PlainName special s

theorem text_of {o : Options} {it : IdTree F} {look : Look} {rgba : Ratio F → Nat × Nat × Nat × Nat} {pr : Printers F} {round : F → F}
    {name : Nat → FeatureText} {leaves : Option (List (List Int))} {counts : Option (Counts × Nat)} {lo hi : F} {badLabel : Bool}
    (h : Represents m fo) (hk : fo[k]? = some (t, w)) (h1 : it.erase = t) (h2 : it.id = treeStart fo k)
    (h3 : it.ids.Nodup) (h4 : it.Holds m) (hcheck : namesCheck m o.featureNames = .ok ()) (hname : GoodNames look.special o.featureNames name t)
    (hpr : PlainNumbers pr) (hb : ∀ q, Bytes (rgba q)) (hprec : 0 ≤ look.precision) (hlab : (badLabel && leaves.isSome) = false)
    (hc : counting m o k leaves = .ok counts) (hset : colorSetup m o k leaves = .ok (counts.map (·.1), (lo, hi))) :
    ∃ text iss groups, exportText (fun q => asList (rgba q)) pr look round m o k badLabel leaves = .ok text ∧
      readDot text = some (settings (look.highlight || leaves.isSome) look.rounded look.parallel ++ iss.flatten ++ groups) ∧
      List.Forall₂ (fun n is => List.Forall₂
        (Shows look.special pr (boxFill rgba look.highlight o.labelAll (counts.map (fun c (j : Nat) => cnt c.1 (j : Int))) lo hi o.maxDepth n))
        (drawItem round name o.nodeIds (itemCount o counts) o.maxDepth n) is) (shownNodes o.maxDepth it) iss ∧
      (look.parallel = false → groups = []) ∧ (look.parallel = true → Groups o.maxDepth (shownNodes o.maxDepth it) groups) := by
  have hnamesFor : ∀ f ∈ t.features, NamesFor o name f := by
    intro f hf
    obtain ⟨a, b⟩ := hname f hf
    unfold NamesFor
    cases hn : o.featureNames with
    | none => exact a hn
    | some l => obtain ⟨s, e1, e2, -⟩ := b l hn; exact ⟨s, e1, e2⟩
  have hexp := export_eq (K := F) (round := round) h hk h1 h2 h3 h4 hcheck hnamesFor hc
  have hfeat : ∀ (a : IdTree F) d p, ∀ n ∈ a.items d p, ∀ f v, n.info = .split f v → f ∈ a.erase.features := by
    intro a
    induction a with
    | leaf i v =>
      intro d p n hn f u hu
      simp only [IdTree.items, List.mem_singleton] at hn
      subst hn; cases hu
    | node i f t l r ihl ihr =>
      intro d p n hn g u hu
      simp only [IdTree.items, List.mem_cons, List.mem_append] at hn
      simp only [IdTree.erase, Spec.Tree.features, List.mem_cons, List.mem_append]
      rcases hn with rfl | hn | hn
      · cases hu; simp
      · have := ihl _ _ n hn g u hu; tauto
      · have := ihr _ _ n hn g u hu; tauto
  have hns : ∀ n ∈ shownNodes o.maxDepth it, (∀ v, n.info = .output v → m.value[n.id]? = some v) ∧ PlainCriterion look.special (criterion round name n.info) := by
    intro n hn
    have hn' := (List.mem_filter.1 hn).1
    refine ⟨item_value h4 0 none n hn', ?_⟩
    cases hi : n.info with
    | output v => trivial
    | split f v =>
      have hf := hfeat it 0 none n hn' f v hi
      rw [h1] at hf
      obtain ⟨a, b⟩ := hname f hf
      show PlainCriterion look.special (.split (name f) (round v))
      cases hn : o.featureNames with
      | none => rw [a hn]; show (0 : Int) ≤ f; omega
      | some l => obtain ⟨s, -, e2, e3⟩ := b l hn; rw [e2]; exact e3
  obtain ⟨css, ts, iss, g1, g2, g3, g4⟩ := nodes_read (o := o) (look := look) (counts := counts.map (·.1)) (lo := lo) (hi := hi) (name := name) (round := round)
    hb hpr (itemCount o counts) hns
  obtain ⟨hd, ts0, e0, e1, e2⟩ := head_reads look (look.highlight || leaves.isSome)
  have hmap : (counts.map (·.1)).map (fun (c : Counts) (j : Nat) => cnt c (j : Int)) = counts.map (fun c (j : Nat) => cnt c.1 (j : Int)) := by
    rw [Option.map_map]; rfl
  rw [hmap] at g4
  have htail : ∃ tl ts gs, tailChars look m o k = .ok (tl ++ "}".toList) ∧ Lexes tl ts ∧ ReadsAll ts gs ∧ (look.parallel = false → gs = []) ∧
      (look.parallel = true → Groups o.maxDepth (shownNodes o.maxDepth it) gs) := by
    unfold tailChars
    by_cases hp : look.parallel = true
    · rw [if_pos hp, pyGet_ok (h.root_get hk), exOk, ← h2]
      have hfuel : it.erase.height < m.left.length + 1 := by
        have h5 := Tree.height_lt_numNodes t
        have h6 := h.numNodes_le hk
        rw [h1, h.left_len]; omega
      rw [recurseRanks_eq h4 _ 0 none hfuel (by cases o.maxDepth <;> simp [within]), exOk]
      obtain ⟨ts, gs, a1, a2, a3⟩ := rank_reads o.maxDepth (shownNodes o.maxDepth it)
      exact ⟨_, ts, gs, rfl, a1, a2, (fun h0 => by rw [hp] at h0; cases h0), fun _ => a3⟩
    · rw [if_neg hp]
      exact ⟨[], [], [], rfl, Lexes.nil, ReadsAll.nil, fun _ => rfl, fun h0 => absurd h0 hp⟩
  obtain ⟨tl, ts2, gs, k1, k2, k3, k4, k5⟩ := htail
  refine ⟨_, iss, gs, ?_, readDot_of ((e1.append g2).append k2) ((e2.append g3).append k3), g4, k4, k5⟩
  unfold exportText
  rw [if_neg (by omega), if_neg (by rw [hlab]; decide), hexp, exOk, hset, exOk]
  show (List.mapM _ (drawing _ _ _ _ _ _) >>= _) = _
  unfold drawing
  rw [show List.filter _ _ = shownNodes o.maxDepth it from rfl, g1, exOk, k1, exOk, e0]
  show Except.ok _ = Except.ok _
  simp only [List.append_assoc]

/-- C104: the text, read as DOT, is the drawing of the tree: a box with its lines for each node up to the maximal depth, `(...)` below, the edges, the
defaults and the rank groups; highlighted leaves have the colour of their output between the least and the greatest output of the tree. Missing: feature
names with quotes, backslashes or characters of HTML; how numbers are printed and the colour map are parameters. -/
theorem C104_text_partial (h : Represents m fo) (hk : fo[k]? = some (t, w)) (round : F → F) (o : Options) (hcheck : namesCheck m o.featureNames = .ok ())
    (look : Look) (hprec : 0 ≤ look.precision) {name : Nat → FeatureText} (hname : GoodNames look.special o.featureNames name t) {pr : Printers F}
    (hpr : PlainNumbers pr) {rgba : Ratio F → Nat × Nat × Nat × Nat} (hb : ∀ q, Bytes (rgba q)) (badLabel : Bool) :
    ∃ (it : IdTree F) (lo hi : F) (text : List Char) (iss : List (List Item)) (groups : List Item),
      it.erase = t ∧ it.ids.Nodup ∧ it.ids.Perm (List.range' (treeStart fo k) t.numNodes) ∧ IsLeast (leafOutputs it) lo ∧ IsGreatest (leafOutputs it) hi ∧
      exportText (fun q => asList (rgba q)) pr look round m o k badLabel none = .ok text ∧
      readDot text = some (settings look.highlight look.rounded look.parallel ++ iss.flatten ++ groups) ∧
      List.Forall₂ (fun n is => List.Forall₂ (Shows look.special pr (boxFill rgba look.highlight o.labelAll none lo hi o.maxDepth n))
        (drawItem round name o.nodeIds (fun _ => none) o.maxDepth n) is) (shownNodes o.maxDepth it) iss ∧
      (look.parallel = false → groups = []) ∧ (look.parallel = true → Groups o.maxDepth (shownNodes o.maxDepth it) groups) := by
  obtain ⟨it, h1, h2, hp, h3, h4⟩ := idTree_of h hk
  obtain ⟨lo, hi, b1, b2, b3⟩ := valueBounds_ok h hk hp h4
  obtain ⟨text, iss, groups, r⟩ := text_of (o := o) (look := look) (round := round) (leaves := none) (counts := none) (badLabel := badLabel) h hk h1 h2 h3 h4 hcheck hname hpr hb
    hprec (by simp) (by unfold counting; rw [outputBounds_ok h hk]; rfl) (lo := lo) (hi := hi) (by unfold colorSetup; rw [b1]; rfl)
  rw [Option.isSome_none, Bool.or_false] at r
  exact ⟨it, lo, hi, text, iss, groups, h1, h3, hp, b2, b3, r⟩

theorem forall₂_mem {A B : Type} {R S : A → B → Prop} : ∀ {l : List A} {l' : List B}, List.Forall₂ R l l' → (∀ a ∈ l, ∀ b, R a b → S a b) → List.Forall₂ S l l'
  | [], _, h, _ => by cases h; exact List.Forall₂.nil
  | a :: l, _, h, hs => by
    cases h with
    | cons h1 h2 => exact List.Forall₂.cons (hs a (List.mem_cons_self ..) _ h1) (forall₂_mem h2 (fun x hx => hs x (List.mem_cons_of_mem _ hx)))

/-- C104 with the leaves of detailed scoring and `label='all'`: the boxes also show how many documents pass the node, and have the colour of this number
between the least number of documents that pass a node and the number of all documents. -/
theorem C104_counts_partial (ops : FloatOps F) {X : List (List F)} {nf : Nat} (h : Represents m fo) (hX : ∀ row ∈ X, row.length = nf)
    (hc : featureCheck m nf = .ok ()) (hk : fo[k]? = some (t, w)) {leaves : List (List Int)} {part : List (List F)}
    (hd : detailedScoring ops m X = .ok (leaves, part)) (round : F → F) (o : Options) (hall : o.labelAll = true)
    (hcheck : namesCheck m o.featureNames = .ok ()) (look : Look) (hprec : 0 ≤ look.precision) {name : Nat → FeatureText}
    (hname : GoodNames look.special o.featureNames name t) {pr : Printers F} (hpr : PlainNumbers pr) {rgba : Ratio F → Nat × Nat × Nat × Nat}
    (hb : ∀ q, Bytes (rgba q)) :
    ∃ (it : IdTree F) (lo : F) (text : List Char) (iss : List (List Item)) (groups : List Item),
      it.erase = t ∧ it.ids.Nodup ∧ it.ids.Perm (List.range' (treeStart fo k) t.numNodes) ∧
      IsLeast {v | ∃ j ∈ it.ids, v = (passing (goesLeft ops.le) X it j : F)} lo ∧
      exportText (fun q => asList (rgba q)) pr look round m o k false (some leaves) = .ok text ∧
      readDot text = some (settings true look.rounded look.parallel ++ iss.flatten ++ groups) ∧
      List.Forall₂ (fun n is => List.Forall₂
        (Shows look.special pr (boxFill rgba look.highlight true (some (passing (goesLeft ops.le) X it)) lo X.length o.maxDepth n))
        (drawItem round name o.nodeIds (fun n => if o.labelShow then some (passing (goesLeft ops.le) X it n.id,
          if o.proportion then some ((passing (goesLeft ops.le) X it n.id : F) / X.length * 100) else none) else none) o.maxDepth n) is)
        (shownNodes o.maxDepth it) iss ∧
      (look.parallel = false → groups = []) ∧ (look.parallel = true → Groups o.maxDepth (shownNodes o.maxDepth it) groups) := by
  obtain ⟨it, h1, h2, hp, h3, h4⟩ := idTree_of h hk
  obtain ⟨counts, ⟨hcnt, hnums⟩, hrun, -⟩ := countAll_eq (o := o) ops h hX hc hk h1 h2 h3 h4 hd
  have hrun := hrun hall
  -- the bounds
  have hcol : ∃ col, leaves.mapM (fun row => pyGet row (k : Int)) = .ok col := by
    unfold countAll at hrun
    cases hm : leaves.mapM (fun row => pyGet row (k : Int)) with
    | error e => rw [hm] at hrun; cases hrun
    | ok col => exact ⟨col, rfl⟩
  obtain ⟨col, hcol⟩ := hcol
  have hmax : maxCount (counts.map (·.2)) = .ok X.length := by
    unfold countAll at hrun
    rw [hcol, exOk, pyGet_ok (h.root_get hk), exOk] at hrun
    cases hr : recursiveCount m (m.left.length + 1) (leafCounts col) (treeStart fo k : Int) with
    | error e => rw [hr] at hrun; cases hrun
    | ok p =>
      obtain ⟨a, d⟩ := p
      rw [hr, exOk] at hrun
      simp only [hall, if_true] at hrun
      cases hq : maxCount (d.map (·.2)) with
      | error e => rw [hq] at hrun; cases hrun
      | ok b =>
        rw [hq] at hrun
        cases hrun
        exact hq
  have hgreat : IsGreatest {v | v ∈ counts.map (·.2)} X.length := by
    have hne : counts.map (·.2) ≠ [] := by
      intro h0
      rw [h0] at hmax
      cases hmax
    obtain ⟨a, b, e1, -, e3⟩ := bounds_spec hne
    have : b = X.length := by
      cases hl : counts.map (·.2) with
      | nil => exact absurd hl hne
      | cons x l =>
        rw [hl] at hmax e1
        have e4 : l.foldl max x = X.length := Except.ok.inj hmax
        have e5 : l.foldl max x = b := congrArg Prod.snd (Except.ok.inj e1)
        rw [← e5, e4]
    rw [← this]
    exact e3
  have hne : counts.map (fun p => (p.2 : F)) ≠ [] := by
    intro h0
    rw [List.map_eq_nil_iff] at h0
    rw [h0] at hmax
    cases hmax
  obtain ⟨lo, hi, b1, b2, b3⟩ := bounds_spec hne
  have hhi : hi = X.length := by
    refine b3.unique ⟨?_, ?_⟩
    · obtain ⟨p, hp, e⟩ := List.mem_map.1 hgreat.1
      exact List.mem_map.2 ⟨p, hp, by rw [e]⟩
    · intro v hv
      obtain ⟨p, hp, rfl⟩ := List.mem_map.1 hv
      exact Nat.cast_le.2 (hgreat.2 (List.mem_map.2 ⟨p, hp, rfl⟩))
  subst hhi
  have hset : colorSetup m o k (some leaves) = .ok (some counts, (lo, (X.length : F))) := by
    show (countAll m o k leaves >>= _) = _
    rw [hrun, exOk]
    simp only
    unfold countBounds
    rw [hcol, exOk, if_pos hall, b1]
    rfl
  obtain ⟨text, iss, groups, r1, r2, r3, r4⟩ := text_of (o := o) (look := look) (round := round) (leaves := some leaves) (counts := some (counts, X.length))
    (badLabel := false) h hk h1 h2 h3 h4 hcheck hname hpr hb hprec rfl
    (by show (countAll m o k leaves >>= fun c => pure (some c)) = _; rw [hrun]; rfl) (lo := lo) (hi := X.length) hset
  have hset' : {v | ∃ j ∈ it.ids, v = (passing (goesLeft ops.le) X it j : F)} = {v | v ∈ counts.map (fun p => (p.2 : F))} := by
    ext v
    constructor
    · rintro ⟨j, hj, rfl⟩
      obtain ⟨p, hp, e⟩ := List.mem_map.1 ((hnums _).2 ⟨j, hj, rfl⟩)
      exact List.mem_map.2 ⟨p, hp, by rw [e]⟩
    · intro hv
      obtain ⟨p, hp, rfl⟩ := List.mem_map.1 hv
      obtain ⟨j, hj, e⟩ := (hnums p.2).1 (List.mem_map.2 ⟨p, hp, rfl⟩)
      exact ⟨j, hj, by rw [e]⟩
  refine ⟨it, lo, text, iss, groups, h1, h3, hp, hset' ▸ b2, r1, ?_, ?_, r4⟩
  · rw [r2, Option.isSome_some, Bool.or_true]
  · refine forall₂_mem r3 (fun n hn is his => ?_)
    have hmem : n.id ∈ it.ids := List.mem_map.2 ⟨n, (List.mem_filter.1 hn).1, rfl⟩
    have hcn : cnt counts (n.id : Int) = passing (goesLeft ops.le) X it n.id := hcnt n.id hmem
    have hcn' : (getCount counts (n.id : Int)).1 = passing (goesLeft ops.le) X it n.id := hcn
    have e1 : boxFill rgba look.highlight o.labelAll ((some (counts, X.length)).map (fun c (j : Nat) => cnt c.1 (j : Int))) lo X.length o.maxDepth n =
        boxFill rgba look.highlight true (some (passing (goesLeft ops.le) X it)) lo X.length o.maxDepth n := by
      unfold boxFill
      rw [hall]
      cases n.info <;> simp only [Option.map_some, hcn, Option.isSome_some]
    have e2 : drawItem round name o.nodeIds (itemCount o (some (counts, X.length))) o.maxDepth n =
        drawItem round name o.nodeIds (fun n => if o.labelShow then some (passing (goesLeft ops.le) X it n.id,
          if o.proportion then some ((passing (goesLeft ops.le) X it n.id : F) / X.length * 100) else none) else none) o.maxDepth n := by
      unfold drawItem
      simp only [itemCount, countLabel, hall, Bool.true_or, Bool.and_true, hcn']
    rw [← e1, ← e2]
    exact his

/-- The numbers of documents in the leaves of a tree that have documents. -/
def leafNumbers (left : List F → Nat → F → Bool) (X : List (List F)) (it : IdTree F) : Set F :=
  {v | ∃ n ∈ it.items 0 none, (∃ u, n.info = .output u) ∧ 0 < passing left X it n.id ∧ v = (passing left X it n.id : F)}

omit [Field F] [LinearOrder F] [IsStrictOrderedRing F] in
theorem item_leaf {it : IdTree F} (h : it.Holds m) : ∀ d p, ∀ n ∈ it.items d p,
    isLeafNode m (n.id : Int) = .ok (match n.info with | .output _ => true | .split _ _ => false) := by
  induction it with
  | leaf i v =>
    intro d p n hn
    simp only [IdTree.items, List.mem_singleton] at hn
    subst hn
    exact isLeafNode_leaf h.1 h.2.1
  | node i f t l r ihl ihr =>
    intro d p n hn
    simp only [IdTree.items, List.mem_cons, List.mem_append] at hn
    rcases hn with rfl | hn | hn
    · exact isLeafNode_node h.1
    · exact ihl h.2.2.2.2.1 _ _ n hn
    · exact ihr h.2.2.2.2.2 _ _ n hn

omit [LinearOrder F] [IsStrictOrderedRing F] in
theorem leafNumbers_eq {left : List F → Nat → F → Bool} {X : List (List F)} {it : IdTree F} (h : it.Holds m) :
    leafNumbers left X it = {v | ∃ j ∈ it.ids, isLeafNode m (j : Int) = .ok true ∧ 0 < passing left X it j ∧ v = (passing left X it j : F)} := by
  ext v
  constructor
  · rintro ⟨n, hn, ⟨u, hu⟩, h1, h2⟩
    refine ⟨n.id, List.mem_map.2 ⟨n, hn, rfl⟩, ?_, h1, h2⟩
    have := item_leaf h 0 none n hn
    rw [hu] at this
    exact this
  · rintro ⟨j, hj, h1, h2, h3⟩
    obtain ⟨n, hn, rfl⟩ := List.mem_map.1 hj
    have := item_leaf h 0 none n hn
    cases hi : n.info with
    | output u => exact ⟨n, hn, ⟨u, hi⟩, h2, h3⟩
    | split f u =>
      rw [hi] at this
      exact absurd h1 (by rw [this]; simp)

/-- C104 with the leaves of detailed scoring and `label='leaves'`: only the boxes of leaves show how many documents end there, and have the colour of this
number between the least and the greatest number of documents of a leaf that has documents; percentages are relative to the greatest. -/
theorem C104_leaves_partial (ops : FloatOps F) {X : List (List F)} {nf : Nat} (h : Represents m fo) (hX : ∀ row ∈ X, row.length = nf) (hX0 : X ≠ [])
    (hc : featureCheck m nf = .ok ()) (hk : fo[k]? = some (t, w)) {leaves : List (List Int)} {part : List (List F)}
    (hd : detailedScoring ops m X = .ok (leaves, part)) (round : F → F) (o : Options) (hall : o.labelAll = false)
    (hcheck : namesCheck m o.featureNames = .ok ()) (look : Look) (hprec : 0 ≤ look.precision) {name : Nat → FeatureText}
    (hname : GoodNames look.special o.featureNames name t) {pr : Printers F} (hpr : PlainNumbers pr) {rgba : Ratio F → Nat × Nat × Nat × Nat}
    (hb : ∀ q, Bytes (rgba q)) :
    ∃ (it : IdTree F) (lo hi : F) (text : List Char) (iss : List (List Item)) (groups : List Item),
      it.erase = t ∧ it.ids.Nodup ∧ it.ids.Perm (List.range' (treeStart fo k) t.numNodes) ∧
      IsLeast (leafNumbers (goesLeft ops.le) X it) lo ∧ IsGreatest (leafNumbers (goesLeft ops.le) X it) hi ∧
      exportText (fun q => asList (rgba q)) pr look round m o k false (some leaves) = .ok text ∧
      readDot text = some (settings true look.rounded look.parallel ++ iss.flatten ++ groups) ∧
      List.Forall₂ (fun n is => List.Forall₂
        (Shows look.special pr (boxFill rgba look.highlight false (some (passing (goesLeft ops.le) X it)) lo hi o.maxDepth n))
        (drawItem round name o.nodeIds (fun n => match n.info with
          | .output _ => if o.labelShow then some (passing (goesLeft ops.le) X it n.id,
              if o.proportion then some ((passing (goesLeft ops.le) X it n.id : F) / hi * 100) else none) else none
          | .split _ _ => none) o.maxDepth n) is)
        (shownNodes o.maxDepth it) iss ∧
      (look.parallel = false → groups = []) ∧ (look.parallel = true → Groups o.maxDepth (shownNodes o.maxDepth it) groups) := by
  obtain ⟨it, h1, h2, hp, h3, h4⟩ := idTree_of h hk
  obtain ⟨counts, ⟨hcnt, -⟩, -, hrun⟩ := countAll_eq (o := o) ops h hX hc hk h1 h2 h3 h4 hd
  obtain ⟨b, -, -, hrun, col, hcol, hmax, hnums⟩ := hrun hall hX0
  have hne : (leafCounts col).map (fun p => (p.2 : F)) ≠ [] := by
    intro h0
    rw [List.map_eq_nil_iff] at h0
    rw [h0] at hmax
    cases hmax
  obtain ⟨lo, hi, b1, b2, b3⟩ := bounds_spec hne
  have hset' : leafNumbers (goesLeft ops.le) X it = {v | v ∈ (leafCounts col).map (fun p => (p.2 : F))} := by
    rw [leafNumbers_eq h4]
    ext v
    constructor
    · rintro ⟨j, hj, hl, h0, rfl⟩
      obtain ⟨p, hp, e⟩ := List.mem_map.1 ((hnums _).2 ⟨j, hj, hl, h0, rfl⟩)
      exact List.mem_map.2 ⟨p, hp, by rw [e]⟩
    · intro hv
      obtain ⟨p, hp, rfl⟩ := List.mem_map.1 hv
      obtain ⟨j, hj, hl, h0, e⟩ := (hnums p.2).1 (List.mem_map.2 ⟨p, hp, rfl⟩)
      exact ⟨j, hj, hl, h0, by rw [e]⟩
  have hhi : hi = (b : F) := by
    have hne' : (leafCounts col).map (·.2) ≠ [] := by
      intro h0
      rw [h0] at hmax
      cases hmax
    obtain ⟨a, b', e1, -, e3⟩ := bounds_spec hne'
    have hbb : b' = b := by
      cases hl : (leafCounts col).map (·.2) with
      | nil => exact absurd hl hne'
      | cons x l =>
        rw [hl] at hmax e1
        have e4 : l.foldl max x = b := Except.ok.inj hmax
        have e5 : l.foldl max x = b' := congrArg Prod.snd (Except.ok.inj e1)
        rw [← e5, e4]
    subst hbb
    refine b3.unique ⟨?_, ?_⟩
    · obtain ⟨p, hp, e⟩ := List.mem_map.1 e3.1
      exact List.mem_map.2 ⟨p, hp, by rw [e]⟩
    · intro v hv
      obtain ⟨p, hp, rfl⟩ := List.mem_map.1 hv
      exact Nat.cast_le.2 (e3.2 (List.mem_map.2 ⟨p, hp, rfl⟩))
  have hset : colorSetup m o k (some leaves) = .ok (some counts, (lo, hi)) := by
    show (countAll m o k leaves >>= _) = _
    rw [hrun, exOk]
    simp only
    unfold countBounds
    rw [hcol, exOk, if_neg (by simp [hall]), b1]
    rfl
  obtain ⟨text, iss, groups, r1, r2, r3, r4⟩ := text_of (o := o) (look := look) (round := round) (leaves := some leaves) (counts := some (counts, b))
    (badLabel := false) h hk h1 h2 h3 h4 hcheck hname hpr hb hprec rfl
    (by show (countAll m o k leaves >>= fun c => pure (some c)) = _; rw [hrun]; rfl) (lo := lo) (hi := hi) hset
  refine ⟨it, lo, hi, text, iss, groups, h1, h3, hp, hset' ▸ b2, hset' ▸ b3, r1, ?_, ?_, r4⟩
  · rw [r2, Option.isSome_some, Bool.or_true]
  · refine forall₂_mem r3 (fun n hn is his => ?_)
    have hmem : n.id ∈ it.ids := List.mem_map.2 ⟨n, (List.mem_filter.1 hn).1, rfl⟩
    have hcn : cnt counts (n.id : Int) = passing (goesLeft ops.le) X it n.id := hcnt n.id hmem
    have hcn' : (getCount counts (n.id : Int)).1 = passing (goesLeft ops.le) X it n.id := hcn
    have e1 : boxFill rgba look.highlight o.labelAll ((some (counts, b)).map (fun c (j : Nat) => cnt c.1 (j : Int))) lo hi o.maxDepth n =
        boxFill rgba look.highlight false (some (passing (goesLeft ops.le) X it)) lo hi o.maxDepth n := by
      unfold boxFill
      rw [hall]
      cases n.info <;> simp only [Option.map_some, hcn, Option.isSome_some]
    have e2 : drawItem round name o.nodeIds (itemCount o (some (counts, b))) o.maxDepth n =
        drawItem round name o.nodeIds (fun n => match n.info with
          | .output _ => if o.labelShow then some (passing (goesLeft ops.le) X it n.id,
              if o.proportion then some ((passing (goesLeft ops.le) X it n.id : F) / hi * 100) else none) else none
          | .split _ _ => none) o.maxDepth n := by
      have e3 : itemCount o (some (counts, b)) n = (match n.info with
          | .output _ => if o.labelShow then some (passing (goesLeft ops.le) X it n.id,
              if o.proportion then some ((passing (goesLeft ops.le) X it n.id : F) / hi * 100) else none) else none
          | .split _ _ => none) := by
        unfold itemCount countLabel
        rw [hall, hhi]
        cases n.info <;> simp [hcn']
      unfold drawItem
      simp only [e3]
    rw [← e1, ← e2]
    exact his

omit [IsStrictOrderedRing F] in
/-- C104: a negative precision and a label other than `all` and `leaves` are errors; the label is only looked at together with output leaves. -/
theorem C104_errors (cmap : Ratio F → List Int) (pr : Printers F) (look : Look) (round : F → F) (m : Ensemble F) (o : Options) (k : Nat) (leaves : List (List Int)) :
    (look.precision < 0 → ∀ badLabel outputLeaves, exportText cmap pr look round m o k badLabel outputLeaves = .error .valueError) ∧
    exportText cmap pr look round m o k true (some leaves) = .error .valueError ∧
    exportText cmap pr look round m o k true none = exportText cmap pr look round m o k false none := by
  refine ⟨fun h _ _ => ?_, ?_, ?_⟩
  · unfold exportText
    rw [if_pos h]
  · unfold exportText
    split
    · rfl
    · rfl
  · unfold exportText
    simp

/-! ### Examples -/

/-- Numbers as percentDigits. -/
def percentDigits : Printers ℚ := ⟨fun v => Svm.showInt v.num ++ '/' :: Svm.decimal v.den, fun v => Svm.showInt v.num ++ '/' :: Svm.decimal v.den,
  fun v => Svm.showInt v.num ++ '/' :: Svm.decimal v.den⟩

theorem fractions_plain : PlainNumbers percentDigits := by
  have h : ∀ v : ℚ, ∀ c ∈ Svm.showInt v.num ++ '/' :: Svm.decimal v.den, c ∉ ['"', '\\', '<', '>', '&'] := by
    intro v c hc
    rw [List.mem_append, List.mem_cons] at hc
    rcases hc with hc | rfl | hc
    · unfold Svm.showInt at hc
      split at hc
      · rcases List.mem_cons.1 hc with rfl | hc
        · decide
        · exact decimal_plain _ c hc
      · exact decimal_plain _ c hc
    · decide
    · exact decimal_plain _ c hc
  exact fun v => ⟨h v, h v, h v⟩

/-- From black to red; black and transparent if there is no number. -/
def reds : Ratio ℚ → Nat × Nat × Nat × Nat
  | .num q => (min 255 (255 * q).floor.toNat, 0, 0, 255)
  | .nan => (0, 0, 0, 0)
  | .inf _ => (0, 0, 0, 255)

theorem reds_bytes (q : Ratio ℚ) : Bytes (reds q) := by
  cases q <;> (unfold reds Bytes; simp only; omega)

/-- The first tree of the ensemble of C29 as text, read again. -/
example : (exportText (fun q => asList (reds q)) percentDigits { highlight := true, parallel := true } id ens0 { maxDepth := some 1, nodeIds := true } 0 false none).map readDot =
    .ok (some (settings true false true ++
      [.node "0".toList [("label".toList, .text "node #0\\nf[0]  <= 1/2".toList), ("fillcolor".toList, .text "#ffffffff".toList)],
        .node "1".toList [("label".toList, .text "node #1\\noutput = 1/1".toList), ("fillcolor".toList, .text "#6d0000bf".toList)],
        .edge "0".toList "1".toList (headAttrs (some true)),
        .node "2".toList [("label".toList, .text "node #2\\nf[1]  <= 3/1".toList), ("fillcolor".toList, .text "#ffffffff".toList)],
        .edge "0".toList "2".toList (headAttrs (some false)),
        .node "3".toList [("label".toList, .text "(...)".toList), ("fillcolor".toList, .text "#C0C0C0".toList)], .edge "2".toList "3".toList [],
        .node "4".toList [("label".toList, .text "(...)".toList), ("fillcolor".toList, .text "#C0C0C0".toList)], .edge "2".toList "4".toList [],
        .sameRank ["0".toList], .sameRank ["2".toList], .sameRank ["1".toList, "3".toList, "4".toList]])) := by
  decide +kernel

/-- The hypotheses of C104 hold for this tree. -/
example : ∃ text is, exportText (fun q => asList (reds q)) percentDigits { highlight := true, parallel := true } id ens0 { maxDepth := some 1, nodeIds := true } 0 false none =
    .ok text ∧ readDot text = some is := by
  obtain ⟨_, _, _, text, _, _, -, -, -, -, -, h1, h2, -⟩ := C104_text_partial (k := 0) (t := forest0[0].1) (w := forest0[0].2) ens0_represents rfl id
    { maxDepth := some 1, nodeIds := true } rfl { highlight := true, parallel := true } (by decide) (name := fun f => .index f)
    (fun f _ => ⟨fun _ => rfl, fun l h => by cases h⟩) fractions_plain reds_bytes false
  exact ⟨text, _, h1, h2⟩

/-- With names. -/
example : ∃ text is, exportText (fun q => asList (reds q)) percentDigits { special := true } id ens0 { featureNames := some ["a \"b\"", "c"] } 0 false none =
    .ok text ∧ readDot text = some is := by
  obtain ⟨_, _, _, text, _, _, -, -, -, -, -, h1, h2, -⟩ := C104_text_partial (k := 0) (t := forest0[0].1) (w := forest0[0].2) ens0_represents rfl id
    { featureNames := some ["a \"b\"", "c"] } (by decide +kernel) { special := true } (by decide)
    (name := fun f => if f = 0 then .name "a \"b\"" else .name "c")
    (fun f hf => ⟨(fun h => by cases h), fun l h => by
      cases h
      have hf' : f = 0 ∨ f = 1 := by simpa [forest0, Spec.Tree.features] using hf
      rcases hf' with rfl | rfl
      · exact ⟨_, rfl, rfl, by unfold PlainName; decide⟩
      · exact ⟨_, rfl, rfl, by unfold PlainName; decide⟩⟩) fractions_plain reds_bytes false
  exact ⟨text, _, h1, h2⟩

/-- The same tree with the documents of C66. -/
example : (exportText (fun q => asList (reds q)) percentDigits { special := true } id ens0 { labelShow := true, proportion := true, maxDepth := some 0 } 0 false
      (some [[1, 5], [4, 5], [1, 5], [4, 5]])).map (fun s => (readDot s).map (fun is => is.map (fun i => match i with | .node _ l => labelLines l | _ => none))) =
    .ok (some [none, some ["counts = 4 (100/1%)".toList, "f0  ≤ 1/2".toList], some ["(...)".toList], none, some ["(...)".toList], none]) := by
  decide +kernel

/-- The hypotheses of C104 with output leaves. -/
example : ∃ leaves text is, exportText (fun q => asList (reds q)) percentDigits { special := true } id ens0 { labelShow := true, proportion := true } 0 false (some leaves) =
    .ok text ∧ readDot text = some is := by
  obtain ⟨leaves, hd, -⟩ := C30_detailed (X := [[0, 9], [1, 4]]) (nf := 2) (exactOps ℚ) ens0_represents (by decide) (by decide +kernel)
  obtain ⟨_, _, text, _, _, -, -, -, -, h1, h2, -⟩ := C104_counts_partial (k := 0) (t := forest0[0].1) (w := forest0[0].2) (X := [[0, 9], [1, 4]]) (nf := 2)
    (exactOps ℚ) ens0_represents (by decide) (by decide +kernel) rfl hd id { labelShow := true, proportion := true } rfl rfl { special := true } (by decide)
    (name := fun f => .index f) (fun f _ => ⟨fun _ => rfl, fun l h => by cases h⟩) fractions_plain reds_bytes
  exact ⟨leaves, text, _, h1, h2⟩

/-- With `label='leaves'`. -/
example : ∃ leaves text is, exportText (fun q => asList (reds q)) percentDigits {} id ens0 { labelAll := false, labelShow := true, proportion := true } 0 false (some leaves) =
    .ok text ∧ readDot text = some is := by
  obtain ⟨leaves, hd, -⟩ := C30_detailed (X := [[0, 9], [1, 4]]) (nf := 2) (exactOps ℚ) ens0_represents (by decide) (by decide +kernel)
  obtain ⟨_, _, _, text, _, _, -, -, -, -, -, h1, h2, -⟩ := C104_leaves_partial (k := 0) (t := forest0[0].1) (w := forest0[0].2) (X := [[0, 9], [1, 4]]) (nf := 2)
    (exactOps ℚ) ens0_represents (by decide) (by simp) (by decide +kernel) rfl hd id { labelAll := false, labelShow := true, proportion := true } rfl rfl {} (by decide)
    (name := fun f => .index f) (fun f _ => ⟨fun _ => rfl, fun l h => by cases h⟩) fractions_plain reds_bytes
  exact ⟨leaves, text, _, h1, h2⟩

/-- Three documents, two of them in the left leaf and one in the last: the leaf in the middle has no documents, less than the least number, and `coolwarm`
is asked for the colour at a negative position. -/
example : (exportText (fun q => asList (reds q)) percentDigits {} id ens0 { labelAll := false, labelShow := true, proportion := true } 0 false
      (some [[1, 5], [4, 5], [1, 5]])).map (fun s => (readDot s).map (fun is => is.filterMap (fun i => match i with | .node _ l => some l | _ => none))) =
    .ok (some [[("shape".toList, .text "box".toList), ("style".toList, .text "filled".toList), ("color".toList, .text "black".toList)],
      [("label".toList, .text "f[0]  <= 1/2".toList), ("fillcolor".toList, .text "#ffffffff".toList)],
      [("label".toList, .text "counts = 2 (100/1%)\\noutput = 1/1".toList), ("fillcolor".toList, .text "#ff0000bf".toList)],
      [("label".toList, .text "f[1]  <= 3/1".toList), ("fillcolor".toList, .text "#ffffffff".toList)],
      [("label".toList, .text "counts = 0 (0/1%)\\noutput = -2/1".toList), ("fillcolor".toList, .text "#000000bf".toList)],
      [("label".toList, .text "counts = 1 (50/1%)\\noutput = 5/1".toList), ("fillcolor".toList, .text "#000000bf".toList)]]) := by
  decide +kernel

/-- C104 fails for names with a quote or, in the other kind of labels, a `<`: the text cannot be read. -/
theorem C104_violated :
    (exportText (fun q => asList (reds q)) percentDigits {} id ens0 { featureNames := some ["the \"score\"", "b"] } 0 false none).map readDot = .ok none ∧
    (exportText (fun q => asList (reds q)) percentDigits { special := true } id ens0 { featureNames := some ["a<b", "b"] } 0 false none).map readDot = .ok none := by
  refine ⟨?_, ?_⟩ <;> decide +kernel

/-- A tree whose leaves all have the same output has no position for its colours. -/
example (v : ℚ) : position v v v = .nan ∧ colourText (reds .nan) = "#00000000".toList := ⟨by simp [position], by decide⟩

end Verif.Props
