/-
Lemmas for the array-encoded tree formats.
-/
import Verif.Spec.Arrays
import Verif.Lemmas.Loader

namespace Verif
open Spec

/-- `a` with the entries from `base` on replaced by `xs`. -/
def overwrite {α : Type} (a : List α) (base : Nat) : List α → List α
  | [] => a
  | x :: xs => overwrite (a.set base x) (base + 1) xs

section overwrite
variable {α : Type}

theorem length_overwrite (a : List α) (base : Nat) (xs : List α) : (overwrite a base xs).length = a.length := by
  induction xs generalizing a base with
  | nil => rfl
  | cons x xs ih => rw [overwrite, ih, List.length_set]

theorem overwrite_before (a : List α) (base : Nat) (xs : List α) {i : Nat} (h : i < base) :
    (overwrite a base xs)[i]? = a[i]? := by
  induction xs generalizing a base with
  | nil => rfl
  | cons x xs ih => rw [overwrite, ih _ _ (by omega), List.getElem?_set_ne (by omega)]

theorem overwrite_after (a : List α) (base : Nat) (xs : List α) {i : Nat} (h : base + xs.length ≤ i) :
    (overwrite a base xs)[i]? = a[i]? := by
  induction xs generalizing a base with
  | nil => rfl
  | cons x xs ih =>
    rw [List.length_cons] at h
    rw [overwrite, ih _ _ (by omega), List.getElem?_set_ne (by omega)]

theorem overwrite_inside (a : List α) (base : Nat) (xs : List α) {p : Nat} (h : p < xs.length)
    (hlen : base + xs.length ≤ a.length) : (overwrite a base xs)[base + p]? = xs[p]? := by
  induction xs generalizing a base p with
  | nil => simp at h
  | cons x xs ih =>
    rw [List.length_cons] at hlen h
    rw [overwrite]
    cases p with
    | zero => rw [overwrite_before _ _ _ (by omega), Nat.add_zero, List.getElem?_set_self (by omega)]; rfl
    | succ p =>
      rw [show base + (p + 1) = base + 1 + p from by omega, ih _ _ (by omega) (by rw [List.length_set]; omega),
        List.getElem?_cons_succ]

end overwrite

namespace Ensemble
variable {F : Type} {m : Ensemble F}

theorem writeFrom_value (m : Ensemble F) (base : Nat) (xs : List F) (h : base + xs.length ≤ m.value.length) :
    writeFrom setValue m base xs = .ok { m with value := overwrite m.value base xs } := by
  induction xs generalizing m base with
  | nil => rfl
  | cons x xs ih =>
    rw [List.length_cons] at h
    rw [writeFrom, setValue_ok x (by omega)]
    simp only [bind, Except.bind]
    rw [ih _ _ (by simp only [List.length_set]; omega)]
    rfl

theorem writeFrom_feature (m : Ensemble F) (base : Nat) (xs : List Nat) (h : base + xs.length ≤ m.feature.length)
    (hs : ∀ f ∈ xs, f < 2 ^ 15) :
    writeFrom (fun m i (f : Nat) => setFeature m i f) m base xs =
      .ok { m with feature := overwrite m.feature base (xs.map (fun (f : Nat) => (f : Int))) } := by
  induction xs generalizing m base with
  | nil => rfl
  | cons x xs ih =>
    rw [List.length_cons] at h
    rw [writeFrom, setFeature_ok (hs x (by simp)) (by omega)]
    simp only [bind, Except.bind]
    rw [ih _ _ (by simp only [List.length_set]; omega) (fun f hf => hs f (by simp [hf]))]
    rfl

theorem writeFrom_left (m : Ensemble F) (base : Nat) (g : Int → Int) (xs : List Int) (h : base + xs.length ≤ m.left.length) :
    writeFrom (fun m i c => setLeft m i (g c)) m base xs = .ok { m with left := overwrite m.left base (xs.map g) } := by
  induction xs generalizing m base with
  | nil => rfl
  | cons x xs ih =>
    rw [List.length_cons] at h
    rw [writeFrom, setLeft_ok _ (by omega)]
    simp only [bind, Except.bind]
    rw [ih _ _ (by simp only [List.length_set]; omega)]
    rfl

theorem writeFrom_right (m : Ensemble F) (base : Nat) (g : Int → Int) (xs : List Int) (h : base + xs.length ≤ m.right.length) :
    writeFrom (fun m i c => setRight m i (g c)) m base xs = .ok { m with right := overwrite m.right base (xs.map g) } := by
  induction xs generalizing m base with
  | nil => rfl
  | cons x xs ih =>
    rw [List.length_cons] at h
    rw [writeFrom, setRight_ok _ (by omega)]
    simp only [bind, Except.bind]
    rw [ih _ _ (by simp only [List.length_set]; omega)]
    rfl

/-- Position of a reference among the nodes of the tree, splits first. -/
def refPos (ns : Nat) (c : Int) : Nat := if 0 ≤ c then c.toNat else ns + (-c - 1).toNat

theorem childIndex_refPos (root ns : Nat) (c : Int) : childIndex root ns c = ((root + refPos ns c : Nat) : Int) := by
  unfold childIndex refPos
  split
  · omega
  · rw [abs_of_neg (by omega)]; omega

/-- The arrays of `m` from `root` on hold the arrays of the tree. -/
structure ArrAt (a : ArrTree F) (root : Nat) (m : Ensemble F) : Prop where
  feature : ∀ p < a.features.length, m.feature[root + p]? = (a.features[p]?).map (fun (f : Nat) => (f : Int))
  value : ∀ p < a.features.length, m.value[root + p]? = a.thresholds[p]?
  left : ∀ p < a.features.length, m.left[root + p]? = (a.left[p]?).map (childIndex root a.features.length)
  right : ∀ p < a.features.length, m.right[root + p]? = (a.right[p]?).map (childIndex root a.features.length)
  leaves : ∀ p < a.leaves.length, m.value[root + a.features.length + p]? = a.leaves[p]?
  blank : ∀ p < a.leaves.length, Blank m (root + a.features.length + p)

theorem ArrAt.encodes {a : ArrTree F} {root : Nat} (h : ArrAt a root m) {c : Int} {t : Spec.Tree F} {s : List Nat}
    (hc : a.Holds c t s) : Encodes m (root + refPos a.features.length c) t (s.map (fun p => root + p)) := by
  induction hc with
  | @leaf p v hv =>
    have hp : p < a.leaves.length := (List.getElem?_eq_some_iff.1 hv).1
    have hpos : root + refPos a.features.length (-((p : Int) + 1)) = root + a.features.length + p := by
      unfold refPos
      rw [if_neg (by omega)]
      omega
    have hb := h.blank p hp
    rw [hpos, List.map_singleton, ← Nat.add_assoc]
    exact .leaf hb.left hb.right hb.feature (by rw [h.leaves p hp, hv])
  | @node p f t l r tl tr sl sr hf ht hl hr _ _ ihl ihr =>
    have hp : p < a.features.length := (List.getElem?_eq_some_iff.1 hf).1
    have hpos : root + refPos a.features.length (p : Int) = root + p := by
      unfold refPos
      rw [if_pos (by omega)]
      omega
    rw [hpos, List.map_cons, List.map_append]
    refine .node (l := root + refPos a.features.length l) (r := root + refPos a.features.length r) ?_ ?_ ?_ ?_ ihl ihr
    · rw [h.left p hp, hl, Option.map_some, childIndex_refPos]
    · rw [h.right p hp, hr, Option.map_some, childIndex_refPos]
    · rw [h.feature p hp, hf]; rfl
    · rw [h.value p hp, ht]

/-- The node arrays after all arrays of the tree have been written from `root` on. -/
def writeArr (m : Ensemble F) (a : ArrTree F) (root : Nat) : Ensemble F :=
  { m with
    feature := overwrite m.feature root (a.features.map (fun (f : Nat) => (f : Int)))
    value := overwrite (overwrite m.value root a.thresholds) (root + a.features.length) a.leaves
    left := overwrite m.left root (a.left.map (childIndex root a.features.length))
    right := overwrite m.right root (a.right.map (childIndex root a.features.length)) }

theorem holds_numNodes {a : ArrTree F} {c : Int} {t : Spec.Tree F} {s : List Nat} (h : a.Holds c t s) : s.length = t.numNodes := by
  induction h with
  | leaf => rfl
  | node _ _ _ _ _ _ ihl ihr => simp only [List.length_cons, List.length_append, ihl, ihr, Spec.Tree.numNodes]; omega

theorem ArrTree_numNodes {a : ArrTree F} {t : Spec.Tree F} (h : a.Is t) : t.numNodes = a.features.length + a.leaves.length := by
  obtain ⟨s, h1, h2⟩ := h.holds
  rw [← holds_numNodes h1, h2.length_eq, List.length_range]

theorem writeArr_at {a : ArrTree F} {t : Spec.Tree F} {root N : Nat} (ha : a.Is t) (hlen : NodeLen m N)
    (hN : root + (a.features.length + a.leaves.length) ≤ N)
    (hblank : ∀ i, root ≤ i → i < N → Blank m i) : ArrAt a root (writeArr m a root) := by
  have h1 := ha.thresholds_len
  have h2 := ha.left_len
  have h3 := ha.right_len
  refine ⟨?_, ?_, ?_, ?_, ?_, ?_⟩
  · intro p hp
    simp only [writeArr]
    rw [overwrite_inside _ _ _ (by simpa using hp) (by rw [hlen.feature, List.length_map]; omega), List.getElem?_map]
  · intro p hp
    simp only [writeArr]
    rw [overwrite_before _ _ _ (by omega), overwrite_inside _ _ _ (by omega) (by rw [hlen.value]; omega)]
  · intro p hp
    simp only [writeArr]
    rw [overwrite_inside _ _ _ (by rw [List.length_map]; omega) (by rw [hlen.left, List.length_map]; omega), List.getElem?_map]
  · intro p hp
    simp only [writeArr]
    rw [overwrite_inside _ _ _ (by rw [List.length_map]; omega) (by rw [hlen.right, List.length_map]; omega), List.getElem?_map]
  · intro p hp
    simp only [writeArr]
    rw [overwrite_inside _ _ _ hp (by rw [length_overwrite, hlen.value]; omega)]
  · intro p hp
    have hb := hblank (root + a.features.length + p) (by omega) (by omega)
    refine ⟨?_, ?_, ?_⟩ <;> simp only [writeArr]
    · rw [overwrite_after _ _ _ (by rw [List.length_map]; omega)]; exact hb.left
    · rw [overwrite_after _ _ _ (by rw [List.length_map]; omega)]; exact hb.right
    · rw [overwrite_after _ _ _ (by rw [List.length_map]; omega)]; exact hb.feature

theorem writeArr_len {a : ArrTree F} {root N : Nat} (hlen : NodeLen m N) : NodeLen (writeArr m a root) N := by
  refine ⟨?_, ?_, ?_, ?_⟩ <;> simp only [writeArr, length_overwrite, hlen.left, hlen.right, hlen.value, hlen.feature]

theorem writeArr_agree {a : ArrTree F} {t : Spec.Tree F} {root : Nat} (ha : a.Is t) {i : Nat}
    (hi : i < root ∨ root + (a.features.length + a.leaves.length) ≤ i) : Agree m (writeArr m a root) i := by
  have h1 := ha.thresholds_len
  have h2 := ha.left_len
  have h3 := ha.right_len
  rcases hi with hi | hi
  · refine ⟨?_, ?_, ?_, ?_⟩ <;> simp only [writeArr]
    · rw [overwrite_before _ _ _ hi]
    · rw [overwrite_before _ _ _ hi]
    · rw [overwrite_before _ _ _ (by omega), overwrite_before _ _ _ hi]
    · rw [overwrite_before _ _ _ hi]
  · refine ⟨?_, ?_, ?_, ?_⟩ <;> simp only [writeArr]
    · rw [overwrite_after _ _ _ (by rw [List.length_map]; omega)]
    · rw [overwrite_after _ _ _ (by rw [List.length_map]; omega)]
    · rw [overwrite_after _ _ _ (by omega), overwrite_after _ _ _ (by omega)]
    · rw [overwrite_after _ _ _ (by rw [List.length_map]; omega)]

/-- One more tree: its root and weight set, its arrays written. -/
theorem LoadedTrees.writeArr {fo : Forest F} {k : Nat} {m m' : Ensemble F} (h : LoadedTrees fo k m) {a : ArrTree F}
    {t : Spec.Tree F} {w : F} (hk : fo[k]? = some (t, w)) (ha : a.Is t)
    (hm : m' = Ensemble.writeArr { m with root := m.root.set k (treeStart fo k : Int), weight := m.weight.set k w } a (treeStart fo k)) :
    LoadedTrees fo (k + 1) m' := by
  subst hm
  have hstart := treeStart_succ hk
  have hnum := ArrTree_numNodes ha
  have hle := treeStart_mono fo (a := k + 1) (b := fo.length) (List.getElem?_eq_some_iff.1 hk).1
  have hall : treeStart fo fo.length = Forest.numNodes fo := by unfold treeStart; rw [List.take_length]
  have hlen : NodeLen { m with root := m.root.set k (treeStart fo k : Int), weight := m.weight.set k w } (Forest.numNodes fo) :=
    ⟨h.len.left, h.len.right, h.len.value, h.len.feature⟩
  have hat := writeArr_at ha hlen (root := treeStart fo k) (by omega)
    (fun i h1 h2 => ⟨(h.blank i h1 h2).left, (h.blank i h1 h2).right, (h.blank i h1 h2).feature⟩)
  obtain ⟨s, hs, hperm⟩ := ha.holds
  have hroot : refPos a.features.length (if a.features = [] then -1 else 0) = 0 := by
    unfold refPos
    split <;> simp_all
  have henc := hat.encodes hs
  rw [hroot, Nat.add_zero] at henc
  refine h.step hk rfl rfl (writeArr_len hlen) rfl rfl (fun i hi => ?_) henc ?_
  · have := writeArr_agree (m := { m with root := m.root.set k (treeStart fo k : Int), weight := m.weight.set k w }) ha
      (root := treeStart fo k) (i := i) (by omega)
    exact ⟨this.left, this.right, this.value, this.feature⟩
  · have := hperm.map (fun p => treeStart fo k + p)
    refine this.trans (List.Perm.of_eq ?_)
    rw [hnum, List.range_eq_range', List.map_add_range']
    simp

/-- Features below 2^15 fit the int16 array. -/
def SmallArr (a : ArrTree F) : Prop := ∀ f ∈ a.features, f < 2 ^ 15

theorem lgb_tree (one : F) {fo : Forest F} {k : Nat} {s : ArrState F} {a : ArrTree F} {t : Spec.Tree F}
    (h : LoadedTrees fo k s.m) (hk : fo[k]? = some (t, one)) (ha : a.Is t) (hsmall : SmallArr a)
    (hroot : s.rootNode + (s.numLeaves + s.numSplits) = treeStart fo k) :
    ∃ s', List.foldlM (lgbStep one) s (.tree k :: a.lgbLines) = .ok s' ∧ LoadedTrees fo (k + 1) s'.m ∧
      s'.rootNode + (s'.numLeaves + s'.numSplits) = treeStart fo (k + 1) := by
  have hstart := treeStart_succ hk
  have hnum := ArrTree_numNodes ha
  have hklt : k < fo.length := (List.getElem?_eq_some_iff.1 hk).1
  have hle := treeStart_mono fo (a := k + 1) (b := fo.length) hklt
  have hall : treeStart fo fo.length = Forest.numNodes fo := by unfold treeStart; rw [List.take_length]
  refine ⟨⟨Ensemble.writeArr { s.m with root := s.m.root.set k (treeStart fo k : Int), weight := s.m.weight.set k one } a
    (treeStart fo k), k, treeStart fo k, a.leaves.length, a.features.length, some a.features.length⟩, ?_,
    h.writeArr hk ha rfl, by simp only; omega⟩
  have h1 := ha.thresholds_len
  have h2 := ha.left_len
  have h3 := ha.right_len
  simp only [List.foldlM_cons, List.foldlM_nil, ArrTree.lgbLines, lgbStep, hroot,
    setRoot_ok _ (show k < s.m.root.length by rw [h.root_len]; exact hklt), bind, Except.bind, pure, Except.pure]
  rw [writeFrom_feature _ _ _ (by simp only [h.len.feature]; omega) hsmall]
  simp only
  rw [writeFrom_value _ _ _ (by simp only [h.len.value]; omega)]
  simp only
  rw [writeFrom_left _ _ _ _ (by simp only [h.len.left]; omega)]
  simp only
  rw [writeFrom_right _ _ _ _ (by simp only [h.len.right]; omega)]
  simp only
  rw [writeFrom_value _ _ _ (by simp only [length_overwrite, h.len.value]; omega)]
  simp only
  rw [setWeight_ok _ (by simp only [h.weight_len]; exact hklt)]
  rfl

theorem lgb_forest (one : F) {fo : Forest F} {as : List (ArrTree F)} {ts : List (Spec.Tree F)}
    (has : List.Forall₂ ArrTree.Is as ts) (hsmall : ∀ a ∈ as, SmallArr a) (k : Nat) (s : ArrState F)
    (hfo : fo.drop k = ts.map (fun t => (t, one))) (h : LoadedTrees fo k s.m)
    (hroot : s.rootNode + (s.numLeaves + s.numSplits) = treeStart fo k) :
    ∃ s', List.foldlM (lgbStep one) s (lgbForest k as) = .ok s' ∧ LoadedTrees fo (k + as.length) s'.m := by
  induction has generalizing k s with
  | nil => exact ⟨s, rfl, h⟩
  | @cons a t as ts ha _ ih =>
    have hk : fo[k]? = some (t, one) := by
      have := congrArg (·[0]?) hfo
      simpa using this
    obtain ⟨s1, e1, h1, hr1⟩ := lgb_tree one h hk ha (hsmall a (by simp)) hroot
    obtain ⟨s2, e2, h2⟩ := ih (fun a ha => hsmall a (by simp [ha])) (k + 1) s1
      (by rw [← List.drop_drop, hfo]; simp) h1 hr1
    refine ⟨s2, ?_, by rw [List.length_cons, Nat.add_comm as.length 1, ← Nat.add_assoc]; exact h2⟩
    rw [lgbForest, ← List.cons_append, List.foldlM_append, e1]
    exact e2

theorem lgbCount_forest {as : List (ArrTree F)} {ts : List (Spec.Tree F)} (has : List.Forall₂ ArrTree.Is as ts) (one : F) (k : Nat) :
    lgbCount (lgbForest k as) = (ts.length, Forest.numNodes (ts.map (fun t => (t, one)))) := by
  induction has generalizing k with
  | nil => rfl
  | @cons a t as ts ha _ ih =>
    have := ArrTree_numNodes ha
    have ih := ih (k + 1)
    simp only [lgbCount, Prod.mk.injEq] at ih
    simp only [lgbCount, lgbForest, ArrTree.lgbLines, List.map_cons, List.map_append, List.sum_cons, List.sum_append, ih,
      Forest.numNodes, List.length_cons, List.map_nil, List.sum_nil, this, Prod.mk.injEq]
    constructor <;> omega

theorem lgbCount_filter (lines : List (LgbLine F)) : lgbCount (lines.filter lgbRelevant) = lgbCount lines := by
  induction lines with
  | nil => rfl
  | cons l lines ih =>
    simp only [lgbCount, Prod.mk.injEq] at ih
    by_cases hl : lgbRelevant l = true
    · simp only [List.filter_cons, hl, if_true, lgbCount, List.map_cons, List.sum_cons, ih]
    · simp only [List.filter_cons, hl, lgbCount, List.map_cons, List.sum_cons]
      cases l <;> simp_all [lgbRelevant]

theorem lgb_foldlM_filter (one : F) (lines : List (LgbLine F)) (s : ArrState F) :
    lines.foldlM (lgbStep one) s = (lines.filter lgbRelevant).foldlM (lgbStep one) s := by
  induction lines generalizing s with
  | nil => rfl
  | cons l lines ih =>
    by_cases hl : lgbRelevant l = true
    · rw [List.filter_cons, if_pos hl, List.foldlM_cons, List.foldlM_cons]
      congr 1
      funext s'
      exact ih s'
    · have hstep : lgbStep one s l = .ok s := by
        cases l <;> simp_all [lgbRelevant, lgbStep, pure, Except.pure]
        assumption
      rw [List.filter_cons, if_neg hl, List.foldlM_cons, hstep]
      exact ih s

theorem jf_tree {fo : Forest F} {k : Nat} {s : ArrState F} {a : ArrTree F} {t : Spec.Tree F} {w : F}
    (h : LoadedTrees fo k s.m) (hk : fo[k]? = some (t, w)) (ha : a.Is t) (hne : a.features ≠ []) (hsmall : SmallArr a)
    (hcurr : s.currTree + 1 = k) (hroot : s.rootNode + (s.numLeaves + s.numSplits) = treeStart fo k) :
    ∃ s', List.foldlM jfStep s (.startTree w :: (a.jfEvents ++ [.endTree])) = .ok s' ∧ LoadedTrees fo (k + 1) s'.m ∧
      s'.currTree + 1 = ((k + 1 : Nat) : Int) ∧ s'.rootNode + (s'.numLeaves + s'.numSplits) = treeStart fo (k + 1) := by
  have hstart := treeStart_succ hk
  have hnum := ArrTree_numNodes ha
  have hklt : k < fo.length := (List.getElem?_eq_some_iff.1 hk).1
  have hle := treeStart_mono fo (a := k + 1) (b := fo.length) hklt
  have hall : treeStart fo fo.length = Forest.numNodes fo := by unfold treeStart; rw [List.take_length]
  refine ⟨⟨Ensemble.writeArr { s.m with root := s.m.root.set k (treeStart fo k : Int), weight := s.m.weight.set k w } a
    (treeStart fo k), k, treeStart fo k, a.leaves.length, a.features.length, s.splitFeatures⟩, ?_,
    h.writeArr hk ha rfl, by simp, by simp only; omega⟩
  have h1 := ha.thresholds_len
  have h2 := ha.left_len
  have h3 := ha.right_len
  have hpos := List.length_pos_iff.2 hne
  have n1 : a.thresholds ≠ [] := List.length_pos_iff.1 (by omega)
  have n2 : a.left ≠ [] := List.length_pos_iff.1 (by omega)
  have n3 : a.right ≠ [] := List.length_pos_iff.1 (by omega)
  have n4 : a.leaves ≠ [] := by
    obtain ⟨s, hs, hp⟩ := ha.holds
    intro hnil
    have : ∀ {c t s}, a.Holds c t s → False := by
      intro c t s hc
      induction hc with
      | leaf hv => simp [hnil] at hv
      | node _ _ _ _ _ _ ih _ => exact ih
    exact this hs
  simp only [List.foldlM_cons, List.foldlM_nil, ArrTree.jfEvents, List.cons_append, List.nil_append, jfStep, hroot, hcurr, elemText,
    hne, n1, n2, n3, n4, if_false,
    setRoot_ok _ (show k < s.m.root.length by rw [h.root_len]; exact hklt), bind, Except.bind, pure, Except.pure]
  rw [setWeight_ok _ (by simp only [h.weight_len]; exact hklt)]
  simp only
  rw [writeFrom_feature _ _ _ (by simp only [h.len.feature]; omega) hsmall]
  simp only
  rw [writeFrom_left _ _ _ _ (by simp only [h.len.left]; omega)]
  simp only
  rw [writeFrom_right _ _ _ _ (by simp only [h.len.right]; omega)]
  simp only
  rw [writeFrom_value _ _ _ (by simp only [h.len.value]; omega)]
  simp only
  rw [writeFrom_value _ _ _ (by simp only [length_overwrite, h.len.value]; omega)]
  rfl

theorem jf_forest {fo : Forest F} {as : List (ArrTree F × F)} {ps : Forest F}
    (has : List.Forall₂ (fun a p => a.1.Is p.1 ∧ a.2 = p.2) as ps) (hne : ∀ a ∈ as, a.1.features ≠ [])
    (hsmall : ∀ a ∈ as, SmallArr a.1) (k : Nat) (s : ArrState F)
    (hfo : fo.drop k = ps) (h : LoadedTrees fo k s.m) (hcurr : s.currTree + 1 = k)
    (hroot : s.rootNode + (s.numLeaves + s.numSplits) = treeStart fo k) :
    ∃ s', List.foldlM jfStep s (jfForest as) = .ok s' ∧ LoadedTrees fo (k + as.length) s'.m := by
  induction has generalizing k s with
  | nil => exact ⟨s, rfl, h⟩
  | @cons a p as ps ha _ ih =>
    obtain ⟨a, w⟩ := a
    obtain ⟨t, w'⟩ := p
    obtain ⟨ha, rfl⟩ := ha
    have hk : fo[k]? = some (t, w) := by
      have := congrArg (·[0]?) hfo
      simpa using this
    obtain ⟨s1, e1, h1, hc1, hr1⟩ := jf_tree h hk ha (hne (a, w) (by simp)) (hsmall (a, w) (by simp)) hcurr hroot
    obtain ⟨s2, e2, h2⟩ := ih (fun a ha => hne a (by simp [ha])) (fun a ha => hsmall a (by simp [ha])) (k + 1) s1
      (by rw [← List.drop_drop, hfo]; simp) h1 hc1 hr1
    refine ⟨s2, ?_, by rw [List.length_cons, Nat.add_comm as.length 1, ← Nat.add_assoc]; exact h2⟩
    rw [jfForest, show a.jfEvents ++ JfEvent.endTree :: jfForest as = (a.jfEvents ++ [.endTree]) ++ jfForest as by simp,
      ← List.cons_append, List.foldlM_append, e1]
    exact e2

theorem jf_foldlM_filter (events : List (JfEvent F)) (s : ArrState F) :
    events.foldlM jfStep s = (events.filter jfRelevant).foldlM jfStep s := by
  induction events generalizing s with
  | nil => rfl
  | cons l lines ih =>
    by_cases hl : jfRelevant l = true
    · rw [List.filter_cons, if_pos hl, List.foldlM_cons, List.foldlM_cons]
      congr 1
      funext s'
      exact ih s'
    · have hstep : jfStep s l = .ok s := by
        cases l <;> simp_all [jfRelevant, jfStep, pure, Except.pure]
      rw [List.filter_cons, if_neg hl, List.foldlM_cons, hstep]
      exact ih s

theorem jfCount_filter (events : List (JfEvent F)) : jfCount (events.filter jfRelevant) = jfCount events := by
  induction events with
  | nil => rfl
  | cons l lines ih =>
    by_cases hl : jfRelevant l = true
    · rw [List.filter_cons, if_pos hl]
      simp only [jfCount, ih]
    · rw [List.filter_cons, if_neg hl, ih]
      cases l <;> simp_all [jfRelevant, jfCount, pure, Except.pure, bind, Except.bind]
      cases jfCount lines <;> rfl

theorem jfCount_forest {as : List (ArrTree F × F)} {ps : Forest F}
    (has : List.Forall₂ (fun a p => a.1.Is p.1 ∧ a.2 = p.2) as ps) (hne : ∀ a ∈ as, a.1.features ≠ []) :
    jfCount (jfForest as) = .ok (ps.length, Forest.numNodes ps) := by
  induction has with
  | nil => rfl
  | @cons a p as ps ha _ ih =>
    obtain ⟨a, w⟩ := a
    obtain ⟨t, w'⟩ := p
    obtain ⟨ha, rfl⟩ := ha
    have ih := ih (fun a ha => hne a (by simp [ha]))
    have hnum := ArrTree_numNodes ha
    have hne' : a.features ≠ [] := hne (a, w) (by simp)
    have n4 : a.leaves ≠ [] := by
      obtain ⟨s, hs, hp⟩ := ha.holds
      intro hnil
      have : ∀ {c t s}, a.Holds c t s → False := by
        intro c t s hc
        induction hc with
        | leaf hv => simp [hnil] at hv
        | node _ _ _ _ _ _ ih _ => exact ih
      exact this hs
    simp only [jfForest, ArrTree.jfEvents, List.cons_append, List.nil_append, jfCount, ih, elemText, hne', n4, if_false, pure,
      Except.pure, bind, Except.bind]
    simp only [Forest.numNodes, List.map_cons, List.sum_cons, List.length_cons, hnum, Except.ok.injEq, Prod.mk.injEq]
    constructor <;> omega

end Ensemble
end Verif
