/-
Lemmas on feature importance for arbitrary metrics.
-/
import Verif.Model.FeatureGeneric
import Verif.Spec.FeatureGeneric
import Verif.Lemmas.FeatureForest

namespace Verif
open Ensemble Spec
variable {K : Type} [Field K] [LinearOrder K]

/-- The array of the values of `g` at the positions below `n`. -/
def view {α : Type} (n : Nat) (g : Nat → α) : List α := (List.range n).map g

theorem view_length {α : Type} (n : Nat) (g : Nat → α) : (view n g).length = n := by simp [view]

theorem view_get {α : Type} {n i : Nat} (g : Nat → α) (h : i < n) : (view n g)[i]? = some (g i) := by simp [view, h]

theorem view_congr {α : Type} {n : Nat} {g h : Nat → α} (e : ∀ i < n, g i = h i) : view n g = view n h :=
  List.map_congr_left (fun i hi => e i (List.mem_range.1 hi))

theorem pySet_nat {α : Type} {a : List α} {i : Nat} (x : α) (h : i < a.length) : pySet a (i : Int) x = .ok (a.set i x) := by
  unfold pySet
  simp [h]

theorem view_set {α : Type} {n i : Nat} (g : Nat → α) (x : α) : (view n g).set i x = view n (fun j => if j = i then x else g j) := by
  apply List.ext_getElem?
  intro j
  rw [List.getElem?_set]
  unfold view
  by_cases hi : i = j
  · subst hi
    by_cases h : i < n <;> simp [h]
  · rw [if_neg hi]
    by_cases hn : j < n
    · simp [hn, Ne.symm hi]
    · simp [hn]

theorem setDocs_view (n : Nat) (g : Nat → K) (docs : List Nat) (v : K) :
    setDocs (view n g) docs v = view n (fun d => if d ∈ docs then v else g d) := by
  apply List.ext_getElem?
  intro j
  unfold setDocs view
  rw [List.getElem?_mapIdx]
  by_cases hn : j < n <;> simp [hn]

theorem copyDocs_view (n : Nat) (g h : Nat → K) (docs : List Nat) :
    copyDocs (view n g) (view n h) (some docs) = view n (fun d => if d ∈ docs then h d else g d) := by
  apply List.ext_getElem?
  intro j
  unfold copyDocs view
  simp only [List.length_map, List.length_range, List.getElem?_zipWith, List.getElem?_zip_eq_some, List.zip, List.getElem?_map]
  by_cases hn : j < n <;> simp [hn]

theorem meanDocs_view {n : Nat} (y : Nat → K) {D : List Nat} (h : ∀ d ∈ D, d < n) : meanDocs (view n y) D = mean y D := by
  have e : gather (view n y) D = D.map y := by
    unfold gather
    induction D with
    | nil => rfl
    | cons d D ih =>
      rw [List.filterMap_cons, view_get y (h d (by simp))]
      simp [ih (fun d hd => h d (by simp [hd]))]
  unfold meanDocs mean
  rw [e]

theorem mapM_pure_map {α β : Type} {f : α → Except PyErr β} {g : α → β} {l : List α} (h : ∀ a ∈ l, f a = .ok (g a)) :
    l.mapM f = .ok (l.map g) := mapM_ok h

/-- The documents sent left and right. -/
theorem genSplit_eq {X : List (List K)} {nf : Nat} (hX : ∀ r ∈ X, r.length = nf) {f : Nat} (hf : f < nf) (t : K) {docs : Option (List Nat)}
    {D : List Nat} (hD : ∀ d ∈ D, d < X.length) (hdocs : docs = some D ∨ docs = none ∧ D = List.range X.length) :
    genSplit X (f : Int) t docs = .ok (goLeft (leftOf X) f t D, goRight (leftOf X) f t D) := by
  have hget : ∀ d ∈ D, ∃ r x, X[d]? = some r ∧ r[f]? = some x := by
    intro d hd
    have h1 := hD d hd
    have h2 : X[d].length = nf := hX _ (List.getElem_mem h1)
    exact ⟨X[d], X[d][f]'(by omega), by simp, by simp⟩
  let v : Nat → K := fun d => ((X[d]?).bind (·[f]?)).getD 0
  have hv : ∀ d ∈ D, (do let row ← pyGet X (d : Int); pyGet row (f : Int)) = Except.ok (v d) := by
    intro d hd
    obtain ⟨r, x, h1, h2⟩ := hget d hd
    rw [pyGet_ok h1, exOkBind, pyGet_ok h2]
    simp [v, h1, h2]
  have hl : ∀ d ∈ D, leftOf X f t d = decide (v d ≤ t) := by
    intro d hd
    obtain ⟨r, x, h1, h2⟩ := hget d hd
    simp [leftOf, v, h1, h2]
  have hzip : ∀ (p : K → Bool), ((D.zip (D.map v)).filter (fun q => p q.2)).map (·.1) = D.filter (fun d => p (v d)) := by
    intro p
    clear hdocs hl hv hget hD
    induction D with
    | nil => rfl
    | cons d D ih =>
      by_cases hp : p (v d) <;> simp [hp, ih]
  have hm : D.mapM (fun (d : Nat) => (do let row ← pyGet X (d : Int); pyGet row (f : Int) : Except PyErr K)) = .ok (D.map v) := mapM_ok hv
  have key : genSplit X (f : Int) t (some D) = .ok (goLeft (leftOf X) f t D, goRight (leftOf X) f t D) := by
    unfold genSplit
    simp only
    rw [hm, exOkBind, exPure]
    congr 2
    · rw [hzip (fun x => decide (x ≤ t))]
      exact List.filter_congr (fun d hd => (hl d hd).symm)
    · rw [hzip (fun x => decide (x > t))]
      apply List.filter_congr
      intro d hd
      rw [hl d hd]
      by_cases hc : v d ≤ t
      · simp [hc]
      · simp [hc, not_le.1 hc]
  rcases hdocs with rfl | ⟨rfl, rfl⟩
  · exact key
  · exact key

/-- The inner nodes at depth `k` with the documents that reach them. -/
def frontier (left : Nat → K → Nat → Bool) : Nat → Spec.Tree K → List Nat → List (Spec.Tree K × List Nat)
  | _, .leaf _, _ => []
  | 0, .node f t l r, D => [(.node f t l r, D)]
  | k + 1, .node f t l r, D => frontier left k l (goLeft left f t D) ++ frontier left k r (goRight left f t D)

/-- The children of a node that are not leaves. -/
def kids (left : Nat → K → Nat → Bool) : Spec.Tree K × List Nat → List (Spec.Tree K × List Nat)
  | (.leaf _, _) => []
  | (.node f t l r, D) => frontier left 0 l (goLeft left f t D) ++ frontier left 0 r (goRight left f t D)

/-- The split of a node. -/
def splitOf (left : Nat → K → Nat → Bool) : Spec.Tree K × List Nat → List Split
  | (.leaf _, _) => []
  | (.node f t _ _, D) => [⟨f, goLeft left f t D, goRight left f t D⟩]

variable {left : Nat → K → Nat → Bool}

theorem frontier_succ (k : Nat) : ∀ (t : Spec.Tree K) (D : List Nat), frontier left (k + 1) t D = (frontier left k t D).flatMap (kids left) := by
  induction k with
  | zero =>
    intro t D
    cases t with
    | leaf v => rfl
    | node f th l r => simp [frontier, kids]
  | succ k ih =>
    intro t D
    cases t with
    | leaf v => rfl
    | node f th l r =>
      rw [frontier, ih, ih]
      simp [frontier]

theorem frontier_splits (k : Nat) : ∀ (t : Spec.Tree K) (D : List Nat), splitsAt left k t D = (frontier left k t D).flatMap (splitOf left) := by
  induction k with
  | zero =>
    intro t D
    cases t with
    | leaf v => rfl
    | node f th l r => simp [frontier, splitOf, splitsAt]
  | succ k ih =>
    intro t D
    cases t with
    | leaf v => rfl
    | node f th l r =>
      rw [splitsAt, ih, ih]
      simp [frontier]

theorem frontier_high (k : Nat) : ∀ (t : Spec.Tree K) (D : List Nat), t.height ≤ k → frontier left k t D = [] := by
  induction k with
  | zero =>
    intro t D h
    cases t with
    | leaf v => rfl
    | node f th l r => simp [Spec.Tree.height] at h
  | succ k ih =>
    intro t D h
    cases t with
    | leaf v => rfl
    | node f th l r =>
      simp only [Spec.Tree.height] at h
      rw [frontier, ih _ _ (by omega), ih _ _ (by omega)]
      rfl

theorem frontier_docs (k : Nat) : ∀ (t : Spec.Tree K) (D : List Nat), ∀ p ∈ frontier left k t D, ∀ d ∈ p.2, d ∈ D := by
  induction k with
  | zero =>
    intro t D p hp d hd
    cases t with
    | leaf v => simp [frontier] at hp
    | node f th l r =>
      simp only [frontier, List.mem_singleton] at hp
      subst hp
      exact hd
  | succ k ih =>
    intro t D p hp d hd
    cases t with
    | leaf v => simp [frontier] at hp
    | node f th l r =>
      rw [frontier, List.mem_append] at hp
      rcases hp with hp | hp
      · exact List.mem_of_mem_filter (ih _ _ p hp d hd)
      · exact List.mem_of_mem_filter (ih _ _ p hp d hd)

/-- The documents of a node get the predictions of its split. -/
def update (left : Nat → K → Nat → Bool) (y : Nat → K) (p : Nat → K) (q : Nat → K) : Spec.Tree K × List Nat → Nat → K
  | (.leaf _, _), d => q d
  | (.node f t _ _, D), d => if d ∈ D then splitPred y ⟨f, goLeft left f t D, goRight left f t D⟩ p d else q d

theorem update_foldl_of_notMem {y p : Nat → K} : ∀ (F : List (Spec.Tree K × List Nat)) (q : Nat → K) (d : Nat),
    (∀ x ∈ F, d ∉ x.2) → F.foldl (update left y p) q d = q d
  | [], _, _, _ => rfl
  | x :: F, q, d, h => by
    rw [List.foldl_cons, update_foldl_of_notMem F _ d (fun x hx => h x (by simp [hx]))]
    obtain ⟨t, D⟩ := x
    cases t with
    | leaf v => rfl
    | node f th l r => exact if_neg (h _ (List.mem_cons_self ..))

/-- Making all splits of a level leads to the predictions of the tree cut one level deeper. -/
theorem update_level {y p : Nat → K} (k : Nat) : ∀ (t : Spec.Tree K) (D : List Nat) (q : Nat → K),
    (∀ d ∈ D, q d = fitted left y (t.trunc k) D d) →
    ∀ d ∈ D, (frontier left k t D).foldl (update left y p) q d = fitted left y (t.trunc (k + 1)) D d := by
  induction k with
  | zero =>
    intro t D q h d hd
    cases t with
    | leaf v =>
      have := h d hd
      simpa [frontier, Spec.Tree.trunc, fitted] using this
    | node f th l r =>
      simp only [frontier, List.foldl_cons, List.foldl_nil, update, if_pos hd, Spec.Tree.trunc, fitted, splitPred]
      by_cases hl : left f th d = true
      · have : d ∈ goLeft left f th D := List.mem_filter.2 ⟨hd, hl⟩
        simp [hl, this]
      · have h1 : d ∉ goLeft left f th D := fun hm => hl (List.mem_filter.1 hm).2
        have h2 : d ∈ goRight left f th D := List.mem_filter.2 ⟨hd, by simpa using hl⟩
        simp [hl, h1, h2]
  | succ k ih =>
    intro t D q h d hd
    cases t with
    | leaf v =>
      have := h d hd
      simpa [frontier, Spec.Tree.trunc, fitted] using this
    | node f th l r =>
      simp only [frontier, List.foldl_append]
      rw [Spec.Tree.trunc, fitted]
      have hq : ∀ e ∈ D, q e = if left f th e then fitted left y (l.trunc k) (goLeft left f th D) e
          else fitted left y (r.trunc k) (goRight left f th D) e := by
        intro e he
        have := h e he
        simpa [Spec.Tree.trunc, fitted] using this
      by_cases hl : left f th d = true
      · have hm : d ∈ goLeft left f th D := List.mem_filter.2 ⟨hd, hl⟩
        rw [update_foldl_of_notMem, if_pos hl]
        · apply ih _ _ _ _ _ hm
          intro e he
          obtain ⟨he1, he2⟩ := List.mem_filter.1 he
          rw [hq e he1, if_pos he2]
        · intro x hx hdx
          have := (List.mem_filter.1 (frontier_docs k _ _ x hx d hdx)).2
          simp [hl] at this
      · have hm : d ∈ goRight left f th D := List.mem_filter.2 ⟨hd, by simpa using hl⟩
        rw [if_neg hl]
        apply ih _ _ _ _ _ hm
        intro e he
        obtain ⟨he1, he2⟩ := List.mem_filter.1 he
        have he3 : ¬ left f th e = true := by simpa using he2
        rw [update_foldl_of_notMem, hq e he1, if_neg he3]
        intro x hx hdx
        have := (List.mem_filter.1 (frontier_docs k _ _ x hx e hdx)).2
        exact he3 this

theorem fitted_trunc {y : Nat → K} (k : Nat) : ∀ (t : Spec.Tree K) (D : List Nat) (d : Nat), t.height ≤ k →
    fitted left y (t.trunc k) D d = fitted left y t D d := by
  induction k with
  | zero =>
    intro t D d h
    cases t with
    | leaf v => rfl
    | node f th l r => simp [Spec.Tree.height] at h
  | succ k ih =>
    intro t D d h
    cases t with
    | leaf v => rfl
    | node f th l r =>
      simp only [Spec.Tree.height] at h
      rw [Spec.Tree.trunc, fitted, fitted, ih _ _ _ (by omega), ih _ _ _ (by omega)]

/-- The features of the splits, level by level, are the features of the tree. -/
theorem levels_features (h : Nat) : ∀ (t : Spec.Tree K) (D : List Nat), t.height ≤ h →
    ((List.range h).flatMap (fun k => (splitsAt left k t D).map (·.feature))).Perm t.features := by
  induction h with
  | zero =>
    intro t D ht
    cases t with
    | leaf v => simp [Spec.Tree.features]
    | node f th l r => simp [Spec.Tree.height] at ht
  | succ h ih =>
    intro t D ht
    cases t with
    | leaf v => simp [splitsAt, Spec.Tree.features]
    | node f th l r =>
      simp only [Spec.Tree.height] at ht
      rw [List.range_succ_eq_map, List.flatMap_cons, List.flatMap_map, Spec.Tree.features]
      simp only [splitsAt, List.map_cons, List.map_nil, List.singleton_append, List.map_append]
      refine List.Perm.cons _ ?_
      refine (List.flatMap_append_perm _ _ _).symm.trans ?_
      exact (ih l _ (by omega)).append (ih r _ (by omega))

theorem frontier_length (h : Nat) (t : Spec.Tree K) (D : List Nat) (ht : t.height ≤ h) :
    ((List.range h).flatMap (fun k => frontier left k t D)).length = t.features.length := by
  rw [← (levels_features (left := left) h t D ht).length_eq, List.length_flatMap, List.length_flatMap]
  congr 1
  apply List.map_congr_left
  intro k hk
  clear hk
  rw [frontier_splits, List.length_map]
  have : ∀ (F : List (Spec.Tree K × List Nat)), (∀ x ∈ F, x.1.isInner = true) → (F.flatMap (splitOf left)).length = F.length := by
    intro F
    induction F with
    | nil => intro _; rfl
    | cons x F ih =>
      intro hF
      obtain ⟨t, D⟩ := x
      have hx := hF (t, D) (by simp)
      cases t with
      | leaf v => simp [Spec.Tree.isInner] at hx
      | node f th l r => simp [splitOf, ih (fun x hx => hF x (by simp [hx])), Nat.add_comm]
  refine (this _ ?_).symm
  clear ht
  induction k generalizing t D with
  | zero =>
    intro x hx
    cases t with
    | leaf v => simp [frontier] at hx
    | node f th l r =>
      simp only [frontier, List.mem_singleton] at hx
      subst hx
      rfl
  | succ k ih =>
    intro x hx
    cases t with
    | leaf v => simp [frontier] at hx
    | node f th l r =>
      rw [frontier, List.mem_append] at hx
      rcases hx with hx | hx
      · exact ih _ _ x hx
      · exact ih _ _ x hx

/-- Entries of the queue for nodes at depth `k`. -/
def QRel (m : Ensemble K) (n k : Nat) (q : GenNode) (p : Spec.Tree K × List Nat) : Prop :=
  p.1.isInner = true ∧ q.depth = k ∧ (q.docs = some p.2 ∨ q.docs = none ∧ p.2 = List.range n) ∧ ∃ i s, Encodes m i p.1 s ∧ q.id = (i : Int)

/-- The state: predictions by level, and for importances and counts the gains so far. -/
def genStateOf (nf : Nat) (levels : List (List K)) (gs : List (Nat × K)) : GenState K :=
  ⟨levels, view nf (totalOf gs), view nf (fun i => (gs.map (·.1)).count i % 2 ^ 16)⟩

theorem isLeafNode_encodes {m : Ensemble K} {i : Nat} {t : Spec.Tree K} {s : List Nat} (h : Encodes m i t s) :
    isLeafNode m (i : Int) = .ok (!t.isInner) := by
  cases h with
  | leaf hl hr hf hv =>
    unfold isLeafNode
    rw [pyGet_ok hl, exOkBind, if_pos rfl, pyGet_ok hr]
    rfl
  | node hl hr hf hv el er =>
    unfold isLeafNode
    rw [pyGet_ok hl, exOkBind, if_neg (by omega)]
    rfl

theorem genPush_eq {m : Ensemble K} {n i k : Nat} {t : Spec.Tree K} {s : List Nat} (h : Encodes m i t s) (D : List Nat) :
    ∃ Q, genPush m (i : Int) k D = .ok Q ∧ List.Forall₂ (QRel m n k) Q (frontier left 0 t D) := by
  unfold genPush
  rw [isLeafNode_encodes h, exOkBind]
  cases t with
  | leaf v => exact ⟨[], rfl, .nil⟩
  | node f th l r => exact ⟨[⟨i, k, some D⟩], rfl, .cons ⟨rfl, rfl, Or.inl rfl, i, s, h, rfl⟩ .nil⟩

theorem totalOf_append (a b : List (Nat × K)) (f : Nat) : totalOf (a ++ b) f = totalOf a f + totalOf b f := by
  simp [totalOf]

/-- The gain of a node: the metric before minus the metric after its split, with the predictions `p` of its level. -/
def gainOf (M : List K → K) (left : Nat → K → Nat → Bool) (n : Nat) (y P p : Nat → K) (x : Spec.Tree K × List Nat) : List (Nat × K) :=
  (splitOf left x).map (fun s => (s.feature, M (view n (fun d => p d + P d)) - M (view n (fun d => splitPred y s p d + P d))))

/-- One round of the loop. -/
theorem genStep_spec {m : Ensemble K} {X : List (List K)} {nf : Nat} (hX : ∀ r ∈ X, r.length = nf) (M : List K → K) (y P p : Nat → K)
    {q : GenNode} {x : Spec.Tree K × List Nat} {pre rest : List (List K)} (hq : QRel m X.length pre.length q x)
    (hfeat : ∀ f ∈ x.1.features, f < nf) (hD : ∀ d ∈ x.2, d < X.length) (nx : Nat → K)
    (hrest : rest = [] ∧ view X.length nx = view X.length p ∨ rest = [view X.length nx]) (gs : List (Nat × K)) :
    ∃ Q, genStep m X M (view X.length y) (view X.length P) (genStateOf nf (pre ++ view X.length p :: rest) gs) q =
      .ok (genStateOf nf (pre ++ [view X.length p, view X.length (update (leftOf X) y p nx x)]) (gs ++ gainOf M (leftOf X) X.length y P p x), Q) ∧
      List.Forall₂ (QRel m X.length (pre.length + 1)) Q (kids (leftOf X) x) := by
  obtain ⟨hin, hdepth, hdocs, i, s, henc, hid⟩ := hq
  obtain ⟨t, D⟩ := x
  cases henc with
  | leaf hl hr hf hv => simp [Spec.Tree.isInner] at hin
  | @node _ f li ri th tl tr sl sr hl hr hf hv el er =>
    have hfn : f < nf := hfeat f (by simp [Spec.Tree.features])
    obtain ⟨Q1, hQ1, hF1⟩ := genPush_eq (n := X.length) (k := pre.length + 1) (left := leftOf X) el (goLeft (leftOf X) f th D)
    obtain ⟨Q2, hQ2, hF2⟩ := genPush_eq (n := X.length) (k := pre.length + 1) (left := leftOf X) er (goRight (leftOf X) f th D)
    refine ⟨Q1 ++ Q2, ?_, List.rel_append hF1 hF2⟩
    have hL : ∀ d ∈ goLeft (leftOf X) f th D, d < X.length := fun d hd => hD d (List.mem_of_mem_filter hd)
    have hR : ∀ d ∈ goRight (leftOf X) f th D, d < X.length := fun d hd => hD d (List.mem_of_mem_filter hd)
    have hmod1 : (if (goLeft (leftOf X) f th D).length > 0 then
        setDocs (view X.length p) (goLeft (leftOf X) f th D) (meanDocs (view X.length y) (goLeft (leftOf X) f th D)) else view X.length p) =
        view X.length (fun d => if d ∈ goLeft (leftOf X) f th D then mean y (goLeft (leftOf X) f th D) else p d) := by
      split
      · rw [setDocs_view, meanDocs_view y hL]
      · next h0 =>
        have : goLeft (leftOf X) f th D = [] := List.length_eq_zero_iff.1 (by omega)
        rw [this]
        simp
    have hmod2 : (if (goRight (leftOf X) f th D).length > 0 then
        setDocs (view X.length (fun d => if d ∈ goLeft (leftOf X) f th D then mean y (goLeft (leftOf X) f th D) else p d))
          (goRight (leftOf X) f th D) (meanDocs (view X.length y) (goRight (leftOf X) f th D))
        else view X.length (fun d => if d ∈ goLeft (leftOf X) f th D then mean y (goLeft (leftOf X) f th D) else p d)) =
        view X.length (splitPred y ⟨f, goLeft (leftOf X) f th D, goRight (leftOf X) f th D⟩ p) := by
      split
      · rw [setDocs_view, meanDocs_view y hR]
        apply view_congr
        intro d _
        unfold splitPred
        simp only
        by_cases h1 : d ∈ goRight (leftOf X) f th D
        · have h2 : d ∉ goLeft (leftOf X) f th D := by
            intro h2
            have e1 := (List.mem_filter.1 h1).2
            have e2 := (List.mem_filter.1 h2).2
            simp [e2] at e1
          simp [h1, h2]
        · simp [h1]
      · next h0 =>
        have : goRight (leftOf X) f th D = [] := List.length_eq_zero_iff.1 (by omega)
        rw [this]
        apply view_congr
        intro d _
        simp [splitPred]
    have hzw : ∀ g : Nat → K, List.zipWith (· + ·) (view X.length g) (view X.length P) = view X.length (fun d => g d + P d) :=
      fun g => zipWith_range _ _ g P
    have hnext : ∃ next, (if q.depth + 1 > (pre ++ view X.length p :: rest).length - 1 then (pre ++ view X.length p :: rest) ++ [view X.length p]
        else pre ++ view X.length p :: rest) = pre ++ [view X.length p, next] ∧ next = view X.length nx := by
      rw [hdepth]
      rcases hrest with ⟨rfl, hr⟩ | rfl
      · rw [if_pos (by simp)]
        exact ⟨view X.length p, by simp, hr.symm⟩
      · rw [if_neg (by simp)]
        exact ⟨view X.length nx, rfl, rfl⟩
    obtain ⟨next, hlev, hnx⟩ := hnext
    subst hnx
    have hcopy : copyDocs (view X.length nx) (view X.length (splitPred y ⟨f, goLeft (leftOf X) f th D, goRight (leftOf X) f th D⟩ p)) q.docs =
        view X.length (update (leftOf X) y p nx (.node f th tl tr, D)) := by
      rcases hdocs with h | ⟨h, hD'⟩
      · rw [h, copyDocs_view]
        rfl
      · rw [h]
        apply view_congr
        intro d hd
        simp only at hD'
        rw [update, if_pos (by rw [hD']; simpa using hd)]
    have hcnt : incUint16 (view nf (fun i => (gs.map (·.1)).count i % 2 ^ 16)) (f : Int) =
        .ok (view nf (fun i => ((gs ++ gainOf M (leftOf X) X.length y P p (.node f th tl tr, D)).map (·.1)).count i % 2 ^ 16)) := by
      unfold incUint16
      rw [pyGet_ok (view_get _ hfn), exOkBind, pySet_nat _ (by rw [view_length]; exact hfn), view_set]
      congr 1
      apply view_congr
      intro j _
      simp only [gainOf, splitOf, List.map_cons, List.map_nil, List.map_append, List.count_append, List.count_singleton]
      by_cases hj : j = f
      · subst hj
        simp
      · simp [hj, Ne.symm hj]
    have himp : pyAddAt (view nf (totalOf gs)) (f : Int) (M (view X.length (fun d => p d + P d)) -
        M (view X.length (fun d => splitPred y ⟨f, goLeft (leftOf X) f th D, goRight (leftOf X) f th D⟩ p d + P d))) =
        .ok (view nf (totalOf (gs ++ gainOf M (leftOf X) X.length y P p (.node f th tl tr, D)))) := by
      unfold pyAddAt
      rw [pyGet_ok (view_get _ hfn), exOkBind, pySet_nat _ (by rw [view_length]; exact hfn), view_set]
      congr 1
      apply view_congr
      intro j _
      rw [totalOf_append]
      by_cases hj : j = f
      · subst hj
        simp [gainOf, splitOf, totalOf]
      · simp [gainOf, splitOf, totalOf, hj, Ne.symm hj]
    unfold genStep genStateOf
    simp only
    rw [hid, pyGet_ok hf, exOkBind, pyGet_ok hv, exOkBind, hcnt, exOkBind, genSplit_eq hX hfn th hD hdocs, exOkBind]
    simp only
    rw [hdepth] at hlev
    rw [hdepth, pyGet_ok (x := view X.length p) (by simp), exOkBind]
    simp only [hlev, hmod1, hmod2, hzw]
    rw [pyGet_ok (x := view X.length nx) (by simp), exOkBind, pySet_nat _ (by simp), exOkBind, hcopy, himp, exOkBind, pyGet_ok hl, exOkBind,
      hQ1, exOkBind, pyGet_ok hr, exOkBind, hQ2, exOkBind, exPure]
    simp

/-- All rounds of a level. -/
theorem genLevel_spec {m : Ensemble K} {X : List (List K)} {nf : Nat} (hX : ∀ r ∈ X, r.length = nf) (M : List K → K) (y P p : Nat → K)
    {pre : List (List K)} (fuel : Nat) : ∀ (F G : List (Spec.Tree K × List Nat)) (Q N : List GenNode) (nx : Nat → K) (rest : List (List K))
    (gs : List (Nat × K)), List.Forall₂ (QRel m X.length pre.length) Q F → List.Forall₂ (QRel m X.length (pre.length + 1)) N G →
    (∀ x ∈ F, (∀ f ∈ x.1.features, f < nf) ∧ ∀ d ∈ x.2, d < X.length) →
    (rest = [] ∧ view X.length nx = view X.length p ∨ rest = [view X.length nx]) →
    ∃ N' rest', genLoop m X M (view X.length y) (view X.length P) (F.length + fuel) (genStateOf nf (pre ++ view X.length p :: rest) gs) (Q ++ N) =
      genLoop m X M (view X.length y) (view X.length P) fuel (genStateOf nf (pre ++ view X.length p :: rest')
        (gs ++ F.flatMap (gainOf M (leftOf X) X.length y P p))) N' ∧
      List.Forall₂ (QRel m X.length (pre.length + 1)) N' (G ++ F.flatMap (kids (leftOf X))) ∧
      (F = [] ∧ rest' = rest ∨ rest' = [view X.length (F.foldl (update (leftOf X) y p) nx)]) := by
  intro F
  induction F with
  | nil =>
    intro G Q N nx rest gs hQ hN _ _
    cases hQ
    exact ⟨N, rest, by simp, by simpa using hN, Or.inl ⟨rfl, rfl⟩⟩
  | cons x F ih =>
    intro G Q N nx rest gs hQ hN hF hrest
    cases hQ with
    | @cons q _ Q _ hq hQ =>
      obtain ⟨hf, hD⟩ := hF x (by simp)
      obtain ⟨N1, hstep, hN1⟩ := genStep_spec hX M y P p hq hf hD nx hrest gs
      obtain ⟨N', rest', hrun, hN', hr'⟩ := ih (G ++ kids (leftOf X) x) Q (N ++ N1) (update (leftOf X) y p nx x)
        [view X.length (update (leftOf X) y p nx x)] (gs ++ gainOf M (leftOf X) X.length y P p x) hQ (List.rel_append hN hN1)
        (fun x hx => hF x (by simp [hx])) (Or.inr rfl)
      refine ⟨N', rest', ?_, by simpa using hN', ?_⟩
      · rw [List.length_cons, show F.length + 1 + fuel = (F.length + fuel) + 1 by omega, List.cons_append, genLoop, hstep, exOkBind]
        simp only
        rw [List.append_assoc, hrun]
        simp
      · refine Or.inr ?_
        rcases hr' with ⟨h1, h2⟩ | h
        · rw [h2, h1]
          rfl
        · rw [h]
          rfl

theorem frontier_features (k : Nat) : ∀ (t : Spec.Tree K) (D : List Nat), ∀ p ∈ frontier left k t D, ∀ f ∈ p.1.features, f ∈ t.features := by
  induction k with
  | zero =>
    intro t D p hp d hd
    cases t with
    | leaf v => simp [frontier] at hp
    | node f th l r =>
      simp only [frontier, List.mem_singleton] at hp
      subst hp
      exact hd
  | succ k ih =>
    intro t D p hp d hd
    cases t with
    | leaf v => simp [frontier] at hp
    | node f th l r =>
      rw [frontier, List.mem_append] at hp
      rcases hp with hp | hp
      · simp [Spec.Tree.features, ih _ _ p hp d hd]
      · simp [Spec.Tree.features, ih _ _ p hp d hd]

theorem levelGains_eq (M : List K → K) (n : Nat) (y P : Nat → K) (t : Spec.Tree K) (k : Nat) :
    levelGains M left n y P t k = (frontier left k t (List.range n)).flatMap (gainOf M left n y P (fitted left y (t.trunc k) (List.range n))) := by
  unfold levelGains
  rw [frontier_splits, List.map_flatMap]
  rfl

/-- The loop from level `k` on. -/
theorem genLoop_spec {m : Ensemble K} {X : List (List K)} {nf : Nat} (hX : ∀ r ∈ X, r.length = nf) (M : List K → K) (y P : Nat → K)
    {t : Spec.Tree K} (hfeat : ∀ f ∈ t.features, f < nf) : ∀ (j : Nat) (pre : List (List K)) (Q : List GenNode) (gs : List (Nat × K)) (fuel : Nat),
    t.height = pre.length + j → List.Forall₂ (QRel m X.length pre.length) Q (frontier (leftOf X) pre.length t (List.range X.length)) →
    ((List.range' pre.length j).flatMap (fun k => frontier (leftOf X) k t (List.range X.length))).length ≤ fuel →
    ∃ pre', genLoop m X M (view X.length y) (view X.length P) fuel
      (genStateOf nf (pre ++ [view X.length (fitted (leftOf X) y (t.trunc pre.length) (List.range X.length))]) gs) Q =
      .ok (genStateOf nf (pre' ++ [view X.length (fitted (leftOf X) y t (List.range X.length))])
        (gs ++ (List.range' pre.length j).flatMap (levelGains M (leftOf X) X.length y P t))) := by
  intro j
  induction j with
  | zero =>
    intro pre Q gs fuel hh hQ _
    rw [frontier_high _ _ _ (by omega)] at hQ
    cases hQ
    refine ⟨pre, ?_⟩
    have : genLoop m X M (view X.length y) (view X.length P) fuel
      (genStateOf nf (pre ++ [view X.length (fitted (leftOf X) y (t.trunc pre.length) (List.range X.length))]) gs) [] =
      .ok (genStateOf nf (pre ++ [view X.length (fitted (leftOf X) y (t.trunc pre.length) (List.range X.length))]) gs) := by
      cases fuel <;> rfl
    rw [this]
    simp only [List.range'_zero, List.flatMap_nil, List.append_nil]
    rw [view_congr (fun d _ => fitted_trunc pre.length t (List.range X.length) d (by omega))]
  | succ j ih =>
    intro pre Q gs fuel hh hQ hfuel
    rw [List.range'_succ, List.flatMap_cons, List.length_append] at hfuel
    obtain ⟨fuel', rfl⟩ : ∃ fuel', fuel = (frontier (leftOf X) pre.length t (List.range X.length)).length + fuel' := ⟨_, (Nat.add_sub_cancel' (by omega)).symm⟩
    obtain ⟨N', rest', hrun, hN', hrest'⟩ := genLevel_spec hX M y P (fitted (leftOf X) y (t.trunc pre.length) (List.range X.length)) fuel'
      (frontier (leftOf X) pre.length t (List.range X.length)) [] Q [] (fitted (leftOf X) y (t.trunc pre.length) (List.range X.length)) [] gs hQ .nil
      (fun x hx => ⟨fun f hf => hfeat f (frontier_features _ _ _ x hx f hf), fun d hd => List.mem_range.1 (frontier_docs _ _ _ x hx d hd)⟩)
      (Or.inl ⟨rfl, rfl⟩)
    rw [List.append_nil] at hrun
    rw [hrun]
    have hne : frontier (leftOf X) pre.length t (List.range X.length) ≠ [] := by
      have : ∀ (k : Nat) (t : Spec.Tree K) (D : List Nat), k < t.height → frontier (leftOf X) k t D ≠ [] := by
        intro k
        induction k with
        | zero =>
          intro t D h
          cases t with
          | leaf v => simp [Spec.Tree.height] at h
          | node f th l r => simp [frontier]
        | succ k ih =>
          intro t D h
          cases t with
          | leaf v => simp [Spec.Tree.height] at h
          | node f th l r =>
            simp only [Spec.Tree.height] at h
            rw [frontier]
            rcases (by omega : k < l.height ∨ k < r.height) with h | h
            · exact fun e => ih l _ h (List.append_eq_nil_iff.1 e).1
            · exact fun e => ih r _ h (List.append_eq_nil_iff.1 e).2
      exact this _ _ _ (by omega)
    rcases hrest' with ⟨h, _⟩ | rfl
    · exact absurd h hne
    · have hlev : view X.length ((frontier (leftOf X) pre.length t (List.range X.length)).foldl
          (update (leftOf X) y (fitted (leftOf X) y (t.trunc pre.length) (List.range X.length)))
          (fitted (leftOf X) y (t.trunc pre.length) (List.range X.length))) =
          view X.length (fitted (leftOf X) y (t.trunc (pre.length + 1)) (List.range X.length)) :=
        view_congr (fun d hd => update_level _ _ _ _ (fun d _ => rfl) d (List.mem_range.2 hd))
      rw [hlev]
      have hlen : (pre ++ [view X.length (fitted (leftOf X) y (t.trunc pre.length) (List.range X.length))]).length = pre.length + 1 := by simp
      have := ih (pre ++ [view X.length (fitted (leftOf X) y (t.trunc pre.length) (List.range X.length))]) N'
        (gs ++ levelGains M (leftOf X) X.length y P t pre.length) fuel'
      rw [hlen] at this
      obtain ⟨pre', hp'⟩ := this (by omega) (by simpa [frontier_succ] using hN') (by omega)
      refine ⟨pre', ?_⟩
      rw [levelGains_eq] at hp'
      rw [List.append_assoc, List.singleton_append] at hp'
      rw [hp', List.range'_succ, List.flatMap_cons, levelGains_eq, List.append_assoc]

/-- One tree. -/
theorem genTree_spec {m : Ensemble K} {fo : Forest K} (hr : Represents m fo) {X : List (List K)} {nf : Nat} (hX : ∀ r ∈ X, r.length = nf)
    {k : Nat} {t : Spec.Tree K} {w : K} (hk : fo[k]? = some (t, w)) (hin : t.isInner = true) (hfeat : ∀ f ∈ t.features, f < nf)
    (M : List K → K) (lab P : Nat → K) (gs : List (Nat × K)) :
    genTree m X (view X.length lab) M ⟨view X.length P, view nf (totalOf gs), view nf (fun i => (gs.map (·.1)).count i % 2 ^ 16)⟩ k =
      .ok ⟨view X.length (fun d => P d + fitted (leftOf X) (fun d => lab d - P d) t (List.range X.length) d * w),
        view nf (totalOf (gs ++ treeGains M (leftOf X) X.length (fun d => lab d - P d) P t)),
        view nf (fun i => ((gs ++ treeGains M (leftOf X) X.length (fun d => lab d - P d) P t).map (·.1)).count i % 2 ^ 16)⟩ := by
  obtain ⟨s, henc, hperm⟩ := hr.trees k t w hk
  have hy : List.zipWith (· - ·) (view X.length lab) (view X.length P) = view X.length (fun d => lab d - P d) := zipWith_range _ _ lab P
  have hmean : List.replicate X.length ((view X.length (fun d => lab d - P d)).sum / ((view X.length (fun d => lab d - P d)).length : K)) =
      view X.length (fitted (leftOf X) (fun d => lab d - P d) (t.trunc 0) (List.range X.length)) := by
    rw [← map_const_range]
    apply view_congr
    intro d _
    simp [Spec.Tree.trunc, fitted, mean, view]
  have hQ : List.Forall₂ (QRel m X.length 0) [⟨(treeStart fo k : Int), 0, none⟩] (frontier (leftOf X) 0 t (List.range X.length)) := by
    cases t with
    | leaf v => simp [Spec.Tree.isInner] at hin
    | node f th l r => exact .cons ⟨rfl, rfl, Or.inr ⟨rfl, rfl⟩, _, s, henc, rfl⟩ .nil
  have hle : t.features.length ≤ t.numNodes := by
    clear hk hin hfeat henc hperm hmean hQ
    induction t with
    | leaf v => simp [Spec.Tree.features, Spec.Tree.numNodes]
    | node f th l r ihl ihr =>
      simp only [Spec.Tree.features, Spec.Tree.numNodes, List.length_cons, List.length_append]
      omega
  have hnn : t.numNodes ≤ m.left.length := by
    have := hr.numNodes_le hk
    have := hr.left_len
    omega
  obtain ⟨pre', hrun⟩ := genLoop_spec (m := m) hX M (fun d => lab d - P d) P hfeat t.height [] [⟨(treeStart fo k : Int), 0, none⟩] gs (m.left.length + 1)
    (by simp) hQ (by
      have := frontier_length (left := leftOf X) t.height t (List.range X.length) le_rfl
      rw [List.length_nil, ← List.range_eq_range']
      omega)
  unfold genTree
  simp only
  rw [hy, hmean, pyGet_ok (hr.root_get hk), exOkBind]
  rw [List.length_nil, List.nil_append] at hrun
  rw [show (⟨[view X.length (fitted (leftOf X) (fun d => lab d - P d) (t.trunc 0) (List.range X.length))], view nf (totalOf gs),
    view nf (fun i => (gs.map (·.1)).count i % 2 ^ 16)⟩ : GenState K) =
    genStateOf nf [view X.length (fitted (leftOf X) (fun d => lab d - P d) (t.trunc 0) (List.range X.length))] gs from rfl, hrun, exOkBind]
  have hlast : pyGet (genStateOf nf (pre' ++ [view X.length (fitted (leftOf X) (fun d => lab d - P d) t (List.range X.length))])
      (gs ++ (List.range' 0 t.height).flatMap (levelGains M (leftOf X) X.length (fun d => lab d - P d) P t))).levels (-1) =
      .ok (view X.length (fitted (leftOf X) (fun d => lab d - P d) t (List.range X.length))) := by
    unfold pyGet genStateOf
    simp
  rw [hlast, exOkBind, pyGet_ok (hr.weight_get hk), exOkBind, exPure]
  have hz : List.zipWith (fun p q => p + q * w) (view X.length P) (view X.length (fitted (leftOf X) (fun d => lab d - P d) t (List.range X.length))) =
      view X.length (fun d => P d + fitted (leftOf X) (fun d => lab d - P d) t (List.range X.length) d * w) := zipWith_range _ _ P _
  rw [hz]
  simp only [genStateOf, treeGains, List.range_eq_range']

/-- All trees. -/
theorem genForest_spec {m : Ensemble K} {fo : Forest K} (hr : Represents m fo) {X : List (List K)} {nf : Nat} (hX : ∀ r ∈ X, r.length = nf)
    (M : List K → K) (lab : Nat → K) : ∀ (rest : Forest K) (k : Nat) (P : Nat → K) (gs : List (Nat × K)), fo.drop k = rest →
    (∀ p ∈ rest, p.1.isInner = true ∧ ∀ f ∈ p.1.features, f < nf) →
    ∃ P', (List.range' k rest.length).foldlM (genTree m X (view X.length lab) M)
      ⟨view X.length P, view nf (totalOf gs), view nf (fun i => (gs.map (·.1)).count i % 2 ^ 16)⟩ =
      Except.ok ⟨P', view nf (totalOf (gs ++ forestMetricGains M (leftOf X) X.length lab rest P)),
        view nf (fun i => ((gs ++ forestMetricGains M (leftOf X) X.length lab rest P).map (·.1)).count i % 2 ^ 16)⟩
  | [], k, P, gs, _, _ => ⟨view X.length P, by simp [forestMetricGains, pure, Except.pure]⟩
  | (t, w) :: rest, k, P, gs, hd, h => by
    have hk : fo[k]? = some (t, w) := by
      have := congrArg (·[0]?) hd
      simpa using this
    have hd' : fo.drop (k + 1) = rest := by
      rw [← List.drop_drop, hd]
      rfl
    obtain ⟨h1, h2⟩ := h (t, w) (by simp)
    obtain ⟨P', hP'⟩ := genForest_spec hr hX M lab rest (k + 1)
      (fun d => P d + fitted (leftOf X) (fun d => lab d - P d) t (List.range X.length) d * w)
      (gs ++ treeGains M (leftOf X) X.length (fun d => lab d - P d) P t) hd' (fun p hp => h p (by simp [hp]))
    refine ⟨P', ?_⟩
    rw [List.length_cons, List.range'_succ, List.foldlM_cons, genTree_spec hr hX hk h1 h2, exOkBind, hP']
    simp [forestMetricGains]

theorem genImportance_spec {m : Ensemble K} {fo : Forest K} (hr : Represents m fo) {X : List (List K)} {nf : Nat} (hX : ∀ r ∈ X, r.length = nf)
    (M : List K → K) (lab : Nat → K) (h : ∀ p ∈ fo, p.1.isInner = true ∧ ∀ f ∈ p.1.features, f < nf) :
    genImportance m X nf (view X.length lab) M =
      .ok (view nf (totalOf (forestMetricGains M (leftOf X) X.length lab fo (fun _ => 0))),
        view nf (fun i => ((forestMetricGains M (leftOf X) X.length lab fo (fun _ => 0)).map (·.1)).count i % 2 ^ 16)) := by
  obtain ⟨P', hP'⟩ := genForest_spec hr hX M lab fo 0 (fun _ => 0) [] rfl h
  unfold genImportance
  rw [hr.nTrees, List.range_eq_range']
  have e1 : (view nf (totalOf ([] : List (Nat × K)))) = List.replicate nf 0 := by
    rw [← map_const_range]
    rfl
  have e2 : view nf (fun i => (([] : List (Nat × K)).map (·.1)).count i % 2 ^ 16) = List.replicate nf 0 := by
    rw [← map_const_range]
    apply view_congr
    simp
  have e3 : view X.length (fun _ => (0 : K)) = List.replicate X.length 0 := map_const_range _ _
  rw [e1, e2, e3] at hP'
  rw [hP', exOkBind, exPure]
  simp

/-- The features of the gains are the features of the nodes of the trees. -/
theorem forestMetricGains_features (M : List K → K) (n : Nat) (lab : Nat → K) : ∀ (fo : Forest K) (P : Nat → K),
    ((forestMetricGains M left n lab fo P).map (·.1)).Perm (fo.flatMap (·.1.features))
  | [], _ => by simp [forestMetricGains]
  | (t, w) :: fo, P => by
    rw [forestMetricGains, List.map_append, List.flatMap_cons]
    refine List.Perm.append ?_ (forestMetricGains_features M n lab fo _)
    have := levels_features (left := left) t.height t (List.range n) le_rfl
    refine List.Perm.trans (List.Perm.of_eq ?_) this
    unfold treeGains
    rw [List.map_flatMap]
    apply List.flatMap_congr
    intro k _
    simp [levelGains]

end Verif
