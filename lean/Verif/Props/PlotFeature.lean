/-
C76: the plot of feature importances.
-/
import Verif.Model.Plots
import Mathlib.Data.Rat.Floor
import Mathlib.Tactic.Linarith
import Mathlib.Tactic.FieldSimp
import Mathlib.Tactic.Push
import Mathlib.Algebra.Order.Field.Rat

namespace Verif.Props
open Plots

/-- `sort` gives the indices of a list in the order of its elements. Equal elements may be in any order. -/
def IsArgsort {A : Type} [LE A] (sort : List A → List Nat) : Prop :=
  ∀ n (x : Nat → A), (sort ((List.range n).map x)).Perm (List.range n) ∧ (sort ((List.range n).map x)).Pairwise (fun i j => x i ≤ x j)

/-- `top` are the `k` best of `n` features, the best first. -/
structure TopK {A : Type} [LE A] (x : Nat → A) (n k : Nat) (top : List Nat) : Prop where
  length : top.length = k
  nodup : top.Nodup
  bounds : ∀ f ∈ top, f < n
  sorted : top.Pairwise (fun f g => x g ≤ x f)
  best : ∀ f ∈ top, ∀ g < n, g ∉ top → x g ≤ x f

theorem topK_take {A : Type} [LinearOrder A] {sort : List A → List Nat} (hs : IsArgsort sort) (x : Nat → A) {n k : Nat} (hk : k ≤ n) :
    TopK x n k ((sort ((List.range n).map x)).reverse.take k) := by
  obtain ⟨hp, hsort⟩ := hs n x
  obtain ⟨l, hl⟩ : ∃ l, (sort ((List.range n).map x)).reverse = l := ⟨_, rfl⟩
  have hperm : l.Perm (List.range n) := by rw [← hl]; exact (List.reverse_perm _).trans hp
  have hpair : l.Pairwise (fun f g => x g ≤ x f) := by rw [← hl]; exact List.pairwise_reverse.2 hsort
  rw [hl]
  have hlen : l.length = n := by rw [hperm.length_eq, List.length_range]
  refine ⟨by rw [List.length_take, hlen]; omega, ((hperm.nodup_iff.2 List.nodup_range).sublist (List.take_sublist _ _)), ?_,
    hpair.sublist (List.take_sublist _ _), ?_⟩
  · intro f hf
    exact List.mem_range.1 (hperm.mem_iff.1 (List.mem_of_mem_take hf))
  · intro f hf g hg hgt
    have hgl : g ∈ l := hperm.mem_iff.2 (List.mem_range.2 hg)
    rw [← List.take_append_drop k l] at hgl hpair
    rcases List.mem_append.1 hgl with h | h
    · exact absurd h hgt
    · exact (List.pairwise_append.1 hpair).2.2 f hf g h

theorem pick_ok {A : Type} (x : Nat → A) (n : Nat) : ∀ (top : List Nat), (∀ f ∈ top, f < n) → pick ((List.range n).map x) top = .ok (top.map x)
  | [], _ => rfl
  | f :: top, h => by
    have ih := pick_ok x n top (fun g hg => h g (by simp [hg]))
    unfold pick at ih ⊢
    rw [List.mapM_cons, ih, List.getElem?_map, List.getElem?_range (h f (by simp))]
    rfl

theorem broadcast_same {A B : Type} {a : List A} {b : List B} (h : a.length = b.length) : broadcast a b = .ok (a.zip b) := by
  unfold broadcast
  rw [if_pos h]

theorem foldl_max {K : Type} [LinearOrder K] : ∀ (l : List K) (a : K), (∀ y ∈ a :: l, y ≤ l.foldl max a) ∧ l.foldl max a ∈ a :: l
  | [], a => by simp
  | b :: l, a => by
    obtain ⟨h1, h2⟩ := foldl_max l (max a b)
    rw [List.foldl_cons]
    constructor
    · intro y hy
      have hm := h1 (max a b) (by simp)
      rcases List.mem_cons.1 hy with rfl | hy
      · exact (le_max_left _ _).trans hm
      rcases List.mem_cons.1 hy with rfl | hy
      · exact (le_max_right _ _).trans hm
      · exact h1 y (by simp [hy])
    · rcases List.mem_cons.1 h2 with h | h
      · rw [h]
        rcases max_choice a b with e | e <;> rw [e] <;> simp
      · simp [h]

section
variable {K : Type} [Field K] [LinearOrder K] [FloorRing K]
variable {sort : List K → List Nat} {sortN : List Nat → List Nat}

/-- What the plot shows: for each place the importance, the count and the label of the same feature. -/
def ShowsFeatures (imp : Nat → K) (cnt : Nat → Nat) (labels : List Nat → TickLabels) (top : List Nat) (p : FeaturePlot K) : Prop :=
  p.gains = (List.range top.length).zip (top.map imp) ∧ p.counts = (List.range top.length).zip (top.map cnt) ∧ p.labels = labels top ∧
    ∃ f ∈ top, (∀ g ∈ top, imp g ≤ imp f) ∧ p.step = ((⌈imp f * 10⌉ : Int) : K) / 100

theorem plot_shown (imp : Nat → K) (cnt : Nat → Nat) (names : Option (Nat → String)) {n : Nat} {top : List Nat} (hne : top ≠ [])
    (hb : ∀ f ∈ top, f < n) :
    ∃ p, featureBars ((List.range n).map imp) ((List.range n).map cnt) (names.map (fun nm => (List.range n).map nm)) top top.length = .ok p ∧
      ShowsFeatures imp cnt (fun top => names.elim (.indices (top.map (· + 1))) (fun nm => .names (top.map nm))) top p := by
  obtain ⟨f0, rest, rfl⟩ := List.exists_cons_of_ne_nil hne
  obtain ⟨h1, h2⟩ := foldl_max (rest.map imp) (imp f0)
  have hmem : ∃ f ∈ f0 :: rest, imp f = (rest.map imp).foldl max (imp f0) := by
    rw [← List.map_cons] at h2
    exact List.mem_map.1 h2
  obtain ⟨f, hf, hfe⟩ := hmem
  refine ⟨⟨(List.range (f0 :: rest).length).zip ((f0 :: rest).map imp), (List.range (f0 :: rest).length).zip ((f0 :: rest).map cnt),
    names.elim (.indices ((f0 :: rest).map (· + 1))) (fun nm => .names ((f0 :: rest).map nm)),
    ((⌈(rest.map imp).foldl max (imp f0) * 10⌉ : Int) : K) / 100⟩, ?_, rfl, rfl, rfl, f, hf, ?_, ?_⟩
  · have hl : featureLabels (f0 :: rest) (names.map (fun nm => (List.range n).map nm)) =
        .ok (names.elim (.indices ((f0 :: rest).map (· + 1))) (fun nm => .names ((f0 :: rest).map nm))) := by
      cases names with
      | none => rfl
      | some nm =>
        show (pick ((List.range n).map nm) (f0 :: rest) >>= fun l => pure (TickLabels.names l)) = _
        rw [pick_ok nm n _ hb]
        rfl
    unfold featureBars
    rw [pick_ok imp n _ hb, pick_ok cnt n _ hb, hl]
    show (broadcast _ _ >>= fun gains => broadcast _ _ >>= fun counts => _) = _
    rw [broadcast_same (by simp), broadcast_same (by simp)]
    rfl
  · intro g hg
    rw [hfe]
    exact h1 _ (by rw [← List.map_cons]; exact List.mem_map_of_mem hg)
  · rw [hfe]

theorem sliceTo_nat {A : Type} (l : List A) (k : Nat) : sliceTo l k = l.take k := by
  unfold sliceTo
  rw [if_pos (by omega)]
  simp

/-- C76: with at least as many features as places, the plot shows the best features by importance, each with its importance, count and label.
Missing: fewer features (`C76_violated_few`, `C76_violated_one`). -/
theorem C76_gain_partial (hs : IsArgsort sort) (imp : Nat → K) (cnt : Nat → Nat) (names : Option (Nat → String)) {n k : Nat} (hk : 1 ≤ k) (hn : k ≤ n) :
    ∃ top p, TopK imp n k top ∧ plotFeatureImportance sort sortN ((List.range n).map imp) ((List.range n).map cnt) (some k) .gain
        (names.map (fun nm => (List.range n).map nm)) = .ok p ∧
      ShowsFeatures imp cnt (fun top => names.elim (.indices (top.map (· + 1))) (fun nm => .names (top.map nm))) top p := by
  have ht := topK_take hs imp hn
  obtain ⟨p, h1, h2⟩ := plot_shown imp cnt names (n := n) (by rw [← List.length_pos_iff, ht.length]; omega) ht.bounds
  refine ⟨_, p, ht, ?_, h2⟩
  rw [ht.length] at h1
  rw [← h1]
  show featureBars _ _ _ (sliceTo _ (k : Int)) _ = _
  rw [sliceTo_nat]
  rfl

/-- C76: the same for counts. -/
theorem C76_count_partial (hs : IsArgsort sortN) (imp : Nat → K) (cnt : Nat → Nat) (names : Option (Nat → String)) {n k : Nat} (hk : 1 ≤ k) (hn : k ≤ n) :
    ∃ top p, TopK cnt n k top ∧ plotFeatureImportance sort sortN ((List.range n).map imp) ((List.range n).map cnt) (some k) .count
        (names.map (fun nm => (List.range n).map nm)) = .ok p ∧
      ShowsFeatures imp cnt (fun top => names.elim (.indices (top.map (· + 1))) (fun nm => .names (top.map nm))) top p := by
  have ht := topK_take hs cnt hn
  obtain ⟨p, h1, h2⟩ := plot_shown imp cnt names (n := n) (by rw [← List.length_pos_iff, ht.length]; omega) ht.bounds
  refine ⟨_, p, ht, ?_, h2⟩
  rw [ht.length] at h1
  rw [← h1]
  show featureBars _ _ _ (sliceTo _ (k : Int)) _ = _
  rw [sliceTo_nat]
  rfl

/-- C76: without a maximum all features are shown. -/
theorem C76_all (hs : IsArgsort sort) (imp : Nat → K) (cnt : Nat → Nat) (names : Option (Nat → String)) {n : Nat} (hn : 1 ≤ n) :
    ∃ top p, TopK imp n n top ∧ plotFeatureImportance sort sortN ((List.range n).map imp) ((List.range n).map cnt) none .gain
        (names.map (fun nm => (List.range n).map nm)) = .ok p ∧
      ShowsFeatures imp cnt (fun top => names.elim (.indices (top.map (· + 1))) (fun nm => .names (top.map nm))) top p := by
  have ht := topK_take hs imp (le_refl n)
  obtain ⟨p, h1, h2⟩ := plot_shown imp cnt names (n := n) (by rw [← List.length_pos_iff, ht.length]; omega) ht.bounds
  refine ⟨_, p, ht, ?_, h2⟩
  rw [ht.length] at h1
  rw [← h1]
  show featureBars _ _ _ (sort _).reverse ((List.range n).map imp).length = _
  rw [List.take_of_length_le (by rw [List.length_reverse, (hs n imp).1.length_eq, List.length_range]), List.length_map, List.length_range]

theorem order_length (hs : IsArgsort sort) (imp : Nat → K) (n : Nat) : (sort ((List.range n).map imp)).reverse.length = n := by
  rw [List.length_reverse, (hs n imp).1.length_eq, List.length_range]

/-- C76 is violated: with more places than features (10 by default) there is no plot. -/
theorem C76_violated_few (hs : IsArgsort sort) (imp : Nat → K) (cnt : Nat → Nat) (names : Option (List String)) {n k : Nat} (h2 : 2 ≤ n) (hn : n < k) :
    plotFeatureImportance sort sortN ((List.range n).map imp) ((List.range n).map cnt) (some k) .gain names = .error .valueError := by
  show featureBars _ _ _ (sliceTo (sort _).reverse (k : Int)) k = _
  have hl := order_length hs imp n
  rw [sliceTo_nat, List.take_of_length_le (by omega)]
  have hb : ∀ f ∈ (sort ((List.range n).map imp)).reverse, f < n := by
    intro f hf
    rw [List.mem_reverse] at hf
    exact List.mem_range.1 ((hs n imp).1.mem_iff.1 hf)
  unfold featureBars
  rw [pick_ok imp n _ hb, pick_ok cnt n _ hb]
  obtain ⟨top, ht⟩ : ∃ top, (sort ((List.range n).map imp)).reverse = top := ⟨_, rfl⟩
  rw [ht] at hl ⊢
  have : broadcast (List.range k) (top.map imp) = .error .valueError := by
    unfold broadcast
    rw [if_neg (by rw [List.length_range, List.length_map]; omega)]
    match top, hl, k, hn with
    | [], h, _, _ => rw [List.length_nil] at h; omega
    | [_], h, _, _ => rw [List.length_singleton] at h; omega
    | a :: b :: l, _, k, hk =>
      match hr : List.range k with
      | [] => rfl
      | [x] =>
        have := congrArg List.length hr
        rw [List.length_range, List.length_singleton] at this
        omega
      | x :: y :: r => rfl
  show (broadcast _ _ >>= _) = _
  rw [this]
  rfl

/-- C76: an order other than by gain or count is refused. -/
theorem C76_order (imp : List K) (cnt : List Nat) (k : Option Int) (names : Option (List String)) :
    plotFeatureImportance sort sortN imp cnt k .other names = .error .runtimeError := rfl

/-- C76: a negative number of places, which a slice takes as "all but the last", gives no plot, if at least two features are left. -/
theorem C76_negative (hs : IsArgsort sort) (imp : Nat → K) (cnt : Nat → Nat) (names : Option (List String)) {n j : Nat} (hj : 1 ≤ j) (hn : j + 2 ≤ n) :
    plotFeatureImportance sort sortN ((List.range n).map imp) ((List.range n).map cnt) (some (-(j : Int))) .gain names = .error .valueError := by
  show featureBars _ _ _ (sliceTo (sort _).reverse (-(j : Int))) (-(j : Int)).toNat = _
  have hl := order_length hs imp n
  have hsl : sliceTo (sort ((List.range n).map imp)).reverse (-(j : Int)) = (sort ((List.range n).map imp)).reverse.take (n - j) := by
    unfold sliceTo
    rw [if_neg (by omega), hl]
    simp
  have hlen : ((sort ((List.range n).map imp)).reverse.take (n - j)).length = n - j := by
    rw [List.length_take, hl]
    omega
  have hb : ∀ f ∈ (sort ((List.range n).map imp)).reverse.take (n - j), f < n := by
    intro f hf
    have hf := List.mem_of_mem_take hf
    rw [List.mem_reverse] at hf
    exact List.mem_range.1 ((hs n imp).1.mem_iff.1 hf)
  rw [hsl, show (-(j : Int)).toNat = 0 by omega]
  unfold featureBars
  rw [pick_ok imp n _ hb, pick_ok cnt n _ hb]
  obtain ⟨top, ht⟩ : ∃ top, (sort ((List.range n).map imp)).reverse.take (n - j) = top := ⟨_, rfl⟩
  rw [ht] at hlen ⊢
  match top, hlen with
  | [], h => rw [List.length_nil] at h; omega
  | [_], h => rw [List.length_singleton] at h; omega
  | a :: b :: l, _ => rfl

/-- C76 is violated: a single feature is shown at all places, with one label. -/
theorem C76_violated_one (hs : IsArgsort sort) (imp : Nat → K) (cnt : Nat → Nat) {k : Nat} (hk : 2 ≤ k) :
    plotFeatureImportance sort sortN [imp 0] [cnt 0] (some k) .gain none =
      .ok ⟨(List.range k).map (fun i => (i, imp 0)), (List.range k).map (fun i => (i, cnt 0)), .indices [1], ((⌈imp 0 * 10⌉ : Int) : K) / 100⟩ := by
  have h1 : sort [imp 0] = [0] := by
    have := (hs 1 imp).1
    exact List.perm_singleton.1 this
  show featureBars _ _ _ (sliceTo (sort [imp 0]).reverse (k : Int)) k = _
  rw [sliceTo_nat, h1]
  rw [List.take_of_length_le (by simp; omega)]
  have hb : ∀ {A : Type} (y : A), broadcast (List.range k) [y] = .ok ((List.range k).map (fun x => (x, y))) := by
    intro A y
    unfold broadcast
    rw [if_neg (by rw [List.length_range, List.length_singleton]; omega)]
    match k, hk with
    | k + 2, _ =>
      match hr : List.range (k + 2) with
      | [] => rfl
      | [x] =>
        have := congrArg List.length hr
        rw [List.length_range, List.length_singleton] at this
        omega
      | x :: y :: r => rfl
  show (broadcast _ [imp 0] >>= fun gains => broadcast _ [cnt 0] >>= fun counts => _) = _
  rw [hb, hb]
  rfl

end

section
variable {K : Type} [Field K] [LinearOrder K] [IsStrictOrderedRing K] [FloorRing K]

/-- C76: the ticks of `align_y_axis` begin at the lower end, their distance is a multiple of the step, and the last one is at or above the upper
end by less than one step for each. Missing: steps that are not positive (`C76_violated_step`). -/
theorem C76_ticks_partial {lo hi minres : K} (hlo : lo ≤ hi) (hm : 0 < minres) {n : Nat} (hn : 2 ≤ n) :
    ∃ q : Nat, alignTicks lo hi minres n = some ((List.range n).map (fun i : Nat => lo + i * (minres * q))) ∧
      hi ≤ lo + (n - 1) * (minres * q) ∧ lo + (n - 1) * (minres * q) < hi + (n - 1) * minres := by
  have hn1 : (0 : K) < (n : K) - 1 := by
    have : (2 : K) ≤ n := by exact_mod_cast hn
    linarith
  obtain ⟨f, hf⟩ : ∃ f, minres * ((n : K) - 1) = f := ⟨_, rfl⟩
  have hfpos : 0 < f := hf ▸ mul_pos hm hn1
  obtain ⟨x, hx⟩ : ∃ x, hi - lo = x := ⟨_, rfl⟩
  have hx0 : 0 ≤ x := by rw [← hx]; linarith
  have hfl := Int.floor_le (x / f)
  have hlt := Int.lt_floor_add_one (x / f)
  have hq0 : 0 ≤ ⌊x / f⌋ := Int.floor_nonneg.2 (div_nonneg hx0 hfpos.le)
  obtain ⟨q, hq⟩ := Int.eq_ofNat_of_zero_le hq0
  rw [hq] at hfl hlt
  have hfl' : f * (q : K) ≤ x := by
    rw [le_div_iff₀ hfpos] at hfl
    push_cast at hfl
    linarith
  have hlt' : x < f * ((q : K) + 1) := by
    rw [div_lt_iff₀ hfpos] at hlt
    push_cast at hlt
    linarith
  obtain ⟨q', d, hd, hsum⟩ : ∃ (q' : Nat) (d : K), (pyMod x f).bind (fun r => pyMod (f - r) f) = some d ∧ x + d = f * q' ∧ 0 ≤ d ∧ d < f := by
    have e1 : pyMod x f = some (x - f * q) := by
      unfold pyMod
      rw [if_neg hfpos.ne', hq]
      simp
    rw [e1, Option.bind_some]
    by_cases hr : x - f * q = 0
    · refine ⟨q, 0, ?_, by linarith, le_refl _, hfpos⟩
      unfold pyMod
      rw [if_neg hfpos.ne', hr, sub_zero, div_self hfpos.ne', Int.floor_one]
      simp
    · have hrpos : 0 < x - f * q := lt_of_le_of_ne (by linarith) (Ne.symm hr)
      refine ⟨q + 1, f - (x - f * q), ?_, by push_cast; ring, by nlinarith, by linarith⟩
      unfold pyMod
      have : ⌊(f - (x - f * q)) / f⌋ = 0 := by
        rw [Int.floor_eq_zero_iff, Set.mem_Ico]
        refine ⟨div_nonneg (by nlinarith) hfpos.le, ?_⟩
        rw [div_lt_one hfpos]
        linarith
      rw [if_neg hfpos.ne', this]
      simp
  refine ⟨q', ?_, ?_, ?_⟩
  · unfold alignTicks
    simp only [hf, hx]
    cases e : pyMod x f with
    | none => rw [e] at hd; cases hd
    | some r =>
      rw [e, Option.bind_some] at hd
      simp only [Option.bind_eq_bind, Option.bind_some, hd, Option.pure_def, Option.some.injEq]
      refine List.map_congr_left (fun i _ => ?_)
      have : hi + d - lo = minres * ((n : K) - 1) * q' := by rw [hf, ← hsum.1, ← hx]; ring
      rw [this]
      field_simp
  · have : ((n : K) - 1) * (minres * q') = x + d := by rw [hsum.1, ← hf]; ring
    rw [this, ← hx]
    linarith [hsum.2.1]
  · have : ((n : K) - 1) * (minres * q') = x + d := by rw [hsum.1, ← hf]; ring
    rw [this, ← hx, mul_comm, hf]
    linarith [hsum.2.2]

end

/-- C76 is violated: when no feature shown has a positive importance, the step is zero and the ticks are not numbers. -/
theorem C76_violated_step {sort : List ℚ → List Nat} {sortN : List Nat → List Nat} (hs : IsArgsort sort) (cnt : Nat → Nat) {n : Nat} (hn : 1 ≤ n) :
    ∃ p, plotFeatureImportance sort sortN ((List.range n).map (fun _ => 0)) ((List.range n).map cnt) none .gain none = .ok p ∧ p.step = 0 ∧
      ∀ lo hi : ℚ, alignTicks lo hi p.step 6 = none := by
  obtain ⟨top, p, -, h1, h2⟩ := C76_all (sortN := sortN) hs (fun _ => (0 : ℚ)) cnt none hn
  obtain ⟨f, -, -, h3⟩ := h2.2.2.2
  have h0 : p.step = 0 := by rw [h3]; norm_num
  refine ⟨p, h1, h0, fun lo hi => ?_⟩
  rw [h0]
  unfold alignTicks pyMod
  simp

/-- `np.argsort` by insertion, to show that the hypotheses can be met. -/
def argsort {A : Type} [LinearOrder A] (l : List A) : List Nat :=
  (l.zipIdx.insertionSort (fun a b => a.1 ≤ b.1)).map (fun p => p.2)

theorem isArgsort_argsort {A : Type} [LinearOrder A] : IsArgsort (argsort (A := A)) := by
  intro n x
  have hz : ((List.range n).map x).zipIdx = (List.range n).map (fun i => (x i, i)) := by
    refine List.ext_getElem (by simp) (fun i h1 h2 => ?_)
    simp
  unfold argsort
  rw [hz]
  have hp := List.perm_insertionSort (fun a b : A × Nat => a.1 ≤ b.1) ((List.range n).map (fun i => (x i, i)))
  constructor
  · refine (hp.map _).trans ?_
    rw [List.map_map]
    simp [Function.comp_def]
  · haveI : Std.Total (fun a b : A × Nat => a.1 ≤ b.1) := ⟨fun a b => le_total _ _⟩
    haveI : IsTrans (A × Nat) (fun a b : A × Nat => a.1 ≤ b.1) := ⟨fun a b c => le_trans⟩
    have hs := List.pairwise_insertionSort (fun a b : A × Nat => a.1 ≤ b.1) ((List.range n).map (fun i => (x i, i)))
    rw [List.pairwise_map]
    refine hs.imp_of_mem ?_
    intro a b ha hb hab
    obtain ⟨i, -, rfl⟩ := List.mem_map.1 (hp.mem_iff.1 ha)
    obtain ⟨j, -, rfl⟩ := List.mem_map.1 (hp.mem_iff.1 hb)
    exact hab

/-- C76: a plot of two of three features. -/
example : plotFeatureImportance argsort argsort [(1 / 2 : ℚ), 2, 1] [5, 0, 7] (some 2) .gain (some ["a", "b", "c"]) =
      .ok ⟨[(0, 2), (1, 1)], [(0, 0), (1, 7)], .names ["b", "c"], 1 / 5⟩ ∧
    plotFeatureImportance argsort argsort [(1 / 2 : ℚ), 2, 1] [5, 0, 7] (some 2) .count none =
      .ok ⟨[(0, 1), (1, 1 / 2)], [(0, 7), (1, 5)], .indices [3, 1], 1 / 10⟩ ∧
    alignTicks (0 : ℚ) (21 / 10) (1 / 5) 6 = some [0, 3 / 5, 6 / 5, 9 / 5, 12 / 5, 3] := by
  decide +kernel

end Verif.Props
