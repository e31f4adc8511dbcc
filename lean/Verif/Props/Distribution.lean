/-
Properties C54 (query-wise performance), C55 (query classes) and C57 (graded relevance).
-/
import Verif.Lemmas.ClassSelect
import Mathlib.Algebra.Order.Field.Rat
import Mathlib.Tactic.NormNum

namespace Verif.Props
open Eff Spec
variable {K : Type} [Field K] [LinearOrder K] [IsStrictOrderedRing K]

/-! ### C54 -/

/-- The curve of the values `xs`: for each bin the fraction of the values from `lo` up to the right edge. -/
def fractions (xs : List K) (lo hi : K) (bins : Nat) : List (Option K) :=
  (List.range bins).map (fun i => if xs = [] then none else some ((below xs lo hi bins i : K) / (xs.length : K)))

theorem curve_fractions (xs : List K) {lo hi : K} (h : lo ≤ hi) {bins : Nat} (hb : 0 < bins) :
    curve (xs.map some) (linspace (some lo) (some hi) bins) = .ok (fractions xs lo hi bins) := by
  unfold fractions
  by_cases hne : xs = []
  · subst hne
    rw [List.map_nil, curve_empty h hb]
    simp
  · rw [curve_spec xs hne h hb]
    simp [hne]

theorem mapM_curves (vs : List (List K)) {lo hi : K} (h : lo ≤ hi) {bins : Nat} (hb : 0 < bins) :
    (vs.map (·.map some)).mapM (fun xs => curve xs (linspace (some lo) (some hi) bins)) = .ok (vs.map (fun xs => fractions xs lo hi bins)) := by
  rw [List.mapM_map]
  exact mapM_ok_map (fun xs _ => curve_fractions xs h hb)

theorem okBind {A B : Type} (x : A) (f : A → Except PyErr B) : (Except.ok x >>= f) = f x := rfl

/-- The range starts at the given `start`, or at the least of the values. -/
def StartsAt (start : Option K) (values : List K) (lo : K) : Prop := start = some lo ∨ start = none ∧ lo ∈ values ∧ ∀ x ∈ values, lo ≤ x

/-- The range ends at the given `stop`, or at the greatest of the values. -/
def EndsAt (stop : Option K) (values : List K) (hi : K) : Prop := stop = some hi ∨ stop = none ∧ hi ∈ values ∧ ∀ x ∈ values, x ≤ hi

/-- The number of bins is the given one, or the greatest number of queries. -/
def BinsAre (bins : Option Nat) (nq : List Nat) (n : Nat) : Prop := bins = some n ∨ bins = none ∧ n ∈ nq ∧ ∀ m ∈ nq, m ≤ n

omit [IsStrictOrderedRing K] in
theorem StartsAt.eq {start : Option K} {values : List K} {lo m : K} (h : StartsAt start values lo) (h1 : m ∈ values) (h2 : ∀ x ∈ values, m ≤ x) :
    (if start.isSome then start else some m) = some lo := by
  rcases h with rfl | ⟨rfl, h3, h4⟩
  · rfl
  · simp [le_antisymm (h2 lo h3) (h4 m h1)]

omit [IsStrictOrderedRing K] in
theorem EndsAt.eq {stop : Option K} {values : List K} {hi m : K} (h : EndsAt stop values hi) (h1 : m ∈ values) (h2 : ∀ x ∈ values, x ≤ m) :
    (if stop.isSome then stop else some m) = some hi := by
  rcases h with rfl | ⟨rfl, h3, h4⟩
  · rfl
  · simp [le_antisymm (h4 m h1) (h2 hi h3)]

/-- C54: each bin has the fraction of queries with value from the start of the range up to the right edge of the bin (the right edge itself
only for the last bin), and as label its left edge plus one over the number of bins. Start, end and number of bins may be given or not. Metric
values must be numbers. -/
theorem C54_curves_partial {vs : List (List K)} (hne : vs ≠ []) (hv : ∀ v ∈ vs, v ≠ []) {nq : List Nat} {start stop : Option K} {bins : Option Nat}
    {lo hi : K} {n : Nat} (hlo : StartsAt start vs.flatten lo) (hhi : EndsAt stop vs.flatten hi) (hn : BinsAre bins nq n) (h : lo ≤ hi) (hb : 0 < n) :
    queryWise (vs.map (·.map some)) nq bins start stop =
      .ok ((List.range n).map (fun (i : Nat) => some (lo + (i : K) * ((hi - lo) / (n : K)) + 1 / (n : K))), vs.map (fun xs => fractions xs lo hi n)) := by
  obtain ⟨m, e1, h1, h2⟩ := globalMin hne hv
  obtain ⟨m', e2, h3, h4⟩ := globalMax hne hv
  rcases hn with rfl | ⟨rfl, h5, h6⟩
  · unfold queryWise
    rw [e1, e2]
    simp only [okBind]
    rw [hlo.eq h1 h2, hhi.eq h3 h4]
    show (Bind.bind (m := Except PyErr) ((vs.map (·.map some)).mapM (fun xs => curve xs (linspace (some lo) (some hi) n))) _) = _
    rw [mapM_curves vs h hb, okBind, binLabels_spec lo hi hb]
    rfl
  · unfold queryWise
    rw [e1, e2]
    simp only [okBind]
    rw [show nq.max? = some n from List.max?_eq_some_iff.2 ⟨h5, h6⟩, hlo.eq h1 h2, hhi.eq h3 h4]
    show (Bind.bind (m := Except PyErr) ((vs.map (·.map some)).mapM (fun xs => curve xs (linspace (some lo) (some hi) n))) _) = _
    rw [mapM_curves vs h hb, okBind, binLabels_spec lo hi hb]
    rfl

/-- A range that is given in part, and the number of bins from the number of queries. -/
example : StartsAt (some 0) [(1 : ℚ), 3, 2] 0 ∧ EndsAt none [(1 : ℚ), 3, 2] 3 ∧ BinsAre none [3, 2] 3 ∧ (0 : ℚ) ≤ 3 := by
  refine ⟨Or.inl rfl, Or.inr ⟨rfl, by simp, ?_⟩, Or.inr ⟨rfl, by simp, by simp⟩, by norm_num⟩
  intro x hx
  simp at hx
  rcases hx with rfl | rfl | rfl <;> norm_num

/-- C54: when the range has all values (as the default range) the curves end at 1. -/
theorem C54_ends_at_one {xs : List K} (hx : xs ≠ []) {lo hi : K} (hr : ∀ x ∈ xs, lo ≤ x ∧ x ≤ hi) {n : Nat} (hb : 0 < n) :
    (fractions xs lo hi n).getLast? = some (some 1) := by
  obtain ⟨n, rfl⟩ : ∃ m, n = m + 1 := ⟨n - 1, by omega⟩
  unfold fractions
  rw [List.range_succ, List.map_append, List.map_cons, List.map_nil, List.getLast?_concat, if_neg hx]
  have := below_last (xs := xs) (lo := lo) (hi := hi) hb hr
  rw [Nat.add_sub_cancel] at this
  rw [this, div_self]
  exact_mod_cast (fun e => hx (List.length_eq_zero_iff.1 e))

/-- C54: the values are between 0 and 1 and do not decrease. -/
theorem C54_cdf (xs : List K) (hx : xs ≠ []) {lo hi : K} (h : lo ≤ hi) (bins i : Nat) :
    0 ≤ (below xs lo hi bins i : K) / (xs.length : K) ∧ (below xs lo hi bins i : K) / (xs.length : K) ≤ 1 ∧
      (i + 1 < bins → (below xs lo hi bins i : K) / (xs.length : K) ≤ (below xs lo hi bins (i + 1) : K) / (xs.length : K)) := by
  have hpos : (0 : K) < xs.length := by
    have := List.length_pos_iff.2 hx
    exact_mod_cast this
  refine ⟨div_nonneg (Nat.cast_nonneg _) hpos.le, ?_, ?_⟩
  · rw [div_le_one hpos]
    exact_mod_cast below_le_length xs lo hi bins i
  · intro hi'
    apply div_le_div_of_nonneg_right _ hpos.le
    exact_mod_cast below_mono xs h hi'

/-- C54: the label of a bin is its right edge if and only if the range has length 1. -/
theorem C54_labels {lo hi : K} {bins : Nat} (hb : 0 < bins) :
    binLabels (linspace (some lo) (some hi) bins) bins = .ok ((List.range bins).map (fun i => some (rightEdge lo hi bins i))) ↔ hi - lo = 1 := by
  rw [binLabels_spec lo hi hb]
  constructor
  · intro e
    have e2 := Except.ok.inj e
    have e3 := List.map_inj_left.1 e2 0 (List.mem_range.2 hb)
    exact (label_right lo hi hb 0).1 (Option.some.inj e3)
  · intro e
    congr 1
    apply List.map_congr_left
    intro i _
    rw [(label_right lo hi hb i).2 e]

/-- C54: a range that ends before it starts is an error. -/
theorem C54_reversed_range {vs : List (List K)} (hne : vs ≠ []) (hv : ∀ v ∈ vs, v ≠ []) (nq : List Nat) {lo hi : K} (h : hi < lo) {bins : Nat}
    (hb : 0 < bins) : queryWise (vs.map (·.map some)) nq (some bins) (some lo) (some hi) = .error .valueError := by
  obtain ⟨m, e1, -⟩ := globalMin hne hv
  obtain ⟨m', e2, -⟩ := globalMax hne hv
  unfold queryWise
  rw [e1, e2]
  show (Bind.bind (m := Except PyErr) ((vs.map (·.map some)).mapM _) _) = _
  match vs, hne with
  | v :: vs, _ =>
    rw [List.map_cons, List.mapM_cons]
    show (Bind.bind (m := Except PyErr) (Bind.bind (m := Except PyErr) (curve (v.map some) (linspace (some lo) (some hi) bins)) _) _) = _
    rw [curve_decreasing _ h hb]
    rfl

/-- C54 is violated for a range of another length than 1: values 0 and 2 in two bins; half of the values are below 1, the label says 0.5. -/
theorem C54_violated_labels : queryWise [[some (0 : ℚ), some 2]] [2] (some 2) none none = .ok ([some (1 / 2), some (3 / 2)], [[some (1 / 2), some 1]]) ∧
    rightEdge (0 : ℚ) 2 2 0 = 1 ∧ rightEdge (0 : ℚ) 2 2 1 = 2 := by
  decide +kernel

/-- C54 is violated when the metric is NaN for one query (as it is for queries without relevant documents): the range becomes NaN and the
curve counts the NaN values only. -/
theorem C54_violated_nan : queryWise [[some (0 : ℚ), none, some 1]] [3] (some 2) none none = .ok ([none, none], [[some 0, some (1 / 3)]]) := by
  decide +kernel

example : queryWise [[some (0 : ℚ), some 1, some (1 / 4)], [some (1 / 2), some (1 / 2), some 1]] [3] none none none =
    .ok ([some (1 / 3), some (2 / 3), some 1], [[some (2 / 3), some (2 / 3), some 1], [some 0, some (2 / 3), some 1]]) := by
  decide +kernel

/-! ### C55 -/

variable {C : Type} [LinearOrder C]

/-- C55: the classes are the different ones that occur, in order, and each cell is the mean over the queries of the class, missing if the
dataset has no such query. Metric values must be numbers, and classes given as arrays or numbers. -/
theorem C55_mean_partial (vs : List (List K)) (classes : List (List C)) (hl : classes.length = vs.length)
    (hc : ∀ (i : Nat) (v : List K) (cls : List C), vs[i]? = some v → classes[i]? = some cls → cls.length = v.length) :
    ∃ unique data, queryClass true (vs.map (·.map some)) classes = .ok (unique, data) ∧ unique.Pairwise (· < ·) ∧
      (∀ c, c ∈ unique ↔ ∃ cls ∈ classes, c ∈ cls) ∧ data.length = vs.length ∧
      ∀ (i : Nat) v cls, vs[i]? = some v → classes[i]? = some cls → data[i]? = some (unique.map (fun c => mean? (ofClass cls v c))) := by
  refine ⟨npUniqueOf (classes.flatMap npUniqueOf), (List.range vs.length).map (fun i => (npUniqueOf (classes.flatMap npUniqueOf)).map
    (fun c => mean? (ofClass (classes.getD i []) (vs.getD i []) c))), ?_, npUniqueOf_sorted _, ?_, by simp, ?_⟩
  · unfold queryClass
    simp only [List.length_map]
    rw [mapM_ok_map (g := fun i => (npUniqueOf (classes.flatMap npUniqueOf)).map (fun c => mean? (ofClass (classes.getD i []) (vs.getD i []) c)))]
    · rfl
    · intro i hi
      have hi := List.mem_range.1 hi
      have g1 : pyGet (vs.map (·.map some)) (i : Int) = .ok (vs[i].map some) := by
        unfold pyGet
        simp [hi]
      have g2 : pyGet classes (i : Int) = .ok classes[i] := by
        unfold pyGet
        simp [hl, hi]
      rw [g1]
      show (npUniqueOf (classes.flatMap npUniqueOf)).mapM _ = _
      apply mapM_ok_map
      intro c _
      rw [g2]
      show classCell true (vs[i].map some) classes[i] c = _
      rw [classCell_spec _ _ _ (hc i _ _ (List.getElem?_eq_getElem hi) (List.getElem?_eq_getElem (by omega)))]
      simp [List.getD, List.getElem?_eq_getElem hi, List.getElem?_eq_getElem (show i < classes.length by omega)]
  · intro c
    rw [npUniqueOf_mem, List.mem_flatMap]
    simp [npUniqueOf_mem]
  · intro i v cls h1 h2
    obtain ⟨hi, rfl⟩ := List.getElem?_eq_some_iff.1 h1
    obtain ⟨hi2, rfl⟩ := List.getElem?_eq_some_iff.1 h2
    rw [List.getElem?_map, List.getElem?_range hi]
    simp [List.getD, List.getElem?_eq_getElem hi, List.getElem?_eq_getElem hi2]

/-- C55: the means of the classes, weighted with the numbers of queries, add up to the overall sum. -/
theorem C55_weighted (cls u : List C) (v : List K) (hl : cls.length = v.length) (hn : u.Nodup) (hu : ∀ c ∈ cls, c ∈ u) :
    (u.map (fun c => (cls.count c : K) * (mean? (ofClass cls v c)).getD 0)).sum = v.sum := by
  rw [← sum_classes u hn cls v hl hu]
  congr 1
  apply List.map_congr_left
  intro c _
  have hlen := ofClass_length c cls v hl
  unfold mean?
  by_cases h : ofClass cls v c = []
  · rw [if_pos h, h]
    simp
  · rw [if_neg h, Option.getD_some, hlen]
    have : (cls.count c : K) ≠ 0 := by
      rw [← hlen]
      exact_mod_cast (fun e => h (List.length_eq_zero_iff.1 e))
    field_simp

/-- C55 is violated for classes that are lists of strings: the comparison with a numpy string is not elementwise, and each cell is NaN. -/
theorem C55_violated_strings (vs : List (List (Option K))) (classes : List (List C)) (hl : classes.length = vs.length) :
    ∃ unique data, queryClass false vs classes = .ok (unique, data) ∧ ∀ row ∈ data, ∀ x ∈ row, x = none := by
  refine ⟨npUniqueOf (classes.flatMap npUniqueOf), (List.range vs.length).map (fun _ => (npUniqueOf (classes.flatMap npUniqueOf)).map (fun _ => none)), ?_, ?_⟩
  · unfold queryClass
    simp only
    rw [mapM_ok_map (g := fun _ => (npUniqueOf (classes.flatMap npUniqueOf)).map (fun _ => none))]
    · rfl
    · intro i hi
      have hi := List.mem_range.1 hi
      have g1 : pyGet vs (i : Int) = .ok vs[i] := by
        unfold pyGet
        simp [hi]
      have g2 : pyGet classes (i : Int) = .ok classes[i] := by
        unfold pyGet
        simp [hl, hi]
      rw [g1]
      show (npUniqueOf (classes.flatMap npUniqueOf)).mapM _ = _
      apply mapM_ok_map
      intro c _
      rw [g2]
      exact classCell_strings vs[i] classes[i] c
  · intro row hrow x hx
    obtain ⟨i, -, rfl⟩ := List.mem_map.1 hrow
    obtain ⟨c, -, rfl⟩ := List.mem_map.1 hx
    rfl

/-- C55 is violated when one query of the class has NaN: the class gets NaN, although other queries of the class have values. -/
theorem C55_violated_nan : queryClass true [[some (1 : ℚ), none, some 3, some 5]] [[1, 1, 2, 2]] = .ok ([1, 2], [[none, some 4]]) := by
  decide +kernel

example : queryClass true [[some (1 : ℚ), some 2, some 3], [some 5, some 7]] [[3, 1, 3], [1, 1]] = .ok ([1, 3], [[some 2, some 2], [some 6, none]]) := by
  decide +kernel

/-! ### C57 -/

/-- C57: the labels are the different ones that occur, in order; for each dataset, model and label there is the curve of the scores of the
documents with this label (missing if the dataset has no such document) over the given range or from the least to the greatest score. All
datasets must have the same number of documents, and `bins` must be given. -/
theorem C57_curves_partial {runs : List (List C × List (List K))} {n bins : Nat} (hn : 0 < n) (hb : 0 < bins) (hy : ∀ r ∈ runs, r.1.length = n)
    (hp : ∀ r ∈ runs, ∀ p ∈ r.2, p.length = n) (hne : runs.flatMap (·.2) ≠ []) {start stop : Option K} {lo hi : K}
    (hlo : StartsAt start (runs.flatMap (·.2)).flatten lo) (hhi : EndsAt stop (runs.flatMap (·.2)).flatten hi) (h : lo ≤ hi) :
    ∃ labels, gradedRelevance (runs.map (fun r => (r.1, r.2.map (·.map some)))) (some bins) start stop =
        .ok (labels, (List.range bins).map (fun (i : Nat) => some (lo + (i : K) * ((hi - lo) / (bins : K)) + 1 / (bins : K))),
          runs.map (fun r => r.2.map (fun p => labels.map (fun l => fractions (ofClass r.1 p l) lo hi bins)))) ∧
      labels.Pairwise (· < ·) ∧ (∀ l, l ∈ labels ↔ ∃ r ∈ runs, l ∈ r.1) := by
  have hv : ∀ v ∈ runs.flatMap (·.2), v ≠ [] := by
    intro v hv
    obtain ⟨r, hr, hv⟩ := List.mem_flatMap.1 hv
    have := hp r hr v hv
    rintro rfl
    simp at this
    omega
  obtain ⟨m, e1, h1, h2⟩ := globalMin hne hv
  obtain ⟨m', e2, h3, h4⟩ := globalMax hne hv
  have ef : (runs.map (fun r => (r.1, r.2.map (·.map some)))).flatMap (·.2) = (runs.flatMap (·.2)).map (·.map some) := by
    rw [List.flatMap_map, List.map_flatMap]
  have el : relLabels ((runs.map (fun r => (r.1, r.2.map (·.map (some (α := K)))))).map (·.1)) = .ok (npUniqueOf (runs.map (·.1)).flatten) := by
    rw [List.map_map, show ((fun r : List C × List (List (Option K)) => r.1) ∘ fun r : List C × List (List K) => (r.1, r.2.map (·.map some))) = (·.1) from rfl]
    match runs, hy, hne with
    | r :: runs, hy, _ =>
      rw [List.map_cons, relLabels]
      rw [if_pos]
      rw [List.all_eq_true]
      intro z hz
      obtain ⟨r', hr', rfl⟩ := List.mem_map.1 hz
      rw [hy r List.mem_cons_self, hy r' (List.mem_cons_of_mem _ hr')]
      simp
  refine ⟨npUniqueOf (runs.map (·.1)).flatten, ?_, npUniqueOf_sorted _, ?_⟩
  · unfold gradedRelevance
    rw [ef, e1, e2]
    simp only [okBind]
    rw [hlo.eq h1 h2, hhi.eq h3 h4]
    show (Bind.bind (m := Except PyErr) (relLabels _) _) = _
    rw [el]
    have key : (runs.map (fun r => (r.1, r.2.map (·.map some)))).mapM (fun run => run.2.mapM (fun yPred =>
        (npUniqueOf (runs.map (·.1)).flatten).mapM (fun l => gradedCurve run.1 yPred (linspace (some lo) (some hi) bins) l))) =
        .ok (runs.map (fun r => r.2.map (fun p => (npUniqueOf (runs.map (·.1)).flatten).map (fun l => fractions (ofClass r.1 p l) lo hi bins)))) := by
      rw [List.mapM_map]
      apply mapM_ok_map
      intro r hr
      show (r.2.map _).mapM _ = _
      rw [List.mapM_map]
      apply mapM_ok_map
      intro p hp'
      apply mapM_ok_map
      intro l _
      show gradedCurve r.1 (p.map some) (linspace (some lo) (some hi) bins) l = _
      unfold gradedCurve
      rw [select_spec l r.1 (p.map some) (by rw [List.length_map, hy r hr, hp r hr p hp']), ofClass_map]
      exact curve_fractions _ h hb
    show (Bind.bind (m := Except PyErr) ((runs.map (fun r => (r.1, r.2.map (·.map some)))).mapM (fun run => run.2.mapM (fun yPred =>
        (npUniqueOf (runs.map (·.1)).flatten).mapM (fun l => gradedCurve run.1 yPred (linspace (some lo) (some hi) bins) l)))) _) = _
    rw [key]
    show (Bind.bind (m := Except PyErr) (binLabels (linspace (some lo) (some hi) bins) bins) _) = _
    rw [binLabels_spec lo hi hb]
    rfl
  · intro l
    rw [npUniqueOf_mem, List.mem_flatten]
    simp

/-- The hypotheses hold for two datasets and a range that is given in part. -/
example : ∃ (runs : List (List Nat × List (List ℚ))), (∀ r ∈ runs, r.1.length = 2) ∧ (∀ r ∈ runs, ∀ p ∈ r.2, p.length = 2) ∧
    runs.flatMap (·.2) ≠ [] ∧ StartsAt none (runs.flatMap (·.2)).flatten 1 ∧ EndsAt (some 5) (runs.flatMap (·.2)).flatten 5 := by
  refine ⟨[([0, 1], [[1, 2]]), ([1, 1], [[2, 4]])], by simp, by simp, by simp, Or.inr ⟨rfl, by simp, ?_⟩, Or.inl rfl⟩
  intro x hx
  simp at hx
  rcases hx with rfl | rfl | rfl <;> norm_num

/-- C57: the curve of a label that occurs ends at 1 when the range has all scores. -/
theorem C57_ends_at_one {y : List C} {p : List K} (hl : y.length = p.length) {l : C} (h : l ∈ y) {lo hi : K} (hr : ∀ x ∈ p, lo ≤ x ∧ x ≤ hi)
    {bins : Nat} (hb : 0 < bins) : (fractions (ofClass y p l) lo hi bins).getLast? = some (some 1) := by
  apply C54_ends_at_one _ (fun x hx => hr x (ofClass_mem hx)) hb
  rw [← List.length_pos_iff, ofClass_length l y p hl]
  exact List.count_pos_iff.2 h

set_option synthInstance.maxSize 512

/-- C57 is violated for datasets with different numbers of documents. -/
theorem C57_violated_lengths : gradedRelevance [([0, 1], [[some (1 : ℚ), some 2]]), ([0, 1, 1], [[some 1, some 2, some 3]])] (some 2) none none =
    .error .valueError := by
  decide +kernel

/-- C57 is violated for the documented value `None` of `bins`. -/
theorem C57_violated_no_bins : gradedRelevance [([0, 1], [[some (1 : ℚ), some 2]])] none none none = .error .typeError := by
  decide +kernel

example : gradedRelevance [([0, 1, 0, 2], [[some (1 : ℚ), some 2, some 3, some 5]]), ([0, 1, 1, 0], [[some (2 : ℚ), some 2, some 4, some 1]])] (some 2) none none =
    .ok ([0, 1, 2], [some (3 / 2), some (7 / 2)], [[[[some (1 / 2), some 1], [some 1, some 1], [some 0, some 1]]],
      [[[some 1, some 1], [some (1 / 2), some 1], [none, none]]]]) := by
  decide +kernel

end Verif.Props
