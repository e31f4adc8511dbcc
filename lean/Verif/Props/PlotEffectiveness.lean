/-
C77: the plots of the effectiveness analyses.
-/
import Verif.Model.Plots
import Mathlib.Data.Rat.Floor
import Mathlib.Tactic.Linarith
import Mathlib.Tactic.FieldSimp
import Mathlib.Algebra.Order.Field.Rat

namespace Verif.Props
open Plots

section
variable {K : Type} [Field K] {V : Type}

/-- C77: there is a bar for each value of the table, with its height, and no other. -/
theorem C77_bars (table : List (List V)) (s g : Nat) :
    ((barPlot (K := K) table)[s]?).bind (·[g]?) =
      ((table[s]?).bind (·[g]?)).map (fun v => ⟨g + s * ((95 / 100) / table.length), (95 / 100) / table.length, v⟩) := by
  unfold barPlot
  simp only [List.getElem?_map, List.getElem?_zipIdx]
  cases h : table[s]? with
  | none => rfl
  | some row =>
    simp only [Option.map_some, Option.bind_some, List.getElem?_map, List.getElem?_zipIdx]
    cases row[g]? with
    | none => rfl
    | some v => simp

end

section
variable {K : Type} [Field K] [LinearOrder K] [IsStrictOrderedRing K]

/-- C77: two different bars do not overlap: their centres are at least one width apart. -/
theorem C77_apart {n s s' g g' : Nat} (hs : s < n) (hs' : s' < n) (hne : (s, g) ≠ (s', g')) :
    (95 / 100 : K) / n ≤ |((g : K) + s * ((95 / 100) / n)) - (g' + s' * ((95 / 100) / n))| := by
  have hn : (0 : K) < n := by exact_mod_cast (by omega : 0 < n)
  obtain ⟨w, hw⟩ : ∃ w : K, (95 / 100) / n = w := ⟨_, rfl⟩
  have hw0 : 0 < w := by rw [← hw]; positivity
  have hnw : n * w = 95 / 100 := by rw [← hw]; field_simp
  rw [hw]
  have key : ∀ {s s' g g' : Nat}, s < n → s' < n → g' < g → w ≤ |((g : K) + s * w) - (g' + s' * w)| := by
    intro s s' g g' hs hs' hg
    have h1 : (g' : K) + 1 ≤ g := by exact_mod_cast hg
    have h2 : (s' : K) + 1 ≤ n := by exact_mod_cast hs'
    have h3 : ((s' : K) + 1) * w ≤ n * w := mul_le_mul_of_nonneg_right h2 hw0.le
    have h4 : 0 ≤ (s : K) * w := by positivity
    refine le_trans ?_ (le_abs_self _)
    linarith
  rcases lt_trichotomy g g' with h | h | h
  · rw [abs_sub_comm]
    exact key hs' hs h
  · subst h
    have hss : s ≠ s' := fun e => hne (by rw [e])
    have key2 : ∀ {s s' : Nat}, s' < s → w ≤ |((g : K) + s * w) - (g + s' * w)| := by
      intro s s' h
      have h1 : (s' : K) + 1 ≤ s := by exact_mod_cast h
      have h2 : ((s' : K) + 1) * w ≤ s * w := mul_le_mul_of_nonneg_right h1 hw0.le
      refine le_trans ?_ (le_abs_self _)
      linarith
    rcases lt_or_gt_of_ne hss with h | h
    · rw [abs_sub_comm]; exact key2 h
    · exact key2 h
  · exact key hs hs' h

/-- C77: the name of a group is below the middle of its bars. -/
theorem C77_names {n : Nat} (hn : 0 < n) (groups g : Nat) (hg : g < groups) :
    (groupTicks (K := K) n groups)[g]? = some ((((g : K) + (0 : Nat) * ((95 / 100) / n)) + (g + (n - 1 : Nat) * ((95 / 100) / n))) / 2) := by
  unfold groupTicks
  simp only [List.getElem?_map, List.getElem?_range hg, Option.map_some, Option.some.injEq]
  have h0 : (n : K) ≠ 0 := by exact_mod_cast hn.ne'
  rw [Nat.cast_sub hn]
  push_cast
  field_simp
  ring

variable [FloorRing K]

theorem npMax_some (x : K) (l : List K) : npMax ((x :: l).map some) = .ok (some (l.foldl max x)) := by
  show Except.ok _ = _
  congr 1
  induction l generalizing x with
  | nil => rfl
  | cons y l ih => exact ih (max x y)

theorem le_foldl_max (l : List K) : ∀ a, a ≤ l.foldl max a ∧ (∀ y ∈ l, y ≤ l.foldl max a) ∧ l.foldl max a ∈ a :: l := by
  induction l with
  | nil => intro a; simp
  | cons b l ih =>
    intro a
    obtain ⟨h1, h2, h3⟩ := ih (max a b)
    rw [List.foldl_cons]
    refine ⟨(le_max_left _ _).trans h1, ?_, ?_⟩
    · intro y hy
      rcases List.mem_cons.1 hy with rfl | hy
      · exact (le_max_right _ _).trans h1
      · exact h2 y hy
    · rcases List.mem_cons.1 h3 with h | h
      · rw [h]
        rcases max_choice a b with e | e <;> rw [e] <;> simp
      · simp [h]

/-- C77: if all values are defined, every bar ends below the upper end of the axis, with at least 40 percent of the largest value above it, and
not much more. Missing: undefined values (`C77_violated_nan`), negative values (`C77_violated_negative`). -/
theorem C77_limit_partial {values : List K} (hne : values ≠ []) (h0 : ∀ v ∈ values, 0 ≤ v) :
    ∃ y, yLimit (values.map some) = .ok y ∧ (∀ v ∈ values, 0 ≤ v ∧ v * (14 / 10) ≤ y) ∧ ∃ v ∈ values, y < v * (14 / 10) + 1 / 10 := by
  obtain ⟨x, l, rfl⟩ := List.exists_cons_of_ne_nil hne
  obtain ⟨h1, h2, h3⟩ := le_foldl_max l x
  refine ⟨((⌈l.foldl max x * (14 / 10) * 10⌉ : Int) : K) / 10, ?_, ?_, l.foldl max x, h3, ?_⟩
  · unfold yLimit
    rw [npMax_some]
    rfl
  · intro v hv
    refine ⟨h0 v hv, ?_⟩
    have hle : v ≤ l.foldl max x := by
      rcases List.mem_cons.1 hv with rfl | hv
      · exact h1
      · exact h2 v hv
    have := Int.le_ceil (l.foldl max x * (14 / 10) * 10)
    rw [le_div_iff₀ (by norm_num)]
    linarith
  · have := Int.ceil_lt_add_one (l.foldl max x * (14 / 10) * 10)
    rw [div_lt_iff₀ (by norm_num)]
    linarith

theorem npMax_nan (l : List (Option K)) (h : none ∈ l) : npMax l = .ok none := by
  have key : ∀ (l : List (Option K)), l.foldl (fun a b => match a, b with
    | some a, some b => some (max a b)
    | _, _ => none) none = none := by
    intro l
    induction l with
    | nil => rfl
    | cons y l ih => exact ih
  have key2 : ∀ (l : List (Option K)) (a : Option K), none ∈ l → l.foldl (fun a b => match a, b with
    | some a, some b => some (max a b)
    | _, _ => none) a = none := by
    intro l
    induction l with
    | nil => intro a h; cases h
    | cons y l ih =>
      intro a h
      rcases List.mem_cons.1 h with rfl | h
      · rw [List.foldl_cons]
        cases a <;> exact key l
      · exact ih _ h
  match l, h with
  | x :: l, h =>
    show Except.ok _ = _
    congr 1
    rcases List.mem_cons.1 h with rfl | h
    · exact key l
    · exact key2 l x h

/-- C77 is violated: one undefined value and there is no plot. -/
theorem C77_violated_nan {values : List (Option K)} (h : none ∈ values) : yLimit values = .error .valueError := by
  unfold yLimit
  rw [npMax_nan values h]
  rfl

end

/-- C77 is violated: the lower end of the axis is 0, a negative correlation is not visible. -/
theorem C77_violated_negative : yLimit [some (-1 / 2 : ℚ), some (1 / 2)] = .ok (7 / 10) ∧ ¬ (0 ≤ (-1 / 2 : ℚ)) := by
  constructor
  · decide +kernel
  · norm_num

/-- C77: the hypotheses of `C77_limit_partial` can be met. -/
example : yLimit ([1 / 2, 3 / 10].map some : List (Option ℚ)) = .ok (7 / 10) ∧ yLimit ([some (1 / 2), none] : List (Option ℚ)) = .error .valueError ∧
    barPlot [[(1 : ℚ), 2], [3, 4]] = [[⟨0, 19 / 40, 1⟩, ⟨1, 19 / 40, 2⟩], [⟨19 / 40, 19 / 40, 3⟩, ⟨59 / 40, (19 / 40 : ℚ), 4⟩]] ∧
    groupTicks (K := ℚ) 2 2 = [19 / 80, 99 / 80] := by
  decide +kernel

/-! ### Markers -/

section
variable {K : Type} [LinearOrder K]

theorem best_pair (xs : List (K × Nat)) : ∀ x : K × Nat, (x :: xs).Pairwise (fun a b => a.2 < b.2) →
    ∃ r ∈ x :: xs, xs.foldl (fun a b : K × Nat => if a.1 < b.1 then b else a) x = r ∧ ∀ y ∈ x :: xs, y.1 ≤ r.1 ∧ (y.2 < r.2 → y.1 < r.1) := by
  induction xs with
  | nil => intro x _; exact ⟨x, by simp, rfl, by simp⟩
  | cons z xs ih =>
    intro x hp
    have hxz : x.2 < z.2 := (List.pairwise_cons.1 hp).1 z (by simp)
    have hp' := (List.pairwise_cons.1 hp).2
    by_cases h : x.1 < z.1
    · obtain ⟨r, hr, he, hall⟩ := ih z hp'
      refine ⟨r, by simp [List.mem_cons.1 hr], by rw [List.foldl_cons, if_pos h]; exact he, fun y hy => ?_⟩
      rcases List.mem_cons.1 hy with rfl | hy
      · have := (hall z (by simp)).1
        exact ⟨(h.le).trans this, fun _ => lt_of_lt_of_le h this⟩
      · exact hall y hy
    · have hpx : (x :: xs).Pairwise (fun a b => a.2 < b.2) :=
        List.pairwise_cons.2 ⟨fun y hy => (List.pairwise_cons.1 hp).1 y (by simp [hy]), (List.pairwise_cons.1 hp').2⟩
      obtain ⟨r, hr, he, hall⟩ := ih x hpx
      refine ⟨r, ?_, by rw [List.foldl_cons, if_neg h]; exact he, fun y hy => ?_⟩
      · rcases List.mem_cons.1 hr with rfl | hr
        · simp
        · simp [hr]
      · rcases List.mem_cons.1 hy with rfl | hy
        · exact hall _ (by simp)
        rcases List.mem_cons.1 hy with rfl | hy
        · have hx := hall x (by simp)
          refine ⟨(not_lt.1 h).trans hx.1, fun hlt => ?_⟩
          exact lt_of_le_of_lt (not_lt.1 h) (hx.2 (hxz.trans hlt))
        · exact hall y (by simp [hy])

theorem defined_mem (l : List (Option K)) (v : K) (i : Nat) :
    (v, i) ∈ l.zipIdx.filterMap (fun p => p.1.map (fun v => (v, p.2))) ↔ l[i]? = some (some v) := by
  rw [List.mem_filterMap]
  constructor
  · rintro ⟨⟨o, j⟩, hm, he⟩
    obtain ⟨w, rfl, hw⟩ := Option.map_eq_some_iff.1 he
    simp only [Prod.mk.injEq] at hw
    obtain ⟨rfl, rfl⟩ := hw
    have := List.mem_zipIdx_iff_getElem?.1 hm
    simpa using this
  · intro h
    exact ⟨(some v, i), List.mem_zipIdx_iff_getElem?.2 (by simpa using h), rfl⟩

theorem defined_sorted (l : List (Option K)) : (l.zipIdx.filterMap (fun p => p.1.map (fun v => (v, p.2)))).Pairwise (fun a b => a.2 < b.2) := by
  rw [List.pairwise_filterMap]
  have h : l.zipIdx.Pairwise (fun a b : Option K × Nat => a.2 < b.2) := by
    rw [List.pairwise_iff_getElem]
    intro i j hi hj hij
    simpa using hij
  refine h.imp ?_
  intro a b hab x hx y hy
  obtain ⟨v, -, rfl⟩ := Option.map_eq_some_iff.1 hx
  obtain ⟨w, -, rfl⟩ := Option.map_eq_some_iff.1 hy
  exact hab

/-- C77: the marker `Max` is at the first of the largest defined values of the curve, over its number of trees. Missing: curves without defined
values (`C77_violated_marker`). -/
theorem C77_marker_partial {A : Type} {ks : List A} {values : List (Option K)} (hl : ks.length = values.length) {i0 : Nat} {v0 : K}
    (h0 : values[i0]? = some (some v0)) :
    ∃ (i : Nat) (k : A) (v : K), maxMarker ks values = .ok (k, some v) ∧ ks[i]? = some k ∧ values[i]? = some (some v) ∧
      ∀ (j : Nat) (w : K), values[j]? = some (some w) → w ≤ v ∧ (j < i → w < v) := by
  cases hd : values.zipIdx.filterMap (fun p => p.1.map (fun v => (v, p.2))) with
  | nil =>
    have := (defined_mem values v0 i0).2 h0
    rw [hd] at this
    cases this
  | cons x xs =>
    obtain ⟨⟨v, i⟩, hr, he, hall⟩ := best_pair xs x (hd ▸ defined_sorted values)
    have hi : values[i]? = some (some v) := (defined_mem values v i).1 (hd ▸ hr)
    have hik : i < ks.length := by
      rw [hl]
      by_contra hc
      rw [List.getElem?_eq_none (by omega)] at hi
      cases hi
    refine ⟨i, ks[i], v, ?_, List.getElem?_eq_getElem hik, hi, ?_⟩
    · have hn : nanArgmax values = .ok i := by
        unfold nanArgmax
        rw [hd]
        simp only [he]
      unfold maxMarker
      rw [hn]
      simp only [bind, Except.bind]
      rw [List.getElem?_eq_getElem hik, hi]
      rfl
    · intro j w hw
      exact hall (w, j) (hd ▸ (defined_mem values w j).2 hw)

/-- C77 is violated: without a defined value the whole analysis is not drawn. -/
theorem C77_violated_marker {A : Type} (ks : List A) (values : List (Option K)) (h : ∀ x ∈ values, x = none) :
    maxMarker ks values = .error .valueError := by
  have hd : values.zipIdx.filterMap (fun p => p.1.map (fun v => (v, p.2))) = [] := by
    rw [List.filterMap_eq_nil_iff]
    rintro ⟨o, j⟩ hm
    have := h o (List.fst_mem_of_mem_zipIdx hm)
    rw [this]
    rfl
  unfold maxMarker nanArgmax
  rw [hd]
  rfl

end

/-- C77: a curve with an undefined point and two largest values. -/
example : maxMarker [1, 2, 3, 4] [none, some (1 : ℚ), some 2, some 2] = .ok (3, some 2) ∧ [1, 2, 3, 4].length = [none, some (1 : ℚ), some 2, some 2].length := by
  decide +kernel

/-! ### The rank confusion matrix -/

/-- C77: the logarithm is used when the largest number is more than twice the second. Missing: the documentation says "at least 2 times"
(`C77_violated_twice`), and matrices with one cell (`C77_violated_single`). -/
theorem C77_log_partial {matrix : List (List Nat)} {a b : Nat} {rest : List Nat} (h : matrix.flatten.Perm (a :: b :: rest)) (hab : b ≤ a)
    (hrest : ∀ x ∈ rest, x ≤ b) : isLogScale matrix = .ok (decide (2 * b < a)) := by
  have hs : (matrix.flatten.insertionSort (· ≤ ·)).reverse = a :: b :: (rest.insertionSort (· ≤ ·)).reverse := by
    have h1 : matrix.flatten.insertionSort (· ≤ ·) = rest.insertionSort (· ≤ ·) ++ [b, a] := by
      refine List.Perm.eq_of_pairwise (le := (· ≤ ·)) ?_ (List.pairwise_insertionSort _ _) ?_ ?_
      · intro x y _ _ h1 h2
        exact le_antisymm h1 h2
      · rw [List.pairwise_append]
        refine ⟨List.pairwise_insertionSort _ _, by simpa using hab, ?_⟩
        intro x hx y hy
        have hxb := hrest x ((List.perm_insertionSort _ _).mem_iff.1 hx)
        rcases List.mem_cons.1 hy with rfl | hy
        · exact hxb
        · rw [List.mem_singleton] at hy
          subst hy
          exact hxb.trans hab
      · refine (List.perm_insertionSort _ _).trans (h.trans ?_)
        refine List.Perm.trans ?_ ((List.perm_append_comm).trans ((List.perm_insertionSort (· ≤ ·) rest).append_right [b, a]).symm)
        exact List.Perm.swap b a rest
    rw [h1, List.reverse_append]
    rfl
  unfold isLogScale
  rw [hs]
  simp only
  congr 1
  by_cases hb : b = 0
  · subst hb
    rw [if_pos rfl]
    simp [Nat.pos_iff_ne_zero]
  · rw [if_neg hb]

/-- C77 is violated: the largest number is at least (exactly) two times the second. -/
theorem C77_violated_twice : isLogScale [[1, 4], [2, 0]] = .ok false := by
  decide

/-- C77 is violated: a dataset with one label cannot be drawn. -/
theorem C77_violated_single (x : Nat) : isLogScale [[x]] = .error .indexError := rfl

/-- C77: the hypotheses of `C77_log_partial` can be met. -/
example : [[1, 5], [2, 0]].flatten.Perm (5 :: 2 :: [1, 0]) := by decide

/-- C77 is violated: the horizontal axis is called "Label i" and the vertical one "Label j", but above label `i` and beside label `j` one sees the
number of the pair `j`, `i`. -/
theorem C77_violated_axes {V : Type} {matrix : List (List V)} {i j : Nat} {row : List V} {v : V} (h1 : matrix[j]? = some row) (h2 : row[i]? = some v) :
    meshAt matrix i j = some v ∧ meshAt [[0, 1], [2, 3]] 0 1 = some 2 := by
  refine ⟨?_, rfl⟩
  unfold meshAt
  rw [h1]
  exact h2

/-- C77: the hypotheses can be met. -/
example : [[0, 1], [2, 3]][1]? = some [2, 3] ∧ [2, 3][0]? = some 2 := by decide

end Verif.Props
