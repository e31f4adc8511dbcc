/-
Properties C54 and C57 for values that are NaN, and for datasets without queries or documents.
-/
import Verif.Props.Distribution

namespace Verif.Props
open Eff Spec
variable {K : Type} [Field K] [LinearOrder K] [IsStrictOrderedRing K]

/-- The values that are numbers. -/
def numbers (xs : List (Option K)) : List K := xs.filterMap id

/-- The values of the vectors in which no value is NaN. -/
def wholeValues (vs : List (List (Option K))) : List K := (vs.filter (fun v => !v.contains none)).flatMap numbers

/-- The curve of values some of which are NaN: fractions of all values, but only numbers are counted. -/
def nanFractions (xs : List (Option K)) (lo hi : K) (bins : Nat) : List (Option K) :=
  (List.range bins).map (fun i => if xs = [] then none else some ((below (numbers xs) lo hi bins i : K) / (xs.length : K)))

/-! ### Curves -/

omit [IsStrictOrderedRing K] in
theorem countP_numbers (p : Option K → Bool) (hp : p none = false) : ∀ xs : List (Option K), xs.countP p = ((numbers xs).map some).countP p
  | [] => rfl
  | none :: xs => by
    have ih := countP_numbers p hp xs
    rw [List.countP_cons, hp, ih]
    rfl
  | some x :: xs => by
    have ih := countP_numbers p hp xs
    rw [List.countP_cons, ih]
    show _ = (some x :: (numbers xs).map some).countP p
    rw [List.countP_cons]

theorem cumCounts_numbers (xs : List (Option K)) {lo hi : K} {bins : Nat} (hb : 0 < bins) :
    cumCounts xs (linspace (some lo) (some hi) bins) = cumCounts ((numbers xs).map some) (linspace (some lo) (some hi) bins) := by
  unfold cumCounts
  rw [linspace_some lo hi hb, List.getLast?_concat]
  simp only [List.dropLast_concat]
  congr 1
  · apply List.map_congr_left
    intro e he
    exact countP_numbers _ rfl xs
  · rw [countP_numbers _ rfl xs]

theorem curve_nan (xs : List (Option K)) {lo hi : K} (h : lo ≤ hi) {bins : Nat} (hb : 0 < bins) :
    curve xs (linspace (some lo) (some hi) bins) = .ok (nanFractions xs lo hi bins) := by
  unfold nanFractions
  by_cases hne : xs = []
  · subst hne
    rw [curve_empty h hb]
    simp
  have hlen : xs.length ≠ 0 := fun e => hne (List.length_eq_zero_iff.1 e)
  by_cases hnum : numbers xs = []
  · have h0 : ∀ i, below (numbers xs) lo hi bins i = 0 := by
      intro i
      rw [hnum]
      unfold below
      split <;> rfl
    have hc : cumCounts xs (linspace (some lo) (some hi) bins) = List.replicate (bins + 1) 0 := by
      rw [cumCounts_numbers xs hb, hnum]
      unfold cumCounts
      rw [linspace_some lo hi hb, List.getLast?_concat]
      simp only [List.dropLast_concat, List.map_nil, List.countP_nil, List.map_const', List.length_map, List.length_range]
      rw [List.replicate_succ']
    unfold curve histogram
    rw [not_decreasing h hb]
    show Except.ok _ = _
    rw [hc, List.replicate_succ, npCumsum_npDiff]
    simp only [h0, if_neg hne, if_neg hlen]
    congr 1
    rw [List.map_map, List.map_replicate, List.map_const', List.length_range]
    simp
  · have e := curve_spec (numbers xs) hnum h hb
    have hlen' : ((numbers xs).length : K) ≠ 0 := by
      intro e0
      exact hnum (List.length_eq_zero_iff.1 (by exact_mod_cast e0))
    unfold curve histogram at e ⊢
    rw [not_decreasing h hb] at e ⊢
    rw [cumCounts_numbers xs hb]
    replace e := Except.ok.inj e
    show Except.ok _ = _
    congr 1
    simp only [if_neg hne, if_neg hlen]
    have hl1 : ((numbers xs).map some).length ≠ 0 := by
      rw [List.length_map]
      exact fun e => hnum (List.length_eq_zero_iff.1 e)
    simp only [if_neg hl1, List.length_map] at e
    generalize npCumsum 0 (npDiff (cumCounts ((numbers xs).map some) (linspace (some lo) (some hi) bins))) = L at e ⊢
    have e' := congrArg (List.map (fun o : Option K => o.map (fun c => c * ((numbers xs).length : K) / (xs.length : K)))) e
    rw [List.map_map, List.map_map] at e'
    simpa [Function.comp_def, div_mul_cancel₀ _ hlen', hnum] using e'

/-! ### Least and greatest value -/

omit [IsStrictOrderedRing K] in
theorem foldl_nan (op : K → K → K) : ∀ (xs : List (Option K)) (a : Option K), (a = none ∨ none ∈ xs) → xs.foldl (nanOp op) a = none
  | [], a, h => by simpa using h
  | x :: xs, a, h => by
    rw [List.foldl_cons]
    apply foldl_nan op xs
    rcases h with rfl | h
    · left; cases x <;> rfl
    · rcases List.mem_cons.1 h with rfl | h
      · left; cases a <;> rfl
      · exact Or.inr h

omit [IsStrictOrderedRing K] in
theorem foldlM_whole (op : K → K → K) : ∀ (vs : List (List (Option K))) (acc : Option K), (∀ v ∈ vs, v ≠ []) →
    vs.foldlM (fun acc xs => do
        let m ← npReduce op xs
        pure (nanReduce op acc m)) acc =
      ((vs.filter (fun v => !v.contains none)).foldlM (fun acc xs => do
        let m ← npReduce op xs
        pure (nanReduce op acc m)) acc : Except PyErr (Option K))
  | [], acc, _ => rfl
  | [] :: vs, acc, h => absurd rfl (h [] List.mem_cons_self)
  | (x :: xs) :: vs, acc, h => by
    have ih := fun acc => foldlM_whole op vs acc (fun v hv => h v (List.mem_cons_of_mem _ hv))
    rw [List.foldlM_cons]
    by_cases hc : (x :: xs).contains none
    · rw [List.filter_cons_of_neg (by simp only [hc]; decide)]
      have hn : npReduce op (x :: xs) = .ok none := by
        show Except.ok _ = _
        rw [foldl_nan]
        have := List.contains_iff_mem.1 hc
        rcases List.mem_cons.1 this with h | h
        · exact Or.inl h.symm
        · exact Or.inr h
      rw [hn]
      show List.foldlM _ _ _ = _
      rw [ih]
      cases acc <;> rfl
    · rw [List.filter_cons_of_pos (by simpa using hc), List.foldlM_cons]
      have : npReduce op (x :: xs) = .ok (xs.foldl (nanOp op) x) := rfl
      rw [this]
      show List.foldlM _ _ _ = List.foldlM _ _ _
      rw [ih]

omit [IsStrictOrderedRing K] in
theorem numbers_whole {v : List (Option K)} (h : none ∉ v) : v = (numbers v).map some := by
  induction v with
  | nil => rfl
  | cons x v ih =>
    cases x with
    | none => simp at h
    | some x =>
      have := ih (fun hm => h (List.mem_cons_of_mem _ hm))
      show some x :: v = some x :: (numbers v).map some
      rw [← this]

omit [IsStrictOrderedRing K] in
theorem filter_whole (vs : List (List (Option K))) : ∃ ws : List (List K), vs.filter (fun v => !v.contains none) = ws.map (·.map some) ∧
    ws.flatten = wholeValues vs ∧ ((∀ v ∈ vs, v ≠ []) → ∀ w ∈ ws, w ≠ []) := by
  refine ⟨(vs.filter (fun v => !v.contains none)).map numbers, ?_, rfl, ?_⟩
  · rw [List.map_map]
    conv_lhs => rw [← List.map_id (vs.filter (fun v => !v.contains none))]
    apply List.map_congr_left
    intro v hv
    have := (List.mem_filter.1 hv).2
    exact numbers_whole (by simpa using this)
  · intro h w hw
    obtain ⟨v, hv, rfl⟩ := List.mem_map.1 hw
    have h1 := (List.mem_filter.1 hv)
    have h2 : v = (numbers v).map some := numbers_whole (by simpa using h1.2)
    intro e
    rw [e] at h2
    exact h v h1.1 h2

theorem globalMin_nan {vs : List (List (Option K))} (h : ∀ v ∈ vs, v ≠ []) :
    ∃ r, globalReduce min vs = .ok r ∧ ∀ {start : Option K} {lo : K}, StartsAt start (wholeValues vs) lo → (if start.isSome then start else r) = some lo := by
  obtain ⟨ws, e, hf, hn⟩ := filter_whole vs
  unfold globalReduce
  rw [foldlM_whole min vs none h, e]
  by_cases hw : ws = []
  · subst hw
    refine ⟨none, rfl, ?_⟩
    intro start lo hs
    rcases hs with rfl | ⟨_, hm, _⟩
    · rfl
    · rw [← hf] at hm
      simp at hm
  · obtain ⟨m, e1, h1, h2⟩ := globalMin hw (hn h)
    rw [hf] at h1 h2
    exact ⟨some m, e1, fun hs => hs.eq h1 h2⟩

theorem globalMax_nan {vs : List (List (Option K))} (h : ∀ v ∈ vs, v ≠ []) :
    ∃ r, globalReduce max vs = .ok r ∧ ∀ {stop : Option K} {hi : K}, EndsAt stop (wholeValues vs) hi → (if stop.isSome then stop else r) = some hi := by
  obtain ⟨ws, e, hf, hn⟩ := filter_whole vs
  unfold globalReduce
  rw [foldlM_whole max vs none h, e]
  by_cases hw : ws = []
  · subst hw
    refine ⟨none, rfl, ?_⟩
    intro start lo hs
    rcases hs with rfl | ⟨_, hm, _⟩
    · rfl
    · rw [← hf] at hm
      simp at hm
  · obtain ⟨m, e1, h1, h2⟩ := globalMax hw (hn h)
    rw [hf] at h1 h2
    exact ⟨some m, e1, fun hs => hs.eq h1 h2⟩

/-! ### C54 -/

/-- C54 with NaN values: a query whose value is NaN is in no bin, so that the curve ends at the fraction of the queries with a number. The range, where it is
not given, is that of the runs in which no value is NaN. -/
theorem C54_nan {vs : List (List (Option K))} (hv : ∀ v ∈ vs, v ≠ []) {nq : List Nat} {start stop : Option K} {bins : Option Nat}
    {lo hi : K} {n : Nat} (hlo : StartsAt start (wholeValues vs) lo) (hhi : EndsAt stop (wholeValues vs) hi) (hn : BinsAre bins nq n) (h : lo ≤ hi)
    (hb : 0 < n) :
    queryWise vs nq bins start stop =
      .ok ((List.range n).map (fun (i : Nat) => some (lo + (i : K) * ((hi - lo) / (n : K)) + 1 / (n : K))), vs.map (fun xs => nanFractions xs lo hi n)) := by
  obtain ⟨m, e1, h1⟩ := globalMin_nan hv
  obtain ⟨m', e2, h2⟩ := globalMax_nan hv
  have hm : vs.mapM (fun xs => curve xs (linspace (some lo) (some hi) n)) = .ok (vs.map (fun xs => nanFractions xs lo hi n)) :=
    mapM_ok_map (fun xs _ => curve_nan xs h hb)
  rcases hn with rfl | ⟨rfl, h5, h6⟩
  · unfold queryWise
    rw [e1, e2]
    simp only [okBind]
    rw [h1 hlo, h2 hhi]
    show (Bind.bind (m := Except PyErr) (vs.mapM (fun xs => curve xs (linspace (some lo) (some hi) n))) _) = _
    rw [hm, okBind, binLabels_spec lo hi hb]
    rfl
  · have hmax : nq.max? = some n := List.max?_eq_some_iff.2 ⟨h5, h6⟩
    unfold queryWise
    rw [e1, e2]
    simp only [okBind]
    rw [h1 hlo, h2 hhi, hmax]
    show (Bind.bind (m := Except PyErr) (vs.mapM (fun xs => curve xs (linspace (some lo) (some hi) n))) _) = _
    rw [hm, okBind, binLabels_spec lo hi hb]
    rfl

/-- The hypotheses of `C54_nan`: the second run has a NaN, the range is that of the first. -/
example : (∀ v ∈ [[some (1 : ℚ), some 3], [some 9, none, some 2]], v ≠ []) ∧ StartsAt none (wholeValues [[some (1 : ℚ), some 3], [some 9, none, some 2]]) 1 ∧
    EndsAt none (wholeValues [[some (1 : ℚ), some 3], [some 9, none, some 2]]) 3 ∧
    nanFractions [some (9 : ℚ), none, some 2] 1 3 2 = [some 0, some (1 / 3)] := by
  refine ⟨by simp, Or.inr ⟨rfl, by decide +kernel, ?_⟩, Or.inr ⟨rfl, by decide +kernel, ?_⟩, by decide +kernel⟩
  · show ∀ x ∈ [(1 : ℚ), 3], _
    simp
  · show ∀ x ∈ [(1 : ℚ), 3], _
    simp

omit [IsStrictOrderedRing K] in
theorem globalReduce_empty (op : K → K → K) {vs : List (List (Option K))} (h : [] ∈ vs) : globalReduce op vs = .error .valueError := by
  unfold globalReduce
  generalize (none : Option K) = acc
  induction vs generalizing acc with
  | nil => simp at h
  | cons v vs ih =>
    rw [List.foldlM_cons]
    cases v with
    | nil => rfl
    | cons x xs =>
      have : npReduce op (x :: xs) = .ok (xs.foldl (nanOp op) x) := rfl
      rw [this]
      show List.foldlM _ _ _ = _
      apply ih
      simpa using h

omit [IsStrictOrderedRing K] in
/-- C54: a dataset without queries is an error, even if the range is given. -/
theorem C54_no_queries {vs : List (List (Option K))} (h : [] ∈ vs) (nq : List Nat) (bins : Option Nat) (start stop : Option K) :
    queryWise vs nq bins start stop = .error .valueError := by
  unfold queryWise
  rw [globalReduce_empty min h]
  rfl

example : queryWise [[some (1 : ℚ)], []] [1, 0] (some 2) (some 0) (some 1) = .error .valueError := C54_no_queries (by simp) _ _ _ _

/-! ### C57 -/

variable {C : Type} [LinearOrder C]

/-- C57 with NaN scores: a document whose score is NaN is in no bin. -/
theorem C57_nan {runs : List (List C × List (List (Option K)))} {n bins : Nat} (hn : 0 < n) (hb : 0 < bins) (hy : ∀ r ∈ runs, r.1.length = n)
    (hp : ∀ r ∈ runs, ∀ p ∈ r.2, p.length = n) (hne : runs ≠ []) {start stop : Option K} {lo hi : K}
    (hlo : StartsAt start (wholeValues (runs.flatMap (·.2))) lo) (hhi : EndsAt stop (wholeValues (runs.flatMap (·.2))) hi) (h : lo ≤ hi) :
    ∃ labels, gradedRelevance runs (some bins) start stop =
        .ok (labels, (List.range bins).map (fun (i : Nat) => some (lo + (i : K) * ((hi - lo) / (bins : K)) + 1 / (bins : K))),
          runs.map (fun r => r.2.map (fun p => labels.map (fun l => nanFractions (ofClass r.1 p l) lo hi bins)))) ∧
      labels.Pairwise (· < ·) ∧ (∀ l, l ∈ labels ↔ ∃ r ∈ runs, l ∈ r.1) := by
  have hv : ∀ v ∈ runs.flatMap (·.2), v ≠ [] := by
    intro v hv
    obtain ⟨r, hr, hv⟩ := List.mem_flatMap.1 hv
    have := hp r hr v hv
    rintro rfl
    simp at this
    omega
  obtain ⟨m, e1, h1⟩ := globalMin_nan hv
  obtain ⟨m', e2, h2⟩ := globalMax_nan hv
  have el : relLabels (runs.map (·.1)) = .ok (npUniqueOf (runs.map (·.1)).flatten) := by
    match runs, hy, hne with
    | r :: runs, hy, _ =>
      rw [List.map_cons, relLabels]
      rw [if_pos]
      rw [List.all_eq_true]
      intro z hz
      obtain ⟨r', hr', rfl⟩ := List.mem_map.1 hz
      rw [hy r List.mem_cons_self, hy r' (List.mem_cons_of_mem _ hr')]
      simp
  refine ⟨npUniqueOf (runs.map (·.1)).flatten, ?_, npUniqueOf_sorted _, ?_⟩
  · unfold gradedRelevance
    rw [e1, e2]
    simp only [okBind]
    rw [h1 hlo, h2 hhi]
    show (Bind.bind (m := Except PyErr) (relLabels _) _) = _
    rw [el]
    have key : runs.mapM (fun run => run.2.mapM (fun yPred =>
        (npUniqueOf (runs.map (·.1)).flatten).mapM (fun l => gradedCurve run.1 yPred (linspace (some lo) (some hi) bins) l))) =
        .ok (runs.map (fun r => r.2.map (fun p => (npUniqueOf (runs.map (·.1)).flatten).map (fun l => nanFractions (ofClass r.1 p l) lo hi bins)))) := by
      apply mapM_ok_map
      intro r hr
      apply mapM_ok_map
      intro p hp'
      apply mapM_ok_map
      intro l _
      unfold gradedCurve
      rw [select_spec l r.1 p (by rw [hy r hr, hp r hr p hp'])]
      exact curve_nan _ h hb
    show (Bind.bind (m := Except PyErr) (runs.mapM (fun run => run.2.mapM (fun yPred =>
        (npUniqueOf (runs.map (·.1)).flatten).mapM (fun l => gradedCurve run.1 yPred (linspace (some lo) (some hi) bins) l)))) _) = _
    rw [key]
    show (Bind.bind (m := Except PyErr) (binLabels (linspace (some lo) (some hi) bins) bins) _) = _
    rw [binLabels_spec lo hi hb]
    rfl
  · intro l
    rw [npUniqueOf_mem, List.mem_flatten]
    simp

/-- The hypotheses of `C57_nan`: one dataset, the second of two models has a NaN score. -/
example : ∃ (runs : List (List Nat × List (List (Option ℚ)))), (∀ r ∈ runs, r.1.length = 2) ∧ (∀ r ∈ runs, ∀ p ∈ r.2, p.length = 2) ∧
    runs ≠ [] ∧ StartsAt none (wholeValues (runs.flatMap (·.2))) 1 ∧ EndsAt none (wholeValues (runs.flatMap (·.2))) 2 := by
  refine ⟨[([0, 1], [[some 1, some 2], [none, some 7]])], by simp, by simp, by simp, Or.inr ⟨rfl, by decide +kernel, ?_⟩, Or.inr ⟨rfl, by decide +kernel, ?_⟩⟩
  · show ∀ x ∈ [(1 : ℚ), 2], _
    simp
  · show ∀ x ∈ [(1 : ℚ), 2], _
    simp

omit [IsStrictOrderedRing K] in
/-- C57: a dataset without documents is an error. -/
theorem C57_no_documents {runs : List (List C × List (List (Option K)))} (h : ∃ r ∈ runs, [] ∈ r.2) (bins : Option Nat) (start stop : Option K) :
    gradedRelevance runs bins start stop = .error .valueError := by
  obtain ⟨r, hr, h⟩ := h
  unfold gradedRelevance
  rw [globalReduce_empty min (List.mem_flatMap.2 ⟨r, hr, h⟩)]
  rfl

example : gradedRelevance [(([] : List Nat), [([] : List (Option ℚ))])] (some 2) none none = .error .valueError :=
  C57_no_documents ⟨_, List.mem_cons_self, by simp⟩ _ _ _

end Verif.Props
