/-
Property C91: rounding errors of averages.
-/
import Verif.Lemmas.Pairwise
import Verif.Lemmas.Binary32
import Verif.Spec.MeanRounding
import Verif.Props.Eval

namespace Verif.Props
open Spec Ensemble Metrics
variable {F V R L S : Type} {ops : FloatOps F} {finite : F → Prop} {num : F → ℝ} {u η : ℝ}

/-- Sums over the stored values. -/
theorem stored_sums (hz : num ops.zero = 0) {δ : ℝ} (hδ : 0 ≤ δ) (hu : 0 ≤ u) {xs : List (Option ℝ)} {det : List (Option F)} (h : List.Forall₂ (Stored finite num u δ) xs det) :
    (det.countP (·.isSome) = (xs.filterMap id).length) ∧
    |((det.map (fun v => v.elim ops.zero id)).map num).sum - (xs.filterMap id).sum| ≤
      u * ((xs.filterMap id).map (fun x => |x|)).sum + (xs.filterMap id).length * δ ∧
    ((det.map (fun v => v.elim ops.zero id)).map (fun a => |num a|)).sum ≤
      (1 + u) * ((xs.filterMap id).map (fun x => |x|)).sum + (xs.filterMap id).length * δ := by
  induction h with
  | nil => simp
  | @cons x a xs det hxa _ ih =>
    obtain ⟨h1, h2, h3⟩ := ih
    cases hxa with
    | undefined =>
      refine ⟨by simpa using h1, ?_, ?_⟩
      · simpa [hz] using h2
      · simpa [hz] using h3
    | value x a hf h =>
      have e0 : (some x :: xs).filterMap id = x :: xs.filterMap id := rfl
      rw [e0]
      clear e0
      generalize xs.filterMap id = zs at h1 h2 h3 ⊢
      refine ⟨by simpa using h1, ?_, ?_⟩
      · simp only [List.map_cons, Option.elim_some, id_eq, List.sum_cons, List.length_cons]
        have e : num a + ((det.map (fun v => v.elim ops.zero id)).map num).sum - (x + zs.sum) =
            (num a - x) + (((det.map (fun v => v.elim ops.zero id)).map num).sum - zs.sum) := by ring
        rw [e]
        refine (abs_add_le _ _).trans ?_
        push_cast
        linarith
      · simp only [List.map_cons, Option.elim_some, id_eq, List.sum_cons, List.length_cons]
        have := abs_le_of_error h
        push_cast
        linarith

/-- C91: `np.nanmean` of the stored values is NaN exactly if no value is defined; otherwise it differs from the mean of the exact values by at most the
bound, if it is finite. `e` grows with the logarithm of the number of queries. -/
theorem C91_nanmean (hr : Rounded ops finite num u η) {w θ δ : ℝ} (hw : 0 ≤ w) (hδ : 0 ≤ δ) {div : F → Nat → F}
    (hdiv : ∀ a n, 0 < n → finite (div a n) → finite a ∧ |num (div a n) - num a / n| ≤ w * |num a / n| + θ)
    {xs : List (Option ℝ)} {det : List (Option F)} (h : List.Forall₂ (Stored finite num u δ) xs det) {e : Nat} (hn : det.length ≤ 112 * 2 ^ e + 16) :
    ((∀ x ∈ xs, x = none) → nanmeanFloat ops div det = none) ∧
    ((∃ x ∈ xs, x ≠ none) → ∃ avg, nanmeanFloat ops div det = some avg ∧ (finite avg →
      |num avg - definedMean xs| ≤ ((1 + u) ^ (e + 26) * (1 + w) - 1) * definedSize xs + (1 + w) * (1 + u) ^ (e + 25) * δ + θ)) := by
  obtain ⟨h1, h2, h3⟩ := stored_sums hr.zero hδ hr.u_nonneg h
  have hu := hr.u_nonneg
  constructor
  · intro hall
    have : xs.filterMap id = [] := List.filterMap_eq_nil_iff.2 hall
    unfold nanmeanFloat
    rw [if_pos (by rw [h1, this]; rfl)]
  · rintro ⟨x, hx, hne⟩
    have hne' : xs.filterMap id ≠ [] := fun h0 => hne (List.filterMap_eq_nil_iff.1 h0 x hx)
    have hpos : 0 < (xs.filterMap id).length := List.length_pos_iff.2 hne'
    unfold nanmeanFloat
    rw [if_neg (by omega), h1]
    refine ⟨_, rfl, fun hf => ?_⟩
    obtain ⟨hfs, hd⟩ := hdiv _ _ hpos hf
    have hsum := (sumTree_error hr (pairwiseSum_sum (ops := ops) e (l := det.map (fun v => v.elim ops.zero id)) (by simpa using hn)) hfs).2
    unfold definedMean definedSize
    set n := (xs.filterMap id).length with hndef
    set A := ((xs.filterMap id).map (fun x => |x|)).sum
    set X := (xs.filterMap id).sum
    set S := pairwiseSum ops (det.map (fun v => v.elim ops.zero id))
    set T := ((det.map (fun v => v.elim ops.zero id)).map num).sum
    set B := ((det.map (fun v => v.elim ops.zero id)).map (fun a => |num a|)).sum
    have hn0 : (0 : ℝ) < n := by exact_mod_cast hpos
    have hXA : |X| ≤ A := abs_sum_le _
    set P := (1 + u) ^ (25 + e) with hP
    have hP1 : 1 ≤ P := one_le_pow hu _
    have hSX : |num S - X| ≤ (P * (1 + u) - 1) * A + P * (n * δ) := by
      have e1 : num S - X = (num S - T) + (T - X) := by ring
      have e2 : |num S - X| ≤ |num S - T| + |T - X| := by rw [e1]; exact abs_add_le _ _
      have e3 : (P - 1) * B ≤ (P - 1) * ((1 + u) * A + n * δ) := mul_le_mul_of_nonneg_left h3 (by linarith)
      nlinarith
    have hq : |num S / n - X / n| ≤ ((P * (1 + u) - 1) * A + P * (n * δ)) / n := by
      rw [← sub_div, abs_div, abs_of_pos hn0]
      exact div_le_div_of_nonneg_right hSX hn0.le
    have hq2 : ((P * (1 + u) - 1) * A + P * (n * δ)) / n = (P * (1 + u) - 1) * (A / n) + P * δ := by
      field_simp
    have hXn : |X / n| ≤ A / n := by
      rw [abs_div, abs_of_pos hn0]
      exact div_le_div_of_nonneg_right hXA hn0.le
    have hsize : |num S / n| ≤ ((P * (1 + u) - 1) * (A / n) + P * δ) + A / n := by
      have := abs_le_of_error (hq.trans hq2.le)
      linarith
    have e4 : num (div S n) - X / n = (num (div S n) - num S / n) + (num S / n - X / n) := by ring
    have e5 : |num (div S n) - X / n| ≤ |num (div S n) - num S / n| + |num S / n - X / n| := by rw [e4]; exact abs_add_le _ _
    have e6 := mul_le_mul_of_nonneg_left hsize hw
    have e7 : (1 + u) ^ (e + 26) = P * (1 + u) := by
      rw [hP, show e + 26 = 25 + e + 1 by omega, pow_succ]
    have e8 : (1 + u) ^ (e + 25) = P := by rw [hP, Nat.add_comm]
    rw [e7, e8]
    refine e5.trans ?_
    rw [hq2] at hq
    nlinarith

/-- C91 for `Metric.eval`: the stored values are those of the queries, in order, and the average is off by at most the bound from the mean of the exact
values `exact q` of the queries. -/
theorem C91_eval {X : List R} {nf : Nat} {y : List L} {ids : List Int} {d : Dataset R L} {yPred : List S} (hr : Rounded ops finite num u η) {w θ δ : ℝ}
    (hw : 0 ≤ w) (hδ : 0 ≤ δ) {store : V → F} {div : F → Nat → F}
    (hdiv : ∀ a n, 0 < n → finite (div a n) → finite a ∧ |num (div a n) - num a / n| ≤ w * |num a / n| + θ)
    {evalQ : List L → List S → Except PyErr (Option V)} (h : mkDataset X nf y ids = .ok d) (hc : Contiguous ids) (hy : y.length = ids.length)
    (hp : yPred.length = ids.length) (exact : Int → Option ℝ)
    (hq : ∀ q ∈ ids, ∃ v, evalQ (ofQuery q ids y) (ofQuery q ids yPred) = .ok v ∧ Stored finite num u δ (exact q) (v.map store))
    {e : Nat} (hn : d.queryIds.length ≤ 112 * 2 ^ e + 16) :
    ∃ avg det, metricEvalFloat ops store div evalQ d yPred = .ok (avg, det) ∧
      List.Forall₂ (fun q a => Stored finite num u δ (exact q) a) d.queryIds det ∧
      ((∀ q ∈ ids, exact q = none) → avg = none) ∧
      ((∃ q ∈ ids, exact q ≠ none) → ∃ a, avg = some a ∧ (finite a → |num a - definedMean (d.queryIds.map exact)| ≤
        ((1 + u) ^ (e + 26) * (1 + w) - 1) * definedSize (d.queryIds.map exact) + (1 + w) * (1 + u) ^ (e + 25) * δ + θ)) := by
  have hb := built_of_mk h
  have hlen : (List.replicate d.nQueries (some ops.zero)).length = 0 + (queryIter d yPred).length := by
    simp [length_queryIter h, Dataset.nQueries]
  obtain ⟨det, hdet⟩ := evalLoop_isOk id (fun y s => (evalQ y s).map (Option.map store)) (queryIter d yPred) 0 _ hlen (by
    rw [queryIter_contiguous h hc hy hp]
    intro b hb'
    obtain ⟨q, hq', rfl⟩ := List.mem_map.1 hb'
    obtain ⟨v, hv, -⟩ := hq q (hb.mem_iff.1 hq')
    exact ⟨v.map store, by simp only [hv]; rfl⟩)
  obtain ⟨r1, -, r3⟩ := evalLoop_ok _ _ _ 0 _ _ hlen hdet
  have hl : det.length = d.queryIds.length := by rw [r1]; simp [Dataset.nQueries]
  have hall : List.Forall₂ (fun q a => Stored finite num u δ (exact q) a) d.queryIds det := by
    rw [List.forall₂_iff_get]
    refine ⟨hl.symm, fun i h1 h2 => ?_⟩
    have hi : d.queryIds[i]? = some d.queryIds[i] := List.getElem?_eq_getElem h1
    obtain ⟨v, hv, hres⟩ := r3 i (d.queryIds[i], ofQuery d.queryIds[i] ids y, ofQuery d.queryIds[i] ids yPred) (by
        rw [queryIter_contiguous h hc hy hp, List.getElem?_map, hi]; rfl)
    obtain ⟨v', hv', hst⟩ := hq d.queryIds[i] (hb.mem_iff.1 (List.getElem_mem h1))
    simp only [hv', Except.map, Except.ok.injEq] at hv
    rw [Nat.zero_add, List.getElem?_eq_getElem h2, Option.some.injEq] at hres
    simp only [List.get_eq_getElem]
    rw [hres, id, ← hv]
    exact hst
  obtain ⟨h1, h2⟩ := C91_nanmean hr hw hδ hdiv (xs := d.queryIds.map exact) (List.forall₂_map_left_iff.2 hall) (by rw [hl]; exact hn)
  refine ⟨_, det, by simp only [metricEvalFloat, hdet, bind, Except.bind]; rfl, hall, fun h0 => h1 ?_, fun h0 => h2 ?_⟩
  · intro x hx
    obtain ⟨q, hq', rfl⟩ := List.mem_map.1 hx
    exact h0 q (hb.mem_iff.1 hq')
  · obtain ⟨q, hq', hne⟩ := h0
    exact ⟨_, List.mem_map_of_mem (hb.mem_iff.2 hq'), hne⟩

/-! ### Single precision -/

theorem toSingle_error {x : ℚ} (h : (toSingle x).isSome = true) : |Binary32.num (toSingle x) - x| ≤ 1 / 2 ^ 24 * |(x : ℝ)| + 1 / 2 ^ 150 := by
  have e := Binary32.round_finite h
  unfold toSingle at h ⊢
  rw [e]
  simp only [Binary32.num]
  have hp : (0 : ℝ) < 2 ^ 149 := by positivity
  have key : |((Binary32.grid (x * 2 ^ 149) : Int) : ℝ) - (x : ℝ) * 2 ^ 149| ≤ 1 / 2 ^ 24 * |(x : ℝ) * 2 ^ 149| + 1 / 2 := by
    by_cases h0 : Binary32.ulp (x * 2 ^ 149) = 0
    · have := Binary32.cast_error (Binary32.grid_zero h0)
      push_cast at this
      have h2 : 0 ≤ 1 / 2 ^ 24 * |(x : ℝ) * 2 ^ 149| := by positivity
      linarith
    · have := Binary32.cast_error (Binary32.grid_error h0)
      push_cast at this
      linarith
  have e2 : ((Binary32.grid (x * 2 ^ 149) : Int) : ℝ) / 2 ^ 149 - x = (((Binary32.grid (x * 2 ^ 149) : Int) : ℝ) - (x : ℝ) * 2 ^ 149) / 2 ^ 149 := by
    field_simp
  rw [e2, abs_div, abs_of_pos hp, div_le_iff₀ hp]
  refine key.trans (le_of_eq ?_)
  rw [abs_mul, abs_of_pos hp, add_mul]
  congr 1
  · ring
  · rw [show (2 : ℝ) ^ 150 = 2 ^ 149 * 2 from pow_succ 2 149]
    field_simp

theorem toSingle_isSome {x : ℚ} (h : |x| ≤ 2 ^ 100) : (toSingle x).isSome = true := by
  apply Binary32.round_isSome
  rw [abs_mul, abs_of_pos (by positivity : (0 : ℚ) < 2 ^ 149)]
  have h1 : |x| * 2 ^ 149 ≤ 2 ^ 100 * 2 ^ 149 := mul_le_mul_of_nonneg_right h (by positivity)
  have h2 : (2 : ℚ) ^ 100 * 2 ^ 149 = 2 ^ 249 := by rw [← pow_add]
  have h3 : (2 : ℚ) ^ 277 = 2 ^ 249 * 2 ^ 28 := by rw [← pow_add]
  rw [h2] at h1
  rw [h3]
  have h4 : (0 : ℚ) ≤ 2 ^ 249 := by positivity
  generalize (2 : ℚ) ^ 249 = P at h1 h4 ⊢
  norm_num
  linarith

theorem divSingle_error {dbl : ℚ → ℚ} (hd : ∀ x, |dbl x - x| ≤ |x| / 2 ^ 53) (a : Option Int) (n : Nat) (hf : (divSingle dbl a n).isSome = true) :
    a.isSome = true ∧ |Binary32.num (divSingle dbl a n) - Binary32.num a / n| ≤ 1 / 2 ^ 23 * |Binary32.num a / n| + 1 / 2 ^ 150 := by
  cases a with
  | none => simp [divSingle] at hf
  | some a =>
    refine ⟨rfl, ?_⟩
    have h1 := toSingle_error hf
    set x : ℚ := (a : ℚ) / 2 ^ 149 / n with hx
    have e : Binary32.num (some a) / n = (x : ℝ) := by
      rw [hx]
      simp [Binary32.num]
    rw [e]
    have h2 : |((dbl x : ℚ) : ℝ) - x| ≤ |(x : ℝ)| / 2 ^ 53 := by
      have := hd x
      have h3 : ((|dbl x - x| : ℚ) : ℝ) ≤ ((|x| / 2 ^ 53 : ℚ) : ℝ) := by exact_mod_cast this
      simpa using h3
    show |Binary32.num (toSingle (dbl x)) - x| ≤ _
    have h4 := abs_le_of_error h2
    have h5 : |Binary32.num (toSingle (dbl x)) - x| ≤ |Binary32.num (toSingle (dbl x)) - (dbl x : ℚ)| + |((dbl x : ℚ) : ℝ) - x| := by
      have : Binary32.num (toSingle (dbl x)) - (x : ℝ) = (Binary32.num (toSingle (dbl x)) - (dbl x : ℚ)) + (((dbl x : ℚ) : ℝ) - x) := by ring
      rw [this]
      exact abs_add_le _ _
    have h6 := abs_nonneg (x : ℝ)
    generalize |(x : ℝ)| = A at *
    generalize |((dbl x : ℚ) : ℝ)| = B at *
    norm_num at *
    linarith

theorem metricEvalFloat_avg {store : V → F} {div : F → Nat → F} {evalQ : List L → List S → Except PyErr (Option V)} {d : Dataset R L} {yPred : List S}
    {avg : Option F} {det : List (Option F)} (h : metricEvalFloat ops store div evalQ d yPred = .ok (avg, det)) : avg = nanmeanFloat ops div det := by
  simp only [metricEvalFloat, bind, Except.bind] at h
  split at h
  · simp at h
  · simp only [pure, Except.pure, Except.ok.injEq, Prod.mk.injEq] at h
    rw [← h.1, ← h.2]

theorem filterMap_map_some {α β : Type} (f : α → β) (l : List α) : (l.map (fun q => some (f q))).filterMap id = l.map f := by
  induction l with
  | nil => rfl
  | cons x l ih =>
    have e0 : ((x :: l).map (fun q => some (f q))).filterMap id = f x :: (l.map (fun q => some (f q))).filterMap id := rfl
    rw [e0, ih]
    rfl

theorem forall₂_exists_left {α β : Type} {p : α → β → Prop} {l : List α} {m : List β} (h : List.Forall₂ p l m) {b : β} (hb : b ∈ m) : ∃ a ∈ l, p a b := by
  induction h with
  | nil => simp at hb
  | cons h0 _ ih =>
    rcases List.mem_cons.1 hb with rfl | hb
    · exact ⟨_, List.mem_cons_self, h0⟩
    · obtain ⟨a, ha, hp⟩ := ih hb
      exact ⟨a, List.mem_cons_of_mem _ ha, hp⟩

/-- The average does not overflow. -/
theorem nanmean_finite {dbl : ℚ → ℚ} (hd : ∀ x, |dbl x - x| ≤ |x| / 2 ^ 53) {det : List (Option (Option Int))} {xs : List (Option ℝ)} {δ : ℝ} (hδ : 0 ≤ δ)
    (hδ2 : δ ≤ 3) (h : List.Forall₂ (Stored (fun a : Option Int => a.isSome = true) Binary32.num (1 / 2 ^ 24) δ) xs det) (hx : ∀ x, some x ∈ xs → |x| ≤ 1)
    {e : Nat} (he : e ≤ 40) (hn : det.length ≤ 112 * 2 ^ e + 16) {a : Option Int} (ha : nanmeanFloat Binary32.ops (divSingle dbl) det = some a) :
    a.isSome = true := by
  obtain ⟨h1, -, h3⟩ := stored_sums (ops := Binary32.ops) Binary32.rounded.zero hδ Binary32.rounded.u_nonneg h
  have hlen : (xs.filterMap id).length ≤ det.length := by rw [← h1]; exact List.countP_le_length
  have hA : ((xs.filterMap id).map (fun x => |x|)).sum ≤ (xs.filterMap id).length := by
    have : ∀ l : List ℝ, (∀ x ∈ l, |x| ≤ 1) → (l.map (fun x => |x|)).sum ≤ l.length := by
      intro l
      induction l with
      | nil => simp
      | cons x l ih =>
        intro hl
        have i1 := ih (fun y hy => hl y (List.mem_cons_of_mem _ hy))
        have i2 := hl x List.mem_cons_self
        simp only [List.map_cons, List.sum_cons, List.length_cons]
        push_cast
        linarith
    apply this
    intro x hx'
    obtain ⟨y, hy, hyx⟩ := List.mem_filterMap.1 hx'
    exact hx x (by rw [← hyx]; exact hy)
  have hN : ((xs.filterMap id).length : ℝ) ≤ 2 ^ 50 := by
    have i1 : 2 ^ e ≤ 2 ^ 40 := Nat.pow_le_pow_right (by norm_num) he
    have i2 : (xs.filterMap id).length ≤ 2 ^ 50 := by omega
    exact_mod_cast i2
  unfold nanmeanFloat at ha
  split at ha
  · simp at ha
  rename_i hc
  rw [Option.some.injEq] at ha
  have hB : ((det.map (fun v => v.elim Binary32.ops.zero id)).map (fun a => |Binary32.num a|)).sum ≤ 2 ^ 53 := by
    have i0 : (0 : ℝ) ≤ (xs.filterMap id).length := Nat.cast_nonneg _
    have i1 : ((xs.filterMap id).length : ℝ) * δ ≤ (xs.filterMap id).length * 3 := mul_le_mul_of_nonneg_left hδ2 i0
    refine h3.trans ?_
    generalize xs.filterMap id = zs at i0 i1 hN hA ⊢
    generalize (zs.map (fun x => |x|)).sum = A at hA ⊢
    generalize (zs.length : ℝ) = N at i0 i1 hN hA ⊢
    norm_num at hN ⊢
    linarith
  have htree := pairwiseSum_sum (ops := Binary32.ops) e (l := det.map (fun v => v.elim Binary32.ops.zero id)) (by simpa using hn)
  have hP : (1 + 1 / 2 ^ 24 : ℝ) ^ (25 + e) ≤ 2 := by
    refine (pow_le_pow_right₀ (by norm_num) (by omega : 25 + e ≤ 65)).trans ?_
    norm_num
  have hB0 : 0 ≤ ((det.map (fun v => v.elim Binary32.ops.zero id)).map (fun a => |Binary32.num a|)).sum := by
    have := sum_abs_nonneg ((det.map (fun v => v.elim Binary32.ops.zero id)).map Binary32.num)
    rwa [List.map_map] at this
  have hPB : (1 + 1 / 2 ^ 24 : ℝ) ^ (25 + e) * ((det.map (fun v => v.elim Binary32.ops.zero id)).map (fun a => |Binary32.num a|)).sum ≤ 2 ^ 54 := by
    have := mul_le_mul hP hB hB0 (by norm_num)
    refine this.trans ?_
    norm_num
  have hfin := sumTree_finite Binary32.rounded Binary32.noOverflow htree (by
    intro b hb
    obtain ⟨v, hv, rfl⟩ := List.mem_map.1 hb
    cases v with
    | none => rfl
    | some v =>
      obtain ⟨x, -, hs⟩ := forall₂_exists_left h hv
      cases hs with
      | value x a hf _ => exact hf) (hPB.trans (by norm_num))
  have hsize := (sumTree_size Binary32.rounded htree hfin).trans hPB
  rw [← ha]
  generalize pairwiseSum Binary32.ops (det.map (fun v => v.elim Binary32.ops.zero id)) = s at hfin hsize
  obtain ⟨s, rfl⟩ := Option.isSome_iff_exists.1 hfin
  generalize det.countP (·.isSome) = n at hc
  have hn1 : (1 : ℚ) ≤ n := by exact_mod_cast Nat.one_le_iff_ne_zero.2 hc
  apply toSingle_isSome
  have hs' : |(s : ℚ) / 2 ^ 149| ≤ 2 ^ 54 := by
    simp only [Binary32.num] at hsize
    have : ((|(s : ℚ) / 2 ^ 149| : ℚ) : ℝ) ≤ ((2 ^ 54 : ℚ) : ℝ) := by
      push_cast
      exact hsize
    exact_mod_cast this
  have hq : |(s : ℚ) / 2 ^ 149 / n| ≤ 2 ^ 54 := by
    rw [abs_div, abs_of_pos (by linarith : (0 : ℚ) < n), div_le_iff₀ (by linarith)]
    have : (2 : ℚ) ^ 54 * 1 ≤ 2 ^ 54 * n := mul_le_mul_of_nonneg_left hn1 (by norm_num)
    linarith
  have := hd ((s : ℚ) / 2 ^ 149 / n)
  generalize (s : ℚ) / 2 ^ 149 / n = q at this hq
  have htri : |dbl q| ≤ |dbl q - q| + |q| := by
    have h0 : dbl q = (dbl q - q) + q := by ring
    calc |dbl q| = |(dbl q - q) + q| := by rw [← h0]
      _ ≤ _ := abs_add_le _ _
  norm_num at this hq ⊢
  linarith

/-- C91 for single precision and metrics with values between 0 and 1: if `eval_per_query` is off by at most `ε`, the average is off by at most
`(e + 29) / 2^23 + 2 ε` for up to `112 * 2^e + 16` queries; it never overflows. -/
theorem C91_binary32 {X : List R} {nf : Nat} {y : List L} {ids : List Int} {d : Dataset R L} {yPred : List S} {dbl : ℚ → ℚ}
    (hd : ∀ x, |dbl x - x| ≤ |x| / 2 ^ 53) {evalQ : List L → List S → Except PyErr (Option ℚ)} (h : mkDataset X nf y ids = .ok d) (hc : Contiguous ids)
    (hne : ids ≠ []) (hy : y.length = ids.length) (hp : yPred.length = ids.length) (exact : Int → ℝ) (h01 : ∀ q ∈ ids, 0 ≤ exact q ∧ exact q ≤ 1) {ε : ℝ}
    (hε : 0 ≤ ε) (hε1 : ε ≤ 1)
    (hq : ∀ q ∈ ids, ∃ c : ℚ, evalQ (ofQuery q ids y) (ofQuery q ids yPred) = .ok (some c) ∧ |(c : ℝ) - exact q| ≤ ε)
    {e : Nat} (he : e ≤ 40) (hn : d.queryIds.length ≤ 112 * 2 ^ e + 16) :
    ∃ avg det, metricEvalFloat Binary32.ops toSingle (divSingle dbl) evalQ d yPred = .ok (some (some avg), det) ∧
      |Binary32.num (some avg) - (d.queryIds.map exact).sum / d.queryIds.length| ≤ (e + 29) / 2 ^ 23 + 2 * ε := by
  have hb := built_of_mk h
  set δ : ℝ := (1 + 1 / 2 ^ 24) * ε + 1 / 2 ^ 150 with hδdef
  have hδ : 0 ≤ δ := by positivity
  have hδ3 : δ ≤ 3 := by
    rw [hδdef]
    norm_num
    linarith
  obtain ⟨avg, det, heq, hall, -, hbound⟩ := C91_eval (ops := Binary32.ops) Binary32.rounded (w := 1 / 2 ^ 23) (θ := 1 / 2 ^ 150) (δ := δ) (by norm_num) hδ
    (store := toSingle) (div := divSingle dbl) (fun a n _ hf => divSingle_error hd a n hf) h hc hy hp (fun q => some (exact q)) (by
      intro q hq'
      obtain ⟨c, hc', herr⟩ := hq q hq'
      obtain ⟨h0, h1⟩ := h01 q hq'
      refine ⟨some c, hc', ?_⟩
      have hcsize := abs_le_of_error herr
      have hx : |exact q| = exact q := abs_of_nonneg h0
      have hf : (toSingle c).isSome = true := by
        apply toSingle_isSome
        have : ((|c| : ℚ) : ℝ) ≤ ((2 : ℚ) : ℝ) := by
          push_cast
          linarith
        have h2 : |c| ≤ 2 := by exact_mod_cast this
        exact h2.trans (by norm_num)
      refine Stored.value _ _ hf ?_
      have he1 := toSingle_error hf
      have e1 : Binary32.num (toSingle c) - exact q = (Binary32.num (toSingle c) - c) + ((c : ℝ) - exact q) := by ring
      rw [e1]
      refine (abs_add_le _ _).trans ?_
      have e2 : (1 / 2 ^ 24 : ℝ) * |(c : ℝ)| ≤ 1 / 2 ^ 24 * (ε + |exact q|) := mul_le_mul_of_nonneg_left (by linarith) (by norm_num)
      rw [hδdef]
      linarith) hn
  obtain ⟨q0, hq0⟩ := List.exists_mem_of_ne_nil _ hne
  obtain ⟨a, rfl, hfin⟩ := hbound ⟨q0, hq0, by simp⟩
  have hlen : det.length = d.queryIds.length := hall.length_eq.symm
  have haf := nanmean_finite hd (xs := d.queryIds.map (fun q => some (exact q))) hδ hδ3 (List.forall₂_map_left_iff.2 hall) (by
      intro x hx
      obtain ⟨q, hq', hqx⟩ := List.mem_map.1 hx
      simp only [Option.some.injEq] at hqx
      obtain ⟨h0, h1⟩ := h01 q (hb.mem_iff.1 hq')
      rw [← hqx, abs_of_nonneg h0]
      exact h1) he (by rw [hlen]; exact hn) (metricEvalFloat_avg heq).symm
  have hfinal := hfin haf
  obtain ⟨a, rfl⟩ := Option.isSome_iff_exists.1 haf
  refine ⟨a, det, heq, hfinal |>.trans' (le_of_eq ?_) |>.trans ?_⟩
  · unfold definedMean
    rw [filterMap_map_some]
    simp
  · have hsz : definedSize (d.queryIds.map (fun q => some (exact q))) ≤ 1 := by
      unfold definedSize
      rw [filterMap_map_some]
      apply div_le_one_of_le₀ _ (Nat.cast_nonneg _)
      have : ∀ l : List Int, (∀ q ∈ l, |exact q| ≤ 1) → ((l.map exact).map (fun x => |x|)).sum ≤ ((l.map exact).length : ℝ) := by
        intro l
        induction l with
        | nil => simp
        | cons x l ih =>
          intro hl
          have i1 := ih (fun y hy => hl y (List.mem_cons_of_mem _ hy))
          have i2 := hl x List.mem_cons_self
          simp only [List.map_cons, List.sum_cons, List.length_cons] at i1 ⊢
          push_cast at i1 ⊢
          linarith
      apply this
      intro q hq'
      obtain ⟨h0, h1⟩ := h01 q (hb.mem_iff.1 hq')
      rw [abs_of_nonneg h0]
      exact h1
    have he' : (e : ℝ) ≤ 40 := by exact_mod_cast he
    have he0 : (0 : ℝ) ≤ e := Nat.cast_nonneg _
    have g := pow_le_gamma (u := 1 / 2 ^ 24) (by norm_num) (e + 26) (by push_cast; norm_num; linarith)
    have g' : (1 + 1 / 2 ^ 24 : ℝ) ^ (e + 26) ≤ 1 + (e + 26) * (1 / 2 ^ 24) * (1 + 1 / 2 ^ 17) := by
      have g1 : ((e + 26 : ℕ) : ℝ) * (1 / 2 ^ 24) / (1 - ((e + 26 : ℕ) : ℝ) * (1 / 2 ^ 24)) ≤ (e + 26) * (1 / 2 ^ 24) * (1 + 1 / 2 ^ 17) := by
        rw [div_le_iff₀ (by push_cast; norm_num; linarith)]
        push_cast
        norm_num
        nlinarith
      linarith
    have g2 : (1 + 1 / 2 ^ 24 : ℝ) ^ (e + 25) ≤ (1 + 1 / 2 ^ 24 : ℝ) ^ (e + 26) := pow_le_pow_right₀ (by norm_num) (by omega)
    have gpos : (1 : ℝ) ≤ (1 + 1 / 2 ^ 24 : ℝ) ^ (e + 26) := one_le_pow (by norm_num) _
    generalize (1 + 1 / 2 ^ 24 : ℝ) ^ (e + 26) = P at *
    generalize (1 + 1 / 2 ^ 24 : ℝ) ^ (e + 25) = Q at *
    have k1 : (P * (1 + 1 / 2 ^ 23) - 1) * definedSize (d.queryIds.map (fun q => some (exact q))) ≤ P * (1 + 1 / 2 ^ 23) - 1 := by
      have : 0 ≤ P * (1 + 1 / 2 ^ 23) - 1 := by norm_num; linarith
      nlinarith
    have k2 : P ≤ 1 + 1 / 2 ^ 16 := by
      refine g'.trans ?_
      norm_num
      linarith
    have k3 : (1 + 1 / 2 ^ 23) * Q * δ ≤ (1 + 1 / 2 ^ 15) * δ := by
      apply mul_le_mul_of_nonneg_right _ hδ
      have : Q ≤ 1 + 1 / 2 ^ 16 := g2.trans k2
      norm_num at this ⊢
      linarith
    have k4 : P * (1 + 1 / 2 ^ 23) - 1 ≤ (e + 28.5) / 2 ^ 23 := by
      norm_num at g' ⊢
      linarith
    have k5 : (1 + 1 / 2 ^ 15) * δ + 1 / 2 ^ 150 ≤ 2 * ε + 0.5 / 2 ^ 23 := by
      rw [hδdef]
      norm_num
      linarith
    have k6 : ((e : ℝ) + 28.5) / 2 ^ 23 + 0.5 / 2 ^ 23 = (e + 29) / 2 ^ 23 := by ring
    linarith

/-- Two queries with values 1/2 and 1/3 (which is no float32 number); `eval_per_query` and the division of float64 numbers are exact. -/
example : ∃ (d : Dataset Nat ℚ) (avg : Int) (det : List (Option (Option Int))), mkDataset [0, 0, 0, 0, 0] 1 [0, 1, 0, 0, 1] [7, 7, 3, 3, 3] = .ok d ∧
    metricEvalFloat Binary32.ops toSingle (divSingle id) (fun y s => .ok (some (Metrics.mrr (K := ℚ) argsort none 1 y s))) d ([5, 4, 3, 2, 1] : List ℚ) = .ok (some (some avg), det) ∧
    |Binary32.num (some avg) - 5 / 12| ≤ 29 / 2 ^ 23 := by
  have h : mkDataset [0, 0, 0, 0, 0] 1 [0, 1, 0, 0, 1] [7, 7, 3, 3, 3] = .ok (⟨[0, 0, 0, 0, 0], 1, [0, 1, 0, 0, 1], [7, 3], [0, 2, 5]⟩ : Dataset Nat ℚ) := by
    decide +kernel
  have hv : ∀ q ∈ ([7, 7, 3, 3, 3] : List Int), (Metrics.mrr (K := ℚ) argsort none 1 (ofQuery q [7, 7, 3, 3, 3] [0, 1, 0, 0, 1])
      (ofQuery q [7, 7, 3, 3, 3] ([5, 4, 3, 2, 1] : List ℚ))) = if q = 7 then 1 / 2 else 1 / 3 := by
    decide +kernel
  obtain ⟨avg, det, h1, h2⟩ := C91_binary32 (dbl := id) (by intro x; simp; positivity) (evalQ := fun y s => .ok (some (Metrics.mrr (K := ℚ) argsort none 1 y s))) h
    (yPred := ([5, 4, 3, 2, 1] : List ℚ)) (by decide) (by simp) rfl rfl (fun q => if q = 7 then 1 / 2 else 1 / 3) (by
      intro q _
      split <;> norm_num) (ε := 0) le_rfl (by norm_num) (by
      intro q hq
      refine ⟨_, rfl, ?_⟩
      rw [hv q hq]
      split <;> norm_num) (e := 0) (by norm_num) (by decide)
  refine ⟨_, avg, det, h, h1, ?_⟩
  norm_num at h2 ⊢
  exact h2

end Verif.Props
