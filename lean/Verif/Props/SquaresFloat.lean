/-
Property C99: MSE and RMSE in floating point.
-/
import Verif.Lemmas.SquaresFloat
import Verif.Lemmas.CountFloat
import Verif.Props.MeanRounding

namespace Verif.Props
open Spec Metrics Ensemble

variable {R : Type} {sort : List (Option Int) → List Nat} {y s : List (Option Int)}

/-- The sum of the squares of the differences. -/
def squaresOf (r : List (ℝ × ℝ)) : ℝ := (r.map (fun p => (p.1 - p.2) ^ 2)).sum

theorem squaresOf_nonneg (r : List (ℝ × ℝ)) : 0 ≤ squaresOf r := by
  unfold squaresOf
  apply List.sum_nonneg
  intro x hx
  obtain ⟨p, -, rfl⟩ := List.mem_map.1 hx
  exact sq_nonneg _

/-! ### The documents over which the sum is taken -/

theorem squaresOf_perm {a b : List (ℝ × ℝ)} (h : a.Perm b) : squaresOf a = squaresOf b := (h.map _).sum_eq

theorem msePairs_length (c : Option Nat) (h : y.length = s.length) (hs : IsArgsort (s.map Binary32.num) (sort s)) :
    (msePairs sort (cut c) y s).length ≤ y.length := by
  cases c with
  | none => simp [msePairs, h]
  | some k =>
    simp only [msePairs, Option.map_some, List.length_zip]
    refine (min_le_left _ _).trans ?_
    refine (List.length_filterMap_le _ _).trans ?_
    simp only [topIdx, Int.ofNat_eq_natCast, pyTake_of_nonneg, List.length_take, List.length_reverse]
    have : (sort s).length = s.length := by
      have := hs.1.length_eq
      simpa using this
    omega

theorem msePairs_exact (hs : IsArgsort (s.map Binary32.num) (sort s)) (h : y.length = s.length) (c : Option Nat) :
    exactSquares Binary32.num (msePairs sort (cut c) y s) =
      squaresOf (top c (rankedDocs (fun _ => sort s) (y.map Binary32.num) (s.map Binary32.num))) := by
  have hr := rankedDocs_isRanking (sort := fun _ => sort s) (y := y.map Binary32.num) hs (by simpa using h)
  have e : ∀ l : List (Option Int × Option Int), exactSquares Binary32.num l = squaresOf (l.map (fun p => (Binary32.num p.1, Binary32.num p.2))) := by
    intro l
    unfold exactSquares squaresOf
    rw [List.map_map]
    rfl
  have hz : ∀ a b : List (Option Int), (a.zip b).map (fun p => (Binary32.num p.1, Binary32.num p.2)) = (a.map Binary32.num).zip (b.map Binary32.num) := by
    intro a b
    rw [List.zip_map]
    rfl
  rw [e]
  cases c with
  | none =>
    simp only [msePairs, Option.map_none, top]
    rw [hz]
    exact squaresOf_perm hr.perm.symm
  | some k =>
    simp only [msePairs, Option.map_some, top]
    rw [hz, ← gather_map, ← gather_map]
    simp only [topIdx, Int.ofNat_eq_natCast, pyTake_of_nonneg]
    have hlt : ∀ i ∈ (sort s).reverse, i < (s.map Binary32.num).length := fun i hi =>
      (mem_range_of_isArgsort hs).1 (List.mem_reverse.1 hi)
    have hzip : (gather (y.map Binary32.num) ((sort s).reverse.take k)).zip (gather (s.map Binary32.num) ((sort s).reverse.take k)) =
        (rankedDocs (fun _ => sort s) (y.map Binary32.num) (s.map Binary32.num)).take k := by
      unfold rankedDocs
      rw [← gather_take _ _ _ (by simpa [h] using hlt), ← gather_fst_zip (show (y.map Binary32.num).length = (s.map Binary32.num).length by simpa using h),
        ← gather_snd_zip (show (y.map Binary32.num).length = (s.map Binary32.num).length by simpa using h), List.zip_map']
      exact List.map_id' _
    rw [hzip]

theorem pow_single (e k : Nat) (he : e ≤ 14) (hk : k ≤ 28) : (1 + 1 / 2 ^ 24 : ℝ) ^ (e + k) ≤ 1 + 1 / 2 ^ 17 := by
  refine (pow_le_pow_right₀ (by norm_num) (by omega : e + k ≤ 42)).trans ?_
  norm_num

theorem small_length {n : Nat} (h : n ≤ 2 ^ 20) : n ≤ 112 * 2 ^ 14 + 16 := by
  have h1 : (2 : Nat) ^ 20 ≤ 112 * 2 ^ 14 + 16 := by norm_num
  omega

/-- The error of the sum of a query, with simple numbers. -/
theorem mse_error {c : Option Int} (hn : (msePairs sort c y s).length ≤ 2 ^ 20)
    (hf : (mseFloat Binary32.ops subSingle sort c y s).isSome = true) :
    |Binary32.num (mseFloat Binary32.ops subSingle sort c y s) - exactSquares Binary32.num (msePairs sort c y s)| ≤
      exactSquares Binary32.num (msePairs sort c y s) / 2 ^ 17 + (msePairs sort c y s).length / 2 ^ 149 := by
  have h := mseFloat_error Binary32.rounded subSingle_error (e := 14) (small_length hn) hf
  have hA := exactSquares_nonneg Binary32.num (msePairs sort c y s)
  have p1 := pow_single 14 28 (le_refl _) (le_refl _)
  have p2 := pow_single 14 25 (le_refl _) (by norm_num)
  have hl : (0 : ℝ) ≤ (msePairs sort c y s).length := Nat.cast_nonneg _
  generalize exactSquares Binary32.num (msePairs sort c y s) = A at h hA ⊢
  generalize ((msePairs sort c y s).length : ℝ) = N at h hl ⊢
  refine h.trans (add_le_add ?_ ?_)
  · have := mul_le_mul_of_nonneg_right (by linarith : (1 + 1 / 2 ^ 24 : ℝ) ^ (14 + 28) - 1 ≤ 1 / 2 ^ 17) hA
    linarith
  · have := mul_le_mul_of_nonneg_right p2 (by positivity : (0 : ℝ) ≤ N * (1 / 2 ^ 150))
    refine this.trans ?_
    norm_num
    linarith

/-! ### C99 -/

/-- C99: if it does not overflow, the computed sum of squares of a query with up to 2^20 documents is off by at most 2^-17 of it, and 2^-149 for each
document. -/
theorem C99_query (hs : IsArgsort (s.map Binary32.num) (sort s)) (h : y.length = s.length) (hn : y.length ≤ 2 ^ 20) :
    ∃ r, IsRanking ((y.map Binary32.num).zip (s.map Binary32.num)) r ∧ ∀ c : Option Nat, ∀ m : Int,
      mseFloat Binary32.ops subSingle sort (cut c) y s = some m →
      |(m : ℝ) / 2 ^ 149 - squaresOf (top c r)| ≤ squaresOf (top c r) / 2 ^ 17 + y.length / 2 ^ 149 := by
  refine ⟨_, rankedDocs_isRanking (sort := fun _ => sort s) hs (by simpa using h), fun c m hm => ?_⟩
  have hl := msePairs_length c h hs
  have he := mse_error (sort := sort) (y := y) (s := s) (c := cut c) (hl.trans hn) (by rw [hm]; rfl)
  rw [msePairs_exact hs h c, hm] at he
  refine he.trans (add_le_add (le_refl _) ?_)
  exact div_le_div_of_nonneg_right (by exact_mod_cast hl) (by positivity)

/-- C99: the same for RMSE, with a square root that is off by at most 2^-24. -/
theorem C99_rmse (hs : IsArgsort (s.map Binary32.num) (sort s)) (h : y.length = s.length) (hn : y.length ≤ 2 ^ 20) {root : Option Int → Option Int}
    (hroot : ∀ a b : Int, root (some a) = some b → |(b : ℝ) / 2 ^ 149 - Real.sqrt ((a : ℝ) / 2 ^ 149)| ≤ Real.sqrt ((a : ℝ) / 2 ^ 149) / 2 ^ 24)
    (hnan : root none = none) :
    ∃ r, IsRanking ((y.map Binary32.num).zip (s.map Binary32.num)) r ∧ ∀ c : Option Nat, ∀ m : Int,
      rmseFloat Binary32.ops subSingle root sort (cut c) y s = some m →
      |((m : ℝ) / 2 ^ 149) ^ 2 - squaresOf (top c r)| ≤ squaresOf (top c r) / 2 ^ 16 + y.length / 2 ^ 148 := by
  obtain ⟨r, hr, hq⟩ := C99_query hs h hn
  refine ⟨r, hr, fun c m hm => ?_⟩
  unfold rmseFloat at hm
  cases ha : mseFloat Binary32.ops subSingle sort (cut c) y s with
  | none => rw [ha, hnan] at hm; cases hm
  | some a =>
    rw [ha] at hm
    have h1 := hq c a ha
    have h2 := hroot a m hm
    have hS := squaresOf_nonneg (top c r)
    have hl : (0 : ℝ) ≤ y.length := Nat.cast_nonneg _
    generalize squaresOf (top c r) = S at h1 hS ⊢
    generalize (y.length : ℝ) = N at h1 hl ⊢
    generalize (a : ℝ) / 2 ^ 149 = A at h1 h2
    generalize (m : ℝ) / 2 ^ 149 = q at h2 ⊢
    have hN : N / 2 ^ 148 = N / 2 ^ 149 + N / 2 ^ 149 := by
      have e : (2 : ℝ) ^ 149 = 2 ^ 148 * 2 := pow_succ 2 148
      rw [e]
      have : (2 : ℝ) ^ 148 ≠ 0 := by positivity
      generalize (2 : ℝ) ^ 148 = T at this ⊢
      field_simp
      norm_num
    have hN0 : 0 ≤ N / 2 ^ 149 := div_nonneg hl (pow_nonneg (by norm_num) _)
    rw [hN]
    generalize N / 2 ^ 149 = ν at h1 hN0 ⊢
    have b1 := abs_le.1 h1
    by_cases hA : 0 ≤ A
    · have hsq := Real.sq_sqrt hA
      have h3 : |q * q - Real.sqrt A ^ 2| ≤ ((1 + 1 / 2 ^ 24) ^ 2 - 1) * Real.sqrt A ^ 2 := by
        refine sq_sub_error (by norm_num) ?_
        rw [abs_of_nonneg (Real.sqrt_nonneg A)]
        linarith
      rw [hsq] at h3
      have e : q ^ 2 - S = (q * q - A) + (A - S) := by ring
      rw [e]
      refine (abs_add_le _ _).trans ?_
      norm_num at h3 h1 b1 ⊢
      linarith
    · have h0 : Real.sqrt A = 0 := Real.sqrt_eq_zero_of_nonpos (by linarith)
      rw [h0, sub_zero, zero_div] at h2
      have hq0 : q = 0 := abs_eq_zero.1 (le_antisymm h2 (abs_nonneg _))
      rw [hq0]
      norm_num
      rw [abs_of_nonneg hS]
      norm_num at b1
      linarith

/-! ### No overflow -/

theorem subSingle_finite {a b : Option Int} (ha : a.isSome = true) (hb : b.isSome = true) (h : |Binary32.num a - Binary32.num b| ≤ 2 ^ 41) :
    (subSingle a b).isSome = true := by
  obtain ⟨a, rfl⟩ := Option.isSome_iff_exists.1 ha
  obtain ⟨b, rfl⟩ := Option.isSome_iff_exists.1 hb
  have e : subSingle (some a) (some b) = Binary32.ops.add (some a) (some (-b)) := by
    show Binary32.round _ = Binary32.round _
    rw [sub_eq_add_neg]
  rw [e]
  refine Binary32.noOverflow.add _ _ rfl rfl ?_
  have e2 : Binary32.num (some (-b)) = -Binary32.num (some b) := by
    simp only [Binary32.num]
    push_cast
    ring
  rw [e2, ← sub_eq_add_neg]
  refine h.trans ?_
  norm_num

theorem squareFloat_finite {a b : Option Int} (ha : a.isSome = true) (hb : b.isSome = true) (h : |Binary32.num a - Binary32.num b| ≤ 2 ^ 41) :
    (squareFloat Binary32.ops subSingle a b).isSome = true ∧ |Binary32.num (squareFloat Binary32.ops subSingle a b)| ≤ 2 ^ 84 := by
  have hf := subSingle_finite ha hb h
  obtain ⟨-, -, he⟩ := subSingle_error a b hf
  have hd : |Binary32.num (subSingle a b)| ≤ 2 ^ 41 + 2 ^ 17 := by
    refine (abs_le_of_error he).trans ?_
    norm_num at h ⊢
    linarith
  have hsq : |Binary32.num (subSingle a b) * Binary32.num (subSingle a b)| ≤ 2 ^ 83 := by
    rw [abs_mul]
    refine (mul_le_mul hd hd (abs_nonneg _) (by norm_num)).trans ?_
    norm_num
  have hfin : (squareFloat Binary32.ops subSingle a b).isSome = true := Binary32.noOverflow.mul _ _ hf hf (hsq.trans (by norm_num))
  refine ⟨hfin, ?_⟩
  obtain ⟨-, -, h3⟩ := Binary32.rounded.mul _ _ hfin
  refine (abs_le_of_error h3).trans ?_
  norm_num at hsq ⊢
  linarith

theorem sum_le_length {l : List ℝ} {B : ℝ} (h : ∀ x ∈ l, x ≤ B) : l.sum ≤ l.length * B := by
  induction l with
  | nil => simp
  | cons x l ih =>
    have h1 := ih (fun z hz => h z (List.mem_cons_of_mem _ hz))
    have h2 := h x List.mem_cons_self
    rw [List.sum_cons, List.length_cons]
    push_cast
    linarith

/-- C99: if labels and predictions are at most 2^40 and there are up to 2^20 documents, nothing overflows. -/
theorem C99_finite (hs : IsArgsort (s.map Binary32.num) (sort s)) (h : y.length = s.length) (hn : y.length ≤ 2 ^ 20)
    (hy : ∀ a ∈ y, ∃ v : Int, a = some v ∧ |(v : ℝ) / 2 ^ 149| ≤ 2 ^ 40) (hp : ∀ a ∈ s, ∃ v : Int, a = some v ∧ |(v : ℝ) / 2 ^ 149| ≤ 2 ^ 40) (c : Option Nat) :
    ∃ m, mseFloat Binary32.ops subSingle sort (cut c) y s = some m := by
  apply Option.isSome_iff_exists.1
  have hl := (msePairs_length c h hs).trans hn
  have hmem : ∀ p ∈ msePairs sort (cut c) y s, p.1 ∈ y ∧ p.2 ∈ s := by
    intro p hp'
    cases c with
    | none => exact ⟨(List.of_mem_zip hp').1, (List.of_mem_zip hp').2⟩
    | some k =>
      have h1 := List.of_mem_zip hp'
      refine ⟨?_, ?_⟩
      · obtain ⟨i, -, hi⟩ := List.mem_filterMap.1 h1.1
        exact List.mem_of_getElem? hi
      · obtain ⟨i, -, hi⟩ := List.mem_filterMap.1 h1.2
        exact List.mem_of_getElem? hi
  have hsq : ∀ p ∈ msePairs sort (cut c) y s, (squareFloat Binary32.ops subSingle p.1 p.2).isSome = true ∧
      |Binary32.num (squareFloat Binary32.ops subSingle p.1 p.2)| ≤ 2 ^ 84 := by
    intro p hp'
    obtain ⟨v, hv, hv1⟩ := hy _ (hmem p hp').1
    obtain ⟨w, hw, hw1⟩ := hp _ (hmem p hp').2
    refine squareFloat_finite (by rw [hv]; rfl) (by rw [hw]; rfl) ?_
    rw [hv, hw]
    refine (abs_sub _ _).trans ?_
    have e1 : |Binary32.num (some v)| ≤ 2 ^ 40 := hv1
    have e2 : |Binary32.num (some w)| ≤ 2 ^ 40 := hw1
    norm_num at e1 e2 ⊢
    linarith
  rw [mseFloat_pairs]
  have htree := pairwiseSum_sum (ops := Binary32.ops) 14 (l := (msePairs sort (cut c) y s).map (fun p => squareFloat Binary32.ops subSingle p.1 p.2))
    (by simpa using small_length hl)
  refine sumTree_finite Binary32.rounded Binary32.noOverflow htree (by
    intro a ha
    obtain ⟨p, hp', rfl⟩ := List.mem_map.1 ha
    exact (hsq p hp').1) ?_
  have h1 : (((msePairs sort (cut c) y s).map (fun p => squareFloat Binary32.ops subSingle p.1 p.2)).map (fun a => |Binary32.num a|)).sum ≤ 2 ^ 20 * 2 ^ 84 := by
    refine (sum_le_length (B := 2 ^ 84) ?_).trans ?_
    · intro x hx
      rw [List.map_map] at hx
      obtain ⟨p, hp', rfl⟩ := List.mem_map.1 hx
      exact (hsq p hp').2
    · rw [List.length_map, List.length_map]
      refine mul_le_mul_of_nonneg_right ?_ (by norm_num)
      have h2 : ((msePairs sort (cut c) y s).length : ℝ) ≤ ((2 ^ 20 : Nat) : ℝ) := Nat.cast_le.2 hl
      rwa [Nat.cast_pow, Nat.cast_ofNat] at h2
  have h0 : 0 ≤ (((msePairs sort (cut c) y s).map (fun p => squareFloat Binary32.ops subSingle p.1 p.2)).map (fun a => |Binary32.num a|)).sum := by
    have := sum_abs_nonneg (((msePairs sort (cut c) y s).map (fun p => squareFloat Binary32.ops subSingle p.1 p.2)).map Binary32.num)
    rwa [List.map_map] at this
  have p1 := pow_single 14 25 (le_refl _) (by norm_num)
  rw [show 25 + 14 = 14 + 25 from rfl]
  refine (mul_le_mul p1 h1 h0 (by norm_num)).trans ?_
  norm_num

/-! ### All queries -/

theorem sum_blocks_of {F : Type} {X : List R} {nf : Nat} {y yPred : List F} {ids : List Int} {d : Dataset R F} (h : mkDataset X nf y ids = .ok d)
    (hy : y.length = ids.length) (hp : yPred.length = ids.length) (f : F → F → ℝ) :
    ((queryIter d yPred).map (fun b => (List.zipWith f b.2.1 b.2.2).sum)).sum = (List.zipWith f y yPred).sum := by
  have b := built_of_mk h
  have hdy : d.y = y := (mkDataset_spec h).2.2.1
  have hfl : ∀ (g : Nat × Nat → List ℝ) (l : List (Nat × Nat)), (l.map (fun p => (g p).sum)).sum = (l.flatMap g).sum := by
    intro g l
    induction l with
    | nil => simp
    | cons p l ih => simp [ih]
  have hblocks : d.queryIterator.map (·.2) = d.queryOffsets.zip d.queryOffsets.tail := by
    unfold Dataset.queryIterator
    apply List.map_snd_zip
    rw [List.length_zip, List.length_tail, b.length_offs]
    omega
  have e : (queryIter d yPred).map (fun b => (List.zipWith f b.2.1 b.2.2).sum) =
      (d.queryOffsets.zip d.queryOffsets.tail).map
        (fun p => (List.zipWith f (slice p.1 p.2 y) (slice p.1 p.2 yPred)).sum) := by
    rw [← hblocks, queryIter, List.map_map, List.map_map, hdy]
    rfl
  rw [e, hfl (fun p => List.zipWith f (slice p.1 p.2 y) (slice p.1 p.2 yPred))]
  have hhead := b.head
  have hlast := b.getLast
  have hs := b.strict
  cases ho : d.queryOffsets with
  | nil => rw [ho] at hhead; cases hhead
  | cons o os =>
    rw [ho] at hhead hlast hs
    simp only [List.head?_cons, Option.some.injEq] at hhead
    rw [List.getLast?_eq_some_getLast (by simp), Option.some.injEq] at hlast
    rw [List.tail_cons, zipWith_flatMap_slices y yPred (by omega) f o os hs, hlast, hhead]
    simp only [slice, List.drop_zero]
    rw [List.take_of_length_le (by omega), List.take_of_length_le (by omega)]

/-- The error of the share of a query. -/
theorem share_error {m S σ N k : ℝ} (hN : 1 ≤ N) (hS : 0 ≤ S) (hk : 0 ≤ k) (hm : |m - S| ≤ S / 2 ^ 17 + k / 2 ^ 149)
    (hσ : |σ - m / N| ≤ 1 / 2 ^ 23 * |m / N| + 1 / 2 ^ 150) : |σ - S / N| ≤ (S / N) / 2 ^ 16 + (k / N) / 2 ^ 148 + 1 / 2 ^ 150 := by
  have hN0 : 0 < N := by linarith
  have h1 : |m / N - S / N| ≤ (S / N) / 2 ^ 17 + (k / N) / 2 ^ 149 := by
    rw [← sub_div, abs_div, abs_of_pos hN0]
    refine (div_le_div_of_nonneg_right hm hN0.le).trans (le_of_eq ?_)
    rw [add_div, div_right_comm, div_right_comm k]
  have hx : 0 ≤ S / N := div_nonneg hS hN0.le
  have hz : 0 ≤ k / N := div_nonneg hk hN0.le
  generalize S / N = x at *
  generalize m / N = w at *
  generalize k / N = z at *
  have h2 := abs_le_of_error h1
  rw [abs_of_nonneg hx] at h2
  have e : σ - x = (σ - w) + (w - x) := by ring
  rw [e]
  refine (abs_add_le _ _).trans ?_
  have e148 : z / 2 ^ 148 = z / 2 ^ 149 + z / 2 ^ 149 := by
    have e : (2 : ℝ) ^ 149 = 2 ^ 148 * 2 := pow_succ 2 148
    rw [e]
    have : (2 : ℝ) ^ 148 ≠ 0 := by positivity
    generalize (2 : ℝ) ^ 148 = T at this ⊢
    field_simp
    norm_num
  have hz' : 0 ≤ z / 2 ^ 149 := div_nonneg hz (pow_nonneg (by norm_num) _)
  rw [e148]
  generalize z / 2 ^ 149 = ζ at *
  generalize (1 : ℝ) / 2 ^ 150 = θ at *
  norm_num at h1 h2 hσ ⊢
  linarith

theorem sum_map_div' {α : Type} (l : List α) (f : α → ℝ) (n : ℝ) : (l.map (fun b => f b / n)).sum = (l.map f).sum / n := by
  induction l with
  | nil => simp
  | cons a l ih => simp only [List.map_cons, List.sum_cons, ih, add_div]

theorem sum_error {α : Type} (l : List α) (f g b : α → ℝ) (h : ∀ a ∈ l, |f a - g a| ≤ b a) : |(l.map f).sum - (l.map g).sum| ≤ (l.map b).sum := by
  induction l with
  | nil => simp
  | cons a l ih =>
    have h1 := ih (fun x hx => h x (List.mem_cons_of_mem _ hx))
    have h2 := h a List.mem_cons_self
    simp only [List.map_cons, List.sum_cons]
    have e : f a + (l.map f).sum - (g a + (l.map g).sum) = (f a - g a) + ((l.map f).sum - (l.map g).sum) := by ring
    rw [e]
    exact (abs_add_le _ _).trans (by linarith)

/-- C99, proved part (missing: other ids, see `C24_violated`): if the query ids are `0 .. n_queries-1` in any order, no query has more than 2^20 documents
and there are at most 2^20 queries, the MSE over all rows is off by at most 2^-15 of it, and 2^-147 for each query, if it does not overflow. -/
theorem C99_eval_partial {X : List R} {nf : Nat} {y yPred : List (Option Int)} {ids : List Int} {d : Dataset R (Option Int)} {dbl : ℚ → ℚ}
    (hd : ∀ x, |dbl x - x| ≤ |x| / 2 ^ 53) (h : mkDataset X nf y ids = .ok d) (hc : Contiguous ids) (hne : ids ≠ []) (hy : y.length = ids.length)
    (hp : yPred.length = ids.length) (hids : d.queryIds.Perm ((List.range d.queryIds.length).map (fun i : Nat => (i : Int))))
    (hdocs : ∀ q ∈ ids, (ofQuery q ids y).length ≤ 2 ^ 20) (hq : d.queryIds.length ≤ 2 ^ 20) :
    ∃ avg det, mseEvalFloat Binary32.ops subSingle (divSingle dbl) sort none d yPred = .ok (avg, det) ∧ det.length = d.queryIds.length ∧
      ∀ m : Int, avg = some m →
        |(m : ℝ) / 2 ^ 149 - squaresOf ((y.map Binary32.num).zip (yPred.map Binary32.num)) / y.length| ≤
          squaresOf ((y.map Binary32.num).zip (yPred.map Binary32.num)) / y.length / 2 ^ 15 + d.queryIds.length / 2 ^ 147 := by
  have b := built_of_mk h
  have hdy : d.y = y := (mkDataset_spec h).2.2.1
  have hqi := queryIter_contiguous h hc hy hp
  have hfst : (queryIter d yPred).map (·.1) = d.queryIds := by
    rw [hqi, List.map_map]
    exact List.map_id' _
  have hqlen : (queryIter d yPred).length = d.queryIds.length := by rw [← hfst, List.length_map]
  have hrange : ∀ bl ∈ queryIter d yPred, 0 ≤ bl.1 ∧ bl.1 < (List.replicate d.nQueries (Binary32.ops.zero)).length := by
    intro bl hb
    have : bl.1 ∈ d.queryIds := by rw [← hfst]; exact List.mem_map.2 ⟨bl, hb, rfl⟩
    rw [hids.mem_iff] at this
    obtain ⟨i, hi, hii⟩ := List.mem_map.1 this
    rw [List.mem_range] at hi
    simp only [List.length_replicate, Dataset.nQueries]
    omega
  obtain ⟨res, h1, h2, h3, _⟩ := mseLoopFloat_ok (fun y s => divSingle dbl (mseFloat Binary32.ops subSingle sort none y s) d.nInstances) (queryIter d yPred)
    (List.replicate d.nQueries Binary32.ops.zero) (by rw [hfst]; exact b.nodup) hrange
  have hlen : res.length = d.queryIds.length := by simpa [Dataset.nQueries] using h2
  refine ⟨pairwiseSum Binary32.ops res, res, ?_, hlen, ?_⟩
  · simp only [mseEvalFloat, h1, bind, Except.bind, pure, Except.pure]
  intro m hm
  have hn : d.nInstances = y.length := by rw [Dataset.nInstances, hdy]
  rw [hn] at h3
  -- the detailed scores are the shares, in some order
  have hperm : ((queryIter d yPred).map (fun bl => divSingle dbl (mseFloat Binary32.ops subSingle sort none bl.2.1 bl.2.2) y.length)).Perm res := by
    have hg : gather res ((queryIter d yPred).map (fun bl => bl.1.toNat)) =
        (queryIter d yPred).map (fun bl => divSingle dbl (mseFloat Binary32.ops subSingle sort none bl.2.1 bl.2.2) y.length) := by
      unfold gather
      rw [List.filterMap_map, ← List.filterMap_eq_map]
      apply List.filterMap_congr
      intro bl hb
      exact h3 bl hb
    have hpr : ((queryIter d yPred).map (fun bl => bl.1.toNat)).Perm (List.range res.length) := by
      have e1 : (queryIter d yPred).map (fun bl => bl.1.toNat) = d.queryIds.map Int.toNat := by
        rw [← hfst, List.map_map]; rfl
      have e2 := hids.map Int.toNat
      rw [List.map_map] at e2
      have e3 : (Int.toNat ∘ fun i : Nat => (i : Int)) = id := by funext i; simp
      rw [e3, List.map_id] at e2
      rw [e1, hlen]
      exact e2
    have hp' := gather_perm res hpr
    rwa [gather_range, hg] at hp'
  have htree := (pairwiseSum_sum (ops := Binary32.ops) 14 (l := res) (by rw [hlen]; exact small_length hq)).perm hperm.symm
  obtain ⟨hfin, herr⟩ := sumTree_error Binary32.rounded htree (by rw [hm]; rfl)
  have hN1 : (1 : ℝ) ≤ y.length := by
    have : 0 < y.length := by
      rw [hy]
      exact List.length_pos_iff.2 hne
    exact_mod_cast this
  -- each share
  have hshare : ∀ bl ∈ queryIter d yPred,
      |Binary32.num (divSingle dbl (mseFloat Binary32.ops subSingle sort none bl.2.1 bl.2.2) y.length) -
        (List.zipWith (fun a c => (Binary32.num a - Binary32.num c) ^ 2) bl.2.1 bl.2.2).sum / y.length| ≤
      (List.zipWith (fun a c => (Binary32.num a - Binary32.num c) ^ 2) bl.2.1 bl.2.2).sum / y.length / 2 ^ 16 +
        (List.zipWith (fun _ _ => (1 : ℝ)) bl.2.1 bl.2.2).sum / y.length / 2 ^ 148 + 1 / 2 ^ 150 := by
    intro bl hb
    obtain ⟨f1, e1⟩ := divSingle_error hd _ _ (hfin _ (List.mem_map_of_mem hb))
    have hz : exactSquares Binary32.num (msePairs sort none bl.2.1 bl.2.2) =
        (List.zipWith (fun a c => (Binary32.num a - Binary32.num c) ^ 2) bl.2.1 bl.2.2).sum := by
      unfold exactSquares
      simp only [msePairs, List.zip, List.map_zipWith]
    have hones : ((msePairs sort none bl.2.1 bl.2.2).length : ℝ) = (List.zipWith (fun _ _ => (1 : ℝ)) bl.2.1 bl.2.2).sum := by
      have : ∀ a c : List (Option Int), (List.zipWith (fun _ _ => (1 : ℝ)) a c).sum = ((a.zip c).length : ℝ) := by
        intro a
        induction a with
        | nil => intro c; simp
        | cons x a ih =>
          intro c
          cases c with
          | nil => simp
          | cons z c =>
            rw [List.zipWith_cons_cons, List.sum_cons, ih, List.zip_cons_cons, List.length_cons]
            push_cast
            ring
      exact (this _ _).symm
    have hl20 : (msePairs sort none bl.2.1 bl.2.2).length ≤ 2 ^ 20 := by
      rw [hqi] at hb
      obtain ⟨q, hqm, rfl⟩ := List.mem_map.1 hb
      simp only [msePairs, List.length_zip]
      exact (min_le_left _ _).trans (hdocs q (b.mem_iff.1 hqm))
    have e2 := mse_error (sort := sort) hl20 f1
    have hnn := exactSquares_nonneg Binary32.num (msePairs sort none bl.2.1 bl.2.2)
    have hk : (0 : ℝ) ≤ (msePairs sort none bl.2.1 bl.2.2).length := Nat.cast_nonneg _
    rw [hz] at e2 hnn
    rw [hones] at e2 hk
    exact share_error hN1 hnn hk e2 e1
  have hsum := sum_error (queryIter d yPred) _ _ _ hshare
  -- the sums over the queries
  have s1 : ((queryIter d yPred).map (fun bl => (List.zipWith (fun a c => (Binary32.num a - Binary32.num c) ^ 2) bl.2.1 bl.2.2).sum / (y.length : ℝ))).sum =
      squaresOf ((y.map Binary32.num).zip (yPred.map Binary32.num)) / y.length := by
    rw [sum_map_div', sum_blocks_of h hy hp (fun a c => (Binary32.num a - Binary32.num c) ^ 2)]
    unfold squaresOf
    rw [List.zip_map, List.map_map, List.zip, List.map_zipWith]
    rfl
  have s2 : ((queryIter d yPred).map (fun bl => (List.zipWith (fun a c => (Binary32.num a - Binary32.num c) ^ 2) bl.2.1 bl.2.2).sum / (y.length : ℝ) / 2 ^ 16 +
        (List.zipWith (fun _ _ => (1 : ℝ)) bl.2.1 bl.2.2).sum / (y.length : ℝ) / 2 ^ 148 + 1 / 2 ^ 150)).sum =
      squaresOf ((y.map Binary32.num).zip (yPred.map Binary32.num)) / y.length / 2 ^ 16 + 1 / 2 ^ 148 + d.queryIds.length * (1 / 2 ^ 150) := by
    have hsplit : ∀ (l : List (Int × List (Option Int) × List (Option Int))) (f g : (Int × List (Option Int) × List (Option Int)) → ℝ) (t : ℝ),
        (l.map (fun x => f x + g x + t)).sum = (l.map f).sum + (l.map g).sum + l.length * t := by
      intro l f g t
      induction l with
      | nil => simp
      | cons x l ih =>
        simp only [List.map_cons, List.sum_cons, List.length_cons, ih]
        push_cast
        ring
    rw [hsplit, sum_map_div', s1, hqlen, sum_map_div', sum_map_div', sum_blocks_of h hy hp (fun _ _ => (1 : ℝ))]
    have hones : (List.zipWith (fun _ _ => (1 : ℝ)) y yPred).sum = y.length := by
      have : ∀ a c : List (Option Int), a.length = c.length → (List.zipWith (fun _ _ => (1 : ℝ)) a c).sum = a.length := by
        intro a
        induction a with
        | nil => intro c _; simp
        | cons x a ih =>
          intro c hc'
          cases c with
          | nil => simp at hc'
          | cons z c =>
            rw [List.zipWith_cons_cons, List.sum_cons, ih c (by simpa using hc'), List.length_cons]
            push_cast
            ring
      exact this _ _ (by omega)
    rw [hones, div_self (by linarith)]
  rw [s1, s2] at hsum
  rw [List.map_map] at herr
  have habs : (((queryIter d yPred).map (fun bl => divSingle dbl (mseFloat Binary32.ops subSingle sort none bl.2.1 bl.2.2) y.length)).map
      (fun a => |Binary32.num a|)).sum ≤ squaresOf ((y.map Binary32.num).zip (yPred.map Binary32.num)) / y.length +
      (squaresOf ((y.map Binary32.num).zip (yPred.map Binary32.num)) / y.length / 2 ^ 16 + 1 / 2 ^ 148 + d.queryIds.length * (1 / 2 ^ 150)) := by
    rw [List.map_map, ← s2, ← s1, ← List.sum_map_add]
    apply List.sum_le_sum
    intro bl hb
    have e1 := abs_le_of_error (hshare bl hb)
    rw [abs_of_nonneg (a := (List.zipWith (fun a c => (Binary32.num a - Binary32.num c) ^ 2) bl.2.1 bl.2.2).sum / (y.length : ℝ)) ?_] at e1
    · exact e1.trans (le_of_eq (add_comm _ _))
    · refine div_nonneg (List.sum_nonneg ?_) (by linarith)
      intro x hx
      obtain ⟨i, hi, rfl⟩ := List.mem_iff_getElem.1 hx
      rw [List.getElem_zipWith]
      exact sq_nonneg _
  have hS0 : 0 ≤ squaresOf ((y.map Binary32.num).zip (yPred.map Binary32.num)) / y.length := div_nonneg (squaresOf_nonneg _) (by linarith)
  have hQ1 : (1 : ℝ) ≤ d.queryIds.length := by
    obtain ⟨q0, hq0⟩ := List.exists_mem_of_ne_nil _ hne
    have : 0 < d.queryIds.length := List.length_pos_of_mem (b.mem_iff.2 hq0)
    exact_mod_cast this
  have p1 := pow_single 14 25 (le_refl _) (by norm_num)
  rw [hm] at herr
  have hsumabs : 0 ≤ (((queryIter d yPred).map (fun bl => divSingle dbl (mseFloat Binary32.ops subSingle sort none bl.2.1 bl.2.2) y.length)).map
      (fun a => |Binary32.num a|)).sum := by
    have := sum_abs_nonneg (((queryIter d yPred).map (fun bl => divSingle dbl (mseFloat Binary32.ops subSingle sort none bl.2.1 bl.2.2) y.length)).map Binary32.num)
    rwa [List.map_map] at this
  have herr2 := herr.trans (mul_le_mul_of_nonneg_right (by
    rw [show 25 + 14 = 14 + 25 from rfl]
    linarith : (1 + 1 / 2 ^ 24 : ℝ) ^ (25 + 14) - 1 ≤ 1 / 2 ^ 17) hsumabs)
  have herr3 := herr2.trans (mul_le_mul_of_nonneg_left habs (by norm_num))
  clear herr herr2 habs hsumabs p1
  have e0 : Binary32.num (some m) = (m : ℝ) / 2 ^ 149 := rfl
  rw [e0] at herr3
  change |(m : ℝ) / 2 ^ 149 - ((queryIter d yPred).map (fun bl => Binary32.num (divSingle dbl (mseFloat Binary32.ops subSingle sort none bl.2.1 bl.2.2) y.length))).sum| ≤ _ at herr3
  generalize ((queryIter d yPred).map (fun bl => Binary32.num (divSingle dbl (mseFloat Binary32.ops subSingle sort none bl.2.1 bl.2.2) y.length))).sum = total at hsum herr3
  generalize squaresOf ((y.map Binary32.num).zip (yPred.map Binary32.num)) / (y.length : ℝ) = S at hsum herr3 hS0 ⊢
  generalize (m : ℝ) / 2 ^ 149 = M at herr3 ⊢
  generalize (d.queryIds.length : ℝ) = Q at hsum herr3 hQ1 ⊢
  have t148 : (1 : ℝ) / 2 ^ 148 = 4 * (1 / 2 ^ 150) := by
    have e : (2 : ℝ) ^ 150 = 2 ^ 148 * 4 := by rw [show (4 : ℝ) = 2 ^ 2 by norm_num, ← pow_add]
    rw [e]
    have : (2 : ℝ) ^ 148 ≠ 0 := by positivity
    generalize (2 : ℝ) ^ 148 = T at this ⊢
    field_simp
  have t147 : Q / 2 ^ 147 = 8 * (Q * (1 / 2 ^ 150)) := by
    have e : (2 : ℝ) ^ 150 = 2 ^ 147 * 8 := by rw [show (8 : ℝ) = 2 ^ 3 by norm_num, ← pow_add]
    rw [e]
    have : (2 : ℝ) ^ 147 ≠ 0 := by positivity
    generalize (2 : ℝ) ^ 147 = T at this ⊢
    field_simp
  have hθ : (0 : ℝ) ≤ 1 / 2 ^ 150 := by positivity
  rw [t148] at hsum herr3
  rw [t147]
  generalize (1 : ℝ) / 2 ^ 150 = θ at hsum herr3 hθ ⊢
  have hQθ : θ ≤ Q * θ := by
    have := mul_le_mul_of_nonneg_right hQ1 hθ
    linarith
  generalize Q * θ = κ at hsum herr3 hQθ ⊢
  have e : M - S = (M - total) + (total - S) := by ring
  rw [e]
  refine (abs_add_le _ _).trans ?_
  norm_num at hsum herr3 ⊢
  linarith

/-! ### Exact predictions -/

theorem sumTree_zero {n : Nat} {l : List (Option Int)} {t : Option Int} (h : SumTree Binary32.ops n l t) (hl : ∀ a ∈ l, a = some 0) : t = some 0 := by
  induction h with
  | zero d => rfl
  | one d a => exact hl a List.mem_cons_self
  | @add d l l' l'' a b _ _ hp iha ihb =>
    rw [iha (fun x hx => hl x (hp.mem_iff.1 (List.mem_append_left _ hx))), ihb (fun x hx => hl x (hp.mem_iff.1 (List.mem_append_right _ hx)))]
    decide +kernel

/-- C99: the error of finite predictions that equal the labels is exactly 0, for any number of documents. -/
theorem C99_exact (hf : ∀ a ∈ s, a.isSome = true) (c : Option Nat) :
    mseFloat Binary32.ops subSingle sort (cut c) s s = some 0 := by
  have hsame : ∀ p ∈ msePairs sort (cut c) s s, p.1 = p.2 ∧ p.1 ∈ s := by
    have hz : ∀ (l : List (Option Int)), ∀ p ∈ l.zip l, p.1 = p.2 ∧ p.1 ∈ l := by
      intro l
      induction l with
      | nil => intro p hp; simp at hp
      | cons a l ih =>
        intro p hp
        rw [List.zip_cons_cons, List.mem_cons] at hp
        rcases hp with rfl | hp
        · exact ⟨rfl, List.mem_cons_self⟩
        · exact ⟨(ih p hp).1, List.mem_cons_of_mem _ (ih p hp).2⟩
    intro p hp
    cases c with
    | none => exact hz s p hp
    | some k =>
      obtain ⟨h1, h2⟩ := hz _ p hp
      refine ⟨h1, ?_⟩
      unfold gather at h2
      obtain ⟨i, _, hi⟩ := List.mem_filterMap.1 h2
      exact List.mem_of_getElem? hi
  rw [mseFloat_pairs]
  refine sumTree_zero (pairwiseSum_sum (ops := Binary32.ops) _ (Nat.le_add_right_of_le (le_trans (Nat.lt_two_pow_self (n := _)).le (Nat.le_mul_of_pos_left _ (by norm_num))))) ?_
  intro a ha
  obtain ⟨p, hp, rfl⟩ := List.mem_map.1 ha
  obtain ⟨h1, h2⟩ := hsame p hp
  obtain ⟨v, hv⟩ := Option.isSome_iff_exists.1 (hf _ h2)
  rw [← h1, hv]
  have e : subSingle (some v) (some v) = some 0 := by
    show Binary32.round ((v - v : Int) : ℚ) = some 0
    rw [sub_self]
    decide +kernel
  unfold squareFloat
  rw [e]
  decide +kernel

/-! ### What is lost -/

/-- C99 fails: a prediction of 2^-76 for the label 0 has the squared error 0. -/
theorem C99_violated_underflow (sort : List (Option Int) → List Nat) : mseFloat Binary32.ops subSingle sort none [some 0] [some (2 ^ 73)] = some 0 ∧
    squaresOf [(0, (2 ^ 73 : Int) / 2 ^ 149)] = 1 / 2 ^ 152 := by
  refine ⟨?_, ?_⟩
  · show pairwiseSum Binary32.ops (List.zipWith (squareFloat Binary32.ops subSingle) [some 0] [some (2 ^ 73)]) = some 0
    decide +kernel
  unfold squaresOf
  norm_num

/-- C99 fails: of two predictions with an error of 3 * 2^62 the sum of squares overflows, although the mean is a single precision number. -/
theorem C99_violated_overflow (sort : List (Option Int) → List Nat) :
    mseFloat Binary32.ops subSingle sort none [some 0, some 0] [some (3 * 2 ^ 211), some (3 * 2 ^ 211)] = none ∧
    squaresOf [(0, (3 * 2 ^ 211 : Int) / 2 ^ 149), (0, (3 * 2 ^ 211 : Int) / 2 ^ 149)] / 2 = 9 * 2 ^ 124 ∧
    Binary32.round (9 * 2 ^ 124 * 2 ^ 149) = some (9 * 2 ^ 273) := by
  refine ⟨?_, ?_, by decide +kernel⟩
  · show pairwiseSum Binary32.ops (List.zipWith (squareFloat Binary32.ops subSingle) [some 0, some 0] [some (3 * 2 ^ 211), some (3 * 2 ^ 211)]) = none
    decide +kernel
  unfold squaresOf
  norm_num

/-! ### Examples -/

/-- The hypotheses of the theorems above hold for this query, with labels 0 and 2 and predictions 1 and 1/2. -/
example : IsArgsort (([some (2 ^ 149), some (2 ^ 148)] : List (Option Int)).map Binary32.num) [1, 0] ∧
    (∀ a ∈ ([some 0, some (2 ^ 150)] : List (Option Int)), ∃ v : Int, a = some v ∧ |(v : ℝ) / 2 ^ 149| ≤ 2 ^ 40) := by
  refine ⟨⟨List.Perm.swap _ _ _, ?_⟩, ?_⟩
  · simp [Binary32.num]
    norm_num
  · intro a ha
    simp only [List.mem_cons, List.not_mem_nil, or_false] at ha
    rcases ha with rfl | rfl
    · exact ⟨0, rfl, by norm_num⟩
    · exact ⟨2 ^ 150, rfl, by norm_num⟩

/-- The error of this query is 1 + 9/4. -/
example : mseFloat Binary32.ops subSingle (fun _ => [1, 0]) (some 2) [some 0, some (2 ^ 150)] [some (2 ^ 149), some (2 ^ 148)] = some (13 * 2 ^ 147) := by decide +kernel

/-- A dataset meeting the hypotheses of `C99_eval_partial`: query 1 has two documents and comes before query 0. -/
example : ∃ d : Dataset Nat (Option Int), mkDataset [0, 0, 0] 1 [some 0, some (2 ^ 150), some (2 ^ 149)] [1, 1, 0] = .ok d ∧ Contiguous [1, 1, 0] ∧
    d.queryIds.Perm ((List.range d.queryIds.length).map (fun i : Nat => (i : Int))) ∧
    mseEvalFloat Binary32.ops subSingle (divSingle Decimal.double) (fun _ => []) none d [some (2 ^ 149), some (2 ^ 148), some (2 ^ 149)] =
      .ok (Binary32.round (13 * 2 ^ 147 / 3), [some 0, Binary32.round (13 * 2 ^ 147 / 3)]) :=
  ⟨⟨[0, 0, 0], 1, [some 0, some (2 ^ 150), some (2 ^ 149)], [1, 0], [0, 2, 3]⟩, by decide +kernel, by decide, List.Perm.swap _ _ _, by decide +kernel⟩

end Verif.Props
