/-
Lemmas on histograms and cumulative curves.
-/
import Verif.Model.Effectiveness
import Verif.Spec.Effectiveness
import Mathlib.Tactic.Ring
import Mathlib.Tactic.FieldSimp
import Mathlib.Tactic.Positivity
import Mathlib.Algebra.Order.Field.Basic

namespace Verif
open Eff Spec

theorem npCumsum_npDiff : ∀ (rest : List Nat) (a : Nat) (acc : Int), npCumsum acc (npDiff (a :: rest)) = rest.map (fun (c : Nat) => acc + c - a)
  | [], a, acc => rfl
  | b :: rest, a, acc => by
    rw [npDiff, npCumsum, npCumsum_npDiff rest b, List.map_cons]
    congr 1
    · ring
    · apply List.map_congr_left
      intro c _
      ring

variable {K : Type} [Field K] [LinearOrder K] [IsStrictOrderedRing K]

/-- Left edge of bin `i`. -/
def leftEdge (lo hi : K) (bins i : Nat) : K := lo + (i : K) * ((hi - lo) / (bins : K))

theorem linspace_some (lo hi : K) {bins : Nat} (hb : 0 < bins) :
    linspace (some lo) (some hi) bins = (List.range bins).map (fun (i : Nat) => some (leftEdge lo hi bins i)) ++ [some hi] := by
  unfold linspace
  rw [if_neg (by omega)]
  rfl

theorem leftEdge_zero (lo hi : K) (bins : Nat) : leftEdge lo hi bins 0 = lo := by simp [leftEdge]

theorem leftEdge_succ (lo hi : K) (bins i : Nat) : leftEdge lo hi bins (i + 1) = rightEdge lo hi bins i := by
  simp [leftEdge, rightEdge]

theorem leftEdge_last (lo hi : K) {bins : Nat} (hb : 0 < bins) : leftEdge lo hi bins bins = hi := by
  have : (bins : K) ≠ 0 := by exact_mod_cast (by omega)
  unfold leftEdge
  field_simp
  ring

theorem leftEdge_mono {lo hi : K} (h : lo ≤ hi) {bins i j : Nat} (hij : i ≤ j) : leftEdge lo hi bins i ≤ leftEdge lo hi bins j := by
  unfold leftEdge
  have h1 : (0 : K) ≤ (hi - lo) / (bins : K) := div_nonneg (by linarith) (Nat.cast_nonneg _)
  have h2 : (i : K) ≤ j := by exact_mod_cast hij
  have := mul_le_mul_of_nonneg_right h2 h1
  linarith

/-- Every edge is a `leftEdge`. -/
theorem linspace_edges (lo hi : K) {bins : Nat} (hb : 0 < bins) :
    linspace (some lo) (some hi) bins = (List.range (bins + 1)).map (fun (i : Nat) => some (leftEdge lo hi bins i)) := by
  rw [linspace_some lo hi hb, List.range_succ, List.map_append]
  simp [leftEdge_last lo hi hb]

theorem any_consecutive {α : Type} (f : Nat → α) (p : α → α → Bool) (n : Nat) :
    (((List.range (n + 1)).map f).zip ((List.range (n + 1)).map f).tail).any (fun q => p q.1 q.2) =
      (List.range n).any (fun i => p (f i) (f (i + 1))) := by
  have e : ((List.range (n + 1)).map f).zip ((List.range (n + 1)).map f).tail = (List.range n).map (fun i => (f i, f (i + 1))) := by
    apply List.ext_getElem
    · simp
    · intro i h1 h2
      simp
  rw [e, List.any_map]
  rfl

theorem not_decreasing {lo hi : K} (h : lo ≤ hi) {bins : Nat} (hb : 0 < bins) :
    (((linspace (some lo) (some hi) bins)).zip (linspace (some lo) (some hi) bins).tail).any (fun p => nanGt p.1 p.2) = false := by
  rw [linspace_edges lo hi hb, any_consecutive (fun (i : Nat) => some (leftEdge lo hi bins i)) nanGt bins, List.any_eq_false]
  intro i _
  simp only [nanGt, decide_eq_true_eq, not_lt]
  exact leftEdge_mono h (Nat.le_succ i)

theorem decreasing {lo hi : K} (h : hi < lo) {bins : Nat} (hb : 0 < bins) :
    (((linspace (some lo) (some hi) bins)).zip (linspace (some lo) (some hi) bins).tail).any (fun p => nanGt p.1 p.2) = true := by
  rw [linspace_edges lo hi hb, any_consecutive (fun (i : Nat) => some (leftEdge lo hi bins i)) nanGt bins, List.any_eq_true]
  refine ⟨0, by simpa using hb, ?_⟩
  simp only [nanGt, decide_eq_true_eq]
  rw [leftEdge_succ, leftEdge_zero]
  unfold rightEdge
  have : (hi - lo) / (bins : K) < 0 := div_neg_of_neg_of_pos (by linarith) (by exact_mod_cast hb)
  simp
  linarith

theorem countP_sub {α : Type} (p q : α → Bool) (h : ∀ x, q x = true → p x = true) : ∀ xs : List α,
    ((xs.countP p : Nat) : Int) - (xs.countP q : Nat) = (xs.countP (fun x => p x && !q x) : Nat)
  | [] => rfl
  | x :: xs => by
    have ih := countP_sub p q h xs
    simp only [List.countP_cons]
    have hx := h x
    cases hp : p x <;> cases hq : q x <;> simp_all <;> omega

theorem curve_spec (xs : List K) (hne : xs ≠ []) {lo hi : K} (h : lo ≤ hi) {bins : Nat} (hb : 0 < bins) :
    curve (xs.map some) (linspace (some lo) (some hi) bins) =
      .ok ((List.range bins).map (fun i => some ((below xs lo hi bins i : K) / (xs.length : K)))) := by
  have hlen : (xs.map some).length ≠ 0 := by
    rw [List.length_map]
    exact fun e => hne (List.length_eq_zero_iff.1 e)
  unfold curve histogram
  rw [not_decreasing h hb]
  show Except.ok _ = _
  congr 1
  have hc : cumCounts (xs.map some) (linspace (some lo) (some hi) bins) =
      xs.countP (fun x => decide (x < lo)) :: ((List.range bins).map (fun (i : Nat) =>
        if i + 1 = bins then xs.countP (fun x => decide (x ≤ hi)) else xs.countP (fun x => decide (x < rightEdge lo hi bins i)))) := by
    unfold cumCounts
    rw [linspace_some lo hi hb, List.getLast?_concat]
    simp only [List.dropLast_concat]
    obtain ⟨n, rfl⟩ : ∃ n, bins = n + 1 := ⟨bins - 1, by omega⟩
    conv_lhs => rw [List.range_succ_eq_map]
    conv_rhs => rw [List.range_succ, List.map_append]
    simp only [List.map_cons, List.map_map, List.cons_append, leftEdge_zero, List.countP_map, Function.comp_def, nanLt, List.map_nil, if_true,
      leftEdge_succ, Nat.succ_eq_add_one]
    congr 2
    · apply List.map_congr_left
      intro i hi'
      have := List.mem_range.1 hi'
      rw [if_neg (by omega)]
    · congr 2
      funext x
      rw [Bool.eq_iff_iff]
      simp
  rw [hc, npCumsum_npDiff, List.map_map, List.map_map]
  apply List.map_congr_left
  intro i hi'
  have hi' := List.mem_range.1 hi'
  rw [List.length_map] at hlen
  simp only [Function.comp_apply, List.length_map]
  rw [if_neg hlen]
  have key : (0 : Int) + ((if i + 1 = bins then xs.countP (fun x => decide (x ≤ hi)) else xs.countP (fun x => decide (x < rightEdge lo hi bins i)) : Nat) : Int) -
      (xs.countP (fun x => decide (x < lo)) : Nat) = (below xs lo hi bins i : Nat) := by
    rw [Int.zero_add]
    unfold below
    split
    · rw [countP_sub _ _ (fun x hx => by
        simp only [decide_eq_true_eq] at hx ⊢
        linarith)]
      congr 2
      funext x
      rw [Bool.eq_iff_iff]
      simp [and_comm]
    · have hle : lo ≤ rightEdge lo hi bins i := by
        rw [← leftEdge_succ, ← leftEdge_zero lo hi bins]
        conv_rhs => rw [leftEdge_zero]
        exact leftEdge_mono h (Nat.zero_le _)
      rw [countP_sub _ _ (fun x hx => by
        simp only [decide_eq_true_eq] at hx ⊢
        exact lt_of_lt_of_le hx hle)]
      congr 2
      funext x
      rw [Bool.eq_iff_iff]
      simp [and_comm]
  rw [key, Int.cast_natCast]

theorem curve_decreasing (xs : List (Option K)) {lo hi : K} (h : hi < lo) {bins : Nat} (hb : 0 < bins) :
    curve xs (linspace (some lo) (some hi) bins) = .error .valueError := by
  unfold curve histogram
  rw [decreasing h hb]
  rfl

theorem curve_empty {lo hi : K} (h : lo ≤ hi) {bins : Nat} (hb : 0 < bins) :
    curve [] (linspace (some lo) (some hi) bins) = .ok (List.replicate bins none) := by
  unfold curve histogram
  rw [not_decreasing h hb]
  show Except.ok _ = _
  congr 1
  simp only [List.length_nil, if_true, List.map_const']
  congr 1
  unfold cumCounts
  rw [linspace_some lo hi hb, List.getLast?_concat]
  obtain ⟨n, rfl⟩ : ∃ n, bins = n + 1 := ⟨bins - 1, by omega⟩
  simp only [List.dropLast_concat]
  conv_lhs => rw [List.range_succ_eq_map]
  simp only [List.map_cons, List.cons_append, npCumsum_npDiff, List.length_map, List.length_append, List.length_range, List.length_cons,
    List.length_nil]

/-! ### Properties of the fractions -/

theorem below_le_length (xs : List K) (lo hi : K) (bins i : Nat) : below xs lo hi bins i ≤ xs.length := by
  unfold below
  split <;> exact List.countP_le_length

theorem below_mono (xs : List K) {lo hi : K} (h : lo ≤ hi) {bins i : Nat} (hi' : i + 1 < bins) :
    below xs lo hi bins i ≤ below xs lo hi bins (i + 1) := by
  unfold below
  rw [if_neg (by omega)]
  have h1 : rightEdge lo hi bins i ≤ rightEdge lo hi bins (i + 1) := by
    rw [← leftEdge_succ, ← leftEdge_succ]
    exact leftEdge_mono h (by omega)
  have h2 : rightEdge lo hi bins i ≤ hi := by
    rw [← leftEdge_succ]
    conv_rhs => rw [← leftEdge_last lo hi (show 0 < bins by omega)]
    exact leftEdge_mono h (by omega)
  split
  · apply List.countP_mono_left
    intro x _ hx
    simp only [decide_eq_true_eq] at hx ⊢
    exact ⟨hx.1, by linarith [hx.2]⟩
  · apply List.countP_mono_left
    intro x _ hx
    simp only [decide_eq_true_eq] at hx ⊢
    exact ⟨hx.1, by linarith [hx.2]⟩

theorem below_last {xs : List K} {lo hi : K} {bins : Nat} (hb : 0 < bins) (hall : ∀ x ∈ xs, lo ≤ x ∧ x ≤ hi) :
    below xs lo hi bins (bins - 1) = xs.length := by
  unfold below
  rw [if_pos (by omega), List.countP_eq_length]
  intro x hx
  simpa using hall x hx

/-! ### Least and greatest value -/

theorem foldl_some (op : K → K → K) : ∀ (xs : List K) (a : K),
    (xs.map some).foldl (nanOp op) (some a) = some (xs.foldl op a)
  | [], a => rfl
  | x :: xs, a => by
    rw [List.map_cons, List.foldl_cons, List.foldl_cons]
    exact foldl_some op xs (op a x)

theorem foldl_min_spec : ∀ (xs : List K) (a : K), (xs.foldl min a = a ∨ xs.foldl min a ∈ xs) ∧ xs.foldl min a ≤ a ∧ ∀ x ∈ xs, xs.foldl min a ≤ x
  | [], a => by simp
  | z :: xs, a => by
    obtain ⟨h1, h2, h3⟩ := foldl_min_spec xs (min a z)
    rw [List.foldl_cons]
    refine ⟨?_, h2.trans (min_le_left _ _), ?_⟩
    · rcases h1 with h1 | h1
      · rcases min_choice a z with h | h
        · left; rw [h1, h]
        · right; rw [h1, h]; exact List.mem_cons_self
      · right; exact List.mem_cons_of_mem _ h1
    · intro x hx
      rcases List.mem_cons.1 hx with rfl | hx
      · exact h2.trans (min_le_right _ _)
      · exact h3 x hx

theorem foldl_max_spec : ∀ (xs : List K) (a : K), (xs.foldl max a = a ∨ xs.foldl max a ∈ xs) ∧ a ≤ xs.foldl max a ∧ ∀ x ∈ xs, x ≤ xs.foldl max a
  | [], a => by simp
  | z :: xs, a => by
    obtain ⟨h1, h2, h3⟩ := foldl_max_spec xs (max a z)
    rw [List.foldl_cons]
    refine ⟨?_, (le_max_left _ _).trans h2, ?_⟩
    · rcases h1 with h1 | h1
      · rcases max_choice a z with h | h
        · left; rw [h1, h]
        · right; rw [h1, h]; exact List.mem_cons_self
      · right; exact List.mem_cons_of_mem _ h1
    · intro x hx
      rcases List.mem_cons.1 hx with rfl | hx
      · exact (le_max_right _ _).trans h2
      · exact h3 x hx

/-- One step of `globalReduce`. -/
theorem globalStep (op : K → K → K) (hop : ∀ (xs : List K) (a b : K), op b (xs.foldl op a) = xs.foldl op (op b a)) (acc : Option K) (x : K) (xs : List K) :
    (do let m ← npReduce op ((x :: xs).map some); pure (nanReduce op acc m) : Except PyErr (Option K)) =
      .ok (some (match acc with
        | none => xs.foldl op x
        | some a => (x :: xs).foldl op a)) := by
  rw [List.map_cons]
  show Except.ok (nanReduce op acc ((xs.map some).foldl (nanOp op) (some x))) = _
  rw [foldl_some]
  cases acc with
  | none => rfl
  | some a =>
    simp only [nanReduce, List.foldl_cons]
    rw [hop]

theorem globalReduce_some (op : K → K → K) (hop : ∀ (xs : List K) (a b : K), op b (xs.foldl op a) = xs.foldl op (op b a)) :
    ∀ (vs : List (List K)) (a : K), (∀ v ∈ vs, v ≠ []) →
      (vs.map (·.map some)).foldlM (fun acc xs => do
        let m ← npReduce op xs
        pure (nanReduce op acc m)) (some a) = (.ok (some (vs.flatten.foldl op a)) : Except PyErr (Option K))
  | [], a, _ => rfl
  | [] :: vs, a, h => absurd rfl (h [] List.mem_cons_self)
  | (x :: xs) :: vs, a, h => by
    rw [List.map_cons, List.foldlM_cons, globalStep op hop]
    show List.foldlM _ _ _ = _
    rw [globalReduce_some op hop vs _ (fun v hv => h v (List.mem_cons_of_mem _ hv)), List.flatten_cons, List.foldl_append]

theorem globalReduce_spec (op : K → K → K) (hop : ∀ (xs : List K) (a b : K), op b (xs.foldl op a) = xs.foldl op (op b a)) {vs : List (List K)}
    (hne : vs ≠ []) (h : ∀ v ∈ vs, v ≠ []) : ∃ x xs, vs.flatten = x :: xs ∧ globalReduce op (vs.map (·.map some)) = .ok (some (xs.foldl op x)) := by
  match vs, hne, h with
  | [] :: vs, _, h => exact absurd rfl (h [] List.mem_cons_self)
  | (x :: xs) :: vs, _, h =>
    refine ⟨x, xs ++ vs.flatten, by simp, ?_⟩
    unfold globalReduce
    rw [List.map_cons, List.foldlM_cons, globalStep op hop]
    show List.foldlM _ _ _ = _
    rw [globalReduce_some op hop vs _ (fun v hv => h v (List.mem_cons_of_mem _ hv)), List.foldl_append]

theorem min_foldl : ∀ (xs : List K) (a b : K), min b (xs.foldl min a) = xs.foldl min (min b a)
  | [], a, b => rfl
  | x :: xs, a, b => by
    rw [List.foldl_cons, List.foldl_cons, min_foldl xs, min_assoc]

theorem max_foldl : ∀ (xs : List K) (a b : K), max b (xs.foldl max a) = xs.foldl max (max b a)
  | [], a, b => rfl
  | x :: xs, a, b => by
    rw [List.foldl_cons, List.foldl_cons, max_foldl xs, max_assoc]

theorem globalMin {vs : List (List K)} (hne : vs ≠ []) (h : ∀ v ∈ vs, v ≠ []) :
    ∃ m, globalReduce min (vs.map (·.map some)) = .ok (some m) ∧ m ∈ vs.flatten ∧ ∀ x ∈ vs.flatten, m ≤ x := by
  obtain ⟨x, xs, e, hr⟩ := globalReduce_spec min min_foldl hne h
  obtain ⟨h1, h2, h3⟩ := foldl_min_spec xs x
  refine ⟨_, hr, ?_, ?_⟩
  · rw [e]
    rcases h1 with h1 | h1
    · rw [h1]; exact List.mem_cons_self
    · exact List.mem_cons_of_mem _ h1
  · intro z hz
    rw [e] at hz
    rcases List.mem_cons.1 hz with rfl | hz
    · exact h2
    · exact h3 z hz

theorem globalMax {vs : List (List K)} (hne : vs ≠ []) (h : ∀ v ∈ vs, v ≠ []) :
    ∃ m, globalReduce max (vs.map (·.map some)) = .ok (some m) ∧ m ∈ vs.flatten ∧ ∀ x ∈ vs.flatten, x ≤ m := by
  obtain ⟨x, xs, e, hr⟩ := globalReduce_spec max max_foldl hne h
  obtain ⟨h1, h2, h3⟩ := foldl_max_spec xs x
  refine ⟨_, hr, ?_, ?_⟩
  · rw [e]
    rcases h1 with h1 | h1
    · rw [h1]; exact List.mem_cons_self
    · exact List.mem_cons_of_mem _ h1
  · intro z hz
    rw [e] at hz
    rcases List.mem_cons.1 hz with rfl | hz
    · exact h2
    · exact h3 z hz

theorem binLabels_spec (lo hi : K) {bins : Nat} (hb : 0 < bins) :
    binLabels (linspace (some lo) (some hi) bins) bins = .ok ((List.range bins).map (fun (i : Nat) => some (leftEdge lo hi bins i + 1 / (bins : K)))) := by
  unfold binLabels
  rw [if_neg (by omega), linspace_some lo hi hb, List.dropLast_concat, List.map_map]
  rfl

theorem label_right (lo hi : K) {bins : Nat} (hb : 0 < bins) (i : Nat) :
    leftEdge lo hi bins i + 1 / (bins : K) = rightEdge lo hi bins i ↔ hi - lo = 1 := by
  have h : (bins : K) ≠ 0 := by exact_mod_cast (by omega)
  unfold leftEdge rightEdge
  rw [add_mul, one_mul, ← add_assoc, add_right_inj, div_left_inj' h]
  exact eq_comm

end Verif
