/-
Lemmas on rank correlations.
-/
import Verif.Model.RankCorr
import Verif.Spec.RankCorr
import Mathlib.Data.Fin.Tuple.Basic
import Mathlib.Algebra.BigOperators.Fin
import Mathlib.Data.List.Sort
import Mathlib.Algebra.BigOperators.Group.List.Basic
import Mathlib.Algebra.Order.BigOperators.Group.List
import Mathlib.Tactic.Ring
import Mathlib.Tactic.FieldSimp

namespace Verif
open Metrics

section Pairs
variable {γ δ : Type}

theorem countPairs_congr {c c' : γ → γ → Bool} : ∀ {l : List γ}, l.Pairwise (fun a b => c a b = c' a b) → countPairs c l = countPairs c' l
  | [], _ => rfl
  | x :: xs, h => by
    rw [List.pairwise_cons] at h
    rw [countPairs, countPairs, countPairs_congr h.2]
    congr 1
    exact List.countP_congr (fun a ha => by rw [h.1 a ha])

theorem countPairs_map (f : γ → δ) (c : δ → δ → Bool) : ∀ (l : List γ), countPairs c (l.map f) = countPairs (fun a b => c (f a) (f b)) l
  | [] => rfl
  | x :: xs => by
    rw [List.map_cons, countPairs, countPairs, countPairs_map f c xs, List.countP_map]
    rfl

theorem countPairs_perm {c : γ → γ → Bool} (hs : ∀ a b, c a b = c b a) {l l' : List γ} (h : l.Perm l') : countPairs c l = countPairs c l' := by
  induction h with
  | nil => rfl
  | cons x h ih => rw [countPairs, countPairs, ih, h.countP_eq]
  | swap x y l =>
    simp only [countPairs, List.countP_cons, hs x y]
    omega
  | trans _ _ ih1 ih2 => exact ih1.trans ih2

theorem countPairs_eq_zero {c : γ → γ → Bool} : ∀ {l : List γ}, countPairs c l = 0 ↔ l.Pairwise (fun a b => c a b = false)
  | [] => by simp [countPairs]
  | x :: xs => by
    rw [countPairs, Nat.add_eq_zero_iff, countPairs_eq_zero, List.pairwise_cons, List.countP_eq_zero]
    simp

theorem countPairs_add {c c' c'' : γ → γ → Bool} (h : ∀ a b, (c a b).toNat + (c' a b).toNat = (c'' a b).toNat) :
    ∀ (l : List γ), countPairs c l + countPairs c' l = countPairs c'' l
  | [] => rfl
  | x :: xs => by
    rw [countPairs, countPairs, countPairs, ← countPairs_add h xs]
    have : ∀ l : List γ, l.countP (c x) + l.countP (c' x) = l.countP (c'' x) := by
      intro l
      induction l with
      | nil => rfl
      | cons z l ih =>
        have hz := h x z
        rw [List.countP_cons, List.countP_cons, List.countP_cons, ← ih]
        cases hc : c x z <;> cases hc' : c' x z <;> cases hc'' : c'' x z <;> simp_all <;> omega
    have := this xs
    omega

theorem countPairs_true : ∀ (l : List γ), countPairs (fun _ _ => true) l = l.length * (l.length - 1) / 2
  | [] => by simp [countPairs]
  | x :: xs => by
    rw [countPairs, countPairs_true xs]
    simp only [List.length_cons, Nat.add_sub_cancel]
    rw [List.countP_true]
    obtain ⟨k, hk⟩ : ∃ k, xs.length = k := ⟨_, rfl⟩
    rw [hk]
    cases k with
    | zero => rfl
    | succ k =>
      simp only [Nat.add_sub_cancel]
      have h1 : (k + 1 + 1) * (k + 1) = (k + 1) * k + 2 * (k + 1) := by ring
      rw [h1]
      omega

end Pairs

section Tau
variable {α β : Type} [LinearOrder α] [LinearOrder β]

theorem conc_disc (a b : α × β) : (concordant a b).toNat + (discordant a b).toNat = (decide (a.1 ≠ b.1 ∧ a.2 ≠ b.2)).toNat := by
  unfold concordant discordant
  rcases lt_trichotomy a.1 b.1 with h | h | h <;> rcases lt_trichotomy a.2 b.2 with h' | h' | h' <;>
    simp [h, h', h.le, h'.le, not_lt.2 h.le, not_lt.2 h'.le, ne_of_lt, ne_of_gt]

/-- Pairs not tied in the first place. -/
theorem untied_second (d : List (α × β)) : countPairs concordant d + countPairs discordant d + countPairs tiedFirst d =
    countPairs (fun a b => decide (a.2 ≠ b.2)) d := by
  rw [countPairs_add conc_disc]
  apply countPairs_add
  intro a b
  unfold tiedFirst
  by_cases h : a.1 = b.1 <;> by_cases h' : a.2 = b.2 <;> simp [h, h']

theorem untied_first (d : List (α × β)) : countPairs concordant d + countPairs discordant d + countPairs tiedSecond d =
    countPairs (fun a b => decide (a.1 ≠ b.1)) d := by
  rw [countPairs_add conc_disc]
  apply countPairs_add
  intro a b
  unfold tiedSecond
  by_cases h : a.1 = b.1 <;> by_cases h' : a.2 = b.2 <;> simp [h, h']

/-- All pairs tied means constant. -/
theorem countPairs_const {γ δ : Type} [DecidableEq δ] (f : γ → δ) (d : List γ) :
    countPairs (fun a b => decide (f a ≠ f b)) d = 0 ↔ ∀ a ∈ d, ∀ b ∈ d, f a = f b := by
  rw [countPairs_eq_zero]
  constructor
  · intro h
    have h' : d.Pairwise (fun a b => f a = f b) := h.imp (fun hab => by simpa using hab)
    intro a ha b hb
    exact List.Pairwise.forall_of_forall_of_flip (R := fun a b => f a = f b) (fun _ _ => rfl) h'
      (h'.imp (fun {a b} (hab : f a = f b) => (show f b = f a from hab.symm))) ha hb
  · intro h
    rw [List.pairwise_iff_getElem]
    intro i j hi hj _
    simp [h _ (List.getElem_mem hi) _ (List.getElem_mem hj)]

theorem tau_den_zero (d : List (α × β)) :
    (countPairs concordant d + countPairs discordant d + countPairs tiedFirst d) *
      (countPairs concordant d + countPairs discordant d + countPairs tiedSecond d) = 0 ↔
    (∀ a ∈ d, ∀ b ∈ d, a.1 = b.1) ∨ (∀ a ∈ d, ∀ b ∈ d, a.2 = b.2) := by
  rw [untied_second, untied_first, Nat.mul_eq_zero, countPairs_const (fun a : α × β => a.2), countPairs_const (fun a : α × β => a.1), or_comm]

/-- The value of tau with integers under the root. -/
theorem tauOf_eq (d : List (α × β)) (h1 : ¬ ∀ a ∈ d, ∀ b ∈ d, a.1 = b.1) (h2 : ¬ ∀ a ∈ d, ∀ b ∈ d, a.2 = b.2) :
    tauOf d = some (((countPairs concordant d : ℝ) - countPairs discordant d) /
      Real.sqrt ((countPairs (fun a b => decide (a.2 ≠ b.2)) d : ℝ) * (countPairs (fun a b => decide (a.1 ≠ b.1)) d : ℝ))) := by
  unfold tauOf
  rw [if_neg (by rw [tau_den_zero]; tauto)]
  rw [← untied_second, ← untied_first]
  push_cast
  rfl

theorem tauOf_none (d : List (α × β)) : tauOf d = none ↔ (∀ a ∈ d, ∀ b ∈ d, a.1 = b.1) ∨ (∀ a ∈ d, ∀ b ∈ d, a.2 = b.2) := by
  rw [← tau_den_zero]
  unfold tauOf
  simp only
  split_ifs with h <;> simp [h]

/-- Numerator and denominator: `|P - Q| ≤ sqrt (A B)` when `P + Q ≤ A, B`. -/
theorem frac_bounds {p q a b : ℕ} (ha : p + q ≤ a) (hb : p + q ≤ b) :
    -1 ≤ ((p : ℝ) - q) / Real.sqrt ((a : ℝ) * b) ∧ ((p : ℝ) - q) / Real.sqrt ((a : ℝ) * b) ≤ 1 := by
  have hpq : ((p : ℝ) + q) ≤ Real.sqrt ((a : ℝ) * b) := by
    apply Real.le_sqrt_of_sq_le
    have h1 : ((p : ℝ) + q) ≤ a := by exact_mod_cast ha
    have h2 : ((p : ℝ) + q) ≤ b := by exact_mod_cast hb
    have h0 : (0 : ℝ) ≤ (p : ℝ) + q := by positivity
    nlinarith
  have hp : (0 : ℝ) ≤ p := Nat.cast_nonneg _
  have hq : (0 : ℝ) ≤ q := Nat.cast_nonneg _
  rcases (Real.sqrt_nonneg ((a : ℝ) * b)).eq_or_lt with h0 | h0
  · rw [← h0]; simp
  · rw [le_div_iff₀ h0, div_le_iff₀ h0]
    constructor <;> linarith

theorem frac_eq_one {p q a b : ℕ} (ha : p + q ≤ a) (hb : p + q ≤ b) (h0 : a * b ≠ 0) :
    ((p : ℝ) - q) / Real.sqrt ((a : ℝ) * b) = 1 ↔ q = 0 ∧ a = p ∧ b = p := by
  have hpos : (0 : ℝ) < (a : ℝ) * b := by
    have : 0 < a * b := Nat.pos_of_ne_zero h0
    exact_mod_cast this
  rw [div_eq_one_iff_eq (Real.sqrt_pos.2 hpos).ne']
  have h1 : ((p : ℝ) + q) ≤ a := by exact_mod_cast ha
  have h2 : ((p : ℝ) + q) ≤ b := by exact_mod_cast hb
  have hp : (0 : ℝ) ≤ p := Nat.cast_nonneg _
  have hq : (0 : ℝ) ≤ q := Nat.cast_nonneg _
  constructor
  · intro h
    have hs := Real.sq_sqrt hpos.le
    rw [← h] at hs
    have hge : (0 : ℝ) ≤ p - q := by rw [h]; exact Real.sqrt_nonneg _
    have hq0 : (q : ℝ) = 0 := by nlinarith
    rw [hq0] at hs h1 h2
    have hb0 : (0 : ℝ) < b := by
      rcases (Nat.cast_nonneg b : (0 : ℝ) ≤ b).eq_or_lt with h | h
      · rw [← h] at hpos; simp at hpos
      · exact h
    have ha0 : (0 : ℝ) < a := by
      rcases (Nat.cast_nonneg a : (0 : ℝ) ≤ a).eq_or_lt with h | h
      · rw [← h] at hpos; simp at hpos
      · exact h
    have hae : (a : ℝ) = p := by nlinarith
    have hbe : (b : ℝ) = p := by nlinarith
    exact ⟨by exact_mod_cast hq0, by exact_mod_cast hae, by exact_mod_cast hbe⟩
  · rintro ⟨rfl, rfl, rfl⟩
    simp [Real.sqrt_mul_self]

end Tau


/-! ### Pearson correlation -/

section Pearson
variable {γ δ : Type}

theorem sum_sq_comb (u w : γ → ℝ) (b c : ℝ) : ∀ (d : List γ), (d.map (fun x => (b * u x - c * w x) ^ 2)).sum =
    b ^ 2 * (d.map (fun x => u x ^ 2)).sum - 2 * b * c * (d.map (fun x => u x * w x)).sum + c ^ 2 * (d.map (fun x => w x ^ 2)).sum
  | [] => by simp
  | x :: d => by
    simp only [List.map_cons, List.sum_cons, sum_sq_comb u w b c d]
    ring

theorem sum_sq_nonneg (u : γ → ℝ) (d : List γ) : 0 ≤ (d.map (fun x => u x ^ 2)).sum :=
  List.sum_nonneg (by simp only [List.mem_map]; rintro _ ⟨x, _, rfl⟩; positivity)

theorem sum_sq_eq_zero (u : γ → ℝ) : ∀ (d : List γ), (d.map (fun x => u x ^ 2)).sum = 0 ↔ ∀ x ∈ d, u x = 0
  | [] => by simp
  | x :: d => by
    have h1 := sum_sq_nonneg u d
    have h2 : 0 ≤ u x ^ 2 := by positivity
    rw [List.map_cons, List.sum_cons, List.forall_mem_cons, ← sum_sq_eq_zero u d]
    constructor
    · intro h
      exact ⟨by have : u x ^ 2 = 0 := by linarith
                simpa using this, by linarith⟩
    · rintro ⟨h, h'⟩
      rw [h, h']; simp

theorem cauchy (u w : γ → ℝ) (d : List γ) :
    (d.map (fun x => u x * w x)).sum ^ 2 ≤ (d.map (fun x => u x ^ 2)).sum * (d.map (fun x => w x ^ 2)).sum := by
  have hB := sum_sq_nonneg w d
  rcases hB.eq_or_lt with h0 | h0
  · have hw := (sum_sq_eq_zero w d).1 h0.symm
    have hz : (d.map (fun x => u x * w x)).sum = 0 := by
      rw [List.map_congr_left (g := fun _ => (0 : ℝ)) (fun x hx => by rw [hw x hx, mul_zero])]
      simp
    rw [← h0, hz]; simp
  · have h := sum_sq_nonneg (fun x => (d.map (fun x => w x ^ 2)).sum * u x - (d.map (fun x => u x * w x)).sum * w x) d
    rw [sum_sq_comb] at h
    nlinarith

theorem spread_eq_zero (d : List γ) (f : γ → ℝ) : spread d f = 0 ↔ ∀ a ∈ d, ∀ b ∈ d, f a = f b := by
  unfold spread
  rw [sum_sq_eq_zero (fun x => f x - meanOf d f)]
  constructor
  · intro h a ha b hb
    have h1 := h a ha
    have h2 := h b hb
    linarith
  · intro h a ha
    have : d.map f = List.replicate d.length (f a) := by
      rw [List.eq_replicate_iff]
      refine ⟨by simp, ?_⟩
      simp only [List.mem_map]
      rintro _ ⟨b, hb, rfl⟩
      exact h b hb a ha
    unfold meanOf
    rw [this, List.sum_replicate]
    have hn : (d.length : ℝ) ≠ 0 := by
      have := List.length_pos_of_mem ha
      positivity
    simp only [nsmul_eq_mul]
    field_simp
    ring

theorem spread_nonneg (d : List γ) (f : γ → ℝ) : 0 ≤ spread d f := sum_sq_nonneg (fun x => f x - meanOf d f) d

theorem pearson_none (d : List γ) (f g : γ → ℝ) : pearson d f g = none ↔
    (∀ a ∈ d, ∀ b ∈ d, f a = f b) ∨ (∀ a ∈ d, ∀ b ∈ d, g a = g b) := by
  rw [← spread_eq_zero, ← spread_eq_zero, ← mul_eq_zero]
  unfold pearson
  split_ifs with h <;> simp [h]

theorem pearson_range {d : List γ} {f g : γ → ℝ} {r : ℝ} (h : pearson d f g = some r) : -1 ≤ r ∧ r ≤ 1 := by
  unfold pearson at h
  split_ifs at h with h0
  rw [Option.some.injEq] at h
  rw [← abs_le, ← h, abs_div, abs_of_nonneg (Real.sqrt_nonneg _)]
  apply div_le_one_of_le₀ _ (Real.sqrt_nonneg _)
  apply Real.abs_le_sqrt
  exact cauchy (fun x => f x - meanOf d f) (fun x => g x - meanOf d g) d

theorem pearson_comm (d : List γ) (f g : γ → ℝ) : pearson d f g = pearson d g f := by
  unfold pearson
  rw [mul_comm (spread d f)]
  simp only [mul_comm (_ - meanOf d f)]

theorem pearson_congr {d : List γ} {f g f' g' : γ → ℝ} (hf : ∀ x ∈ d, f x = f' x) (hg : ∀ x ∈ d, g x = g' x) :
    pearson d f g = pearson d f' g' := by
  have mf : meanOf d f = meanOf d f' := by unfold meanOf; rw [List.map_congr_left hf]
  have mg : meanOf d g = meanOf d g' := by unfold meanOf; rw [List.map_congr_left hg]
  have sf : spread d f = spread d f' := by
    unfold spread; rw [mf, List.map_congr_left (fun x hx => by rw [hf x hx])]
  have sg : spread d g = spread d g' := by
    unfold spread; rw [mg, List.map_congr_left (fun x hx => by rw [hg x hx])]
  unfold pearson
  rw [sf, sg, mf, mg, List.map_congr_left (fun x hx => by rw [hf x hx, hg x hx])]

theorem pearson_map (e : δ → γ) (d : List δ) (f g : γ → ℝ) : pearson (d.map e) f g = pearson d (f ∘ e) (g ∘ e) := by
  simp [pearson, spread, meanOf, List.map_map, Function.comp_def]

theorem pearson_perm {d d' : List γ} (h : d.Perm d') (f g : γ → ℝ) : pearson d f g = pearson d' f g := by
  have m : ∀ f : γ → ℝ, meanOf d f = meanOf d' f := fun f => by
    unfold meanOf; rw [(h.map f).sum_eq, h.length_eq]
  have sp : ∀ f : γ → ℝ, spread d f = spread d' f := fun f => by
    unfold spread; rw [m, (h.map _).sum_eq]
  unfold pearson
  rw [sp, sp, m, m, (h.map _).sum_eq]

theorem meanOf_reflect {d : List γ} (hd : d ≠ []) (g : γ → ℝ) (c : ℝ) : meanOf d (fun x => c - g x) = c - meanOf d g := by
  unfold meanOf
  have hn : (d.length : ℝ) ≠ 0 := by
    have := List.length_pos_iff.2 hd
    positivity
  have : (d.map (fun x => c - g x)).sum = d.length * c - (d.map g).sum := by
    clear hn hd
    induction d with
    | nil => simp
    | cons x d ih => simp only [List.map_cons, List.sum_cons, ih, List.length_cons]; push_cast; ring
  rw [this]
  field_simp

theorem pearson_reflect {d : List γ} (hd : d ≠ []) (f g : γ → ℝ) (c : ℝ) :
    pearson d f (fun x => c - g x) = (pearson d f g).map (fun r => -r) := by
  have hs : spread d (fun x => c - g x) = spread d g := by
    unfold spread
    rw [meanOf_reflect hd]
    congr 1
    apply List.map_congr_left
    intro x _
    ring
  unfold pearson
  rw [hs, meanOf_reflect hd]
  split_ifs
  · rfl
  · rw [Option.map_some, ← neg_div]
    congr 2
    rename_i h0
    clear h0 hs hd
    generalize meanOf d f = m
    generalize meanOf d g = m'
    induction d with
    | nil => simp
    | cons x d ih => simp only [List.map_cons, List.sum_cons, ih]; ring

theorem pearson_self {d : List γ} {f : γ → ℝ} (h : ¬ ∀ a ∈ d, ∀ b ∈ d, f a = f b) : pearson d f f = some 1 := by
  have h0 : spread d f ≠ 0 := fun h' => h ((spread_eq_zero d f).1 h')
  unfold pearson
  rw [if_neg (mul_ne_zero h0 h0), Real.sqrt_mul_self (spread_nonneg d f)]
  congr 1
  rw [div_eq_one_iff_eq h0]
  unfold spread
  congr 1
  apply List.map_congr_left
  intro x _
  ring

/-- Correlation one: the deviations are proportional with a positive factor. -/
theorem pearson_one {d : List γ} {f g : γ → ℝ} (h : pearson d f g = some 1) :
    ∃ c : ℝ, 0 < c ∧ ∀ a ∈ d, ∀ b ∈ d, f a - f b = c * (g a - g b) := by
  unfold pearson at h
  split_ifs at h with h0
  rw [Option.some.injEq] at h
  obtain ⟨hf, hg⟩ := mul_ne_zero_iff.1 h0
  have hf := (spread_nonneg d f).lt_of_ne' hf
  have hg := (spread_nonneg d g).lt_of_ne' hg
  have hs : 0 < Real.sqrt (spread d f * spread d g) := Real.sqrt_pos.2 (mul_pos hf hg)
  rw [div_eq_one_iff_eq hs.ne'] at h
  have hsq := Real.sq_sqrt (mul_pos hf hg).le
  rw [← h] at hsq hs
  have hz := sum_sq_comb (fun x => f x - meanOf d f) (fun x => g x - meanOf d g) (spread d g)
    (d.map (fun x => (f x - meanOf d f) * (g x - meanOf d g))).sum d
  change _ = spread d g ^ 2 * spread d f - _ + _ * spread d g at hz
  have hz0 : (d.map (fun x => (spread d g * (f x - meanOf d f) -
      (d.map (fun x => (f x - meanOf d f) * (g x - meanOf d g))).sum * (g x - meanOf d g)) ^ 2)).sum = 0 := by
    rw [hz]
    nlinarith
  rw [sum_sq_eq_zero (fun x => spread d g * (f x - meanOf d f) -
      (d.map (fun x => (f x - meanOf d f) * (g x - meanOf d g))).sum * (g x - meanOf d g))] at hz0
  refine ⟨_ / spread d g, div_pos hs hg, ?_⟩
  intro a ha b hb
  have h1 := hz0 a ha
  have h2 := hz0 b hb
  field_simp
  linarith

end Pearson


/-! ### Ranks -/

section Ranks
variable {α β : Type} [LinearOrder α] [LinearOrder β]

theorem countP_le_total (v : List α) {x y : α} (h : x < y) :
    v.countP (fun z => decide (z < x)) + v.countP (fun z => decide (z = x)) ≤ v.countP (fun z => decide (z < y)) := by
  induction v with
  | nil => simp
  | cons z v ih =>
    simp only [List.countP_cons, decide_eq_true_eq]
    rcases lt_trichotomy z x with h' | h' | h'
    · simp [h', h'.ne, h'.trans h]; omega
    · simp [h', h]; omega
    · simp [h'.ne', not_lt.2 h'.le]; split_ifs <;> omega

theorem avgRank_lt {v : List α} {x y : α} (hx : x ∈ v) (h : x < y) : avgRank v x < avgRank v y := by
  unfold avgRank
  have h1 := countP_le_total v h
  have h2 : 0 < v.countP (fun z => decide (z = x)) := List.countP_pos_iff.2 ⟨x, hx, by simp⟩
  have h1' : ((v.countP (fun z => decide (z < x)) : ℝ)) + v.countP (fun z => decide (z = x)) ≤ v.countP (fun z => decide (z < y)) := by
    exact_mod_cast h1
  have h2' : (0 : ℝ) < v.countP (fun z => decide (z = x)) := by exact_mod_cast h2
  have h3 : (0 : ℝ) ≤ v.countP (fun z => decide (z = y)) := Nat.cast_nonneg _
  linarith

theorem avgRank_lt_iff {v : List α} {x y : α} (hx : x ∈ v) (hy : y ∈ v) : avgRank v x < avgRank v y ↔ x < y := by
  constructor
  · intro h
    by_contra hc
    rcases (not_lt.1 hc).eq_or_lt with h' | h'
    · rw [h'] at h; exact lt_irrefl _ h
    · exact lt_asymm h (avgRank_lt hy h')
  · exact avgRank_lt hx

theorem avgRank_inj {v : List α} {x y : α} (hx : x ∈ v) (hy : y ∈ v) : avgRank v x = avgRank v y ↔ x = y := by
  rw [← not_iff_not, ← ne_eq, ← ne_eq, ne_iff_lt_or_gt, ne_iff_lt_or_gt]
  exact or_congr (avgRank_lt_iff hx hy) (avgRank_lt_iff hy hx)

theorem avgRank_perm {v v' : List α} (h : v.Perm v') (x : α) : avgRank v x = avgRank v' x := by
  unfold avgRank
  rw [h.countP_eq, h.countP_eq]

/-- Ranks only depend on the comparisons. -/
theorem avgRank_congr {γ : Type} {d : List γ} {f : γ → α} {g : γ → β} (h : ∀ a ∈ d, ∀ b ∈ d, f a < f b ↔ g a < g b) {x : γ} (hx : x ∈ d) :
    avgRank (d.map f) (f x) = avgRank (d.map g) (g x) := by
  unfold avgRank
  rw [List.countP_map, List.countP_map, List.countP_map, List.countP_map]
  have h1 : d.countP ((fun z => decide (z < f x)) ∘ f) = d.countP ((fun z => decide (z < g x)) ∘ g) :=
    List.countP_congr (fun a ha => by simp [h a ha x hx])
  have h2 : d.countP ((fun z => decide (z = f x)) ∘ f) = d.countP ((fun z => decide (z = g x)) ∘ g) :=
    List.countP_congr (fun a ha => by
      simp only [Function.comp, decide_eq_true_eq]
      rw [← not_iff_not, ← ne_eq, ← ne_eq, ne_iff_lt_or_gt, ne_iff_lt_or_gt]
      exact or_congr (h a ha x hx) (h x hx a ha))
  rw [h1, h2]

/-- Ranks in the opposite order. -/
theorem avgRank_reverse {γ : Type} {d : List γ} {f : γ → α} {g : γ → β} (h : ∀ a ∈ d, ∀ b ∈ d, f a < f b ↔ g b < g a) {x : γ} (hx : x ∈ d) :
    avgRank (d.map f) (f x) = ((d.length : ℝ) + 1) - avgRank (d.map g) (g x) := by
  unfold avgRank
  rw [List.countP_map, List.countP_map, List.countP_map, List.countP_map]
  have h1 : d.countP ((fun z => decide (z < f x)) ∘ f) = d.countP (fun a => decide (g x < g a)) :=
    List.countP_congr (fun a ha => by simp [h a ha x hx])
  have h2 : d.countP ((fun z => decide (z = f x)) ∘ f) = d.countP ((fun z => decide (z = g x)) ∘ g) :=
    List.countP_congr (fun a ha => by
      simp only [Function.comp, decide_eq_true_eq]
      rw [← not_iff_not, ← ne_eq, ← ne_eq, ne_iff_lt_or_gt, ne_iff_lt_or_gt, or_comm]
      exact or_congr (h x hx a ha) (h a ha x hx))
  have h3 : ∀ l : List γ, l.countP (fun a => decide (g x < g a)) + l.countP ((fun z => decide (z < g x)) ∘ g) +
      l.countP ((fun z => decide (z = g x)) ∘ g) = l.length := by
    intro l
    induction l with
    | nil => rfl
    | cons a l ih =>
      simp only [List.countP_cons, List.length_cons, ← ih, Function.comp, decide_eq_true_eq]
      rcases lt_trichotomy (g a) (g x) with h' | h' | h'
      · simp [h', h'.ne, not_lt.2 h'.le]; omega
      · simp [h']; omega
      · simp [h', h'.ne', not_lt.2 h'.le]; omega
  rw [h1, h2]
  have h3' : ((d.countP (fun a => decide (g x < g a)) : ℝ)) + d.countP ((fun z => decide (z < g x)) ∘ g) +
      d.countP ((fun z => decide (z = g x)) ∘ g) = d.length := by exact_mod_cast h3 d
  linarith

theorem rhoOf_none (d : List (α × β)) : rhoOf d = none ↔ (∀ a ∈ d, ∀ b ∈ d, a.1 = b.1) ∨ (∀ a ∈ d, ∀ b ∈ d, a.2 = b.2) := by
  unfold rhoOf
  rw [pearson_none]
  apply or_congr
  · exact forall₂_congr (fun a ha => forall₂_congr (fun b hb => avgRank_inj (List.mem_map_of_mem ha) (List.mem_map_of_mem hb)))
  · exact forall₂_congr (fun a ha => forall₂_congr (fun b hb => avgRank_inj (List.mem_map_of_mem ha) (List.mem_map_of_mem hb)))

theorem rhoOf_one {d : List (α × β)} (h1 : ¬ ∀ a ∈ d, ∀ b ∈ d, a.1 = b.1) :
    rhoOf d = some 1 ↔ ∀ a ∈ d, ∀ b ∈ d, a.1 < b.1 ↔ a.2 < b.2 := by
  constructor
  · intro h a ha b hb
    obtain ⟨c, hc, he⟩ := pearson_one h
    have e := he a ha b hb
    rw [← avgRank_lt_iff (List.mem_map_of_mem ha) (List.mem_map_of_mem hb),
      ← avgRank_lt_iff (v := d.map (·.2)) (List.mem_map_of_mem ha) (List.mem_map_of_mem hb)]
    constructor
    · intro h; by_contra hc'; nlinarith [not_lt.1 hc']
    · intro h; nlinarith
  · intro h
    unfold rhoOf
    rw [pearson_congr (g' := fun x : α × β => avgRank (d.map (·.1)) x.1) (fun _ _ => rfl) (fun x hx => (avgRank_congr h hx).symm)]
    apply pearson_self
    intro h'
    exact h1 (fun a ha b hb => (avgRank_inj (List.mem_map_of_mem ha) (List.mem_map_of_mem hb)).1 (h' a ha b hb))

theorem tauOf_one {d : List (α × β)} (h1 : ¬ ∀ a ∈ d, ∀ b ∈ d, a.1 = b.1) :
    tauOf d = some 1 ↔ ∀ a ∈ d, ∀ b ∈ d, a.1 < b.1 ↔ a.2 < b.2 := by
  have key : (∀ a ∈ d, ∀ b ∈ d, a.1 < b.1 ↔ a.2 < b.2) ↔ countPairs discordant d = 0 ∧ countPairs tiedFirst d = 0 ∧ countPairs tiedSecond d = 0 := by
    rw [countPairs_eq_zero, countPairs_eq_zero, countPairs_eq_zero, ← List.pairwise_and_iff, ← List.pairwise_and_iff]
    have hp : ∀ a b : α × β, (discordant a b = false ∧ tiedFirst a b = false ∧ tiedSecond a b = false) ↔
        ((a.1 < b.1 ↔ a.2 < b.2) ∧ (b.1 < a.1 ↔ b.2 < a.2)) := by
      intro a b
      unfold discordant tiedFirst tiedSecond
      rcases lt_trichotomy a.1 b.1 with h | h | h <;> rcases lt_trichotomy a.2 b.2 with h' | h' | h' <;>
        simp [h, h', h.le, h'.le, not_lt.2 h.le, not_lt.2 h'.le, ne_of_lt, ne_of_gt]
    constructor
    · intro h
      rw [List.pairwise_iff_getElem]
      intro i j hi hj _
      rw [hp]
      exact ⟨h _ (List.getElem_mem _) _ (List.getElem_mem _), h _ (List.getElem_mem _) _ (List.getElem_mem _)⟩
    · intro h a ha b hb
      have h' : d.Pairwise (fun a b => (a.1 < b.1 ↔ a.2 < b.2) ∧ (b.1 < a.1 ↔ b.2 < a.2)) := h.imp (fun {a b} hab => (hp a b).1 hab)
      exact (List.Pairwise.forall_of_forall_of_flip (R := fun a b : α × β => (a.1 < b.1 ↔ a.2 < b.2) ∧ (b.1 < a.1 ↔ b.2 < a.2))
        (fun _ _ => by simp) h' (h'.imp (fun {a b} hab => ⟨hab.2, hab.1⟩)) ha hb).1
  rw [key]
  by_cases h2 : ∀ a ∈ d, ∀ b ∈ d, a.2 = b.2
  · have hn : tauOf d = none := (tauOf_none d).2 (Or.inr h2)
    rw [hn]
    simp only [reduceCtorEq, false_iff]
    rw [← key]
    intro h
    apply h1
    intro a ha b hb
    apply le_antisymm <;> rw [← not_lt]
    · rw [h b hb a ha, h2 a ha b hb]; exact lt_irrefl _
    · rw [h a ha b hb, h2 a ha b hb]; exact lt_irrefl _
  · rw [tauOf_eq d h1 h2, Option.some.injEq, frac_eq_one, ← untied_second, ← untied_first]
    · omega
    · rw [← untied_second]; omega
    · rw [← untied_first]; omega
    · rw [← untied_second, ← untied_first, Ne, tau_den_zero]; tauto

theorem tauOf_range {d : List (α × β)} {r : ℝ} (h : tauOf d = some r) : -1 ≤ r ∧ r ≤ 1 := by
  have hn : ¬ (tauOf d = none) := by rw [h]; simp
  rw [tauOf_none, not_or] at hn
  rw [tauOf_eq d hn.1 hn.2, Option.some.injEq] at h
  rw [← h]
  apply frac_bounds
  · rw [← untied_second]; omega
  · rw [← untied_first]; omega

end Ranks

end Verif
