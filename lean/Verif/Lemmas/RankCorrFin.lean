/-
Rank correlations of documents given by position.
-/
import Verif.Lemmas.RankCorr
import Mathlib.Algebra.BigOperators.Intervals
import Mathlib.Data.Finset.Interval
import Mathlib.Order.Interval.Finset.Nat
import Mathlib.Algebra.BigOperators.Field

namespace Verif
open Metrics Spec

section
variable {γ δ : Type} {n : ℕ}

theorem countP_ofFn (f : Fin n → γ) (p : γ → Bool) : (List.ofFn f).countP p = ∑ i, if p (f i) then 1 else 0 := by
  induction n with
  | zero => simp
  | succ n ih => rw [List.ofFn_succ, List.countP_cons, ih, Fin.sum_univ_succ, add_comm]

theorem countP_ofFn_card (f : Fin n → γ) (p : γ → Bool) : (List.ofFn f).countP p = ({i | p (f i) = true} : Finset (Fin n)).card := by
  rw [countP_ofFn, Finset.card_filter]

theorem countPairs_ofFn_sum (f : Fin n → γ) (c : γ → γ → Bool) :
    countPairs c (List.ofFn f) = ∑ i : Fin n, ∑ j : Fin n, if i < j ∧ c (f i) (f j) = true then 1 else 0 := by
  induction n with
  | zero => simp [countPairs]
  | succ n ih =>
    rw [List.ofFn_succ, countPairs, ih, countP_ofFn, Fin.sum_univ_succ]
    congr 1
    · rw [Fin.sum_univ_succ]
      simp
    · apply Finset.sum_congr rfl
      intro i _
      rw [Fin.sum_univ_succ]
      simp

theorem countPairs_ofFn (f : Fin n → γ) (c : γ → γ → Bool) :
    countPairs c (List.ofFn f) = ({p | p.1 < p.2 ∧ c (f p.1) (f p.2) = true} : Finset (Fin n × Fin n)).card := by
  rw [countPairs_ofFn_sum, Finset.card_filter, ← Finset.univ_product_univ, Finset.sum_product]

theorem zip_ofFn (f : Fin n → γ) (g : Fin n → δ) : (List.ofFn f).zip (List.ofFn g) = List.ofFn (fun i => (f i, g i)) := by
  apply List.ext_getElem
  · simp
  · intro i h1 h2
    simp

theorem forall_mem_ofFn (f : Fin n → γ) {P : γ → γ → Prop} : (∀ a ∈ List.ofFn f, ∀ b ∈ List.ofFn f, P a b) ↔ ∀ i j, P (f i) (f j) := by
  simp only [List.mem_ofFn]
  constructor
  · intro h i j
    exact h _ ⟨i, rfl⟩ _ ⟨j, rfl⟩
  · rintro h _ ⟨i, rfl⟩ _ ⟨j, rfl⟩
    exact h i j

end

section
variable {α β : Type} [LinearOrder α] [LinearOrder β] {n : ℕ}

theorem conc_card (y : Fin n → α) (s : Fin n → β) : countPairs concordant (List.ofFn (fun i => (y i, s i))) = (concordantPairs y s).card := by
  rw [countPairs_ofFn]
  simp [concordantPairs, concordant]

theorem disc_card (y : Fin n → α) (s : Fin n → β) : countPairs discordant (List.ofFn (fun i => (y i, s i))) = (discordantPairs y s).card := by
  rw [countPairs_ofFn]
  simp [discordantPairs, discordant]

theorem untied_first_card (y : Fin n → α) (s : Fin n → β) :
    countPairs (fun a b : α × β => decide (a.1 ≠ b.1)) (List.ofFn (fun i => (y i, s i))) = (untiedPairs y).card := by
  rw [countPairs_ofFn]
  simp [untiedPairs]

theorem untied_second_card (y : Fin n → α) (s : Fin n → β) :
    countPairs (fun a b : α × β => decide (a.2 ≠ b.2)) (List.ofFn (fun i => (y i, s i))) = (untiedPairs s).card := by
  rw [countPairs_ofFn]
  simp [untiedPairs]

/-- Without equal values all pairs are untied. -/
theorem untied_inj {v : Fin n → α} (h : Function.Injective v) : (untiedPairs v).card = n * (n - 1) / 2 := by
  have h1 := countPairs_true (List.ofFn v)
  rw [List.length_ofFn, countPairs_ofFn] at h1
  rw [← h1]
  congr 1
  ext p
  simp only [untiedPairs, Finset.mem_filter, Finset.mem_univ, true_and, and_true]
  constructor
  · exact fun h => h.1
  · exact fun hp => ⟨hp, fun he => hp.ne (h he)⟩

theorem avgRank_inj_eq {v : Fin n → α} (h : Function.Injective v) (i : Fin n) : avgRank (List.ofFn v) (v i) = rankOf v i := by
  unfold avgRank rankOf
  rw [countP_ofFn_card, countP_ofFn_card]
  have : ({j | decide (v j = v i) = true} : Finset (Fin n)) = {i} := by
    ext j
    simp [h.eq_iff]
  rw [this]
  simp

theorem rankOf_lt {v : Fin n → α} {i j : Fin n} (h : v i < v j) : rankOf v i < rankOf v j := by
  unfold rankOf
  apply Nat.add_lt_add_right
  apply Finset.card_lt_card
  rw [Finset.ssubset_iff_of_subset]
  · exact ⟨i, by simp [h], by simp⟩
  · intro k
    simp only [Finset.mem_filter, Finset.mem_univ, true_and]
    exact fun hk => hk.trans h

theorem rankOf_injective {v : Fin n → α} (h : Function.Injective v) : Function.Injective (rankOf v) := by
  intro i j hij
  by_contra hne
  rcases lt_or_gt_of_ne (fun he => hne (h he)) with h' | h'
  · exact (rankOf_lt h').ne hij
  · exact (rankOf_lt h').ne' hij

/-- Ranks are the numbers from 1 to n. -/
theorem sum_rankOf {v : Fin n → α} (h : Function.Injective v) (f : ℕ → ℝ) : ∑ i, f (rankOf v i) = ∑ k ∈ Finset.range n, f (k + 1) := by
  have himg : (Finset.univ.image (fun i => rankOf v i - 1)) = Finset.range n := by
    apply Finset.eq_of_subset_of_card_le
    · intro k
      simp only [Finset.mem_image, Finset.mem_univ, true_and, Finset.mem_range]
      rintro ⟨i, rfl⟩
      unfold rankOf
      rw [Nat.add_sub_cancel]
      calc _ < (Finset.univ : Finset (Fin n)).card := by
            apply Finset.card_lt_card
            rw [Finset.ssubset_univ_iff]
            intro hc
            have := hc ▸ Finset.mem_univ i
            simp at this
        _ = n := by simp
    · rw [Finset.card_range, Finset.card_image_of_injective]
      · simp
      · intro i j hij
        apply rankOf_injective h
        simp only [rankOf, Nat.add_sub_cancel] at hij ⊢
        rw [hij]
  rw [← himg, Finset.sum_image]
  · apply Finset.sum_congr rfl
    intro i _
    simp [rankOf]
  · intro i _ j _ hij
    apply rankOf_injective h
    simp only [rankOf, Nat.add_sub_cancel] at hij ⊢
    rw [hij]

theorem sum_id_real (n : ℕ) : ∑ k ∈ Finset.range n, ((k + 1 : ℕ) : ℝ) = n * (n + 1) / 2 := by
  induction n with
  | zero => simp
  | succ n ih => rw [Finset.sum_range_succ, ih]; push_cast; ring

theorem sum_sq_real (n : ℕ) : ∑ k ∈ Finset.range n, ((k + 1 : ℕ) : ℝ) ^ 2 = n * (n + 1) * (2 * n + 1) / 6 := by
  induction n with
  | zero => simp
  | succ n ih => rw [Finset.sum_range_succ, ih]; push_cast; ring

theorem meanOf_rank {γ : Type} {v : Fin n → α} (h : Function.Injective v) (hn : n ≠ 0) {d : Fin n → γ} {f : γ → ℝ} (hf : ∀ i, f (d i) = rankOf v i) :
    meanOf (List.ofFn d) f = ((n : ℝ) + 1) / 2 := by
  unfold meanOf
  rw [List.map_ofFn, List.sum_ofFn, List.length_ofFn]
  simp only [Function.comp, hf]
  rw [sum_rankOf h (fun k => (k : ℝ)), sum_id_real]
  have : (n : ℝ) ≠ 0 := by exact_mod_cast hn
  field_simp

theorem spread_rank {γ : Type} {v : Fin n → α} (h : Function.Injective v) (hn : n ≠ 0) {d : Fin n → γ} {f : γ → ℝ} (hf : ∀ i, f (d i) = rankOf v i) :
    spread (List.ofFn d) f = (n : ℝ) * ((n : ℝ) ^ 2 - 1) / 12 := by
  unfold spread
  rw [meanOf_rank h hn hf, List.map_ofFn, List.sum_ofFn]
  simp only [Function.comp, hf]
  rw [sum_rankOf h (fun k => ((k : ℝ) - ((n : ℝ) + 1) / 2) ^ 2)]
  have e : ∀ k : ℕ, (((k + 1 : ℕ) : ℝ) - ((n : ℝ) + 1) / 2) ^ 2 =
      ((k + 1 : ℕ) : ℝ) ^ 2 - ((n : ℝ) + 1) * ((k + 1 : ℕ) : ℝ) + (((n : ℝ) + 1) / 2) ^ 2 := by
    intro k; ring
  simp only [e]
  rw [Finset.sum_add_distrib, Finset.sum_sub_distrib, ← Finset.mul_sum, sum_id_real, sum_sq_real, Finset.sum_const, Finset.card_range,
    nsmul_eq_mul]
  ring

/-- Spearman's formula. -/
theorem rhoOf_no_ties {y : Fin n → α} {s : Fin n → β} (hy : Function.Injective y) (hs : Function.Injective s) (hn : 2 ≤ n) :
    rhoOf (List.ofFn (fun i => (y i, s i))) =
      some (1 - 6 * (∑ i, ((rankOf y i : ℝ) - rankOf s i) ^ 2) / (n * ((n : ℝ) ^ 2 - 1))) := by
  have hn0 : n ≠ 0 := by omega
  have hn2 : (2 : ℝ) ≤ n := by exact_mod_cast hn
  unfold rhoOf
  have m1 : (List.ofFn (fun i => (y i, s i))).map (·.1) = List.ofFn y := by rw [List.map_ofFn]; rfl
  have m2 : (List.ofFn (fun i => (y i, s i))).map (·.2) = List.ofFn s := by rw [List.map_ofFn]; rfl
  rw [m1, m2]
  have e1 : ∀ i, (fun x : α × β => avgRank (List.ofFn y) x.1) ((fun i => (y i, s i)) i) = rankOf y i := fun i => avgRank_inj_eq hy i
  have e2 : ∀ i, (fun x : α × β => avgRank (List.ofFn s) x.2) ((fun i => (y i, s i)) i) = rankOf s i := fun i => avgRank_inj_eq hs i
  have hS : 0 < (n : ℝ) * ((n : ℝ) ^ 2 - 1) / 12 := by
    apply div_pos _ (by norm_num)
    apply mul_pos <;> nlinarith
  have sp1 := spread_rank (d := fun i => (y i, s i)) (f := fun x : α × β => avgRank (List.ofFn y) x.1) hy hn0 e1
  have sp2 := spread_rank (d := fun i => (y i, s i)) (f := fun x : α × β => avgRank (List.ofFn s) x.2) hs hn0 e2
  have mm1 := meanOf_rank (d := fun i => (y i, s i)) (f := fun x : α × β => avgRank (List.ofFn y) x.1) hy hn0 e1
  have mm2 := meanOf_rank (d := fun i => (y i, s i)) (f := fun x : α × β => avgRank (List.ofFn s) x.2) hs hn0 e2
  unfold pearson
  rw [sp1, sp2, mm1, mm2, if_neg (mul_ne_zero hS.ne' hS.ne'),
    Real.sqrt_mul_self hS.le]
  congr 1
  rw [List.map_ofFn, List.sum_ofFn]
  have q1 : ∑ i, ((rankOf y i : ℝ) - ((n : ℝ) + 1) / 2) ^ 2 = (n : ℝ) * ((n : ℝ) ^ 2 - 1) / 12 := by
    rw [← sp1]
    unfold spread
    rw [mm1, List.map_ofFn, List.sum_ofFn]
    exact Finset.sum_congr rfl (fun i _ => by simp only [Function.comp]; rw [avgRank_inj_eq hy])
  have q2 : ∑ i, ((rankOf s i : ℝ) - ((n : ℝ) + 1) / 2) ^ 2 = (n : ℝ) * ((n : ℝ) ^ 2 - 1) / 12 := by
    rw [← sp2]
    unfold spread
    rw [mm2, List.map_ofFn, List.sum_ofFn]
    exact Finset.sum_congr rfl (fun i _ => by simp only [Function.comp]; rw [avgRank_inj_eq hs])
  have q3 : (∑ i, ((fun x : α × β => (avgRank (List.ofFn y) x.1 - ((n : ℝ) + 1) / 2) * (avgRank (List.ofFn s) x.2 - ((n : ℝ) + 1) / 2)) ∘
      fun i => (y i, s i)) i) = (n : ℝ) * ((n : ℝ) ^ 2 - 1) / 12 - (∑ i, ((rankOf y i : ℝ) - rankOf s i) ^ 2) / 2 := by
    have : ∀ i, ((fun x : α × β => (avgRank (List.ofFn y) x.1 - ((n : ℝ) + 1) / 2) * (avgRank (List.ofFn s) x.2 - ((n : ℝ) + 1) / 2)) ∘
      fun i => (y i, s i)) i = (((rankOf y i : ℝ) - ((n : ℝ) + 1) / 2) ^ 2 + ((rankOf s i : ℝ) - ((n : ℝ) + 1) / 2) ^ 2 -
        ((rankOf y i : ℝ) - rankOf s i) ^ 2) / 2 := by
      intro i
      simp only [Function.comp]
      rw [avgRank_inj_eq hy, avgRank_inj_eq hs]
      ring
    rw [Finset.sum_congr rfl (fun i _ => this i), ← Finset.sum_div, Finset.sum_sub_distrib, Finset.sum_add_distrib, q1, q2]
    ring
  rw [q3]
  generalize ∑ i, ((rankOf y i : ℝ) - rankOf s i) ^ 2 = D
  have h1 : (n : ℝ) ≠ 0 := by linarith
  have h2 : (n : ℝ) ^ 2 - 1 ≠ 0 := by nlinarith
  field_simp
  ring

/-- Kendall's formula. -/
theorem tauOf_no_ties {y : Fin n → α} {s : Fin n → β} (hy : Function.Injective y) (hs : Function.Injective s) (hn : 2 ≤ n) :
    tauOf (List.ofFn (fun i => (y i, s i))) = some (1 - 4 * ((discordantPairs y s).card : ℝ) / (n * ((n : ℝ) - 1))) := by
  have hn2 : (2 : ℝ) ≤ n := by exact_mod_cast hn
  have ha : (⟨0, by omega⟩ : Fin n) ≠ ⟨1, by omega⟩ := by simp
  rw [tauOf_eq]
  rotate_left
  · rw [forall_mem_ofFn (fun i => (y i, s i)) (P := fun a b => a.1 = b.1)]
    exact fun h => ha (hy (h _ _))
  · rw [forall_mem_ofFn (fun i => (y i, s i)) (P := fun a b => a.2 = b.2)]
    exact fun h => ha (hs (h _ _))
  have hsum := countPairs_add (conc_disc (α := α) (β := β)) (List.ofFn (fun i => (y i, s i)))
  rw [conc_card, disc_card] at hsum
  have hall : countPairs (fun a b : α × β => decide (a.1 ≠ b.1 ∧ a.2 ≠ b.2)) (List.ofFn (fun i => (y i, s i))) = (untiedPairs y).card := by
    rw [countPairs_ofFn]
    congr 1
    ext p
    simp only [untiedPairs, Finset.mem_filter, Finset.mem_univ, true_and, decide_eq_true_eq]
    constructor
    · exact fun h => ⟨h.1, h.2.1⟩
    · exact fun h => ⟨h.1, h.2, fun he => h.1.ne (hs he)⟩
  rw [hall] at hsum
  rw [untied_first_card, untied_second_card, conc_card, disc_card, untied_inj hs, ← untied_inj hy,
    Real.sqrt_mul_self (Nat.cast_nonneg _)]
  have hN : ((untiedPairs y).card : ℝ) = n * ((n : ℝ) - 1) / 2 := by
    rw [untied_inj hy, Nat.cast_div]
    · rw [Nat.cast_mul, Nat.cast_sub (by omega)]; simp
    · exact (Nat.even_mul_pred_self n).two_dvd
    · norm_num
  have hp : ((concordantPairs y s).card : ℝ) = n * ((n : ℝ) - 1) / 2 - (discordantPairs y s).card := by
    rw [← hN, ← hsum]; push_cast; ring
  rw [hp, hN]
  have h1 : (n : ℝ) ≠ 0 := by linarith
  have h2 : (n : ℝ) - 1 ≠ 0 := by linarith
  congr 1
  field_simp
  ring

end

end Verif
