/-
DCG, ERR and Pfound: from the loops of the model to the specification.
-/
import Verif.Lemmas.Swap

namespace Verif
open Spec Metrics

/-! ### DCG -/

/-- The discount of rank `i`. -/
noncomputable def disc (i : Nat) : ℝ := 1 / Real.logb 2 ((i : ℝ) + 2)

theorem logb_pos' (i : Nat) : 0 < Real.logb 2 ((i : ℝ) + 2) :=
  Real.logb_pos (by norm_num) (by have : (0 : ℝ) ≤ i := by positivity
                                  linarith)

theorem disc_pos (i : Nat) : 0 < disc i := one_div_pos.2 (logb_pos' i)

theorem disc_strictAnti : StrictAnti disc := by
  intro i j hij
  apply one_div_lt_one_div_of_lt (logb_pos' i)
  apply Real.logb_lt_logb (by norm_num) (by positivity)
  have : (i : ℝ) < j := by exact_mod_cast hij
  linarith

theorem dcg_eq_weightedGain (g : ℝ → ℝ) (l : List ℝ) : Spec.dcg g l = weightedGain disc g l := by
  unfold Spec.dcg weightedGain disc
  apply Finset.sum_congr rfl
  intro i _
  rw [mul_comm, mul_one_div]

theorem sum_zipWith_div (g : ℝ → ℝ) (l : List ℝ) :
    (List.zipWith (· / ·) (l.map g) ((List.range' 2 l.length).map (fun i : Nat => Real.logb 2 (i : ℝ)))).sum =
      Spec.dcg g l := by
  rw [dcg_eq_weightedGain, ← sum_zipWith_mul]
  have e : List.range' 2 l.length = (List.range l.length).map (· + 2) := by
    have : List.map (2 + ·) (List.range' 0 l.length 1) = List.range' (2 + 0) l.length 1 :=
      List.map_add_range' 0 l.length 1
    rw [List.range_eq_range']
    simpa [Nat.add_comm] using this.symm
  rw [e, List.map_map, List.zipWith_map_right, List.zipWith_map_right]
  congr 2
  funext a i
  simp [disc, div_eq_mul_inv]

theorem dcgGain_spec {impl : Impl} {g : ℝ → ℝ} (h : dcgGain impl = .ok g) : StrictMono g ∧ g 0 = 0 := by
  cases impl with
  | flat => cases h; exact ⟨strictMono_id, rfl⟩
  | exp =>
    cases h
    refine ⟨?_, by simp⟩
    intro a b hab
    have := (Real.rpow_lt_rpow_left_iff (by norm_num : (1 : ℝ) < 2)).2 hab
    simpa using this
  | other => cases h

theorem dcg_model {S : Type} [LE S] {sort : List S → List Nat} {y : List ℝ} {s : List S}
    (hs : IsArgsort s (sort s)) (h : y.length = s.length) (c : Option Nat) {impl : Impl} {g : ℝ → ℝ}
    (hg : dcgGain impl = .ok g) :
    Metrics.dcg sort (c.map Int.ofNat) impl y s = .ok (Spec.dcg g (retrieved c (rankedDocs sort y s))) := by
  unfold Metrics.dcg
  simp only [hg, bind, Except.bind, pure, Except.pure, gather_topIdx hs h, length_topIdx hs h, sum_zipWith_div]

/-- The labels in rank order when documents are ranked by a score that orders them by label. -/
theorem ideal_labels_sorted {S : Type} [LinearOrder S] {y : List ℝ} {s : List S} {r : List (ℝ × S)}
    (hr : IsRanking (y.zip s) r) (hid : ∀ p ∈ y.zip s, ∀ q ∈ y.zip s, p.2 ≤ q.2 → p.1 ≤ q.1) :
    (r.map (·.1)).Pairwise (· ≥ ·) := by
  rw [List.pairwise_map]
  refine hr.sorted.imp_of_mem ?_
  intro a b ha hb hab
  exact hid b (hr.perm.mem_iff.1 hb) a (hr.perm.mem_iff.1 ha) hab

theorem self_order {y : List ℝ} : ∀ p ∈ y.zip y, ∀ q ∈ y.zip y, p.2 ≤ q.2 → p.1 ≤ q.1 := by
  have : ∀ p ∈ y.zip y, p.1 = p.2 := by
    intro p hp
    obtain ⟨i, hi, rfl⟩ := List.mem_iff_getElem.1 hp
    simp
  intro p hp q hq h
  rw [this p hp, this q hq]
  exact h

theorem top_map {α β : Type} (f : α → β) (c : Option Nat) (l : List α) : (top c l).map f = top c (l.map f) := by
  cases c <;> simp [top, List.map_take]

theorem retrieved_eq_top {L S : Type} (c : Option Nat) (r : List (L × S)) :
    retrieved c r = top c (r.map (·.1)) := top_map _ c r

theorem top_eq_take {α : Type} (c : Option Nat) (l : List α) : ∃ k, ∀ l' : List α, l'.length = l.length →
    top c l' = l'.take k := by
  cases c with
  | none => exact ⟨l.length, fun l' h => by simp [top, ← h]⟩
  | some k => exact ⟨k, fun l' _ => rfl⟩

theorem weightedGain_top_le {P : ℝ → Prop} {w : Nat → ℝ} {g : ℝ → ℝ} (hw : Antitone w) (h0 : ∀ i, 0 ≤ w i)
    (hg : ∀ a b, P a → P b → a ≤ b → g a ≤ g b) {r t : List ℝ} (h : r.Perm t) (ht : t.Pairwise (· ≥ ·))
    (hP : ∀ v ∈ r, P v) (c : Option Nat) : weightedGain w g (top c r) ≤ weightedGain w g (top c t) := by
  obtain ⟨k, hk⟩ := top_eq_take c r
  rw [hk r rfl, hk t h.length_eq.symm, weightedGain_take, weightedGain_take]
  exact le_of_sorted (swapMono_weightedGain (antitone_trunc hw h0 k) hg) h ht hP

theorem casc_top_le {P : ℝ → Prop} {w : Nat → ℝ} {u : ℝ → ℝ} (hw : Antitone w) (h0 : ∀ i, 0 ≤ w i)
    (hu : ∀ v, P v → 0 ≤ u v ∧ u v ≤ 1) (hg : ∀ a b, P a → P b → a ≤ b → u a ≤ u b) {r t : List ℝ}
    (h : r.Perm t) (ht : t.Pairwise (· ≥ ·)) (hP : ∀ v ∈ r, P v) (c : Option Nat) :
    casc w u (top c r) ≤ casc w u (top c t) := by
  obtain ⟨k, hk⟩ := top_eq_take c r
  rw [hk r rfl, hk t h.length_eq.symm, casc_take, casc_take]
  exact le_of_sorted (swapMono_casc (antitone_trunc hw h0 k) hu hg) h ht hP

/-! ### ERR and Pfound -/

theorem utility_bounds {m v : ℝ} (hv : 0 ≤ v) (hm : v ≤ m) : 0 ≤ utility m v ∧ utility m v < 1 := by
  unfold utility
  have h1 : (1 : ℝ) ≤ 2 ^ v := Real.one_le_rpow (by norm_num) hv
  have h2 : (2 : ℝ) ^ v ≤ 2 ^ m := Real.rpow_le_rpow_of_exponent_le (by norm_num) hm
  have h3 : (0 : ℝ) < 2 ^ m := by positivity
  refine ⟨div_nonneg (by linarith) h3.le, ?_⟩
  rw [div_lt_one h3]
  linarith

theorem utility_mono {m a b : ℝ} (h : a ≤ b) : utility m a ≤ utility m b := by
  unfold utility
  have h2 : (2 : ℝ) ^ a ≤ 2 ^ b := Real.rpow_le_rpow_of_exponent_le (by norm_num) h
  apply div_le_div_of_nonneg_right _ (by positivity)
  linarith

/-- The loop common to ERR and Pfound. -/
theorem foldl_casc (w : Nat → ℝ) (u : ℝ → ℝ) (l : List ℝ) (i : Nat) (p e : ℝ) :
    (l.foldl (fun st v => (st.1 + 1, st.2.1 * (1 - u v), st.2.2 + st.2.1 * (u v * w st.1)))
      ((i, p, e) : Nat × ℝ × ℝ)).2.2 = e + p * casc (fun j => w (j + i)) u l := by
  induction l generalizing i p e with
  | nil => simp [casc_nil]
  | cons a l ih =>
    rw [List.foldl_cons, ih, casc_cons]
    have : (fun j => w (j + (i + 1))) = fun j => w (j + 1 + i) := by funext j; congr 1; omega
    simp only [this, Nat.zero_add]
    ring

theorem errLoop_eq (m : ℝ) (l : List ℝ) : (errLoop m l).2.2 = Spec.err (utility m) l := by
  have h := foldl_casc (fun i => 1 / ((i : ℝ) + 1)) (utility m) l 0 1 0
  simp only [mul_one_div, zero_add, one_mul, Nat.add_zero] at h
  exact h

theorem pfoundLoop_eq (c m : ℝ) (l : List ℝ) : (pfoundLoop c m l).2.2 = Spec.pfound c (utility m) l := by
  have h := foldl_casc (fun i => c ^ i) (utility m) l 0 1 0
  simp only [← mul_assoc, zero_add, one_mul, Nat.add_zero] at h
  exact h

theorem err_eq_casc (u : ℝ → ℝ) (l : List ℝ) : Spec.err u l = casc (fun i => 1 / ((i : ℝ) + 1)) u l := rfl
theorem pfound_eq_casc (c : ℝ) (u : ℝ → ℝ) (l : List ℝ) : Spec.pfound c u l = casc (fun i => c ^ i) u l := rfl

theorem antitone_recip : Antitone (fun i : Nat => 1 / ((i : ℝ) + 1)) := by
  intro i j hij
  apply one_div_le_one_div_of_le (by positivity)
  have : (i : ℝ) ≤ j := by exact_mod_cast hij
  linarith

theorem antitone_pow {c : ℝ} (h0 : 0 ≤ c) (h1 : c ≤ 1) : Antitone (fun i : Nat => c ^ i) :=
  fun _ _ hij => pow_le_pow_of_le_one h0 h1 hij

end Verif
