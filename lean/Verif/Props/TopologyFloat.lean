/-
Property C120: the fractions of trees in floating point.
-/
import Verif.Model.TopologyFloat
import Verif.Lemmas.CascadeFloat
import Verif.Lemmas.CountFloat
import Verif.Lemmas.SingleOrder
import Verif.Props.TopologyResult

namespace Verif.Props
open Ensemble Spec Decimal
variable {F : Type} {m : Ensemble F} {fo : Forest F}

/-- Counts below 2^24 are float32 numbers. -/
theorem toFloat32_nat {c : Nat} (hc : c < 2 ^ 24) : toFloat32 c = c := by
  unfold toFloat32 Binary32.grid
  obtain ⟨u, hu⟩ : ∃ u, Binary32.ulp ((c : ℚ) * 2 ^ 149) = u := ⟨_, rfl⟩
  have hu' : u ≤ 149 := by
    rw [← hu]
    unfold Binary32.ulp
    by_cases h0 : c = 0
    · subst h0; simp
    · have hpos : (0 : ℚ) < (c : ℚ) * 2 ^ 149 := by
        have : (0 : ℚ) < c := by exact_mod_cast Nat.pos_of_ne_zero h0
        positivity
      have h1 : |(c : ℚ) * 2 ^ 149| < ((2 : ℕ) : ℚ) ^ (173 : ℤ) := by
        rw [abs_of_pos hpos]
        have : (c : ℚ) < 2 ^ 24 := by exact_mod_cast hc
        have e : ((2 : ℕ) : ℚ) ^ (173 : ℤ) = 2 ^ 24 * 2 ^ 149 := by norm_num
        rw [e]
        exact mul_lt_mul_of_pos_right this (by positivity)
      have h2 := (Int.lt_zpow_iff_log_lt (b := 2) (by norm_num) (abs_pos.2 hpos.ne')).1 h1
      omega
  rw [hu]
  have e : (c : ℚ) * 2 ^ 149 / 2 ^ u = (((c * 2 ^ (149 - u) : Nat) : Int) : ℚ) := by
    rw [div_eq_iff (by positivity)]
    push_cast
    rw [mul_assoc, ← pow_add, Nat.sub_add_cancel hu']
  rw [e, Binary32.nearest_int]
  push_cast
  rw [mul_assoc, ← pow_add, Nat.sub_add_cancel hu', mul_div_assoc, div_self (by positivity), mul_one]

theorem big24 : (2 : ℚ) ^ 24 < 2 ^ 1000 := pow_lt_pow_right₀ (by norm_num) (by norm_num)

theorem big : (1 + 1 / 2 ^ 53 : ℚ) < 2 ^ 1000 := lt_trans (by norm_num) big24

/-- The product with the rounded reciprocal, rounded again. -/
theorem recip_product {a n : Nat} (hn : 0 < n) (hn24 : n < 2 ^ 24) (ha : 0 < a) :
    |double ((a : ℚ) * double (1 / n)) - (a : ℚ) / n| ≤ (a : ℚ) / n / 2 ^ 51 := by
  have hnq : (0 : ℚ) < n := by exact_mod_cast hn
  have haq : (1 : ℚ) ≤ a := by exact_mod_cast ha
  have hn24q : (n : ℚ) < 2 ^ 24 := by exact_mod_cast hn24
  have hr : (1 : ℚ) / 2 ^ 24 ≤ 1 / n := one_div_le_one_div_of_le hnq hn24q.le
  have h1 := abs_le.1 (Metrics.double_relative (x := 1 / n) (le_trans (by norm_num) hr))
  obtain ⟨r, er⟩ : ∃ r : ℚ, double (1 / n) = r := ⟨_, rfl⟩
  obtain ⟨q, eq⟩ : ∃ q : ℚ, (1 : ℚ) / n = q := ⟨_, rfl⟩
  rw [er] at h1 ⊢
  rw [show (a : ℚ) / n = a * q by rw [← eq]; ring]
  rw [eq] at h1 hr
  have hq : 0 < q := lt_of_lt_of_le (by norm_num) hr
  have hlow : a * q * (1 - 1 / 2 ^ 53) ≤ a * r := by
    have : (a : ℚ) * (q * (1 - 1 / 2 ^ 53)) ≤ a * r := mul_le_mul_of_nonneg_left (by linarith) (by linarith)
    linarith
  have hhigh : a * r ≤ a * q * (1 + 1 / 2 ^ 53) := by
    have : (a : ℚ) * r ≤ a * (q * (1 + 1 / 2 ^ 53)) := mul_le_mul_of_nonneg_left (by linarith) (by linarith)
    linarith
  have haq' : q ≤ a * q := by nlinarith
  have h2 := abs_le.1 (Metrics.double_relative (x := a * r) (by
    have h3 : (1 : ℚ) / 2 ^ 24 * (1 - 1 / 2 ^ 53) ≤ a * q * (1 - 1 / 2 ^ 53) := mul_le_mul_of_nonneg_right (by linarith) (by norm_num)
    have h4 : (1 : ℚ) / 2 ^ 100 ≤ 1 / 2 ^ 24 * (1 - 1 / 2 ^ 53) := by norm_num
    linarith))
  obtain ⟨A, eA⟩ : ∃ A : ℚ, (a : ℚ) * q = A := ⟨_, rfl⟩
  rw [eA] at hlow hhigh haq' ⊢
  have hA : 0 < A := lt_of_lt_of_le hq haq'
  rw [abs_le]
  constructor <;> linarith

theorem having_lt {incl : Bool} (hn : fo.length < 2 ^ 24) (row col : Nat) : Forest.having incl fo row col < 2 ^ 24 :=
  lt_of_le_of_lt (having_le incl fo row col) hn

theorem avgShapeFloat_eq {incl : Bool} {top : List Entry} (h : Counts incl fo top) (hn : fo.length < 2 ^ 24) (row col : Nat) :
    avgShapeFloat top fo.length row col = double ((Forest.having incl fo row col : ℚ) * double (1 / fo.length)) := by
  unfold avgShapeFloat
  rw [C44_cell h, toFloat32_nat (having_lt hn row col)]

/-- A number within 2^-53 of 1 from above is rounded to 1. -/
theorem double_tie {x : ℚ} (h0 : 0 ≤ x) (h : x ≤ 1 + 1 / 2 ^ 53) : double x ≤ 1 := by
  have h1 : double (1 + 1 / 2 ^ 53) = 1 := by decide +kernel
  rw [← h1]
  exact double_mono h0 h big

theorem recip_le {a n : Nat} (hn : 0 < n) (hn24 : n < 2 ^ 24) (han : a ≤ n) : 0 ≤ (a : ℚ) * double (1 / n) ∧ (a : ℚ) * double (1 / n) ≤ 1 + 1 / 2 ^ 53 := by
  have hnq : (0 : ℚ) < n := by exact_mod_cast hn
  have hn24q : (n : ℚ) < 2 ^ 24 := by exact_mod_cast hn24
  have hanq : (a : ℚ) ≤ n := by exact_mod_cast han
  have hr : (1 : ℚ) / 2 ^ 24 ≤ 1 / n := one_div_le_one_div_of_le hnq hn24q.le
  have h1 := abs_le.1 (Metrics.double_relative (x := 1 / n) (le_trans (by norm_num) hr))
  have h2 : 0 ≤ double (1 / n : ℚ) := double_nonneg (by positivity)
  refine ⟨by positivity, ?_⟩
  calc (a : ℚ) * double (1 / n) ≤ n * double (1 / n) := mul_le_mul_of_nonneg_right hanq h2
    _ ≤ n * (1 / n + 1 / n / 2 ^ 53) := mul_le_mul_of_nonneg_left (by linarith) hnq.le
    _ = 1 + 1 / 2 ^ 53 := by field_simp

/-- C120: for less than 2^24 trees each cell of `avg_tree_shape` is in [0, 1], is 0 exactly if no tree has the node, and differs from the fraction
of trees by at most 2^-51 of it. -/
theorem C120_cells_partial {incl : Bool} {top : List Entry} (h : Counts incl fo top) (hne : fo ≠ []) (hn : fo.length < 2 ^ 24) (row col : Nat) :
    0 ≤ avgShapeFloat top fo.length row col ∧ avgShapeFloat top fo.length row col ≤ 1 ∧
    (avgShapeFloat top fo.length row col = 0 ↔ Forest.having incl fo row col = 0) ∧
    |avgShapeFloat top fo.length row col - (Forest.having incl fo row col : ℚ) / fo.length| ≤
      (Forest.having incl fo row col : ℚ) / fo.length / 2 ^ 51 := by
  have hl := List.length_pos_iff.2 hne
  have hlq : (0 : ℚ) < fo.length := by exact_mod_cast hl
  have han := having_le incl fo row col
  rw [avgShapeFloat_eq h hn]
  obtain ⟨h1, h2⟩ := recip_le hl hn han
  have h3 : |double ((Forest.having incl fo row col : ℚ) * double (1 / fo.length)) - (Forest.having incl fo row col : ℚ) / fo.length| ≤
      (Forest.having incl fo row col : ℚ) / fo.length / 2 ^ 51 := by
    rcases Nat.eq_zero_or_pos (Forest.having incl fo row col) with h0 | h0
    · rw [h0]
      simp [Metrics.double_zero]
    · exact recip_product hl hn h0
  refine ⟨double_nonneg h1, double_tie h1 h2, ?_, h3⟩
  constructor
  · intro h4
    by_contra h0
    have h5 : (0 : ℚ) < Forest.having incl fo row col := by exact_mod_cast Nat.pos_of_ne_zero h0
    rw [h4, zero_sub, abs_neg, abs_of_nonneg (by positivity)] at h3
    have h6 : (0 : ℚ) < (Forest.having incl fo row col : ℚ) / fo.length := by positivity
    linarith
  · intro h0
    rw [h0]
    simp [Metrics.double_zero]

/-- C120: a node has a larger number than another one exactly if more trees have it. -/
theorem C120_order_partial {incl : Bool} {top : List Entry} (h : Counts incl fo top) (hne : fo ≠ []) (hn : fo.length < 2 ^ 24) (row col row' col' : Nat) :
    avgShapeFloat top fo.length row col < avgShapeFloat top fo.length row' col' ↔ Forest.having incl fo row col < Forest.having incl fo row' col' := by
  have hl := List.length_pos_iff.2 hne
  have hlq : (0 : ℚ) < fo.length := by exact_mod_cast hl
  have hnq : (fo.length : ℚ) < 2 ^ 24 := by exact_mod_cast hn
  have key : ∀ r c r' c', Forest.having incl fo r c < Forest.having incl fo r' c' → avgShapeFloat top fo.length r c < avgShapeFloat top fo.length r' c' := by
    intro r c r' c' hlt
    have h1 := abs_le.1 (C120_cells_partial h hne hn r c).2.2.2
    have h2 := abs_le.1 (C120_cells_partial h hne hn r' c').2.2.2
    have hle := having_le incl fo r' c'
    have hq : (Forest.having incl fo r c : ℚ) + 1 ≤ Forest.having incl fo r' c' := by exact_mod_cast hlt
    have hq' : (Forest.having incl fo r' c' : ℚ) ≤ fo.length := by exact_mod_cast hle
    have h3 : (Forest.having incl fo r c : ℚ) / fo.length + 1 / fo.length ≤ (Forest.having incl fo r' c' : ℚ) / fo.length := by
      rw [← add_div]
      exact div_le_div_of_nonneg_right hq hlq.le
    have h4 : (Forest.having incl fo r' c' : ℚ) / fo.length ≤ 1 := (div_le_one hlq).2 hq'
    have h5 : (1 : ℚ) / 2 ^ 24 ≤ 1 / fo.length := one_div_le_one_div_of_le hlq hnq.le
    norm_num at h1 h2 h5
    norm_num at h3
    linarith [h1.2, h2.1]
  refine ⟨fun hlt => ?_, key _ _ _ _⟩
  by_contra hge
  push Not at hge
  rcases hge.lt_or_eq with h1 | h1
  · exact absurd (key _ _ _ _ h1) (not_lt.2 hlt.le)
  · rw [avgShapeFloat_eq h hn, avgShapeFloat_eq h hn, h1] at hlt
    exact lt_irrefl _ hlt

/-- C120: a node that all trees have gets 1 or the next smaller number. -/
theorem C120_all_trees_partial {incl : Bool} {top : List Entry} (h : Counts incl fo top) (hne : fo ≠ []) (hn : fo.length < 2 ^ 24) {row col : Nat}
    (hall : Forest.having incl fo row col = fo.length) :
    1 - 1 / 2 ^ 53 ≤ avgShapeFloat top fo.length row col ∧ avgShapeFloat top fo.length row col ≤ 1 := by
  have hl := List.length_pos_iff.2 hne
  have hlq : (0 : ℚ) < fo.length := by exact_mod_cast hl
  have hnq : (fo.length : ℚ) < 2 ^ 24 := by exact_mod_cast hn
  refine ⟨?_, (C120_cells_partial h hne hn row col).2.1⟩
  rw [avgShapeFloat_eq h hn, hall]
  have hr : (1 : ℚ) / 2 ^ 24 ≤ 1 / fo.length := one_div_le_one_div_of_le hlq hnq.le
  have h1 := abs_le.1 (Metrics.double_relative (x := 1 / fo.length) (le_trans (by norm_num) hr))
  have h2 : (1 : ℚ) - 1 / 2 ^ 53 ≤ fo.length * double (1 / fo.length) := by
    calc (1 : ℚ) - 1 / 2 ^ 53 = fo.length * (1 / fo.length - 1 / fo.length / 2 ^ 53) := by field_simp
      _ ≤ _ := mul_le_mul_of_nonneg_left (by linarith) hlq.le
  have h3 : double (1 - 1 / 2 ^ 53) = 1 - 1 / 2 ^ 53 := by decide +kernel
  calc (1 : ℚ) - 1 / 2 ^ 53 = double (1 - 1 / 2 ^ 53) := h3.symm
    _ ≤ _ := double_mono (by norm_num) h2 (lt_of_le_of_lt (recip_le hl hn le_rfl).2 big)

/-- C120: the number of `fullness_per_level` is in (0, 1] and is 1 exactly if every position of the level that is taken in one tree is taken in all. -/
theorem C120_fullness_partial {incl : Bool} {top : List Entry} (h : Counts incl fo top) (hne : fo ≠ []) {row : Nat} (hrow : row < numRows top)
    (hn : Forest.inLevel incl fo row < 2 ^ 24) (ht : fo.length < 2 ^ 24) :
    0 < fullnessFloat top fo.length row ∧ fullnessFloat top fo.length row ≤ 1 ∧
    (fullnessFloat top fo.length row = 1 ↔ ∀ c, 0 < Forest.having incl fo row c → Forest.having incl fo row c = fo.length) := by
  have hl := List.length_pos_iff.2 hne
  have hlq : (0 : ℚ) < fo.length := by exact_mod_cast hl
  have hpos : 0 < Forest.inLevel incl fo row := by
    rw [forest_inLevel_pos]
    rcases (C119_rows h hne row).1 hrow with h0 | h0
    · exact .inl ⟨h0, hne⟩
    · exact .inr h0
  have hsum := level_entries h row
  obtain ⟨es, hes⟩ : ∃ es, top.filter (fun e => e.row = row) = es := ⟨_, rfl⟩
  rw [hes] at hsum
  have hne0 : es ≠ [] := by
    rintro rfl
    simp at hsum
    omega
  have hmem : ∀ e, e ∈ es ↔ e ∈ top ∧ e.row = row := by
    intro e
    rw [← hes, List.mem_filter, decide_eq_true_eq]
  have hcnt : ∀ e ∈ es, e.count = Forest.having incl fo row e.col ∧ 1 ≤ e.count ∧ e.count ≤ fo.length := by
    intro e he
    obtain ⟨h1, h2⟩ := (hmem e).1 he
    obtain ⟨h3, h4⟩ := h.count e h1
    rw [h2] at h3
    exact ⟨h3, h4, h3 ▸ having_le incl fo row e.col⟩
  obtain ⟨hup, hiff⟩ := sum_le_length_mul (n := fo.length) (l := es.map Entry.count) (by
    intro x hx
    obtain ⟨e, he, rfl⟩ := List.mem_map.1 hx
    exact (hcnt e he).2.2)
  rw [List.length_map] at hup hiff
  have hlow : es.length ≤ (es.map Entry.count).sum := by
    have : ∀ l : List Entry, (∀ e ∈ l, 1 ≤ e.count) → l.length ≤ (l.map Entry.count).sum := by
      intro l
      induction l with
      | nil => simp
      | cons e l ih =>
        intro hl
        have h1 := ih (fun e he => hl e (by simp [he]))
        have h2 := hl e (by simp)
        simp only [List.length_cons, List.map_cons, List.sum_cons]
        omega
    exact this es (fun e he => (hcnt e he).2.1)
  have hall : (∀ x ∈ es.map Entry.count, x = fo.length) ↔ ∀ c, 0 < Forest.having incl fo row c → Forest.having incl fo row c = fo.length := by
    constructor
    · intro h1 c hc
      obtain ⟨e, he, h2, h3⟩ := h.complete row c hc
      have he' := (hmem e).2 ⟨he, h2⟩
      rw [← h3, ← (hcnt e he').1]
      exact h1 _ (List.mem_map.2 ⟨e, he', rfl⟩)
    · intro h1 x hx
      obtain ⟨e, he, rfl⟩ := List.mem_map.1 hx
      obtain ⟨h2, h3, -⟩ := hcnt e he
      rw [h2]
      exact h1 _ (by omega)
  unfold fullnessFloat
  simp only [hes]
  rw [← hall, ← hiff, toFloat32_nat (by rw [hsum]; exact hn)]
  obtain ⟨S, hS⟩ : ∃ S, (es.map Entry.count).sum = S := ⟨_, rfl⟩
  rw [hS] at hup hlow hsum ⊢
  rw [← hsum] at hn hpos
  have hc : 0 < es.length := List.length_pos_iff.2 hne0
  obtain ⟨c, hcc⟩ : ∃ c, es.length = c := ⟨_, rfl⟩
  rw [hcc] at hup hlow hc ⊢
  have hcq : (0 : ℚ) < c := by exact_mod_cast hc
  have hSq : (S : ℚ) < 2 ^ 24 := by exact_mod_cast hn
  have hup' : (S : ℚ) ≤ c * fo.length := by exact_mod_cast hup
  have hlow' : (c : ℚ) ≤ S := by exact_mod_cast hlow
  have hnq : (fo.length : ℚ) < 2 ^ 24 := by exact_mod_cast ht
  have hx1 : (1 : ℚ) ≤ S / c := (one_le_div hcq).2 hlow'
  have hx2 : (S : ℚ) / c ≤ fo.length := by rw [div_le_iff₀ hcq]; linarith
  have hd := abs_le.1 (Metrics.double_relative (x := (S : ℚ) / c) (le_trans (by norm_num) hx1))
  have hd2 : double ((S : ℚ) / c) ≤ fo.length := by
    rw [← Metrics.double_nat (n := fo.length) (by omega)]
    exact double_mono (by positivity) hx2 (lt_trans hnq big24)
  have hd1 : 1 ≤ double ((S : ℚ) / c) := by
    rw [← Metrics.double_one]
    exact double_mono (by norm_num) hx1 (lt_of_le_of_lt hx2 (lt_trans hnq big24))
  obtain ⟨D, hD⟩ : ∃ D, double ((S : ℚ) / c) = D := ⟨_, rfl⟩
  rw [hD] at hd hd1 hd2 ⊢
  have hq1 : (1 : ℚ) / 2 ^ 24 ≤ D / fo.length := by
    rw [div_le_div_iff₀ (by norm_num) hlq]
    nlinarith
  have hq2 : D / fo.length ≤ 1 := (div_le_one hlq).2 hd2
  have he := abs_le.1 (Metrics.double_relative (x := D / fo.length) (le_trans (by norm_num) hq1))
  refine ⟨?_, Metrics.double_le_one (by positivity) hq2, ?_⟩
  · have : (0 : ℚ) < 1 / 2 ^ 24 := by norm_num
    norm_num at he hq1
    linarith [he.1]
  · constructor
    · intro h1
      by_contra hne1
      have hlt : S + 1 ≤ c * fo.length := by omega
      have hltq : (S : ℚ) + 1 ≤ c * fo.length := by exact_mod_cast hlt
      have hcS : (c : ℚ) < 2 ^ 24 := lt_of_le_of_lt hlow' hSq
      have hxn : (S : ℚ) / c ≤ fo.length - 1 / c := by
        rw [div_le_iff₀ hcq]
        have : ((fo.length : ℚ) - 1 / c) * c = c * fo.length - 1 := by field_simp
        linarith
      have hc24 : (1 : ℚ) / 2 ^ 24 ≤ 1 / c := one_div_le_one_div_of_le hcq hcS.le
      have hDn : D ≤ fo.length - 1 / 2 ^ 25 := by
        have h4 : (S : ℚ) / c / 2 ^ 53 ≤ 1 / 2 ^ 29 := by
          have : (S : ℚ) / c ≤ 2 ^ 24 := by linarith
          calc (S : ℚ) / c / 2 ^ 53 ≤ 2 ^ 24 / 2 ^ 53 := div_le_div_of_nonneg_right this (by positivity)
            _ = 1 / 2 ^ 29 := by norm_num
        norm_num at h4 hc24 hd ⊢
        norm_num at hxn
        linarith [hd.2]
      have hDq : D / fo.length ≤ 1 - 1 / 2 ^ 49 := by
        rw [div_le_iff₀ hlq]
        have h5 : (fo.length : ℚ) * (1 / 2 ^ 49) ≤ 1 / 2 ^ 25 := by
          calc (fo.length : ℚ) * (1 / 2 ^ 49) ≤ 2 ^ 24 * (1 / 2 ^ 49) := mul_le_mul_of_nonneg_right hnq.le (by norm_num)
            _ = 1 / 2 ^ 25 := by norm_num
        linarith
      have h6 : D / fo.length / 2 ^ 53 ≤ 1 / 2 ^ 53 := div_le_div_of_nonneg_right hq2 (by positivity)
      rw [h1] at he
      norm_num at h6 hDq he
      linarith [he.2]
    · intro h1
      have h2 : (S : ℚ) / c = fo.length := by
        rw [h1]
        push_cast
        field_simp
      rw [h2, Metrics.double_nat (n := fo.length) (by omega)] at hD
      rw [← hD, div_self hlq.ne', Metrics.double_one]

/-- The model of `n` trees that are single leaves. -/
def leavesOnly (n : Nat) : Ensemble Nat where
  nTrees := n
  nNodes := n
  root := (List.range n).map (fun k : Nat => (k : Int))
  weight := List.replicate n 1
  left := List.replicate n (-1)
  right := List.replicate n (-1)
  value := List.replicate n 5
  feature := List.replicate n (-1)

theorem treeStart_leaves : ∀ (n k : Nat), k ≤ n → treeStart (List.replicate n ((Spec.Tree.leaf 5 : Spec.Tree Nat), 1)) k = k := by
  intro n k hk
  unfold treeStart
  rw [List.take_replicate, Nat.min_eq_left hk]
  simp [Forest.numNodes, Spec.Tree.numNodes]

theorem leavesOnly_represents (n : Nat) : Represents (leavesOnly n) (List.replicate n (.leaf 5, 1)) := by
  refine ⟨by simp [leavesOnly], by simp [leavesOnly, Forest.numNodes, Spec.Tree.numNodes], by simp [leavesOnly], by simp [leavesOnly], by simp [leavesOnly],
    by simp [leavesOnly], by simp [leavesOnly], ?_, ?_⟩
  · simp only [leavesOnly, List.length_replicate]
    refine List.map_congr_left fun k hk => ?_
    rw [treeStart_leaves n k (List.mem_range.1 hk).le]
  · intro k t w hk
    have hkn : k < n := by
      have := (List.getElem?_eq_some_iff.1 hk).1
      simpa using this
    rw [List.getElem?_replicate, if_pos hkn] at hk
    simp only [Option.some.injEq, Prod.mk.injEq] at hk
    obtain ⟨rfl, rfl⟩ := hk
    rw [treeStart_leaves n k hkn.le]
    refine ⟨[k], .leaf ?_ ?_ ?_ ?_, by simp [Spec.Tree.numNodes]⟩ <;> simp [leavesOnly, hkn]

/-- C120: with 49 trees the root, which all trees have, does not get the fraction 1. -/
theorem C120_violated : Represents (leavesOnly 49) (List.replicate 49 (.leaf 5, 1)) ∧
    topologicalAnalysis (leavesOnly 49) true = .ok ([⟨0, 0, 49⟩], List.replicate 49 0) ∧
    avgShapeFloat [⟨0, 0, 49⟩] 49 0 0 = 1 - 1 / 2 ^ 53 :=
  ⟨leavesOnly_represents 49, by decide +kernel, by decide +kernel⟩

/-- C120: the numbers of the two trees of C44. -/
example : avgShapeFloat [⟨0, 0, 2⟩, ⟨1, 0, 2⟩, ⟨1, 1, 2⟩, ⟨2, 2, 1⟩, ⟨2, 3, 1⟩] 2 2 3 = 1 / 2 ∧
    fullnessFloat [⟨0, 0, 2⟩, ⟨1, 0, 2⟩, ⟨1, 1, 2⟩, ⟨2, 2, 1⟩, ⟨2, 3, 1⟩] 2 1 = 1 ∧
    fullnessFloat [⟨0, 0, 3⟩, ⟨1, 0, 2⟩, ⟨1, 1, 2⟩] 3 1 = 6004799503160661 / 2 ^ 53 ∧ topoForest.length < 2 ^ 24 := by
  refine ⟨by decide +kernel, by decide +kernel, by decide +kernel, by decide⟩

end Verif.Props
