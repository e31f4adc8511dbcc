/-
Lemmas about the randomization test in floating point.
-/
import Verif.Model.RandomizationFloat
import Verif.Lemmas.Statistical
import Verif.Lemmas.Tables
import Verif.Lemmas.CascadeFloat
import Verif.Lemmas.CountFloat
import Verif.Props.SquaresFloat
import Verif.Props.CascadeFloat

namespace Verif.Stat
open Metrics Spec Decimal Ensemble

/-! ### Double precision -/

theorem nearest_neg (x : ℚ) : Binary32.nearest (-x) = -Binary32.nearest x := by
  have h1 := Int.floor_le x
  have h2 := Int.lt_floor_add_one x
  by_cases hx : x = ⌊x⌋
  · have e : -x = ((-⌊x⌋ : Int) : ℚ) := by
      push_cast
      rw [← hx]
    rw [e, Binary32.nearest_int]
    conv_rhs => rw [hx, Binary32.nearest_int]
  · have h3 : (⌊x⌋ : ℚ) < x := lt_of_le_of_ne h1 (Ne.symm hx)
    have hf : ⌊-x⌋ = -⌊x⌋ - 1 := by
      rw [Int.floor_eq_iff]
      push_cast
      constructor <;> linarith
    unfold Binary32.nearest
    simp only [hf]
    push_cast
    by_cases c1 : x - ⌊x⌋ < 1 / 2
    · rw [if_neg (by linarith), if_pos (by linarith), if_pos c1]
      ring
    · by_cases c2 : 1 / 2 < x - ⌊x⌋
      · rw [if_pos (by linarith), if_neg c1, if_pos c2]
        ring
      · rw [if_neg (by linarith), if_neg (by linarith), if_neg c1, if_neg c2]
        by_cases c3 : ⌊x⌋ % 2 = 0
        · rw [if_pos c3, if_neg (by omega)]
          ring
        · rw [if_neg c3, if_pos (by omega)]
          ring

theorem double_neg (x : ℚ) : double (-x) = -double x := by
  unfold double
  simp only [abs_neg]
  rw [neg_div, nearest_neg]
  push_cast
  ring

theorem double_close (q : ℚ) : |double q - q| ≤ |q| / 2 ^ 53 + 1 / 2 ^ 1000 := by
  rcases le_total 0 q with h | h
  · rw [abs_of_nonneg h]
    exact double_near h
  · have := double_near (q := -q) (by linarith)
    rw [double_neg] at this
    rw [abs_of_nonpos h]
    have e : double q - q = -(-double q - -q) := by ring
    rw [e, abs_neg]
    exact this

theorem double_two {q : ℚ} (h : |q| ≤ 4) : |double q - q| ≤ 1 / 2 ^ 50 := by
  refine (double_close q).trans ?_
  have h1 := tiny_le 53 (by norm_num)
  generalize (1 : ℚ) / 2 ^ 1000 = t at h1 ⊢
  norm_num at h1 ⊢
  linarith

theorem double_twoR {q : ℚ} (h : |(q : ℝ)| ≤ 4) : |((double q : ℚ) : ℝ) - q| ≤ 1 / 2 ^ 50 := by
  have h' : |q| ≤ 4 := by exact_mod_cast h
  have := (Rat.cast_le (K := ℝ)).2 (double_two h')
  push_cast at this
  exact this

/-! ### The counters -/

variable {dbl : ℚ → ℚ}

theorem randStepFloat_fold (best worst : List (Option Int)) (D : Option ℚ) : ∀ (sels : List (List Bool)) (p : Nat × Nat),
    sels.foldl (randStepFloat dbl best worst D) p =
      (p.1 + sels.countP (fun s => compareFloat (fun a b => decide (a ≥ b)) (swapDeltaFloat dbl best worst s) D),
       p.2 + sels.countP (fun s => compareFloat (fun a b => decide (|a| ≥ |b|)) (swapDeltaFloat dbl best worst s) D)) := by
  intro sels
  induction sels with
  | nil => intro p; simp
  | cons s sels ih =>
    intro p
    rw [List.foldl_cons, ih, List.countP_cons, List.countP_cons]
    unfold randStepFloat
    simp only [Prod.mk.injEq]
    constructor
    · split <;> omega
    · split <;> omega

/-- The better system first, by the computed means. -/
def bestFloat (dbl : ℚ → ℚ) (a b : List (Option Int)) : List (Option Int) × List (Option Int) :=
  if compareFloat (fun x y => decide (x < y)) (value (meanSingle dbl a)) (value (meanSingle dbl b)) then (b, a) else (a, b)

theorem bestFloat_cases (a b : List (Option Int)) : bestFloat dbl a b = (a, b) ∨ bestFloat dbl a b = (b, a) := by
  unfold bestFloat
  split
  · exact .inr rfl
  · exact .inl rfl

/-- The difference with which the differences after the exchange are compared. -/
def differenceFloat (dbl : ℚ → ℚ) (p : List (Option Int) × List (Option Int)) : Option ℚ :=
  value (subSingle (meanSingle dbl p.1) (meanSingle dbl p.2))

theorem randomizationFloat_eq (a b : List (Option Int)) (sels : List (List Bool)) (hs : sels ≠ []) (hl : a.length = b.length) (hne : a ≠ []) :
    randomizationFloat dbl a b sels = .ok
      (dbl ((sels.countP (fun s => compareFloat (fun x y => decide (x ≥ y)) (swapDeltaFloat dbl (bestFloat dbl a b).1 (bestFloat dbl a b).2 s)
        (differenceFloat dbl (bestFloat dbl a b))) : Nat) / (sels.length : ℚ)),
       dbl ((sels.countP (fun s => compareFloat (fun x y => decide (|x| ≥ |y|)) (swapDeltaFloat dbl (bestFloat dbl a b).1 (bestFloat dbl a b).2 s)
        (differenceFloat dbl (bestFloat dbl a b))) : Nat) / (sels.length : ℚ))) := by
  unfold randomizationFloat
  rw [if_neg hs, if_neg (by simpa using hl), if_neg hne]
  simp only
  rw [randStepFloat_fold]
  simp only [zero_add]
  unfold bestFloat differenceFloat
  split <;> rfl

/-! ### Errors for scores between 0 and 1 -/

/-- The scores are numbers between 0 and 1. -/
def UnitScores (l : List (Option Int)) : Prop := ∀ x ∈ l, x.isSome = true ∧ 0 ≤ Binary32.num x ∧ Binary32.num x ≤ 1

theorem UnitScores.select {l : List (Option Int)} (h : UnitScores l) (s : List Bool) : UnitScores (maskSelect l s) := by
  intro x hx
  unfold maskSelect at hx
  obtain ⟨p, hp, rfl⟩ := List.mem_map.1 hx
  exact h _ (List.of_mem_zip (List.mem_of_mem_filter hp)).1

theorem UnitScores.sum_bounds {l : List (Option Int)} (h : UnitScores l) : 0 ≤ (l.map Binary32.num).sum ∧ (l.map Binary32.num).sum ≤ l.length := by
  induction l with
  | nil => simp
  | cons x l ih =>
    obtain ⟨i1, i2⟩ := ih (fun y hy => h y (List.mem_cons_of_mem _ hy))
    obtain ⟨-, h1, h2⟩ := h x List.mem_cons_self
    simp only [List.map_cons, List.sum_cons, List.length_cons]
    push_cast
    constructor <;> linarith

theorem maskSelect_length {α : Type} (l : List α) (s : List Bool) : (maskSelect l s).length ≤ l.length := by
  unfold maskSelect
  rw [List.length_map]
  refine (List.length_filter_le _ _).trans ?_
  rw [List.length_zip]
  exact min_le_left _ _

theorem UnitScores.select_le {l : List (Option Int)} (h : UnitScores l) (s : List Bool) :
    ((maskSelect l s).map Binary32.num).sum ≤ (l.map Binary32.num).sum := by
  induction l generalizing s with
  | nil => simp [maskSelect]
  | cons x l ih =>
    have h' : UnitScores l := fun y hy => h y (List.mem_cons_of_mem _ hy)
    obtain ⟨-, h1, -⟩ := h x List.mem_cons_self
    cases s with
    | nil =>
      have := h.sum_bounds.1
      simpa [maskSelect] using this
    | cons b s =>
      have := ih h' s
      unfold maskSelect at this ⊢
      cases b
      · simp only [List.zip_cons_cons, List.filter_cons, Bool.false_eq_true, if_false, List.map_cons, List.sum_cons]
        linarith
      · simp only [List.zip_cons_cons, List.filter_cons, if_true, List.map_cons, List.sum_cons]
        linarith

/-- The computed sum of scores. -/
theorem UnitScores.sum_error {l : List (Option Int)} (h : UnitScores l) {n : Nat} (hl : l.length ≤ n) (hn : n ≤ 2 ^ 20) :
    (pairwiseSum Binary32.ops l).isSome = true ∧ |Binary32.num (pairwiseSum Binary32.ops l) - (l.map Binary32.num).sum| ≤ n / 2 ^ 17 := by
  have ht := pairwiseSum_sum (ops := Binary32.ops) 14 (l := l) (Props.small_length (hl.trans hn))
  have hp := Props.pow_single 14 25 (le_refl _) (by norm_num)
  rw [Nat.add_comm] at hp
  obtain ⟨s1, s2⟩ := h.sum_bounds
  have hN : (l.length : ℝ) ≤ n := Nat.cast_le.2 hl
  have hn' : (n : ℝ) ≤ 2 ^ 20 := by exact_mod_cast hn
  have ha : (l.map (fun a => |Binary32.num a|)).sum = (l.map Binary32.num).sum := by
    congr 1
    exact List.map_congr_left (fun a ha => abs_of_nonneg (h a ha).2.1)
  have hf : (pairwiseSum Binary32.ops l).isSome = true := by
    refine sumTree_finite Binary32.rounded Binary32.noOverflow ht (fun a ha => (h a ha).1) ?_
    rw [ha]
    refine (mul_le_mul hp (s2.trans (hN.trans hn')) s1 (by norm_num)).trans ?_
    norm_num
  refine ⟨hf, ?_⟩
  have he := (sumTree_error Binary32.rounded ht hf).2
  rw [ha] at he
  refine he.trans ?_
  have h1 : (1 + 1 / 2 ^ 24 : ℝ) ^ (25 + 14) - 1 ≤ 1 / 2 ^ 17 := by linarith
  refine (mul_le_mul h1 (s2.trans hN) s1 (by norm_num)).trans ?_
  rw [one_div, inv_mul_eq_div]

theorem value_num {a : Option Int} {q : ℚ} (h : value a = some q) : (q : ℝ) = Binary32.num a := by
  cases a with
  | none => cases h
  | some v =>
    simp only [value, Option.map_some, Option.some.injEq] at h
    subst h
    simp [Binary32.num]

theorem value_some {a : Option Int} (h : a.isSome = true) : ∃ q, value a = some q ∧ (q : ℝ) = Binary32.num a := by
  obtain ⟨v, rfl⟩ := Option.isSome_iff_exists.1 h
  exact ⟨_, rfl, value_num rfl⟩

/-- A mean after the exchange. -/
theorem exchanged_error {A S T : Option Int} {α σ τ : ℝ} {n : Nat} (h0 : 0 < n) (hn : n ≤ 2 ^ 20) (hA : A.isSome = true) (hS : S.isSome = true) (hT : T.isSome = true)
    (eA : |Binary32.num A - α| ≤ n / 2 ^ 17) (eS : |Binary32.num S - σ| ≤ n / 2 ^ 17) (eT : |Binary32.num T - τ| ≤ n / 2 ^ 17)
    (hσ : 0 ≤ σ) (hσα : σ ≤ α) (hα : α ≤ n) (hτ : 0 ≤ τ) (hr : α - σ + τ ≤ n) :
    ∃ q, divDouble double (Binary32.add (subSingle A S) T) n = some q ∧ |(q : ℝ) - (α - σ + τ) / n| ≤ 1 / 2 ^ 15 ∧ |(q : ℝ)| ≤ 2 := by
  have hn' : (n : ℝ) ≤ 2 ^ 20 := by exact_mod_cast hn
  have hpos : (0 : ℝ) < n := by exact_mod_cast h0
  obtain ⟨a1, a2⟩ := abs_le.1 eA
  obtain ⟨b1, b2⟩ := abs_le.1 eS
  obtain ⟨c1, c2⟩ := abs_le.1 eT
  have hd : |Binary32.num A - Binary32.num S| ≤ 2 * n := by
    rw [abs_le]
    constructor <;> linarith
  have f1 : (subSingle A S).isSome = true := Props.subSingle_finite hA hS (hd.trans (by
    refine (mul_le_mul_of_nonneg_left hn' (by norm_num)).trans ?_
    norm_num))
  obtain ⟨-, -, e1⟩ := subSingle_error A S f1
  have e1' : |Binary32.num (subSingle A S) - (Binary32.num A - Binary32.num S)| ≤ 1 / 2 ^ 24 * (2 * n) := e1.trans (mul_le_mul_of_nonneg_left hd (by norm_num))
  obtain ⟨d1, d2⟩ := abs_le.1 e1'
  have hd2 : |Binary32.num (subSingle A S) + Binary32.num T| ≤ 4 * n := by
    rw [abs_le]
    constructor <;> linarith
  have f2 : (Binary32.add (subSingle A S) T).isSome = true := Binary32.noOverflow.add _ _ f1 hT (hd2.trans (by
    refine (mul_le_mul_of_nonneg_left hn' (by norm_num)).trans ?_
    norm_num))
  obtain ⟨-, -, e2⟩ := Binary32.rounded.add _ _ f2
  have e2' := e2.trans (mul_le_mul_of_nonneg_left hd2 (by norm_num))
  obtain ⟨g1, g2⟩ := abs_le.1 e2'
  have g1' : -(1 / 2 ^ 24 * (4 * n)) ≤ Binary32.num (Binary32.add (subSingle A S) T) - (Binary32.num (subSingle A S) + Binary32.num T) := g1
  have g2' : Binary32.num (Binary32.add (subSingle A S) T) - (Binary32.num (subSingle A S) + Binary32.num T) ≤ 1 / 2 ^ 24 * (4 * n) := g2
  obtain ⟨v, hv, hvn⟩ := value_some f2
  refine ⟨double (v / n), by unfold divDouble; rw [hv]; rfl, ?_⟩
  rw [← hvn] at g1' g2'
  have hx : |(v : ℝ) - (α - σ + τ)| ≤ n * (1 / 2 ^ 15 - 1 / 2 ^ 18) := by
    rw [abs_le]
    constructor <;> linarith
  have hq : |((v / n : ℚ) : ℝ) - (α - σ + τ) / n| ≤ 1 / 2 ^ 15 - 1 / 2 ^ 18 := by
    push_cast
    rw [← sub_div, abs_div, abs_of_pos hpos, div_le_iff₀ hpos]
    linarith
  have hr1 : (α - σ + τ) / n ≤ 1 := by
    rw [div_le_one hpos]
    exact hr
  have hr0 : 0 ≤ (α - σ + τ) / n := div_nonneg (by linarith) hpos.le
  generalize (α - σ + τ) / n = ρ at hq hr1 hr0 ⊢
  generalize (v / n : ℚ) = w at hq ⊢
  obtain ⟨q1, q2⟩ := abs_le.1 hq
  have hw : |(w : ℝ)| ≤ 4 := by
    rw [abs_le]
    norm_num at q1 q2 ⊢
    constructor <;> linarith
  obtain ⟨w1, w2⟩ := abs_le.1 (double_twoR hw)
  constructor
  · rw [abs_le]
    norm_num at q1 q2 w1 w2 ⊢
    constructor <;> linarith
  · rw [abs_le]
    norm_num at q1 q2 w1 w2 ⊢
    constructor <;> linarith

/-- The difference of the means after the exchange. -/
theorem swapDeltaFloat_error {a b : List (Option Int)} (ha : UnitScores a) (hb : UnitScores b) (hl : a.length = b.length) (hne : a ≠ []) (hn : a.length ≤ 2 ^ 20)
    (s : List Bool) (hs : s.length = a.length) :
    ∃ q, swapDeltaFloat double a b s = some q ∧ |(q : ℝ) - meanDiff (exchange (a.map Binary32.num) (b.map Binary32.num) s)| ≤ 1 / 2 ^ 13 := by
  have h0 : 0 < a.length := List.length_pos_iff.2 hne
  obtain ⟨fA, eA⟩ := ha.sum_error (le_refl _) hn
  obtain ⟨fB, eB⟩ := hb.sum_error hl.ge hn
  obtain ⟨fS, eS⟩ := (ha.select s).sum_error (maskSelect_length a s) hn
  obtain ⟨fT, eT⟩ := (hb.select s).sum_error ((maskSelect_length b s).trans hl.ge) hn
  obtain ⟨x1, x2⟩ := exchange_sums (a.map Binary32.num) (b.map Binary32.num) s (by simpa using hl) (by simpa using hs)
  obtain ⟨l1, l2⟩ := exchange_length (a.map Binary32.num) (b.map Binary32.num) s (by simpa using hl) (by simpa using hs)
  rw [maskSelect_map, maskSelect_map] at x1 x2
  have hab := ha.sum_bounds
  have hbb := hb.sum_bounds
  have hsb := (ha.select s).sum_bounds
  have htb := (hb.select s).sum_bounds
  have hsl := ha.select_le s
  have htl := hb.select_le s
  have hT : ((maskSelect b s).length : ℝ) ≤ a.length := by exact_mod_cast (maskSelect_length b s).trans hl.ge
  have hS : ((maskSelect a s).length : ℝ) ≤ a.length := by exact_mod_cast (maskSelect_length a s)
  have hu : ∀ l ∈ [(exchange (a.map Binary32.num) (b.map Binary32.num) s).1, (exchange (a.map Binary32.num) (b.map Binary32.num) s).2], l.sum ≤ l.length := by
    have key : ∀ l : List ℝ, (∀ x ∈ l, x ≤ 1) → l.sum ≤ l.length := by
      intro l
      induction l with
      | nil => simp
      | cons x l ih =>
        intro h
        have h1 := h x List.mem_cons_self
        have h2 := ih (fun y hy => h y (List.mem_cons_of_mem _ hy))
        simp only [List.sum_cons, List.length_cons]
        push_cast
        linarith
    have hm : ∀ (f : Bool → ℝ × ℝ → ℝ), (∀ t p, f t p = p.1 ∨ f t p = p.2) →
        ∀ x ∈ List.zipWith f s ((a.map Binary32.num).zip (b.map Binary32.num)), x ≤ 1 := by
      intro f hf x hx
      obtain ⟨t, p, htp, rfl⟩ : ∃ t p, (t, p) ∈ s.zip ((a.map Binary32.num).zip (b.map Binary32.num)) ∧ f t p = x := by
        rw [← List.map_uncurry_zip_eq_zipWith] at hx
        obtain ⟨⟨t, p⟩, hp, rfl⟩ := List.mem_map.1 hx
        exact ⟨t, p, hp, rfl⟩
      have hp := (List.of_mem_zip htp).2
      obtain ⟨m1, m2⟩ := List.of_mem_zip (show (p.1, p.2) ∈ _ from hp)
      rcases hf t p with e | e
      · rw [e]
        obtain ⟨z, hz, e⟩ := List.mem_map.1 m1
        rw [← e]
        exact (ha z hz).2.2
      · rw [e]
        obtain ⟨z, hz, e⟩ := List.mem_map.1 m2
        rw [← e]
        exact (hb z hz).2.2
    intro l hl'
    simp only [List.mem_cons, List.not_mem_nil, or_false] at hl'
    rcases hl' with rfl | rfl
    · exact key _ (hm _ (fun t p => by cases t <;> simp))
    · exact key _ (hm _ (fun t p => by cases t <;> simp))
  have u1 := hu _ List.mem_cons_self
  have u2 := hu _ (List.mem_cons_of_mem _ List.mem_cons_self)
  have hBl : (b.length : ℝ) = a.length := by rw [hl]
  rw [l1, x1, List.length_map] at u1
  rw [l2, x2, List.length_map] at u2
  obtain ⟨p, hp, ep, bp⟩ := exchanged_error h0 hn fA fS fT eA eS eT hsb.1 hsl hab.2 htb.1 u1
  obtain ⟨r, hr, er, br⟩ := exchanged_error h0 hn fB fT fS eB eT eS htb.1 htl (by rw [← hBl]; exact hbb.2) hsb.1 u2
  refine ⟨double (p - r), ?_, ?_⟩
  · unfold swapDeltaFloat
    simp only
    rw [hp, hr]
    rfl
  · unfold meanDiff
    rw [l1, l2, x1, x2, List.length_map]
    generalize ((a.map Binary32.num).sum - ((maskSelect a s).map Binary32.num).sum + ((maskSelect b s).map Binary32.num).sum) / (a.length : ℝ) = P at ep ⊢
    generalize ((b.map Binary32.num).sum - ((maskSelect b s).map Binary32.num).sum + ((maskSelect a s).map Binary32.num).sum) / (a.length : ℝ) = R at er ⊢
    obtain ⟨p1, p2⟩ := abs_le.1 ep
    obtain ⟨r1, r2⟩ := abs_le.1 er
    obtain ⟨p3, p4⟩ := abs_le.1 bp
    obtain ⟨r3, r4⟩ := abs_le.1 br
    have hw : |((p - r : ℚ) : ℝ)| ≤ 4 := by
      push_cast
      rw [abs_le]
      constructor <;> linarith
    obtain ⟨w1, w2⟩ := abs_le.1 (double_twoR hw)
    push_cast at w1 w2
    rw [abs_le]
    norm_num at p1 p2 r1 r2 w1 w2 ⊢
    constructor <;> linarith

/-- The mean of the scores. -/
theorem meanSingle_error {a : List (Option Int)} (ha : UnitScores a) (hne : a ≠ []) (hn : a.length ≤ 2 ^ 20) :
    (meanSingle double a).isSome = true ∧ |Binary32.num (meanSingle double a) - (a.map Binary32.num).sum / a.length| ≤ 1 / 2 ^ 16 ∧
    |Binary32.num (meanSingle double a)| ≤ 2 := by
  have hpos : (0 : ℝ) < a.length := by exact_mod_cast List.length_pos_iff.2 hne
  obtain ⟨fA, eA⟩ := ha.sum_error (le_refl _) hn
  obtain ⟨s0, s1⟩ := ha.sum_bounds
  obtain ⟨v, hv⟩ := Option.isSome_iff_exists.1 fA
  unfold meanSingle
  rw [hv] at eA ⊢
  have hρ1 : (a.map Binary32.num).sum / a.length ≤ 1 := by
    rw [div_le_one hpos]
    exact s1
  have hρ0 : 0 ≤ (a.map Binary32.num).sum / a.length := div_nonneg s0 hpos.le
  have hq : |(((v : ℚ) / 2 ^ 149 / a.length : ℚ) : ℝ) - (a.map Binary32.num).sum / a.length| ≤ 1 / 2 ^ 17 := by
    push_cast
    rw [← sub_div, abs_div, abs_of_pos hpos, div_le_iff₀ hpos]
    refine eA.trans (le_of_eq ?_)
    ring
  generalize (a.map Binary32.num).sum / (a.length : ℝ) = ρ at hq hρ1 hρ0 ⊢
  show (toSingle (double _)).isSome = true ∧ |Binary32.num (toSingle (double _)) - ρ| ≤ _ ∧ |Binary32.num (toSingle (double _))| ≤ _
  generalize ((v : ℚ) / 2 ^ 149 / a.length : ℚ) = w at hq ⊢
  obtain ⟨q1, q2⟩ := abs_le.1 hq
  have hw : |(w : ℝ)| ≤ 4 := by
    rw [abs_le]
    norm_num at q1 q2 ⊢
    constructor <;> linarith
  obtain ⟨w1, w2⟩ := abs_le.1 (double_twoR hw)
  have hD : |((double w : ℚ) : ℝ)| ≤ 2 - 1 / 2 ^ 10 := by
    rw [abs_le]
    norm_num at q1 q2 w1 w2 ⊢
    constructor <;> linarith
  have hf : (toSingle (double w)).isSome = true := by
    refine Props.toSingle_isSome ?_
    have h2 : |double w| ≤ 2 := by
      have : |((double w : ℚ) : ℝ)| ≤ 2 := hD.trans (by norm_num)
      exact_mod_cast this
    exact h2.trans (by norm_num)
  have he := Props.toSingle_error hf
  have he' : |Binary32.num (toSingle (double w)) - ((double w : ℚ) : ℝ)| ≤ 1 / 2 ^ 22 := by
    refine he.trans ?_
    norm_num at hD ⊢
    linarith
  obtain ⟨z1, z2⟩ := abs_le.1 he'
  obtain ⟨z3, z4⟩ := abs_le.1 hD
  refine ⟨hf, ?_, ?_⟩
  · rw [abs_le]
    norm_num at q1 q2 w1 w2 z1 z2 ⊢
    constructor <;> linarith
  · rw [abs_le]
    norm_num at z1 z2 z3 z4 ⊢
    constructor <;> linarith

/-- The difference of the means. -/
theorem differenceFloat_error {p : List (Option Int) × List (Option Int)} (ha : UnitScores p.1) (hb : UnitScores p.2) (hl : p.1.length = p.2.length) (hne : p.1 ≠ [])
    (hn : p.1.length ≤ 2 ^ 20) : ∃ q, differenceFloat double p = some q ∧ |(q : ℝ) - meanDiff (p.1.map Binary32.num, p.2.map Binary32.num)| ≤ 1 / 2 ^ 14 := by
  have hne' : p.2 ≠ [] := by
    intro e
    rw [e] at hl
    exact hne (List.length_eq_zero_iff.1 (by simpa using hl))
  obtain ⟨f1, e1, b1⟩ := meanSingle_error ha hne hn
  obtain ⟨f2, e2, b2⟩ := meanSingle_error hb hne' (by rw [← hl]; exact hn)
  obtain ⟨c1, c2⟩ := abs_le.1 b1
  obtain ⟨c3, c4⟩ := abs_le.1 b2
  have hd : |Binary32.num (meanSingle double p.1) - Binary32.num (meanSingle double p.2)| ≤ 4 := by
    rw [abs_le]
    constructor <;> linarith
  have f := Props.subSingle_finite f1 f2 (hd.trans (by norm_num))
  obtain ⟨-, -, e⟩ := subSingle_error _ _ f
  have e' := e.trans (mul_le_mul_of_nonneg_left hd (by norm_num))
  obtain ⟨q, hq, hqn⟩ := value_some f
  refine ⟨q, hq, ?_⟩
  rw [← hqn] at e'
  unfold meanDiff
  simp only [List.length_map]
  obtain ⟨x1, x2⟩ := abs_le.1 e1
  obtain ⟨x3, x4⟩ := abs_le.1 e2
  obtain ⟨x5, x6⟩ := abs_le.1 e'
  rw [abs_le]
  norm_num at x1 x2 x3 x4 x5 x6 ⊢
  constructor <;> linarith

/-! ### Scores that are multiples of a power of two -/

/-- `m / 2 ^ k` as a float32 number. -/
def dyad (k m : Nat) : Option Int := some ((m * 2 ^ (149 - k) : Nat) : Int)

/-- The numerator. -/
def undyad (k : Nat) : Option Int → Nat
  | some z => z.toNat / 2 ^ (149 - k)
  | none => 0

theorem undyad_dyad (k m : Nat) : undyad k (dyad k m) = m := by
  unfold undyad dyad
  simp only [Int.toNat_natCast]
  exact Nat.mul_div_cancel _ (by positivity)

theorem round_dyad {k m : Nat} (hm : m < 2 ^ 24) : Binary32.round (((m * 2 ^ (149 - k) : Nat) : Int) : ℚ) = dyad k m := by
  have hM : IsMagnitude (m * 2 ^ (149 - k)) := ⟨m, 149 - k, rfl, hm, by omega⟩
  have := round_near hM (x := ((m * 2 ^ (149 - k) : Nat) : ℚ)) (by
    rw [sub_self, abs_zero]
    positivity)
  rw [Int.cast_natCast]
  exact this

theorem add_dyad {k m m' : Nat} (h : m + m' < 2 ^ 24) : Binary32.add (dyad k m) (dyad k m') = dyad k (m + m') := by
  rw [← round_dyad h, Nat.add_mul]
  rfl

theorem sub_dyad {k m m' : Nat} (h : m < 2 ^ 24) (hm : m' ≤ m) : subSingle (dyad k m) (dyad k m') = dyad k (m - m') := by
  rw [← round_dyad (show m - m' < 2 ^ 24 by omega), Nat.sub_mul, Nat.cast_sub (Nat.mul_le_mul_right _ hm)]
  rfl

theorem sumTree_dyad {k d : Nat} {l : List (Option Int)} {s : Option Int} (h : SumTree Binary32.ops d l s) (hl : ∀ x ∈ l, x = dyad k (undyad k x))
    (hb : (l.map (undyad k)).sum < 2 ^ 24) : s = dyad k (l.map (undyad k)).sum := by
  induction h with
  | zero d =>
    show some (0 : Int) = _
    simp [dyad]
  | one d a => simpa using hl a List.mem_cons_self
  | @add d l l' l'' a b _ _ hp iha ihb =>
    have e : (l''.map (undyad k)).sum = (l.map (undyad k)).sum + (l'.map (undyad k)).sum := by
      rw [← (hp.map (undyad k)).sum_eq, List.map_append, List.sum_append]
    have ha := iha (fun x hx => hl x (hp.mem_iff.1 (List.mem_append_left _ hx))) (by omega)
    have hb' := ihb (fun x hx => hl x (hp.mem_iff.1 (List.mem_append_right _ hx))) (by omega)
    rw [ha, hb', e]
    exact add_dyad (by omega)

theorem sum_dyad {k : Nat} {ms : List Nat} (hb : ms.sum < 2 ^ 24) (hl : ms.length ≤ 2 ^ 20) : pairwiseSum Binary32.ops (ms.map (dyad k)) = dyad k ms.sum := by
  have e : (ms.map (dyad k)).map (undyad k) = ms := by
    rw [List.map_map]
    refine (List.map_congr_left (g := id) (fun m _ => ?_)).trans (List.map_id _)
    exact undyad_dyad k m
  have h := pairwiseSum_sum (ops := Binary32.ops) 14 (l := ms.map (dyad k)) (Props.small_length (by simpa using hl))
  have := sumTree_dyad (k := k) h (by
    intro x hx
    obtain ⟨m, -, rfl⟩ := List.mem_map.1 hx
    rw [undyad_dyad]) (by rw [e]; exact hb)
  rwa [e] at this

theorem value_dyad {k m : Nat} (hk : k ≤ 149) : value (dyad k m) = some ((m : ℚ) / 2 ^ k) := by
  simp only [value, dyad, Option.map_some, Option.some.injEq]
  have e : (2 : ℚ) ^ 149 = 2 ^ (149 - k) * 2 ^ k := by rw [← pow_add, Nat.sub_add_cancel hk]
  rw [e]
  push_cast
  have h1 : (2 : ℚ) ^ (149 - k) ≠ 0 := by positivity
  have h2 : (2 : ℚ) ^ k ≠ 0 := by positivity
  field_simp

theorem double_dyad {M m : Nat} (hM : M ≤ 24) (hm : m ≤ 2 ^ 24) : double ((m : ℚ) / 2 ^ M) = (m : ℚ) / 2 ^ M := Props.double_dyadic hm hM

theorem double_dyad_sub {M m m' : Nat} (hM : M ≤ 24) (hm : m ≤ 2 ^ 24) (hm' : m' ≤ 2 ^ 24) :
    double ((m : ℚ) / 2 ^ M - (m' : ℚ) / 2 ^ M) = (m : ℚ) / 2 ^ M - (m' : ℚ) / 2 ^ M := by
  rcases le_total m' m with h | h
  · rw [← sub_div, ← Nat.cast_sub h]
    exact double_dyad hM (by omega)
  · have e : (m : ℚ) / 2 ^ M - (m' : ℚ) / 2 ^ M = -(((m' - m : Nat) : ℚ) / 2 ^ M) := by
      rw [Nat.cast_sub h]
      ring
    rw [e, double_neg, double_dyad hM (by omega)]

theorem div_dyad {k j m : Nat} (hkj : k + j ≤ 24) (hm : m ≤ 2 ^ 24) : divDouble double (dyad k m) (2 ^ j) = some ((m : ℚ) / 2 ^ (k + j)) := by
  unfold divDouble
  rw [value_dyad (by omega)]
  simp only [Option.map_some, Option.some.injEq]
  have e : (m : ℚ) / 2 ^ k / ((2 ^ j : Nat) : ℚ) = (m : ℚ) / 2 ^ (k + j) := by
    rw [Nat.cast_pow, Nat.cast_ofNat, div_div, ← pow_add]
  rw [e, double_dyad hkj hm]

theorem mean_dyad {k j : Nat} {ms : List Nat} (hkj : k + j ≤ 23) (hl : ms.length = 2 ^ j) (hj : j ≤ 20) (hb : ms.sum < 2 ^ 24) :
    meanSingle double (ms.map (dyad k)) = dyad (k + j) ms.sum := by
  unfold meanSingle
  rw [sum_dyad hb (by rw [hl]; exact Nat.pow_le_pow_right (by norm_num) hj), List.length_map, hl]
  have e : (((ms.sum * 2 ^ (149 - k) : Nat) : Int) : ℚ) / 2 ^ 149 / ((2 ^ j : Nat) : ℚ) = (ms.sum : ℚ) / 2 ^ (k + j) := by
    have hv := value_dyad (k := k) (m := ms.sum) (by omega)
    simp only [value, dyad, Option.map_some, Option.some.injEq] at hv
    rw [hv, Nat.cast_pow, Nat.cast_ofNat, div_div, ← pow_add]
  show toSingle (double ((((ms.sum * 2 ^ (149 - k) : Nat) : Int) : ℚ) / 2 ^ 149 / ((2 ^ j : Nat) : ℚ))) = _
  rw [e, double_dyad (by omega) (by omega)]
  unfold toSingle
  have e2 : (ms.sum : ℚ) / 2 ^ (k + j) * 2 ^ 149 = (((ms.sum * 2 ^ (149 - (k + j)) : Nat) : Int) : ℚ) := by
    have e3 : (2 : ℚ) ^ 149 = 2 ^ (149 - (k + j)) * 2 ^ (k + j) := by rw [← pow_add, Nat.sub_add_cancel (by omega)]
    rw [e3]
    generalize ms.sum = S
    push_cast
    have : (2 : ℚ) ^ (k + j) ≠ 0 := by positivity
    field_simp
  rw [e2, round_dyad hb]

end Verif.Stat
