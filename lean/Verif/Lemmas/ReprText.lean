/-
Single precision numbers printed with as few digits as possible and read in double precision.
-/
import Verif.Model.ReprText
import Verif.Lemmas.DecimalText
import Mathlib.Tactic.LinearCombination
import Mathlib.Data.List.TakeWhile

namespace Verif.Decimal
open Spec Binary32 Svm

/-! ### The text -/

theorem decimalText_chars {s : List Char} {neg : Bool} {q : ℚ} (h : DecimalText s neg q) :
    ∀ c ∈ s, isDigit c = true ∨ c ∈ ['.', 'e', 'E', '+', '-'] := by
  obtain ⟨sg, m, ex, n, k, e, rfl, hsg, hm, hex, rfl⟩ := h
  have hsign : ∀ {t : List Char} {neg : Bool}, SignText t neg → ∀ c ∈ t, c ∈ ['.', 'e', 'E', '+', '-'] := by
    intro t neg ht c hc
    rcases ht with ⟨rfl, _⟩ | ⟨rfl, _⟩ | ⟨rfl, _⟩
    · cases hc
    · rw [List.mem_singleton] at hc; subst hc; decide
    · rw [List.mem_singleton] at hc; subst hc; decide
  intro c hc
  rw [List.mem_append, List.mem_append] at hc
  rcases hc with (hc | hc) | hc
  · exact .inr (hsign hsg c hc)
  · rcases hm with ⟨hn, rfl⟩ | ⟨ds, fs, rfl, hn, rfl⟩
    · exact .inl (numeral_isDigits hn c hc)
    · rw [List.mem_append, List.mem_cons] at hc
      rcases hc with hc | rfl | hc
      · exact .inl (numeral_isDigits hn c (by simp [hc]))
      · exact .inr (by decide)
      · exact .inl (numeral_isDigits hn c (by simp [hc]))
  · rcases hex with ⟨rfl, rfl⟩ | ⟨c', sg', neg', ds, n', rfl, hc', hsg', hn, rfl⟩
    · cases hc
    · rw [List.mem_cons, List.mem_append] at hc
      rcases hc with rfl | hc | hc
      · rcases hc' with rfl | rfl <;> exact .inr (by decide)
      · exact .inr (hsign hsg' c hc)
      · exact .inl (numeral_isDigits hn c hc)

theorem pyFloat_decimal {s : List Char} {neg : Bool} {q : ℚ} (h : DecimalText s neg q) : pyFloat s = some (single neg (double q)) := by
  obtain ⟨h1, h2, h3⟩ := decimal_scan (rest := []) h (by intro c hc; cases hc)
  rw [List.append_nil] at h1 h2 h3
  unfold pyFloat scanDouble
  rw [h1, h3, h2]
  rfl

theorem sign_text (s : List Char) : ∃ sg, s = sg ++ (sign s).2 ∧ SignText sg (sign s).1 := by
  unfold sign
  split
  · exact ⟨['-'], rfl, .inr (.inr ⟨rfl, rfl⟩)⟩
  · exact ⟨['+'], rfl, .inr (.inl ⟨rfl, rfl⟩)⟩
  · exact ⟨[], rfl, .inl ⟨rfl, rfl⟩⟩

theorem exponent_only {s : List Char} {e : Int} (h : exponent s = some (e, [])) : ExponentText s e := by
  cases s with
  | nil =>
    simp only [exponent, Option.some.injEq, Prod.mk.injEq] at h
    exact .inl ⟨rfl, h.1.symm⟩
  | cons c t =>
    by_cases hc : c = 'e' ∨ c = 'E'
    · simp only [exponent, if_pos hc] at h
      obtain ⟨sg, h1, h2⟩ := sign_text t
      unfold exponentDigits at h
      split at h
      · cases h
      · rename_i hne
        obtain ⟨rfl, hd⟩ := Prod.mk.inj (Option.some.inj h)
        have ht : (sign t).2.takeWhile isDigit = (sign t).2 := by
          have := List.takeWhile_append_dropWhile (p := isDigit) (l := (sign t).2)
          rwa [hd, List.append_nil] at this
        rw [ht] at hne ⊢
        refine .inr ⟨c, sg, (sign t).1, (sign t).2, _, by rw [← h1], hc, h2, numeral_of_isDigits hne ?_, rfl⟩
        intro c hc
        rw [← ht] at hc
        exact List.mem_takeWhile_imp hc
    · simp only [exponent, if_neg hc] at h
      cases h

theorem number_only {s : List Char} {q : ℚ} (h : scanNumber s = some (q, [])) :
    ∃ m ex n k e, s = m ++ ex ∧ MantissaText m n k ∧ ExponentText ex e ∧ q = n * 10 ^ (e - k) := by
  unfold scanNumber at h
  simp only at h
  split at h
  · cases h
  · rename_i hne
    obtain ⟨⟨e, r⟩, he, hq⟩ := Option.map_eq_some_iff.1 h
    obtain ⟨rfl, rfl⟩ := Prod.mk.inj hq
    have hex := exponent_only he
    have hd : ∀ c ∈ s.takeWhile isDigit, isDigit c = true := fun c hc => List.mem_takeWhile_imp hc
    have hs := (List.takeWhile_append_dropWhile (p := isDigit) (l := s)).symm
    generalize s.takeWhile isDigit = ds at hne hd hs
    generalize s.dropWhile isDigit = r at hne hs he hex
    unfold fraction at hne he hex ⊢
    split at hne
    · rename_i t
      simp only at hne he hex ⊢
      refine ⟨ds ++ '.' :: t.takeWhile isDigit, t.dropWhile isDigit, _, _, e, ?_, .inr ⟨ds, _, rfl, numeral_of_isDigits hne ?_, rfl⟩, hex, rfl⟩
      · rw [hs, List.append_assoc, List.cons_append, List.takeWhile_append_dropWhile]
      · intro c hc
        rcases List.mem_append.1 hc with hc | hc
        · exact hd c hc
        · exact List.mem_takeWhile_imp hc
    · simp only at hne he hex ⊢
      rw [List.append_nil] at hne ⊢
      exact ⟨ds, r, _, 0, e, hs, .inl ⟨numeral_of_isDigits hne hd, rfl⟩, hex, by simp⟩

theorem pyFloat_only {s : List Char} {x : Single} (h : pyFloat s = some x) :
    (∃ neg q, DecimalText s neg q ∧ x = single neg (double q)) ∨
    ∃ sg w neg, s = sg ++ w ∧ SignText sg neg ∧
      (w.map Char.toLower = "nan".toList ∧ x = .nan neg ∨
        (w.map Char.toLower = "inf".toList ∨ w.map Char.toLower = "infinity".toList) ∧ x = .inf neg) := by
  obtain ⟨sg, hs, hsg⟩ := sign_text s
  unfold pyFloat at h
  split at h
  · rename_i y hy
    obtain rfl := Option.some.inj h
    unfold scanDouble at hy
    split at hy
    · rename_i r hr
      obtain rfl := Option.some.inj hy
      refine .inr ⟨sg, _, _, hs, hsg, ?_⟩
      unfold special at hr
      have full : ∀ {n : Nat}, (sign s).2.drop n = [] → (sign s).2.take n = (sign s).2 := fun hd =>
        List.take_of_length_le (List.drop_eq_nil_iff.1 hd)
      split at hr
      · rename_i hw
        obtain ⟨rfl, hd⟩ := Prod.mk.inj (Option.some.inj hr)
        rw [full hd] at hw
        exact .inl ⟨hw, rfl⟩
      · split at hr
        · rename_i hw
          obtain ⟨rfl, hd⟩ := Prod.mk.inj (Option.some.inj hr)
          rw [full hd] at hw
          exact .inr ⟨.inr hw, rfl⟩
        · split at hr
          · rename_i hw
            obtain ⟨rfl, hd⟩ := Prod.mk.inj (Option.some.inj hr)
            rw [full hd] at hw
            exact .inr ⟨.inl hw, rfl⟩
          · cases hr
    · obtain ⟨⟨q, r⟩, hq, he⟩ := Option.map_eq_some_iff.1 hy
      obtain ⟨rfl, rfl⟩ := Prod.mk.inj he
      obtain ⟨m, ex, n, k, e, h1, h2, h3, rfl⟩ := number_only hq
      exact .inl ⟨_, _, ⟨sg, m, ex, n, k, e, by rw [List.append_assoc, ← h1, ← hs], hsg, h2, h3, rfl⟩, rfl⟩
  · cases h

theorem pyFloat_word {sg w : List Char} {neg : Bool} {x : Single} (hs : SignText sg neg)
    (h : w.map Char.toLower = "nan".toList ∧ x = .nan neg ∨
        (w.map Char.toLower = "inf".toList ∨ w.map Char.toLower = "infinity".toList) ∧ x = .inf neg) : pyFloat (sg ++ w) = some x := by
  have hh : ∀ c ∈ w.head?, c ≠ '-' ∧ c ≠ '+' := by
    intro c hc
    have key : ∀ d t, w.map Char.toLower = d :: t → (d ≠ '-' ∧ d ≠ '+') → c ≠ '-' ∧ c ≠ '+' := by
      intro d t hw hd
      cases w with
      | nil => cases hc
      | cons a w =>
        obtain rfl : a = c := by simpa using hc
        have : a.toLower = d := (List.cons.inj hw).1
        constructor
        · rintro rfl; exact hd.1 (by rw [← this]; decide)
        · rintro rfl; exact hd.2 (by rw [← this]; decide)
    rcases h with ⟨h, _⟩ | ⟨h | h, _⟩
    · exact key _ _ h (by decide)
    · exact key _ _ h (by decide)
    · exact key _ _ h (by decide)
  have hsgn := sign_ok hs hh
  have len : w.length = (w.map Char.toLower).length := (List.length_map ..).symm
  have hsp : special neg w = some (x, []) := by
    unfold special
    rcases h with ⟨h, rfl⟩ | ⟨h | h, rfl⟩
    · rw [h] at len
      rw [List.take_of_length_le (by rw [len]; decide), List.drop_of_length_le (by rw [len]; decide), if_pos h]
    · rw [h] at len
      have t3 : w.take 3 = w := List.take_of_length_le (by rw [len]; decide)
      have t8 : w.take 8 = w := List.take_of_length_le (by rw [len]; decide)
      rw [t3, t8, h, if_neg (by decide), if_neg (by decide), if_pos rfl, List.drop_of_length_le (by rw [len]; decide)]
    · rw [h] at len
      have t8 : w.take 8 = w := List.take_of_length_le (by rw [len]; decide)
      rw [t8, List.map_take, h, if_neg (by decide), if_pos rfl, List.drop_of_length_le (by rw [len]; decide)]
  unfold pyFloat scanDouble
  rw [hsgn]
  simp only [hsp]

theorem positional_text {p n : Nat} {x : Int} (h1 : 10 ^ p ≤ n) (h2 : n < 10 ^ (p + 1)) :
    ∃ nn k, MantissaText (positional n x) nn k ∧ (nn : ℚ) * 10 ^ (-(k : Int)) = n * 10 ^ (x - p) := by
  have hlen : (decimal n).length = p + 1 := decimal_length h2 (.inl h1)
  have hdig := decimal_isDigits n
  have hval : digitsValue (decimal n) = n := (numeral_digits (decimal_numeral n)).2.2
  have hten : (10 : ℚ) ≠ 0 := by norm_num
  unfold positional
  generalize decimal n = ds at hlen hdig hval
  simp only
  split
  · rename_i hneg
    refine ⟨digitsValue (['0'] ++ (List.replicate (-x - 1).toNat '0' ++ ds)), (List.replicate (-x - 1).toNat '0' ++ ds).length,
      .inr ⟨['0'], _, rfl, numeral_of_isDigits (by simp) ?_, rfl⟩, ?_⟩
    · intro c hc
      rw [List.mem_append, List.mem_append] at hc
      rcases hc with hc | hc | hc
      · rw [List.mem_singleton] at hc; subst hc; decide
      · rw [List.eq_of_mem_replicate hc]; decide
      · exact hdig c hc
    · have h0 : digitsValue ['0'] = 0 := rfl
      rw [digitsValue_append, digitsValue_append, digitsValue_zeros, h0, Nat.zero_mul, Nat.zero_mul, Nat.zero_add, Nat.zero_add, hval]
      congr 2
      simp only [List.length_append, List.length_replicate]
      omega
  · split
    · rename_i hneg hlt
      refine ⟨digitsValue (ds.take (x.toNat + 1) ++ ds.drop (x.toNat + 1)), (ds.drop (x.toNat + 1)).length, .inr ⟨_, _, rfl, numeral_of_isDigits ?_ ?_, rfl⟩, ?_⟩
      · rw [List.take_append_drop]
        intro h
        rw [h] at hlen
        simp at hlen
      · rw [List.take_append_drop]
        exact hdig
      · rw [List.take_append_drop, hval, List.length_drop]
        congr 2
        omega
    · rename_i hneg hge
      refine ⟨digitsValue (ds ++ List.replicate (x.toNat + 1 - ds.length) '0' ++ ['0']), 1, .inr ⟨ds ++ List.replicate (x.toNat + 1 - ds.length) '0', ['0'], ?_, numeral_of_isDigits (by simp) ?_, rfl⟩, ?_⟩
      · simp
      · intro c hc
        rw [List.mem_append, List.mem_append] at hc
        rcases hc with (hc | hc) | hc
        · exact hdig c hc
        · rw [List.eq_of_mem_replicate hc]; decide
        · rw [List.mem_singleton] at hc; subst hc; decide
      · have h0 : digitsValue ['0'] = 0 := rfl
        rw [digitsValue_append, digitsValue_append, digitsValue_zeros, h0, hval]
        push_cast
        rw [List.length_replicate, List.length_singleton, add_zero, add_zero, mul_assoc, mul_assoc]
        congr 1
        rw [← zpow_natCast, ← zpow_natCast, ← zpow_add₀ hten, ← zpow_add₀ hten]
        congr 1
        push_cast
        omega

theorem moreDigits_le (m : Nat) : moreDigits m ≤ 8 := by
  unfold moreDigits
  split
  · rename_i p hp
    have := List.mem_of_find?_eq_some hp
    rw [List.mem_range] at this
    omega
  · exact le_rfl

/-- The decimal number that is printed. -/
def printed (m : Nat) : ℚ := (firstDigits (moreDigits m + 1) (m / 2 ^ 149)).1 * 10 ^ ((firstDigits (moreDigits m + 1) (m / 2 ^ 149)).2 - moreDigits m)

theorem printed_nonneg (m : Nat) : 0 ≤ printed m := mul_nonneg (Nat.cast_nonneg _) (zpow_nonneg (by norm_num) _)

theorem magnitude_pos {m : Nat} (h0 : m ≠ 0) : (0 : ℚ) < (m : ℚ) / 2 ^ 149 := by
  have : (0 : ℚ) < m := by exact_mod_cast Nat.pos_of_ne_zero h0
  positivity

/-- The number nearest to the printed one is the number itself. -/
theorem printed_single {m : Nat} (hm : IsMagnitude m) (h0 : m ≠ 0) (neg : Bool) : single neg (printed m) = .num neg m := by
  have key : single false (printed m) = .num false m := by
    unfold printed moreDigits
    split
    · rename_i p hp
      have := List.find?_some hp
      exact of_decide_eq_true this
    · have h := (firstDigits_spec (p := 8) (magnitude_pos h0)).2.2
      exact (printed_round hm (mul_nonneg (Nat.cast_nonneg _) (zpow_nonneg (by norm_num) _)) h false).1
  unfold single at key ⊢
  split at key
  · rename_i k hk
    have := Single.num.inj key
    rw [this.2]
  · cases key

theorem repr_text {m : Nat} (h0 : m ≠ 0) (neg : Bool) : DecimalText (reprSingle (.num neg m)) neg (printed m) := by
  obtain ⟨h1, h2, -⟩ := firstDigits_spec (p := moreDigits m) (magnitude_pos h0)
  simp only [reprSingle, if_neg h0]
  unfold reprPositive
  simp only
  split
  · obtain ⟨nn, k, hm, hv⟩ := positional_text (x := (firstDigits (moreDigits m + 1) (m / 2 ^ 149)).2) h1 h2
    refine ⟨signText neg, _, [], nn, k, 0, by rw [List.append_nil], signText_spec neg, hm, .inl ⟨rfl, rfl⟩, ?_⟩
    rw [zero_sub, hv]
    rfl
  · obtain ⟨mt, ex, nn, k, e, hg, hm, hex, hv⟩ := general_text (lo := 0) (hi := 0) (x := (firstDigits (moreDigits m + 1) (m / 2 ^ 149)).2) (by omega) h1 h2
    refine ⟨signText neg, mt, ex, nn, k, e, ?_, signText_spec neg, hm, hex, ?_⟩
    · rw [hg, List.append_assoc]
    · rw [hv]
      rfl

theorem repr_zero (neg : Bool) : DecimalText (reprSingle (.num neg 0)) neg 0 := by
  refine ⟨signText neg, ['0', '.', '0'], [], 0, 1, 0, by simp [reprSingle], signText_spec neg, .inr ⟨['0'], ['0'], rfl, ?_, rfl⟩, .inl ⟨rfl, rfl⟩, by simp⟩
  exact .more (.one (d := 0) (by norm_num)) (d := 0) (by norm_num)

/-! ### Double precision on the way -/

theorem double_exact {x : ℚ} (hx : 0 ≤ x) (hb : x < 2 ^ 1000) (h : IsDouble x) : double x = x := by
  have := (double_spec hx hb).2 x h
  rw [sub_self, abs_zero] at this
  have h0 := abs_eq_zero.1 (le_antisymm this (abs_nonneg _))
  linarith

/-- Rounding does not notice a small change of a number that is not near the middle between two neighbours. -/
theorem round_stable {X R : ℚ} (hX : 0 < X) (hbig : grid X < 2 ^ 277) (hR : |R - X| ≤ X / 2 ^ 53)
    (hmid : ∀ h : Int, 1 / 488281250 ≤ |X / 2 ^ ulp X - (h + 1 / 2)|) : Binary32.round R = Binary32.round X := by
  have hp : (0 : ℚ) < 2 ^ ulp X := by positivity
  have hup := ulp_upper hX.le
  obtain ⟨hc1, hc2, hc3⟩ := grid_nonneg hX.le
  have herr := nearest_error (X / 2 ^ ulp X)
  obtain ⟨hg0, hmag⟩ := grid_isMagnitude hX.le hbig
  have hround : Binary32.round X = some ((grid X).natAbs : Int) := by
    rw [Int.natAbs_of_nonneg hg0]
    unfold Binary32.round
    rw [if_pos (by rw [abs_of_nonneg hg0]; exact hbig)]
  have hgm : (((grid X).natAbs : Nat) : ℚ) = nearest (X / 2 ^ ulp X) * 2 ^ ulp X := by
    rw [← Int.cast_natCast, Int.natAbs_of_nonneg hg0]
    unfold grid
    push_cast
    rfl
  rw [hround]
  obtain ⟨c, hc⟩ : ∃ c, c = nearest (X / 2 ^ ulp X) := ⟨_, rfl⟩
  rw [← hc] at herr hc1 hc2 hc3 hgm
  -- the distance to the nearest multiple
  have hclose : |X / 2 ^ ulp X - c| ≤ 1 / 2 - 1 / 488281250 := by
    have a1 := hmid c
    have a2 := hmid (c - 1)
    push_cast at a2
    rw [abs_le] at herr
    generalize X / 2 ^ ulp X = y at *
    have b1 : y - (c + 1 / 2) ≤ 0 := by linarith
    have b2 : 0 ≤ y - ((c : ℚ) - 1 + 1 / 2) := by linarith
    rw [abs_of_nonpos b1] at a1
    rw [abs_of_nonneg b2] at a2
    rw [abs_le]
    constructor <;> linarith
  have hRy : |R / 2 ^ ulp X - X / 2 ^ ulp X| < 1 / 2 ^ 29 := by
    rw [← sub_div, abs_div, abs_of_pos hp, div_lt_iff₀ hp]
    refine lt_of_le_of_lt hR ?_
    generalize (2 : ℚ) ^ ulp X = P at *
    norm_num at *
    linarith
  have hR0 : 0 < R := by
    have h1 := (abs_le.1 hR).1
    have h2 : X / 2 ^ 53 < X := by
      rw [div_lt_iff₀ (by norm_num)]
      linarith
    linarith
  by_cases hu : ulp R = ulp X
  · have hgR : grid R = grid X := by
      unfold grid
      rw [hu, ← hc]
      congr 1
      apply nearest_eq
      have e : R / 2 ^ ulp X - c = (R / 2 ^ ulp X - X / 2 ^ ulp X) + (X / 2 ^ ulp X - c) := by ring
      rw [e]
      refine (abs_add_le _ _).trans_lt ?_
      generalize |R / 2 ^ ulp X - X / 2 ^ ulp X| = A at *
      generalize |X / 2 ^ ulp X - c| = B at *
      norm_num at *
      linarith
    unfold Binary32.round
    rw [hgR, if_pos (by rw [abs_of_nonneg hg0]; exact hbig), Int.natAbs_of_nonneg hg0]
  · -- a power of two lies between the two numbers
    have hnear : |R - (((grid X).natAbs : Nat) : ℚ)| ≤ (((grid X).natAbs : Nat) : ℚ) / 2 ^ 27 := by
      rw [hgm]
      have hlogX := Int.log_mono_right (b := 2) (R := ℚ) (r₁ := X) (r₂ := R)
      have hlogR := Int.log_mono_right (b := 2) (R := ℚ) (r₁ := R) (r₂ := X)
      rcases lt_or_ge R X with hlt | hge
      · -- downwards
        have hle := hlogR hR0 hlt.le
        have huX : ulp X ≠ 0 := by
          intro h0
          apply hu
          unfold ulp at h0 ⊢
          rw [abs_of_pos hX] at h0 ⊢
          rw [abs_of_pos hR0]
          omega
        have hRlow : R < 2 ^ ulp X * 2 ^ 23 := by
          by_contra hcon
          rw [not_lt, ← pow_add] at hcon
          apply hu
          have h1 : ((ulp X + 23 : Nat) : Int) ≤ Int.log 2 R := by
            rw [← Int.zpow_le_iff_le_log (by norm_num) hR0, zpow_natCast]
            exact_mod_cast hcon
          unfold ulp at h1 huX ⊢
          rw [abs_of_pos hX] at h1 huX ⊢
          rw [abs_of_pos hR0]
          omega
        have hXlow := ulp_lower hX.le huX
        have hcval : c = 2 ^ 23 := by
          rw [hc]
          apply nearest_eq
          rw [abs_lt] at hRy ⊢
          have h1 : (2 : ℚ) ^ 23 ≤ X / 2 ^ ulp X := by
            rw [le_div_iff₀ hp, mul_comm]
            exact hXlow
          have h2 : R / 2 ^ ulp X < 2 ^ 23 := by
            rw [div_lt_iff₀ hp, mul_comm]
            exact hRlow
          generalize X / 2 ^ ulp X = y at *
          generalize R / 2 ^ ulp X = z at *
          push_cast
          constructor
          · norm_num at *
            linarith
          · norm_num at *
            linarith
        rw [hcval]
        push_cast
        have hd := (abs_le.1 hR).1
        rw [abs_le]
        generalize (2 : ℚ) ^ ulp X = P at *
        norm_num at *
        constructor <;> linarith
      · -- upwards
        have hle := hlogX hX hge
        have hRup : 2 ^ ulp X * 2 ^ 24 ≤ R := by
          by_contra hcon
          rw [not_le, ← pow_add] at hcon
          apply hu
          have h1 : Int.log 2 R < ((ulp X + 24 : Nat) : Int) := by
            rw [← Int.lt_zpow_iff_log_lt (by norm_num) hR0, zpow_natCast]
            exact_mod_cast hcon
          unfold ulp at h1 ⊢
          rw [abs_of_pos hX] at h1 ⊢
          rw [abs_of_pos hR0]
          omega
        have hcval : c = 2 ^ 24 := by
          rw [hc]
          apply nearest_eq
          rw [abs_lt] at hRy ⊢
          have h1 : X / 2 ^ ulp X < 2 ^ 24 := by
            rw [div_lt_iff₀ hp, mul_comm]
            exact hup
          have h2 : (2 : ℚ) ^ 24 ≤ R / 2 ^ ulp X := by
            rw [le_div_iff₀ hp, mul_comm]
            exact hRup
          generalize X / 2 ^ ulp X = y at *
          generalize R / 2 ^ ulp X = z at *
          push_cast
          constructor
          · norm_num at *
            linarith
          · norm_num at *
            linarith
        rw [hcval]
        push_cast
        have hd := (abs_le.1 hR).2
        rw [abs_le]
        generalize (2 : ℚ) ^ ulp X = P at *
        norm_num at *
        constructor <;> linarith
    exact round_near hmag hnear

/-- The first digits of a number from 10^a on, below 10^b. -/
theorem firstDigits_exponent {p : Nat} {v : ℚ} (hv : 0 < v) {a : Int} (ha : (10 : ℚ) ^ a ≤ v) : a ≤ (firstDigits p v).2 := by
  have h1 : a ≤ Int.log 10 v := by
    rw [← Int.zpow_le_iff_le_log (by norm_num) hv]
    exact_mod_cast ha
  unfold firstDigits
  simp only
  split
  · show a ≤ Int.log 10 v + 1
    omega
  · exact h1

end Verif.Decimal
