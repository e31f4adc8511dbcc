/-
Decimal numbers in texts: scanning, printing, rounding.
-/
import Verif.Model.DecimalText
import Verif.Spec.DecimalText
import Verif.Lemmas.SvmlightText
import Verif.Lemmas.Binary32
import Verif.Lemmas.Digits
import Mathlib.Tactic.FieldSimp

namespace Verif.Decimal
open Spec Binary32 Svm

/-! ### Digits -/

theorem isDigit_iff {c : Char} : isDigit c = true ↔ ∃ d < 10, c = digit d := by
  constructor
  · intro h
    have : c ∈ ['0', '1', '2', '3', '4', '5', '6', '7', '8', '9'] := by simpa [isDigit] using h
    exact (by decide : ∀ c ∈ ['0', '1', '2', '3', '4', '5', '6', '7', '8', '9'], ∃ d < 10, c = digit d) c this
  · rintro ⟨d, hd, rfl⟩
    exact (digit_isDigit hd).1

theorem digitsValue_snoc (s : List Char) (c : Char) : digitsValue (s ++ [c]) = 10 * digitsValue s + (c.toNat - 48) := by
  simp [digitsValue]

theorem digitsValue_append (a b : List Char) : digitsValue (a ++ b) = digitsValue a * 10 ^ b.length + digitsValue b := by
  induction b using List.reverseRecOn with
  | nil => simp [digitsValue]
  | append_singleton b c ih =>
    rw [← List.append_assoc, digitsValue_snoc, digitsValue_snoc, ih, List.length_append, List.length_singleton, pow_succ]
    ring

theorem digitsValue_zeros (j : Nat) : digitsValue (List.replicate j '0') = 0 := by
  induction j with
  | zero => rfl
  | succ j ih =>
    rw [List.replicate_succ', digitsValue_snoc, ih]
    rfl

theorem numeral_isDigits {s : List Char} {n : Nat} (h : Numeral s n) : ∀ c ∈ s, isDigit c = true := by
  intro c hc
  exact isDigit_iff.2 ((numeral_digits h).2.1 c hc)

theorem numeral_of_isDigits {s : List Char} (hne : s ≠ []) (h : ∀ c ∈ s, isDigit c = true) : Numeral s (digitsValue s) := by
  induction s using List.reverseRecOn with
  | nil => exact absurd rfl hne
  | append_singleton s c ih =>
    obtain ⟨d, hd, rfl⟩ := isDigit_iff.1 (h c (by simp))
    rw [digitsValue_snoc, (digit_isDigit hd).2.1]
    by_cases hs : s = []
    · subst hs
      have h0 : digitsValue [] = 0 := rfl
      rw [h0, Nat.mul_zero, Nat.zero_add]
      exact .one hd
    · exact .more (ih hs (fun c hc => h c (by simp [hc]))) hd

theorem decimal_length {n : Nat} : ∀ {p : Nat}, n < 10 ^ (p + 1) → 10 ^ p ≤ n ∨ p = 0 → (decimal n).length = p + 1 := by
  intro p
  induction p generalizing n with
  | zero =>
    intro h _
    rw [decimal, if_pos (by simpa using h)]
    rfl
  | succ p ih =>
    intro h h'
    have h1 : 10 ^ (p + 1) ≤ n := by
      rcases h' with h' | h'
      · exact h'
      · omega
    have h10 : ¬ n < 10 := by
      have : 10 ^ 1 ≤ 10 ^ (p + 1) := Nat.pow_le_pow_right (by norm_num) (by omega)
      omega
    rw [decimal, if_neg h10, List.length_append, ih (n := n / 10) (by
      rw [Nat.div_lt_iff_lt_mul (by norm_num), ← pow_succ]
      exact h) (.inl (by
      rw [Nat.le_div_iff_mul_le (by norm_num), ← pow_succ]
      exact h1))]
    rfl

theorem decimal_isDigits (n : Nat) : ∀ c ∈ decimal n, isDigit c = true := numeral_isDigits (decimal_numeral n)

theorem strip_spec (s : List Char) : ∃ j, s = strip s ++ List.replicate j '0' := by
  unfold strip
  have h : s.reverse = s.reverse.takeWhile (· = '0') ++ s.reverse.dropWhile (· = '0') := (List.takeWhile_append_dropWhile).symm
  have h2 : s.reverse.takeWhile (· = '0') = List.replicate (s.reverse.takeWhile (· = '0')).length '0' := by
    rw [List.eq_replicate_iff]
    refine ⟨rfl, fun c hc => ?_⟩
    have := List.all_eq_true.1 (List.all_takeWhile (p := (· = '0')) (l := s.reverse)) c hc
    simpa using this
  refine ⟨(s.reverse.takeWhile (· = '0')).length, ?_⟩
  have h3 := congrArg List.reverse h
  rw [List.reverse_reverse, List.reverse_append] at h3
  rw [h2, List.reverse_replicate] at h3
  simpa using h3

/-! ### Scanning -/

/-- What can follow a number. -/
def Ends (rest : List Char) : Prop := ∀ c ∈ rest.head?, isDigit c = false ∧ c ≠ '.' ∧ c ≠ 'e' ∧ c ≠ 'E'

theorem sign_ok {sg : List Char} {neg : Bool} (h : SignText sg neg) {t : List Char} (ht : ∀ c ∈ t.head?, c ≠ '-' ∧ c ≠ '+') : sign (sg ++ t) = (neg, t) := by
  rcases h with ⟨rfl, rfl⟩ | ⟨rfl, rfl⟩ | ⟨rfl, rfl⟩
  · cases t with
    | nil => rfl
    | cons c t =>
      have := ht c (by simp)
      unfold sign
      split
      · rename_i heq
        simp only [List.nil_append, List.cons.injEq] at heq
        exact absurd heq.1 this.1
      · rename_i heq
        simp only [List.nil_append, List.cons.injEq] at heq
        exact absurd heq.1 this.2
      · rfl
  · rfl
  · rfl

theorem exponent_ok {ex : List Char} {e : Int} (h : ExponentText ex e) {rest : List Char} (hr : Ends rest) : exponent (ex ++ rest) = some (e, rest) := by
  rcases h with ⟨rfl, rfl⟩ | ⟨c, sg, neg, ds, n, rfl, hc, hsg, hn, rfl⟩
  · cases rest with
    | nil => rfl
    | cons c rest =>
      obtain ⟨_, _, h1, h2⟩ := hr c (by simp)
      simp [exponent, h1, h2]
  · obtain ⟨hne, hdig, hv⟩ := numeral_digits hn
    have hd := numeral_isDigits hn
    have hs : sign (sg ++ (ds ++ rest)) = (neg, ds ++ rest) := sign_ok hsg (by
      cases ds with
      | nil => exact absurd rfl hne
      | cons c ds =>
        intro c' hc'
        simp only [List.cons_append, List.head?_cons, Option.mem_def, Option.some.injEq] at hc'
        subst hc'
        obtain ⟨d, hd', rfl⟩ := hdig c (by simp)
        exact ⟨(digit_isDigit hd').2.2.2.2.2.2.1, (digit_isDigit hd').2.2.2.2.2.2.2⟩)
    obtain ⟨h1, h2⟩ := takeWhile_append_stop (p := isDigit) hd (b := rest) (fun c hc => (hr c hc).1)
    have e0 : c :: (sg ++ ds) ++ rest = c :: (sg ++ (ds ++ rest)) := by simp
    rw [e0]
    unfold exponent
    simp only [if_pos hc, hs]
    unfold exponentDigits
    simp only [h1, h2, hv, if_neg hne]

theorem exponent_head {ex : List Char} {e : Int} (h : ExponentText ex e) {rest : List Char} (hr : Ends rest) :
    ∀ c ∈ (ex ++ rest).head?, isDigit c = false ∧ c ≠ '.' := by
  intro c hc
  rcases h with ⟨rfl, rfl⟩ | ⟨c', sg, neg, ds, n, rfl, hc', hsg, hn, rfl⟩
  · exact ⟨(hr c hc).1, (hr c hc).2.1⟩
  · simp only [List.cons_append, List.head?_cons, Option.mem_def, Option.some.injEq] at hc
    subst hc
    rcases hc' with rfl | rfl <;> decide

theorem scanNumber_ok {m ex : List Char} {n k : Nat} {e : Int} (hm : MantissaText m n k) (he : ExponentText ex e) {rest : List Char} (hr : Ends rest) :
    scanNumber (m ++ ex ++ rest) = some ((n : ℚ) * 10 ^ (e - k), rest) := by
  have hh := exponent_head he hr
  rw [List.append_assoc]
  have hx := exponent_ok he hr
  generalize ex ++ rest = t at hh hx ⊢
  rcases hm with ⟨hn, rfl⟩ | ⟨ds, fs, rfl, hn, rfl⟩
  · obtain ⟨hne, -, hv⟩ := numeral_digits hn
    obtain ⟨h1, h2⟩ := takeWhile_append_stop (p := isDigit) (numeral_isDigits hn) (b := t) (fun c hc => (hh c hc).1)
    have hf : fraction t = ([], t) := by
      cases t with
      | nil => rfl
      | cons c t =>
        have := (hh c (by simp)).2
        unfold fraction
        split
        · rename_i heq
          rw [List.cons.injEq] at heq
          exact absurd heq.1 this
        · rfl
    unfold scanNumber
    simp only [h1, h2, hf, List.append_nil, if_neg hne, hx, hv]
    simp
  · obtain ⟨hne, -, hv⟩ := numeral_digits hn
    have hd := numeral_isDigits hn
    obtain ⟨h1, h2⟩ := takeWhile_append_stop (p := isDigit) (a := ds) (b := '.' :: (fs ++ t)) (fun c hc => hd c (by simp [hc])) (by
      intro c hc
      simp only [List.head?_cons, Option.mem_def, Option.some.injEq] at hc
      subst hc
      decide)
    obtain ⟨h3, h4⟩ := takeWhile_append_stop (p := isDigit) (a := fs) (b := t) (fun c hc => hd c (by simp [hc])) (fun c hc => (hh c hc).1)
    have hf : fraction ('.' :: (fs ++ t)) = (fs, t) := by
      simp [fraction, h3, h4]
    have e0 : ds ++ '.' :: fs ++ t = ds ++ '.' :: (fs ++ t) := by simp
    rw [e0]
    unfold scanNumber
    simp only [h1, h2, hf, if_neg hne, hx, hv]
    simp

theorem mantissa_head {m : List Char} {n k : Nat} (hm : MantissaText m n k) (t : List Char) : ∃ c s, m ++ t = c :: s ∧ (isDigit c = true ∨ c = '.') := by
  rcases hm with ⟨hn, rfl⟩ | ⟨ds, fs, rfl, hn, rfl⟩
  · have hd := numeral_isDigits hn
    have hne := (numeral_digits hn).1
    cases m with
    | nil => exact absurd rfl hne
    | cons c m => exact ⟨c, m ++ t, rfl, .inl (hd c (by simp))⟩
  · have hd := numeral_isDigits hn
    cases ds with
    | nil => exact ⟨'.', fs ++ t, rfl, .inr rfl⟩
    | cons c ds => exact ⟨c, _, rfl, .inl (hd c (by simp))⟩

theorem digit_or_point {c : Char} (h : isDigit c = true ∨ c = '.') : c ≠ '-' ∧ c ≠ '+' ∧ c.toLower ≠ 'n' ∧ c.toLower ≠ 'i' ∧
    c ∉ ['#', ' ', '\t', '\n', '\x0b', '\x0c', '\r'] := by
  rcases h with h | rfl
  · obtain ⟨d, hd, rfl⟩ := isDigit_iff.1 h
    interval_cases d <;> decide
  · decide

theorem special_none {c : Char} (h : isDigit c = true ∨ c = '.') (neg : Bool) (s : List Char) : special neg (c :: s) = none := by
  obtain ⟨-, -, h1, h2, -⟩ := digit_or_point h
  have a1 : ¬ ((c :: s).take 3).map Char.toLower = "nan".toList := by
    intro e
    have := congrArg List.head? e
    simp only [List.take_succ_cons, List.map_cons, List.head?_cons] at this
    exact h1 (Option.some.inj this)
  have a2 : ¬ ((c :: s).take 8).map Char.toLower = "infinity".toList := by
    intro e
    have := congrArg List.head? e
    simp only [List.take_succ_cons, List.map_cons, List.head?_cons] at this
    exact h2 (Option.some.inj this)
  have a3 : ¬ ((c :: s).take 3).map Char.toLower = "inf".toList := by
    intro e
    have := congrArg List.head? e
    simp only [List.take_succ_cons, List.map_cons, List.head?_cons] at this
    exact h2 (Option.some.inj this)
  unfold special
  rw [if_neg a1, if_neg a2, if_neg a3]

/-- Scanning of a decimal number, with what follows. -/
theorem decimal_scan {s : List Char} {neg : Bool} {q : ℚ} (h : DecimalText s neg q) {rest : List Char} (hr : Ends rest) :
    (sign (s ++ rest)).1 = neg ∧ scanNumber (sign (s ++ rest)).2 = some (q, rest) ∧ special neg (sign (s ++ rest)).2 = none := by
  obtain ⟨sg, m, ex, n, k, e, rfl, hsg, hm, hex, rfl⟩ := h
  have e0 : sg ++ m ++ ex ++ rest = sg ++ (m ++ ex ++ rest) := by simp
  obtain ⟨c, t, hc, hd⟩ := mantissa_head hm (ex ++ rest)
  rw [← List.append_assoc] at hc
  have hs : sign (sg ++ (m ++ ex ++ rest)) = (neg, m ++ ex ++ rest) := sign_ok hsg (by
    rw [hc]
    intro c' hc'
    simp only [List.head?_cons, Option.mem_def, Option.some.injEq] at hc'
    subst hc'
    exact ⟨(digit_or_point hd).1, (digit_or_point hd).2.1⟩)
  rw [e0, hs]
  refine ⟨rfl, scanNumber_ok hm hex hr, ?_⟩
  simp only [hc]
  exact special_none hd _ _

theorem decimalText_word {s : List Char} {neg : Bool} {q : ℚ} (h : DecimalText s neg q) : IsWord s := by
  obtain ⟨sg, m, ex, n, k, e, rfl, hsg, hm, hex, rfl⟩ := h
  have hnum : ∀ {t : List Char} {n : Nat}, Numeral t n → ∀ c ∈ t, c ∉ ['#', ' ', '\t', '\n', '\x0b', '\x0c', '\r'] :=
    fun hn c hc => (digit_or_point (.inl (numeral_isDigits hn c hc))).2.2.2.2
  have hsign : ∀ {t : List Char} {neg : Bool}, SignText t neg → ∀ c ∈ t, c ∉ ['#', ' ', '\t', '\n', '\x0b', '\x0c', '\r'] := by
    intro t neg ht c hc
    rcases ht with ⟨rfl, _⟩ | ⟨rfl, _⟩ | ⟨rfl, _⟩
    · cases hc
    · rw [List.mem_singleton] at hc; subst hc; decide
    · rw [List.mem_singleton] at hc; subst hc; decide
  constructor
  · obtain ⟨c, t, hc, -⟩ := mantissa_head hm ex
    rw [List.append_assoc, hc]
    simp
  · intro c hc
    rw [List.mem_append, List.mem_append] at hc
    rcases hc with (hc | hc) | hc
    · exact hsign hsg c hc
    · rcases hm with ⟨hn, rfl⟩ | ⟨ds, fs, rfl, hn, rfl⟩
      · exact hnum hn c hc
      · rw [List.mem_append, List.mem_cons] at hc
        rcases hc with hc | rfl | hc
        · exact hnum hn c (by simp [hc])
        · decide
        · exact hnum hn c (by simp [hc])
    · rcases hex with ⟨rfl, rfl⟩ | ⟨c', sg', neg', ds, n', rfl, hc', hsg', hn, rfl⟩
      · cases hc
      · rw [List.mem_cons, List.mem_append] at hc
        rcases hc with rfl | hc | hc
        · rcases hc' with rfl | rfl <;> decide
        · exact hsign hsg' c hc
        · exact hnum hn c hc

/-! ### Printing -/

theorem withPoint_text {a b : List Char} (ha : a ≠ []) (h : ∀ c ∈ a ++ b, isDigit c = true) : MantissaText (withPoint a b) (digitsValue (a ++ b)) b.length := by
  unfold withPoint
  split
  · rename_i hb
    subst hb
    left
    rw [List.append_nil] at h ⊢
    exact ⟨numeral_of_isDigits ha h, rfl⟩
  · right
    exact ⟨a, b, rfl, numeral_of_isDigits (by simp [ha]) h, rfl⟩

theorem twoDigits_numeral (n : Nat) : Numeral (twoDigits n) n := by
  unfold twoDigits
  split
  · rename_i h
    have h2 : '0' :: decimal n = ['0'] ++ [digit n] := by
      rw [decimal, if_pos h]
      rfl
    rw [h2]
    have := Numeral.more (Numeral.one (d := 0) (by norm_num)) h
    rw [Nat.mul_zero, Nat.zero_add] at this
    exact this
  · exact decimal_numeral n

theorem general_text {lo hi : Int} {p n : Nat} {x : Int} (hhi : hi ≤ p + 1) (h1 : 10 ^ p ≤ n) (h2 : n < 10 ^ (p + 1)) :
    ∃ m ex nn k e, general lo hi n x = m ++ ex ∧ MantissaText m nn k ∧ ExponentText ex e ∧ (nn : ℚ) * 10 ^ (e - k) = n * 10 ^ (x - p) := by
  have hlen : (decimal n).length = p + 1 := decimal_length h2 (.inl h1)
  have hdig := decimal_isDigits n
  have hval : digitsValue (decimal n) = n := (numeral_digits (decimal_numeral n)).2.2
  have hten : (10 : ℚ) ≠ 0 := by norm_num
  unfold general
  generalize decimal n = ds at hlen hdig hval
  simp only
  have key : ∀ i, 0 < i → i ≤ p + 1 → ∃ nn k, MantissaText (withPoint (ds.take i) (strip (ds.drop i))) nn k ∧
      (nn : ℚ) * 10 ^ (-(k : Int)) = n * 10 ^ ((i : Int) - p - 1) := by
    intro i hi0 hip
    obtain ⟨j, hj⟩ := strip_spec (ds.drop i)
    have hsplit : ds = (ds.take i ++ strip (ds.drop i)) ++ List.replicate j '0' := by
      rw [List.append_assoc, ← hj, List.take_append_drop]
    refine ⟨_, _, withPoint_text (a := ds.take i) (b := strip (ds.drop i)) ?_ ?_, ?_⟩
    · intro h0
      have := congrArg List.length h0
      rw [List.length_take, hlen, List.length_nil] at this
      omega
    · intro c hc
      exact hdig c (by rw [hsplit]; exact List.mem_append_left _ hc)
    · have hv := hval
      rw [hsplit, digitsValue_append, digitsValue_zeros, List.length_replicate, Nat.add_zero] at hv
      have hl : (strip (ds.drop i)).length + j = p + 1 - i := by
        have := congrArg List.length hj
        rw [List.length_drop, hlen, List.length_append, List.length_replicate] at this
        omega
      rw [← hv]
      push_cast
      rw [mul_assoc]
      congr 1
      rw [← zpow_natCast, ← zpow_add₀ hten]
      congr 1
      omega
  split
  · obtain ⟨nn, k, hm, hv⟩ := key 1 (by norm_num) (by omega)
    refine ⟨_, 'e' :: (if x < 0 then '-' else '+') :: twoDigits x.natAbs, nn, k, x, rfl, hm, .inr ⟨'e', [if x < 0 then '-' else '+'], decide (x < 0),
      twoDigits x.natAbs, x.natAbs, rfl, .inl rfl, ?_, twoDigits_numeral _, ?_⟩, ?_⟩
    · by_cases hx : x < 0
      · simp [SignText, hx]
      · simp [SignText, hx]
    · by_cases hx : x < 0
      · rw [if_pos (decide_eq_true hx)]; omega
      · rw [if_neg (by simp [hx])]; omega
    · rw [sub_eq_add_neg, zpow_add₀ hten, mul_comm ((10 : ℚ) ^ x), ← mul_assoc, hv, mul_assoc, ← zpow_add₀ hten]
      congr 2
      push_cast
      ring
  · rename_i hx
    rw [not_or] at hx
    split
    · rename_i hneg
      obtain ⟨j, hj⟩ := strip_spec ds
      refine ⟨'0' :: '.' :: (List.replicate (-x - 1).toNat '0' ++ strip ds), [], digitsValue (['0'] ++ (List.replicate (-x - 1).toNat '0' ++ strip ds)),
        (List.replicate (-x - 1).toNat '0' ++ strip ds).length, 0, by simp, .inr ⟨['0'], _, rfl, numeral_of_isDigits (by simp) ?_, rfl⟩, .inl ⟨rfl, rfl⟩, ?_⟩
      · intro c hc
        rw [List.mem_append, List.mem_append] at hc
        rcases hc with hc | hc | hc
        · rw [List.mem_singleton] at hc; subst hc; decide
        · rw [List.eq_of_mem_replicate hc]; decide
        · exact hdig c (by rw [hj]; exact List.mem_append_left _ hc)
      · have hv := hval
        rw [hj, digitsValue_append, digitsValue_zeros, List.length_replicate, Nat.add_zero] at hv
        have hl : (strip ds).length + j = p + 1 := by
          have := congrArg List.length hj
          rw [hlen, List.length_append, List.length_replicate] at this
          omega
        have h0 : digitsValue ['0'] = 0 := rfl
        rw [digitsValue_append, digitsValue_append, digitsValue_zeros, h0, Nat.zero_mul, Nat.zero_mul, Nat.zero_add, Nat.zero_add, ← hv]
        push_cast
        rw [mul_assoc]
        congr 1
        rw [← zpow_natCast, ← zpow_add₀ hten]
        congr 1
        simp only [List.length_append, List.length_replicate]
        omega
    · rename_i hneg
      obtain ⟨nn, k, hm, hv⟩ := key (x.toNat + 1) (by omega) (by omega)
      refine ⟨_, [], nn, k, 0, (List.append_nil _).symm, hm, .inl ⟨rfl, rfl⟩, ?_⟩
      rw [zero_sub, hv]
      congr 2
      push_cast
      omega

theorem firstDigits_spec {p : Nat} {v : ℚ} (hv : 0 < v) : 10 ^ p ≤ (firstDigits (p + 1) v).1 ∧ (firstDigits (p + 1) v).1 < 10 ^ (p + 1) ∧
    Prints (p + 1) v ((firstDigits (p + 1) v).1 * 10 ^ ((firstDigits (p + 1) v).2 - p)) := by
  have hten : (10 : ℚ) ≠ 0 := by norm_num
  obtain ⟨x, hx⟩ : ∃ x, x = Int.log 10 v := ⟨_, rfl⟩
  have h1 : (10 : ℚ) ^ x ≤ v := by
    have := Int.zpow_log_le_self (b := 10) (by norm_num) hv
    rw [← hx] at this
    exact_mod_cast this
  have h2 : v < (10 : ℚ) ^ (x + 1) := by
    have := Int.lt_zpow_succ_log_self (b := 10) (by norm_num) v
    rw [← hx] at this
    exact_mod_cast this
  obtain ⟨y, hy⟩ : ∃ y, y = v * 10 ^ ((p : Int) - x) := ⟨_, rfl⟩
  have hpos : (0 : ℚ) < 10 ^ ((p : Int) - x) := zpow_pos (by norm_num) _
  have hy1 : (10 : ℚ) ^ p ≤ y := by
    rw [hy]
    have := mul_le_mul_of_nonneg_right h1 hpos.le
    rw [← zpow_add₀ hten] at this
    have e : x + ((p : Int) - x) = (p : Int) := by ring
    rw [e, zpow_natCast] at this
    exact this
  have hy2 : y < (10 : ℚ) ^ (p + 1) := by
    rw [hy]
    have := mul_lt_mul_of_pos_right h2 hpos
    rw [← zpow_add₀ hten] at this
    have e : x + 1 + ((p : Int) - x) = ((p + 1 : Nat) : Int) := by push_cast; ring
    rw [e, zpow_natCast] at this
    exact this
  have hn := nearest_error y
  rw [abs_le] at hn
  have hn1 : (10 : Int) ^ p ≤ nearest y := by
    have : ((10 : Int) ^ p : ℚ) - 1 < nearest y := by push_cast; linarith
    have h3 : ((10 : Int) ^ p - 1 : Int) < nearest y := by exact_mod_cast this
    omega
  have hn2 : nearest y ≤ (10 : Int) ^ (p + 1) := by
    have : (nearest y : ℚ) < (10 : Int) ^ (p + 1) + 1 := by push_cast; linarith
    have h3 : nearest y < (10 : Int) ^ (p + 1) + 1 := by exact_mod_cast this
    omega
  have hprint : Prints (p + 1) v ((nearest y).toNat * 10 ^ (x - p)) := by
    right
    have hnn : (0 : Int) ≤ nearest y := le_trans (by positivity) hn1
    have hq : ((nearest y).toNat : ℚ) = (nearest y : ℚ) := by
      have : (((nearest y).toNat : Int) : ℚ) = (nearest y : ℚ) := by rw [Int.toNat_of_nonneg hnn]
      exact_mod_cast this
    have hvy : v = y * 10 ^ (x - p) := by
      rw [hy, mul_assoc, ← zpow_add₀ hten]
      simp
    have hpos' : (0 : ℚ) < 10 ^ (x - p) := zpow_pos (by norm_num) _
    refine ⟨nearest y, x - p, by rw [hq], ?_, ?_, ?_⟩
    · rw [abs_of_pos hv, Nat.add_sub_cancel]
      conv_rhs => rw [hvy]
      exact mul_le_mul_of_nonneg_right hy1 hpos'.le
    · rw [abs_of_pos hv]
      conv_lhs => rw [hvy]
      exact mul_lt_mul_of_pos_right hy2 hpos'
    · have e : ((nearest y).toNat : ℚ) * 10 ^ (x - p) - v = ((nearest y : ℚ) - y) * 10 ^ (x - p) := by
        rw [hq]
        nth_rw 1 [hvy]
        ring
      rw [e, abs_mul, abs_of_pos hpos']
      have := mul_le_mul_of_nonneg_right (nearest_error y) hpos'.le
      linarith
  have hfd : firstDigits (p + 1) v = if (nearest y).toNat = 10 ^ (p + 1) then (10 ^ p, x + 1) else ((nearest y).toNat, x) := by
    unfold firstDigits
    simp only [← hx]
    have e : ((p + 1 : Nat) : Int) - 1 - x = (p : Int) - x := by push_cast; ring
    rw [e, ← hy, Nat.add_sub_cancel]
  have hcast : ((10 ^ p : Nat) : Int) = 10 ^ p := by push_cast; rfl
  have hcast' : ((10 ^ (p + 1) : Nat) : Int) = 10 ^ (p + 1) := by push_cast; rfl
  rw [hfd]
  split
  · rename_i heq
    refine ⟨le_rfl, Nat.pow_lt_pow_right (by norm_num) (by omega), ?_⟩
    rw [heq] at hprint
    convert hprint using 1
    push_cast
    rw [pow_succ, mul_assoc]
    congr 1
    rw [show x + 1 - (p : Int) = 1 + (x - p) by ring, zpow_add₀ hten, zpow_one]
  · rename_i hne
    refine ⟨?_, ?_, hprint⟩
    · show 10 ^ p ≤ (nearest y).toNat
      omega
    · show (nearest y).toNat < 10 ^ (p + 1)
      omega

theorem signText_spec (neg : Bool) : SignText (signText neg) neg := by
  cases neg
  · exact .inl ⟨rfl, rfl⟩
  · exact .inr (.inr ⟨rfl, rfl⟩)

/-- What is printed is a decimal number, the number itself rounded to 9 digits. -/
theorem showSingle_text (neg : Bool) (m : Nat) : ∃ d, DecimalText (showSingle (.num neg m)) neg d ∧ Prints 9 ((m : ℚ) / 2 ^ 149) d := by
  by_cases h0 : m = 0
  · subst h0
    refine ⟨0, ⟨signText neg, ['0'], [], 0, 0, 0, ?_, signText_spec neg, .inl ⟨.one (d := 0) (by norm_num), rfl⟩, .inl ⟨rfl, rfl⟩, by simp⟩, .inl ⟨by simp, rfl⟩⟩
    simp [showSingle]
  · have hv : (0 : ℚ) < (m : ℚ) / 2 ^ 149 := by
      have : (0 : ℚ) < m := by exact_mod_cast Nat.pos_of_ne_zero h0
      positivity
    obtain ⟨h1, h2, h3⟩ := firstDigits_spec (p := 8) hv
    obtain ⟨mt, ex, nn, k, e, hg, hm, hex, hval⟩ := general_text (lo := -4) (hi := 9) (x := (firstDigits 9 ((m : ℚ) / 2 ^ 149)).2) (by norm_num) h1 h2
    refine ⟨_, ⟨signText neg, mt, ex, nn, k, e, ?_, signText_spec neg, hm, hex, rfl⟩, ?_⟩
    · simp only [showSingle, if_neg h0]
      rw [show firstDigits 9 ((m : ℚ) / 2 ^ 149) = firstDigits (8 + 1) ((m : ℚ) / 2 ^ 149) from rfl] at hg ⊢
      rw [hg, List.append_assoc]
    · rw [hval]
      exact h3

/-! ### Rounding -/

theorem nearest_eq {y : ℚ} {n : Int} (h : |y - n| < 1 / 2) : nearest y = n := by
  have h1 := nearest_error y
  have h2 : |(nearest y : ℚ) - n| < 1 := by
    have e : (nearest y : ℚ) - n = ((nearest y : ℚ) - y) + (y - n) := by ring
    rw [e]
    exact (abs_add_le _ _).trans_lt (by linarith)
  have h3 : |nearest y - n| < 1 := by exact_mod_cast h2
  rw [abs_lt] at h3
  omega

theorem isMagnitude_lt {m : Nat} (hm : IsMagnitude m) : m < 2 ^ 277 := by
  obtain ⟨k, e, rfl, hk, he⟩ := hm
  calc k * 2 ^ e < 2 ^ 24 * 2 ^ e := Nat.mul_lt_mul_of_pos_right hk (by positivity)
    _ ≤ 2 ^ 24 * 2 ^ 253 := Nat.mul_le_mul_left _ (Nat.pow_le_pow_right (by norm_num) he)
    _ = 2 ^ 277 := by rw [← pow_add]

/-- A number close to a single precision number is rounded to it. -/
theorem round_near {m : Nat} (hm : IsMagnitude m) {x : ℚ} (h : |x - m| ≤ m / 2 ^ 27) : Binary32.round x = some (m : Int) := by
  have hgrid : grid x = (m : Int) := by
    by_cases h0 : m = 0
    · subst h0
      have : x = 0 := by
        simp only [Nat.cast_zero, sub_zero, zero_div] at h
        exact abs_eq_zero.1 (le_antisymm h (abs_nonneg _))
      subst this
      simp [grid, nearest]
    · have hm0 : (0 : ℚ) < m := by exact_mod_cast Nat.pos_of_ne_zero h0
      have h' := abs_le.1 h
      have hx0 : 0 < x := by
        have : (m : ℚ) / 2 ^ 27 < m := by
          rw [div_lt_iff₀ (by norm_num)]
          linarith
        linarith
      have hup : x < (2 : ℚ) ^ (ulp x + 24) := by
        have h1 := Int.lt_zpow_succ_log_self (b := 2) (by norm_num) |x|
        rw [abs_of_pos hx0] at h1
        have h2 : Int.log 2 x + 1 ≤ ((ulp x + 24 : Nat) : Int) := by
          unfold ulp
          rw [abs_of_pos hx0]
          omega
        have h3 : ((2 : ℕ) : ℚ) ^ (Int.log 2 x + 1) ≤ ((2 : ℕ) : ℚ) ^ ((ulp x + 24 : Nat) : Int) := zpow_le_zpow_right₀ (by norm_num) h2
        rw [zpow_natCast] at h3
        push_cast at h1 h3
        linarith
      have hpu : (0 : ℚ) < 2 ^ ulp x := by positivity
      have hup' : x < 2 ^ ulp x * 2 ^ 24 := by rw [← pow_add]; exact hup
      have hmle : (m : ℚ) ≤ x * (1 + 1 / 2 ^ 26) := by
        norm_num at h' ⊢
        linarith
      have hdiv : ∃ c : Nat, m = c * 2 ^ ulp x := by
        by_cases hu : ulp x = 0
        · exact ⟨m, by rw [hu]; simp⟩
        · obtain ⟨k, e, hke, hk, he⟩ := hm
          rcases Nat.lt_or_ge e (ulp x) with hlt | hge
          · exfalso
            have hlow : (2 : ℚ) ^ (ulp x + 23) ≤ x := by
              have h1 := Int.zpow_log_le_self (b := 2) (by norm_num) hx0
              have h2 : Int.log 2 x = ((ulp x + 23 : Nat) : Int) := by
                unfold ulp at hu ⊢
                rw [abs_of_pos hx0] at hu ⊢
                push_cast
                omega
              rw [h2, zpow_natCast] at h1
              exact_mod_cast h1
            have hlow' : (2 : ℚ) ^ ulp x * 2 ^ 23 ≤ x := by rw [← pow_add]; exact hlow
            have hmk : m ≤ (2 ^ 24 - 1) * 2 ^ (ulp x - 1) := by
              rw [hke]
              exact Nat.mul_le_mul (by omega) (Nat.pow_le_pow_right (by norm_num) (by omega))
            have hmk' : 2 * m ≤ (2 ^ 24 - 1) * 2 ^ ulp x := by
              have e2 : 2 ^ ulp x = 2 * 2 ^ (ulp x - 1) := by
                rw [← pow_succ']
                congr 1
                omega
              rw [e2]
              calc 2 * m ≤ 2 * ((2 ^ 24 - 1) * 2 ^ (ulp x - 1)) := Nat.mul_le_mul_left _ hmk
                _ = _ := by ring
            have hmk'' : 2 * (m : ℚ) ≤ (2 ^ 24 - 1) * 2 ^ ulp x := by
              have h5 : ((2 * m : Nat) : ℚ) ≤ (((2 ^ 24 - 1) * 2 ^ ulp x : Nat) : ℚ) := by exact_mod_cast hmk'
              push_cast at h5
              norm_num at h5 ⊢
              exact h5
            generalize (2 : ℚ) ^ ulp x = P at *
            norm_num at *
            linarith
          · refine ⟨k * 2 ^ (e - ulp x), ?_⟩
            rw [hke, mul_assoc, ← pow_add]
            congr 2
            omega
      obtain ⟨c, hc⟩ := hdiv
      unfold grid
      have hnear : nearest (x / 2 ^ ulp x) = (c : Int) := by
        apply nearest_eq
        have hmc : (m : ℚ) = c * 2 ^ ulp x := by exact_mod_cast hc
        have e : x / 2 ^ ulp x - ((c : Int) : ℚ) = (x - m) / 2 ^ ulp x := by
          rw [hmc]
          push_cast
          field_simp
        rw [e, abs_div, abs_of_pos hpu, div_lt_iff₀ hpu]
        refine h.trans_lt ?_
        generalize (2 : ℚ) ^ ulp x = P at *
        norm_num at *
        linarith
      rw [hnear, hc]
      push_cast
      rfl
  unfold Binary32.round
  rw [hgrid, if_pos]
  have := isMagnitude_lt hm
  have h2 : ((m : Nat) : Int) < ((2 ^ 277 : Nat) : Int) := by exact_mod_cast this
  rw [abs_of_nonneg (by omega)]
  push_cast at h2
  exact h2

theorem double_error {x : ℚ} (h : 1 / 2 ^ 1000 ≤ |x|) : |double x - x| ≤ |x| / 2 ^ 53 := by
  have hpos : 0 < |x| := lt_of_lt_of_le (by positivity) h
  have hlog : (-1000 : Int) ≤ Int.log 2 |x| := by
    rw [← Int.zpow_le_iff_le_log (by norm_num) hpos]
    rw [zpow_neg]
    have e : (((2 : ℕ) : ℚ) ^ (1000 : Int))⁻¹ = 1 / 2 ^ 1000 := by
      rw [one_div]
      congr 1
    rw [e]
    exact h
  have hle := Int.zpow_log_le_self (b := 2) (by norm_num) hpos
  have hmax : max (Int.log 2 |x| - 52) (-1074) = Int.log 2 |x| - 52 := by omega
  unfold double
  simp only [hmax]
  have hp : (0 : ℚ) < 2 ^ (Int.log 2 |x| - 52) := zpow_pos (by norm_num) _
  have e : (nearest (x / 2 ^ (Int.log 2 |x| - 52)) : ℚ) * 2 ^ (Int.log 2 |x| - 52) - x =
      ((nearest (x / 2 ^ (Int.log 2 |x| - 52)) : ℚ) - x / 2 ^ (Int.log 2 |x| - 52)) * 2 ^ (Int.log 2 |x| - 52) := by
    field_simp
  rw [e, abs_mul, abs_of_pos hp]
  have h1 := mul_le_mul_of_nonneg_right (nearest_error (x / 2 ^ (Int.log 2 |x| - 52))) hp.le
  refine h1.trans ?_
  have e2 : (2 : ℚ) ^ (Int.log 2 |x| - 52) = 2 ^ Int.log 2 |x| / 2 ^ 52 := by
    rw [zpow_sub₀ (by norm_num)]
    rfl
  rw [e2]
  push_cast at hle
  rw [le_div_iff₀ (by norm_num)]
  norm_num
  linarith

/-- The double precision number nearest to the printed one is rounded to the number printed, and so is the printed number itself. -/
theorem printed_round {m : Nat} (hm : IsMagnitude m) {d : ℚ} (hd0 : 0 ≤ d) (h : Prints 9 ((m : ℚ) / 2 ^ 149) d) (neg : Bool) :
    single neg d = .num neg m ∧ single neg (double d) = .num neg m := by
  have herr := prints_error h
  have hp : (0 : ℚ) < 2 ^ 149 := by positivity
  have hm0 : (0 : ℚ) ≤ m := Nat.cast_nonneg _
  have hv0 : (0 : ℚ) ≤ (m : ℚ) / 2 ^ 149 := div_nonneg hm0 hp.le
  rw [abs_of_nonneg hv0] at herr
  have key : ∀ r : ℚ, |r - (m : ℚ) / 2 ^ 149| ≤ (m : ℚ) / 2 ^ 149 / 2 ^ 27 → single neg r = .num neg m := by
    intro r hr
    have hx : |r * 2 ^ 149 - (m : ℚ)| ≤ (m : ℚ) / 2 ^ 27 := by
      have e : r * 2 ^ 149 - (m : ℚ) = (r - (m : ℚ) / 2 ^ 149) * 2 ^ 149 := by field_simp
      rw [e, abs_mul, abs_of_pos hp]
      have := mul_le_mul_of_nonneg_right hr hp.le
      refine this.trans (le_of_eq ?_)
      field_simp
    unfold single
    rw [round_near hm hx]
    simp
  refine ⟨key d ?_, key _ ?_⟩
  · refine herr.trans ?_
    generalize (m : ℚ) / 2 ^ 149 = v at *
    norm_num
    linarith
  · by_cases h0 : m = 0
    · subst h0
      have hd : d = 0 := by
        simp only [Nat.cast_zero, zero_div, sub_zero] at herr
        exact abs_eq_zero.1 (le_antisymm herr (abs_nonneg _))
      subst hd
      simp [double, nearest]
    · have hm1 : (1 : ℚ) ≤ m := by exact_mod_cast Nat.one_le_iff_ne_zero.2 h0
      have hvlow : (1 : ℚ) / 2 ^ 149 ≤ (m : ℚ) / 2 ^ 149 := div_le_div_of_nonneg_right hm1 hp.le
      have hdlow : (1 : ℚ) / 2 ^ 1000 ≤ |d| := by
        rw [abs_of_nonneg hd0]
        have h1 := (abs_le.1 herr).1
        have h2 : (1 : ℚ) / 2 ^ 1000 ≤ 1 / 2 ^ 149 / 2 := by
          rw [div_div, ← pow_succ]
          exact one_div_le_one_div_of_le (by positivity) (pow_le_pow_right₀ (by norm_num) (by norm_num))
        generalize (m : ℚ) / 2 ^ 149 = v at *
        generalize (1 : ℚ) / 2 ^ 1000 = w at *
        generalize (1 : ℚ) / 2 ^ 149 = w' at *
        norm_num at h1
        linarith
      have he := double_error hdlow
      rw [abs_of_nonneg hd0] at he
      have e : double d - (m : ℚ) / 2 ^ 149 = (double d - d) + (d - (m : ℚ) / 2 ^ 149) := by ring
      rw [e]
      refine (abs_add_le _ _).trans ?_
      have h1 := (abs_le.1 herr).2
      generalize (m : ℚ) / 2 ^ 149 = v at *
      norm_num at *
      linarith

/-! ### Rounding to the nearest number -/

theorem nearest_best (y : ℚ) (n : Int) : |(nearest y : ℚ) - y| ≤ |(n : ℚ) - y| := by
  by_cases h : n = nearest y
  · rw [h]
  · have h1 := nearest_error y
    have h2 : (1 : ℚ) ≤ |(n : ℚ) - nearest y| := by
      have : (1 : Int) ≤ |n - nearest y| := Int.one_le_abs (by omega)
      exact_mod_cast this
    have h3 : |(n : ℚ) - nearest y| ≤ |(n : ℚ) - y| + |(nearest y : ℚ) - y| := by
      have e : (n : ℚ) - nearest y = (n - y) - (nearest y - y) := by ring
      rw [e]
      exact abs_sub _ _
    linarith

theorem nearest_between {y : ℚ} {a b : Int} (h1 : (a : ℚ) ≤ y) (h2 : y ≤ b) : a ≤ nearest y ∧ nearest y ≤ b := by
  have h := abs_le.1 (nearest_error y)
  constructor
  · have : (a : ℚ) - 1 < nearest y := by linarith
    have h3 : ((a - 1 : Int) : ℚ) < nearest y := by push_cast; exact this
    have h4 : a - 1 < nearest y := by exact_mod_cast h3
    omega
  · have : (nearest y : ℚ) < b + 1 := by linarith
    have h3 : (nearest y : ℚ) < ((b + 1 : Int) : ℚ) := by push_cast; exact this
    have h4 : nearest y < b + 1 := by exact_mod_cast h3
    omega

theorem ulp_upper {x : ℚ} (hx : 0 ≤ x) : x < 2 ^ ulp x * 2 ^ 24 := by
  have h1 := Int.lt_zpow_succ_log_self (b := 2) (by norm_num) x
  have h2 : Int.log 2 x + 1 ≤ ((ulp x + 24 : Nat) : Int) := by
    unfold ulp
    rw [abs_of_nonneg hx]
    omega
  have h3 : ((2 : ℕ) : ℚ) ^ (Int.log 2 x + 1) ≤ ((2 : ℕ) : ℚ) ^ ((ulp x + 24 : Nat) : Int) := zpow_le_zpow_right₀ (by norm_num) h2
  rw [zpow_natCast] at h3
  rw [← pow_add]
  push_cast at h1 h3
  linarith

theorem ulp_lower {x : ℚ} (hx : 0 ≤ x) (hu : ulp x ≠ 0) : 2 ^ ulp x * 2 ^ 23 ≤ x := by
  have hx0 : 0 < x := by
    rcases hx.lt_or_eq with h | h
    · exact h
    · subst h
      simp [ulp] at hu
  have h1 := Int.zpow_log_le_self (b := 2) (by norm_num) hx0
  have h2 : Int.log 2 x = ((ulp x + 23 : Nat) : Int) := by
    unfold ulp at hu ⊢
    rw [abs_of_nonneg hx] at hu ⊢
    push_cast
    omega
  rw [h2, zpow_natCast] at h1
  rw [← pow_add]
  exact_mod_cast h1

theorem grid_nonneg {x : ℚ} (hx : 0 ≤ x) : 0 ≤ nearest (x / 2 ^ ulp x) ∧ nearest (x / 2 ^ ulp x) ≤ 2 ^ 24 ∧ (ulp x ≠ 0 → 2 ^ 23 ≤ nearest (x / 2 ^ ulp x)) := by
  have hp : (0 : ℚ) < 2 ^ ulp x := by positivity
  have h1 := ulp_upper hx
  obtain ⟨h2, h3⟩ := nearest_between (y := x / 2 ^ ulp x) (a := 0) (b := 2 ^ 24) (by push_cast; positivity) (by
    rw [div_le_iff₀ hp, mul_comm]
    exact_mod_cast h1.le)
  refine ⟨h2, h3, fun hu => ?_⟩
  have h4 := ulp_lower hx hu
  refine (nearest_between (a := 2 ^ 23) (b := 2 ^ 24) ?_ ?_).1
  · rw [le_div_iff₀ hp, mul_comm]
    exact_mod_cast h4
  · rw [div_le_iff₀ hp, mul_comm]
    exact_mod_cast h1.le

/-- No finite number is nearer than the rounded one. -/
theorem grid_best {x : ℚ} (hx : 0 ≤ x) {m : Nat} (hm : IsMagnitude m) : |(grid x : ℚ) - x| ≤ |(m : ℚ) - x| := by
  have hp : (0 : ℚ) < 2 ^ ulp x := by positivity
  have key : ∀ n : Int, |(grid x : ℚ) - x| ≤ |(n : ℚ) * 2 ^ ulp x - x| := by
    intro n
    unfold grid
    push_cast
    have e : ∀ k : ℚ, k * 2 ^ ulp x - x = (k - x / 2 ^ ulp x) * 2 ^ ulp x := by
      intro k
      field_simp
    rw [e, e, abs_mul, abs_mul]
    exact mul_le_mul_of_nonneg_right (nearest_best _ n) (abs_nonneg _)
  by_cases hu : ulp x = 0
  · have := key m
    rw [hu] at this
    simpa using this
  · obtain ⟨k, e, rfl, hk, he⟩ := hm
    rcases Nat.lt_or_ge e (ulp x) with hlt | hge
    · have h1 := ulp_lower hx hu
      have h2 : ((k * 2 ^ e : Nat) : ℚ) ≤ 2 ^ 23 * 2 ^ ulp x := by
        have : k * 2 ^ e ≤ 2 ^ 23 * 2 ^ ulp x := by
          calc k * 2 ^ e ≤ 2 ^ 24 * 2 ^ (ulp x - 1) := Nat.mul_le_mul hk.le (Nat.pow_le_pow_right (by norm_num) (by omega))
            _ = 2 ^ 23 * 2 ^ ulp x := by
              rw [← pow_add, ← pow_add]
              congr 1
              omega
        exact_mod_cast this
      have h3 := key (2 ^ 23)
      refine h3.trans ?_
      push_cast at h2 ⊢
      rw [abs_of_nonpos (by linarith), abs_of_nonpos (by linarith)]
      linarith
    · have := key (k * 2 ^ (e - ulp x) : Nat)
      refine this.trans (le_of_eq ?_)
      congr 2
      push_cast
      rw [mul_assoc, ← pow_add]
      congr 2
      omega

/-- What is rounded to is a finite number, or it is too large. -/
theorem grid_isMagnitude {x : ℚ} (hx : 0 ≤ x) (h : grid x < 2 ^ 277) : 0 ≤ grid x ∧ IsMagnitude (grid x).natAbs := by
  obtain ⟨h1, h2, h3⟩ := grid_nonneg hx
  have hu : ulp x ≤ 253 := by
    by_contra hc
    have h4 := h3 (by omega)
    have h5 : (2 : Int) ^ 23 * 2 ^ 254 ≤ grid x := by
      unfold grid
      exact mul_le_mul h4 (pow_le_pow_right₀ (by norm_num) (by omega)) (by positivity) h1
    rw [← pow_add] at h5
    omega
  refine ⟨by unfold grid; positivity, ?_⟩
  rcases h2.lt_or_eq with hlt | heq
  · refine ⟨(nearest (x / 2 ^ ulp x)).toNat, ulp x, ?_, by omega, hu⟩
    unfold grid
    rw [Int.natAbs_mul, Int.natAbs_pow]
    congr 1
    omega
  · refine ⟨2 ^ 23, ulp x + 1, ?_, by norm_num, ?_⟩
    · unfold grid
      rw [heq, Int.natAbs_mul, Int.natAbs_pow, Int.natAbs_pow, pow_succ (n := ulp x)]
      show 2 ^ 24 * 2 ^ ulp x = 2 ^ 23 * (2 ^ ulp x * 2)
      ring
    · by_contra hc
      have hu' : ulp x = 253 := by omega
      unfold grid at h
      rw [heq, hu', ← pow_add] at h
      omega

theorem grid_lt_iff {x : ℚ} (hx : 0 ≤ x) : grid x < 2 ^ 277 ↔ x < 2 ^ 277 - 2 ^ 252 := by
  have hp : (0 : ℚ) < 2 ^ ulp x := by positivity
  obtain ⟨h1, h2, h3⟩ := grid_nonneg hx
  have hup := ulp_upper hx
  rcases Nat.lt_trichotomy (ulp x) 253 with hlt | heq | hgt
  · have hle : (2 : Nat) ^ ulp x ≤ 2 ^ 252 := Nat.pow_le_pow_right (by norm_num) (by omega)
    constructor
    · intro _
      have hle' : (2 : ℚ) ^ ulp x ≤ 2 ^ 252 := by exact_mod_cast hle
      have e : (2 : ℚ) ^ 277 = 2 ^ 252 * 2 ^ 25 := by rw [← pow_add]
      rw [e]
      generalize (2 : ℚ) ^ ulp x = P at *
      have hpos : (0 : ℚ) < 2 ^ 252 := by positivity
      clear e hle h1 h2 h3 hlt
      generalize (2 : ℚ) ^ 252 = Q at *
      norm_num at hup ⊢
      linarith
    · intro _
      have hle' : (2 : Int) ^ ulp x ≤ 2 ^ 252 := by exact_mod_cast hle
      unfold grid
      have h4 : nearest (x / 2 ^ ulp x) * 2 ^ ulp x ≤ 2 ^ 24 * 2 ^ 252 := mul_le_mul h2 hle' (by positivity) (by positivity)
      refine h4.trans_lt ?_
      rw [← pow_add]
      exact pow_lt_pow_right₀ (by norm_num) (by norm_num)
  · have e1 : (2 : ℚ) ^ 277 - 2 ^ 252 = (2 ^ 24 - 1 / 2) * 2 ^ 253 := by
      rw [show (277 : Nat) = 24 + 253 from rfl, show (253 : Nat) = 1 + 252 from rfl, pow_add, pow_add]
      ring
    have e2 : (2 : Int) ^ 277 = 2 ^ 24 * 2 ^ 253 := by rw [← pow_add]
    have hpi : (0 : Int) < 2 ^ 253 := by positivity
    unfold grid
    rw [heq] at hp h2 ⊢
    rw [e1, e2, mul_lt_mul_iff_left₀ hpi, ← div_lt_iff₀ hp]
    generalize x / 2 ^ 253 = y at h2 ⊢
    clear hup h1 h3 e1 e2 hpi
    constructor
    · intro h
      by_contra hc
      rw [not_lt] at hc
      have hfl : (2 : Int) ^ 24 - 1 ≤ ⌊y⌋ := by
        rw [Int.le_floor]
        push_cast
        linarith
      unfold nearest at h
      simp only at h
      have hfl2 := Int.floor_le y
      by_cases hb : ⌊y⌋ = 2 ^ 24 - 1
      · rw [hb] at h
        push_cast at h
        rw [if_neg (by linarith)] at h
        split at h
        · omega
        · norm_num at h
      · split at h
        · omega
        · split at h
          · omega
          · split at h <;> omega
    · intro h
      have h4 := abs_le.1 (nearest_error y)
      have h5 : (nearest y : ℚ) < 2 ^ 24 := by linarith
      exact_mod_cast h5
  · constructor
    · intro h
      exfalso
      have h4 := h3 (by omega)
      have h5 : (2 : Int) ^ 23 * 2 ^ 254 ≤ grid x := by
        unfold grid
        exact mul_le_mul h4 (pow_le_pow_right₀ (by norm_num) (by omega)) (by positivity) h1
      rw [← pow_add] at h5
      omega
    · intro h
      exfalso
      have h4 := ulp_lower hx (by omega)
      have h5 : (2 : ℚ) ^ 254 ≤ 2 ^ ulp x := pow_le_pow_right₀ (by norm_num) (by omega)
      have e : (2 : ℚ) ^ 277 = 2 ^ 254 * 2 ^ 23 := by rw [← pow_add]
      have hpos : (0 : ℚ) < 2 ^ 252 := by positivity
      rw [e] at h
      have h6 : (2 : ℚ) ^ 254 * 2 ^ 23 ≤ 2 ^ ulp x * 2 ^ 23 := mul_le_mul_of_nonneg_right h5 (by positivity)
      linarith

/-- The conversion to single precision: the nearest finite number, or infinity from half a unit above the largest on. -/
theorem single_spec (neg : Bool) {q : ℚ} (hq : 0 ≤ q) :
    (q < 2 ^ 128 - 2 ^ 103 → ∃ m, single neg q = .num neg m ∧ IsMagnitude m ∧ ∀ m', IsMagnitude m' → |(m : ℚ) / 2 ^ 149 - q| ≤ |(m' : ℚ) / 2 ^ 149 - q|) ∧
    (2 ^ 128 - 2 ^ 103 ≤ q → single neg q = .inf neg) := by
  have hp : (0 : ℚ) < 2 ^ 149 := by positivity
  have hx : 0 ≤ q * 2 ^ 149 := by positivity
  have e : (2 : ℚ) ^ 277 - 2 ^ 252 = (2 ^ 128 - 2 ^ 103) * 2 ^ 149 := by rw [sub_mul, ← pow_add, ← pow_add]
  have hiff : grid (q * 2 ^ 149) < 2 ^ 277 ↔ q < 2 ^ 128 - 2 ^ 103 := by
    rw [grid_lt_iff hx, e, mul_lt_mul_iff_left₀ hp]
  have hg0 : 0 ≤ grid (q * 2 ^ 149) := by
    have := (grid_nonneg hx).1
    unfold grid
    positivity
  constructor
  · intro h
    have hlt := hiff.2 h
    obtain ⟨h1, h2⟩ := grid_isMagnitude hx hlt
    refine ⟨_, ?_, h2, ?_⟩
    · unfold single Binary32.round
      rw [if_pos (by rw [abs_of_nonneg h1]; exact hlt)]
    · intro m' hm'
      have h3 := grid_best hx hm'
      have hc : (((grid (q * 2 ^ 149)).natAbs : Nat) : ℚ) = (grid (q * 2 ^ 149) : ℚ) := by
        rw [← Int.cast_natCast, Int.natAbs_of_nonneg h1]
      rw [hc]
      have e2 : ∀ k : ℚ, k / 2 ^ 149 - q = (k - q * 2 ^ 149) / 2 ^ 149 := by
        intro k
        field_simp
      rw [e2, e2, abs_div, abs_div]
      exact div_le_div_of_nonneg_right h3 (abs_nonneg _)
  · intro h
    unfold single Binary32.round
    rw [if_neg]
    rw [abs_of_nonneg hg0]
    intro hc
    have := hiff.1 hc
    linarith

/-- The rounding to double precision gives the nearest double precision number. -/
theorem double_spec {x : ℚ} (hx : 0 ≤ x) (hb : x < 2 ^ 1000) : ReadsDouble x (double x) := by
  rcases hx.lt_or_eq with hx0 | hx0
  swap
  · have h0 : double x = 0 := by
      rw [← hx0]
      simp [double, nearest]
    rw [h0, ← hx0]
    exact ⟨⟨0, 0, by norm_num, by norm_num, by norm_num, by norm_num⟩, fun y _ => by simp⟩
  obtain ⟨e, he⟩ : ∃ e, e = max (Int.log 2 |x| - 52) (-1074) := ⟨_, rfl⟩
  have hdef : double x = nearest (x / 2 ^ e) * 2 ^ e := by
    unfold double
    simp only [← he]
  have htwo : (2 : ℚ) ≠ 0 := by norm_num
  have hp : (0 : ℚ) < 2 ^ e := zpow_pos (by norm_num) _
  rw [abs_of_nonneg hx] at he
  have hup : x < 2 ^ 53 * 2 ^ e := by
    have h1 := Int.lt_zpow_succ_log_self (b := 2) (by norm_num) x
    have h2 : ((2 : ℕ) : ℚ) ^ (Int.log 2 x + 1) ≤ ((2 : ℕ) : ℚ) ^ (53 + e) := zpow_le_zpow_right₀ (by norm_num) (by omega)
    push_cast at h1 h2
    rw [zpow_add₀ htwo (53 : Int)] at h2
    have e3 : (2 : ℚ) ^ (53 : Int) = 2 ^ 53 := by norm_cast
    rw [e3] at h2
    linarith
  have hlow : -1074 < e → 2 ^ 52 * 2 ^ e ≤ x := by
    intro h
    have h1 := Int.zpow_log_le_self (b := 2) (by norm_num) hx0
    have h2 : Int.log 2 x = 52 + e := by omega
    rw [h2] at h1
    push_cast at h1
    rw [zpow_add₀ htwo] at h1
    have e3 : (2 : ℚ) ^ (52 : Int) = 2 ^ 52 := by norm_cast
    rw [e3] at h1
    exact h1
  have hlog : e < 948 := by
    have : Int.log 2 x < 1000 := by
      rw [← Int.lt_zpow_iff_log_lt (by norm_num) hx0]
      have e3 : ((2 : ℕ) : ℚ) ^ (1000 : Int) = 2 ^ 1000 := by
        rw [show (1000 : Int) = ((1000 : Nat) : Int) from rfl, zpow_natCast]
        push_cast
        rfl
      rw [e3]
      exact hb
    omega
  obtain ⟨h1, h2⟩ := nearest_between (y := x / 2 ^ e) (a := 0) (b := 2 ^ 53) (by push_cast; positivity) (by
    rw [div_le_iff₀ hp]
    exact_mod_cast hup.le)
  rw [hdef]
  constructor
  · rcases h2.lt_or_eq with hlt | heq
    · exact ⟨_, e, by rw [abs_of_nonneg h1]; exact hlt, by omega, by omega, rfl⟩
    · refine ⟨2 ^ 52, e + 1, by norm_num, by omega, by omega, ?_⟩
      rw [heq, zpow_add_one₀ htwo]
      push_cast
      ring
  · have key : ∀ n : Int, |(nearest (x / 2 ^ e) : ℚ) * 2 ^ e - x| ≤ |(n : ℚ) * 2 ^ e - x| := by
      intro n
      have e1 : ∀ k : ℚ, k * 2 ^ e - x = (k - x / 2 ^ e) * 2 ^ e := by
        intro k
        field_simp
      rw [e1, e1, abs_mul, abs_mul]
      exact mul_le_mul_of_nonneg_right (nearest_best _ n) (abs_nonneg _)
    rintro y ⟨m, e', hm, he1, he2, rfl⟩
    rcases lt_or_ge e' e with hlt | hge
    · have h3 := hlow (by omega)
      have h4 : (m : ℚ) * 2 ^ e' ≤ 2 ^ 52 * 2 ^ e := by
        have hm' : (m : ℚ) ≤ 2 ^ 53 := by
          have : m ≤ 2 ^ 53 := (le_abs_self m).trans hm.le
          exact_mod_cast this
        calc (m : ℚ) * 2 ^ e' ≤ 2 ^ 53 * 2 ^ e' := mul_le_mul_of_nonneg_right hm' (zpow_pos (by norm_num) _).le
          _ ≤ 2 ^ 53 * 2 ^ (e - 1) := mul_le_mul_of_nonneg_left (zpow_le_zpow_right₀ (by norm_num) (by omega)) (by positivity)
          _ = 2 ^ 52 * 2 ^ e := by
            rw [zpow_sub_one₀ htwo]
            ring
      have h5 := key (2 ^ 52)
      refine h5.trans ?_
      push_cast
      rw [abs_of_nonpos (by linarith), abs_of_nonpos (by linarith)]
      linarith
    · have := key (m * 2 ^ (e' - e).toNat)
      refine this.trans (le_of_eq ?_)
      congr 2
      push_cast
      rw [mul_assoc, ← zpow_natCast, ← zpow_add₀ htwo]
      congr 2
      omega

theorem double_nonneg {x : ℚ} (hx : 0 ≤ x) : 0 ≤ double x := by
  unfold double
  simp only
  have hp : (0 : ℚ) < 2 ^ (max (Int.log 2 |x| - 52) (-1074)) := zpow_pos (by norm_num) _
  generalize (2 : ℚ) ^ (max (Int.log 2 |x| - 52) (-1074)) = P at *
  have h := abs_le.1 (nearest_error (x / P))
  have h0 : 0 ≤ x / P := by positivity
  have h1 : (-1 : ℚ) < nearest (x / P) := by linarith
  have h2 : -1 < nearest (x / P) := by exact_mod_cast h1
  have h3 : (0 : ℚ) ≤ nearest (x / P) := by exact_mod_cast (by omega : 0 ≤ nearest (x / P))
  positivity

theorem double_large {x : ℚ} (h : 2 ^ 1000 ≤ x) : 2 ^ 128 ≤ double x := by
  have hpos : (0 : ℚ) < x := lt_of_lt_of_le (by positivity) h
  have h1 : (1 : ℚ) / 2 ^ 1000 ≤ |x| := by
    rw [abs_of_pos hpos]
    have h2 : (1 : ℚ) ≤ 2 ^ 1000 := one_le_pow₀ (by norm_num)
    have h3 : (1 : ℚ) / 2 ^ 1000 ≤ 1 := by
      rw [div_le_one (by positivity)]
      exact h2
    exact h3.trans (h2.trans h)
  have h2 := (abs_le.1 (double_error h1)).1
  rw [abs_of_pos hpos] at h2
  have h3 : (2 : ℚ) ^ 129 ≤ 2 ^ 1000 := pow_le_pow_right₀ (by norm_num) (by norm_num)
  rw [show (129 : Nat) = 128 + 1 from rfl, pow_succ] at h3
  generalize (2 : ℚ) ^ 1000 = B at *
  generalize (2 : ℚ) ^ 128 = C at *
  norm_num at h2
  linarith

theorem decimalText_nonneg {s : List Char} {neg : Bool} {q : ℚ} (h : DecimalText s neg q) : 0 ≤ q := by
  obtain ⟨sg, m, ex, n, k, e, rfl, hsg, hm, hex, rfl⟩ := h
  exact mul_nonneg (Nat.cast_nonneg _) (zpow_nonneg (by norm_num) _)

theorem ends_of_space {rest : List Char} (h : ∀ c ∈ rest.head?, c ∈ [' ', '\t', '\n', '\x0b', '\x0c', '\r']) : Ends rest := by
  intro c hc
  exact (by decide : ∀ c ∈ [' ', '\t', '\n', '\x0b', '\x0c', '\r'], isDigit c = false ∧ c ≠ '.' ∧ c ≠ 'e' ∧ c ≠ 'E') c (h c hc)

theorem readLabel_decimal {s : List Char} {neg : Bool} {q : ℚ} (h : DecimalText s neg q) {rest : List Char} (hr : Ends rest) :
    (∀ m, single neg q = .num neg m → readLabel (s ++ rest) = some (.num neg m, rest)) ∧ (single neg q = .inf neg → readLabel (s ++ rest) = none) := by
  obtain ⟨h1, h2, -⟩ := decimal_scan h hr
  constructor
  · intro m hm
    simp only [readLabel, h2, h1, hm]
  · intro hm
    simp only [readLabel, h2, h1, hm]

theorem readValue_decimal {s : List Char} {neg : Bool} {q : ℚ} (h : DecimalText s neg q) : readValue s = some (single neg (double q)) := by
  obtain ⟨h1, h2, h3⟩ := decimal_scan (rest := []) h (by intro c hc; cases hc)
  rw [List.append_nil] at h1 h2 h3
  unfold readValue scanDouble
  rw [h1, h3, h2]
  rfl

/-- A line feed behind a label is left in the text. -/
theorem takeWhile_newline (s : List Char) : (s ++ ['\n']).takeWhile isDigit = s.takeWhile isDigit ∧ (s ++ ['\n']).dropWhile isDigit = s.dropWhile isDigit ++ ['\n'] := by
  have hn : isDigit '\n' = false := by decide
  induction s with
  | nil => simp [hn]
  | cons c s ih =>
    by_cases hc : isDigit c = true
    · simp [List.takeWhile, List.dropWhile, hc, ih]
    · simp [List.takeWhile, List.dropWhile, hc]

theorem sign_newline (s : List Char) : sign (s ++ ['\n']) = ((sign s).1, (sign s).2 ++ ['\n']) := by
  cases s with
  | nil => rfl
  | cons c s =>
    by_cases h1 : c = '-'
    · subst h1; rfl
    · by_cases h2 : c = '+'
      · subst h2; rfl
      · unfold sign
        simp [h1, h2]

theorem fraction_newline (s : List Char) : fraction (s ++ ['\n']) = ((fraction s).1, (fraction s).2 ++ ['\n']) := by
  cases s with
  | nil => rfl
  | cons c s =>
    by_cases h1 : c = '.'
    · subst h1
      obtain ⟨h2, h3⟩ := takeWhile_newline s
      simp [fraction, h2, h3]
    · unfold fraction
      simp [h1]

theorem exponent_newline (s : List Char) : exponent (s ++ ['\n']) = (exponent s).map (fun p => (p.1, p.2 ++ ['\n'])) := by
  cases s with
  | nil => rfl
  | cons c s =>
    simp only [exponent, List.cons_append]
    split
    · rw [sign_newline]
      unfold exponentDigits
      obtain ⟨h2, h3⟩ := takeWhile_newline (sign s).2
      simp only [h2, h3]
      split <;> rfl
    · rfl

theorem scanNumber_newline (s : List Char) : scanNumber (s ++ ['\n']) = (scanNumber s).map (fun p => (p.1, p.2 ++ ['\n'])) := by
  obtain ⟨h2, h3⟩ := takeWhile_newline s
  unfold scanNumber
  simp only [h2, h3, fraction_newline, exponent_newline]
  split
  · rfl
  · rw [Option.map_map, Option.map_map]
    rfl

end Verif.Decimal
