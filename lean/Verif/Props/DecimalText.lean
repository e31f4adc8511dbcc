/-
C92: the text of single precision numbers in data files.
-/
import Verif.Lemmas.DecimalText
import Verif.Props.Svmlight

namespace Verif.Props
open Spec Svm Decimal

/-- C92, labels: a decimal number is read as the nearest finite number, and the reading stops behind it. From half a unit above the largest number on
it is refused. -/
theorem C92_label {s : List Char} {neg : Bool} {q : ℚ} (h : DecimalText s neg q) {rest : List Char}
    (hr : ∀ c ∈ rest.head?, c ∈ [' ', '\t', '\n', '\x0b', '\x0c', '\r']) :
    (q < 2 ^ 128 - 2 ^ 103 → ∃ m, readLabel (s ++ rest) = some (.num neg m, rest) ∧ IsMagnitude m ∧
      ∀ m', IsMagnitude m' → |(m : ℚ) / 2 ^ 149 - q| ≤ |(m' : ℚ) / 2 ^ 149 - q|) ∧
    (2 ^ 128 - 2 ^ 103 ≤ q → readLabel (s ++ rest) = none) := by
  obtain ⟨h1, h2⟩ := readLabel_decimal h (ends_of_space hr)
  obtain ⟨h3, h4⟩ := single_spec neg (decimalText_nonneg h)
  refine ⟨fun hq => ?_, fun hq => h2 (h4 hq)⟩
  obtain ⟨m, h5, h6, h7⟩ := h3 hq
  exact ⟨m, h1 m h5, h6, h7⟩

/-- C92, features: a decimal number is read as the single precision number nearest to the double precision number nearest to it, or as an infinity. -/
theorem C92_value {s : List Char} {neg : Bool} {q : ℚ} (h : DecimalText s neg q) :
    (q < 2 ^ 1000 → ∃ r, ReadsDouble q r ∧
      (r < 2 ^ 128 - 2 ^ 103 → ∃ m, readValue s = some (.num neg m) ∧ IsMagnitude m ∧
        ∀ m', IsMagnitude m' → |(m : ℚ) / 2 ^ 149 - r| ≤ |(m' : ℚ) / 2 ^ 149 - r|) ∧
      (2 ^ 128 - 2 ^ 103 ≤ r → readValue s = some (.inf neg))) ∧
    (2 ^ 1000 ≤ q → readValue s = some (.inf neg)) := by
  have hq := decimalText_nonneg h
  have h1 := readValue_decimal h
  obtain ⟨h3, h4⟩ := single_spec neg (double_nonneg hq)
  refine ⟨fun hb => ⟨double q, double_spec hq hb, fun hr => ?_, fun hr => by rw [h1, h4 hr]⟩, fun hb => ?_⟩
  · obtain ⟨m, h5, h6, h7⟩ := h3 hr
    exact ⟨m, by rw [h1, h5], h6, h7⟩
  · rw [h1, h4]
    have h5 := double_large hb
    have h6 : (0 : ℚ) < 2 ^ 103 := by positivity
    linarith

/-- `-0.1E+1` is a decimal number. -/
example : DecimalText "-0.1E+1".toList true 1 := by
  refine ⟨['-'], ['0', '.', '1'], ['E', '+', '1'], 1, 1, 1, rfl, .inr (.inr ⟨rfl, rfl⟩), .inr ⟨['0'], ['1'], rfl, ?_, rfl⟩,
    .inr ⟨'E', ['+'], false, ['1'], 1, rfl, .inr rfl, .inr (.inl ⟨rfl, rfl⟩), .one (d := 1) (by norm_num), rfl⟩, by norm_num⟩
  exact .more (.one (d := 0) (by norm_num)) (d := 1) (by norm_num)

example : readLabel "-0.1E+1 qid:3".toList = some (.num true (2 ^ 149), " qid:3".toList) ∧ readValue "0.1".toList = some (.num false (13421773 * 2 ^ 122)) ∧
    readLabel "3.4028236e38".toList = none ∧ readValue "-3.4028236e38".toList = some (.inf true) := by decide +kernel

/-- C92: every finite number, printed with 9 digits, is read back as the same number, sign of zero included, as a label and as a feature. -/
theorem C92_text (neg : Bool) {m : Nat} (hm : IsMagnitude m) :
    LabelText singleScan (showSingle (.num neg m)) (.num neg m) ∧ ValueText singleScan (showSingle (.num neg m)) (.num neg m) := by
  obtain ⟨d, h1, h2⟩ := showSingle_text neg m
  obtain ⟨h3, h4⟩ := printed_round hm (decimalText_nonneg h1) h2 neg
  have hw := decimalText_word h1
  refine ⟨⟨hw, fun rest hr => ?_⟩, hw, ?_⟩
  · exact (readLabel_decimal h1 (ends_of_space hr)).1 m h3
  · show readValue _ = _
    rw [readValue_decimal h1, h4]

/-- The smallest and the largest positive number, 0.1, 2^30 and -0. -/
example : IsMagnitude 1 ∧ IsMagnitude maxFinite ∧ showSingle (.num false 1) = "1.40129846e-45".toList ∧
    showSingle (.num false maxFinite) = "3.40282347e+38".toList ∧ showSingle (.num false (13421773 * 2 ^ 122)) = "0.100000001".toList ∧
    showSingle (.num true (2 ^ 179)) = "-1.07374182e+09".toList ∧ showSingle (.num true 0) = "-0".toList :=
  ⟨⟨1, 0, rfl, by norm_num, by norm_num⟩, ⟨2 ^ 24 - 1, 253, rfl, by norm_num, by norm_num⟩, by decide +kernel, by decide +kernel, by decide +kernel,
    by decide +kernel, by decide +kernel⟩

/-- The numbers that can be written and read as features: finite numbers, NaN and negative infinity. -/
def IsFeature : Single → Prop
  | .num _ m => IsMagnitude m
  | .inf neg => neg = true
  | .nan _ => True

/-- Finite numbers. -/
def IsFinite : Single → Prop
  | .num _ m => IsMagnitude m
  | _ => False

theorem feature_text {x : Single} (h : IsFeature x) : ValueText singleScan (showSingle x) x ∧ singleScan.fixInf x = x := by
  cases x with
  | num neg m => exact ⟨(C92_text neg h).2, rfl⟩
  | inf neg =>
    have : neg = true := h
    subst this
    exact ⟨⟨by decide +kernel, by decide +kernel⟩, rfl⟩
  | nan neg => cases neg <;> exact ⟨⟨by decide +kernel, by decide +kernel⟩, rfl⟩

/-- C92, proved part: a dataset with at least two rows that is written to a file and read from it is the same, bit by bit, if the labels are finite and
no feature is positive infinity. Missing: labels that are NaN or infinite, see `C92_violated_label`, and features that are positive infinity, see
`C92_violated_inf`; matrices with one row, see `C11_violated`. -/
theorem C92_roundtrip_partial {n : Nat} {X : List (List Single)} {y : List Single} {ids : List Int}
    {d : Dataset (List Single) Single} (hd : mkDataset X n y ids = .ok d) (hX : ∀ row ∈ X, row.length = n) (hn : n < 2 ^ 31) (hy : y.length = X.length)
    (h2 : 2 ≤ X.length) (hlab : ∀ l ∈ y, IsFinite l) (hval : ∀ row ∈ X, ∀ x ∈ row, IsFeature x) (h32 : ∀ q ∈ ids, IsInt32 q) :
    ∃ file, dumpDataset showSingle d = .ok file ∧ loadDataset singleScan file = .ok d := by
  refine C11_dataset_partial singleScan showSingle hd hX hn hy h2 (fun l hl => ?_) (fun row hr x hx => feature_text (hval row hr x hx)) h32
  have := hlab l hl
  cases l with
  | num neg m => exact (C92_text neg this).1
  | inf neg => exact this.elim
  | nan neg => exact this.elim

/-- The same for the matrix, the labels and the query ids, with features counted from 0 or 1. -/
theorem C92_arrays_partial (zeroBased : Bool) {n : Nat} {X : List (List Single)} {y : List Single} {qids : List Int}
    (hX : ∀ row ∈ X, row.length = n) (hn : n < 2 ^ 31) (hy : y.length = X.length) (hq : qids.length = X.length)
    (h2 : 2 ≤ X.length) (hlab : ∀ l ∈ y, IsFinite l) (hval : ∀ row ∈ X, ∀ x ∈ row, IsFeature x) (h32 : ∀ q ∈ qids, IsInt32 q) :
    ∃ file, dumpFile showSingle X y qids zeroBased = .ok file ∧ loadFile singleScan file = .ok (X, n, y, qids) := by
  refine C11_roundtrip_partial singleScan showSingle zeroBased hX hn hy hq h2 (fun l hl => ?_) (fun row hr x hx => feature_text (hval row hr x hx)) h32
  have := hlab l hl
  cases l with
  | num neg m => exact (C92_text neg this).1
  | inf neg => exact this.elim
  | nan neg => exact this.elim

example : dumpFile showSingle [[.num false (13421773 * 2 ^ 122), .nan false], [.num true 0, .inf true]] [.num false 0, .num false (2 ^ 150)] [7, 8] false =
    .ok "0 qid:7 1:0.100000001 2:nan \n2 qid:8 1:-0 2:-inf \n".toList := by decide +kernel

/-- C92: for single precision numbers a comment behind a row changes nothing (compare `C10_trailing_comment`). -/
theorem C92_comment {l : List Char} (hne : l ≠ []) (hl : '#' ∉ l) (c : List Char) (s : State Single) :
    parseLine singleScan s (l ++ '#' :: (c ++ ['\n'])) = parseLine singleScan s (l ++ ['\n']) := by
  refine C10_trailing_comment singleScan (fun s => ?_) hne hl c s
  show readLabel _ = (readLabel s).map _
  unfold readLabel
  rw [sign_newline]
  simp only [scanNumber_newline]
  cases scanNumber (sign s).2 with
  | none => rfl
  | some p =>
    simp only [Option.map_some]
    cases single (sign s).1 p.1 <;> rfl

/-- C92 is violated: a feature that is positive infinity is read back as the largest finite number, while negative infinity stays. -/
theorem C92_violated_inf :
    dumpFile showSingle [[.inf false, .inf true], [.num false 0, .num false 0]] [.num false 0, .num false 0] [1, 1] false =
      .ok "0 qid:1 1:inf 2:-inf \n0 qid:1 1:0 2:0 \n".toList ∧
    loadFile singleScan "0 qid:1 1:inf 2:-inf \n0 qid:1 1:0 2:0 \n".toList =
      .ok ([[.num false ((2 ^ 24 - 1) * 2 ^ 253), .inf true], [.num false 0, .num false 0]], 2, [.num false 0, .num false 0], [1, 1]) := by
  decide +kernel

/-- C92 is violated: a dataset with a label that is NaN or infinite is written to a file that cannot be read. -/
theorem C92_violated_label :
    (dumpFile showSingle [[.num false 0], [.num false 0]] [.nan false, .num false 0] [1, 1] false = .ok "nan qid:1 1:0 \n0 qid:1 1:0 \n".toList ∧
      loadFile singleScan "nan qid:1 1:0 \n0 qid:1 1:0 \n".toList = .error .runtimeError) ∧
    (dumpFile showSingle [[.num false 0], [.num false 0]] [.inf true, .num false 0] [1, 1] false = .ok "-inf qid:1 1:0 \n0 qid:1 1:0 \n".toList ∧
      loadFile singleScan "-inf qid:1 1:0 \n0 qid:1 1:0 \n".toList = .error .runtimeError) :=
  ⟨⟨by decide +kernel, by decide +kernel⟩, by decide +kernel, by decide +kernel⟩

/-- C92 is violated: features are rounded twice. The same text is read as 1 + 2^-23 in the place of a label, which is the nearest number, and as 1 in the
place of a feature. -/
theorem C92_violated_double :
    readLabel "1.0000000596046447754".toList = some (.num false (2 ^ 149 + 2 ^ 126), []) ∧
    readValue "1.0000000596046447754".toList = some (.num false (2 ^ 149)) ∧
    |((2 ^ 149 + 2 ^ 126 : Nat) : ℚ) / 2 ^ 149 - 10000000596046447754 / 10 ^ 19| < |((2 ^ 149 : Nat) : ℚ) / 2 ^ 149 - 10000000596046447754 / 10 ^ 19| := by
  refine ⟨by decide +kernel, by decide +kernel, by norm_num [abs_lt, abs_of_pos, abs_of_neg]⟩

end Verif.Props
