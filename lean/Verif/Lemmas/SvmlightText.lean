/-
Lemmas for reading SVMlight files: the text.
-/
import Verif.Lemmas.Svmlight
import Verif.Spec.Dataset
import Mathlib.Tactic.IntervalCases

namespace Verif
namespace Svm
open Spec
variable {F : Type}

/-! ### Lines and words -/

theorem linesFrom_noNewline {l : List Char} (h : '\n' ∉ l) (cur rest : List Char) : linesFrom cur (l ++ rest) = linesFrom (cur ++ l) rest := by
  induction l generalizing cur with
  | nil => simp
  | cons c l ih =>
    rw [List.cons_append, linesFrom, if_neg (by rintro rfl; exact h (by simp)), ih (fun hm => h (by simp [hm]))]
    simp

theorem linesFrom_ok {ls : List (List Char)} {file : List Char} (h : IsLines ls file) : linesFrom [] file = ls := by
  induction h with
  | nil => rfl
  | @last l hne h =>
    have := linesFrom_noNewline h [] []
    rw [List.append_nil] at this
    rw [this, List.nil_append, linesFrom, if_neg hne]
  | @cons l file ls hl _ ih =>
    rw [linesFrom_noNewline hl, List.nil_append, linesFrom, if_pos rfl, ih]

theorem isSpace_iff {c : Char} : isSpace c = true ↔ c ∈ [' ', '\t', '\n', '\x0b', '\x0c', '\r'] := by
  unfold isSpace
  rw [decide_eq_true_iff]

theorem wordsFrom_space {sp : List Char} (h : AllSpace sp) (s : List Char) : wordsFrom [] (sp ++ s) = wordsFrom [] s := by
  induction sp with
  | nil => rfl
  | cons c sp ih =>
    rw [List.cons_append, wordsFrom, if_pos (isSpace_iff.2 (h c (by simp))), if_pos rfl, ih (fun x hx => h x (by simp [hx]))]

theorem wordsFrom_flush {cur sp : List Char} (hcur : cur ≠ []) (h : AllSpace sp) (s : List Char) (hsp : sp ≠ [] ∨ s = []) :
    wordsFrom cur (sp ++ s) = cur :: wordsFrom [] s := by
  cases sp with
  | nil =>
    rcases hsp with hsp | rfl
    · exact absurd rfl hsp
    · simp [wordsFrom, hcur]
  | cons c sp =>
    rw [List.cons_append, wordsFrom, if_pos (isSpace_iff.2 (h c (by simp))), if_neg hcur, wordsFrom_space (fun x hx => h x (by simp [hx]))]

theorem wordsFrom_nonspace {w : List Char} (h : ∀ c ∈ w, c ∉ [' ', '\t', '\n', '\x0b', '\x0c', '\r']) (cur s : List Char) :
    wordsFrom cur (w ++ s) = wordsFrom (cur ++ w) s := by
  induction w generalizing cur with
  | nil => simp
  | cons c w ih =>
    rw [List.cons_append, wordsFrom, if_neg (by rw [isSpace_iff]; exact h c (by simp)), ih (fun x hx => h x (by simp [hx]))]
    simp

theorem Spaced.shape {ws : List (List Char)} {s : List Char} (h : Spaced ws s) :
    (s = [] ∧ ws = []) ∨ ∃ sp t, s = sp ++ t ∧ AllSpace sp ∧ sp ≠ [] ∧ ∀ cur, cur ≠ [] → wordsFrom cur s = cur :: words s := by
  cases h with
  | nil hs =>
    by_cases hne : s = []
    · exact .inl ⟨hne, rfl⟩
    · refine .inr ⟨s, [], by simp, hs, hne, fun cur hcur => ?_⟩
      have h1 := wordsFrom_flush hcur hs [] (.inr rfl)
      have h2 := wordsFrom_space hs []
      rw [List.append_nil] at h1 h2
      rw [h1]; unfold words; rw [h2]
  | @cons sp w s ws hsp hne hw h =>
    refine .inr ⟨sp, w ++ s, by simp, hsp, hne, fun cur hcur => ?_⟩
    rw [List.append_assoc, wordsFrom_flush hcur hsp _ (.inl hne)]
    unfold words
    rw [wordsFrom_space hsp]

theorem words_spaced {ws : List (List Char)} {s : List Char} (h : Spaced ws s) : words s = ws := by
  induction h with
  | nil hs =>
    have h2 := wordsFrom_space hs []
    rw [List.append_nil] at h2
    unfold words; rw [h2]; rfl
  | @cons sp w s ws hsp hne hw h ih =>
    have hw' : ∀ c ∈ w, c ∉ [' ', '\t', '\n', '\x0b', '\x0c', '\r'] := fun c hc hm => hw.2 c hc (List.mem_cons_of_mem _ hm)
    have e : words (sp ++ w ++ s) = wordsFrom w s := by
      unfold words
      rw [List.append_assoc, wordsFrom_space hsp, wordsFrom_nonspace hw', List.nil_append]
    rw [e]
    rcases Spaced.shape h with ⟨rfl, rfl⟩ | ⟨_, _, _, _, _, hfl⟩
    · simp [wordsFrom, hw.1]
    · rw [hfl w hw.1, ih]

theorem Spaced.head {ws : List (List Char)} {s : List Char} (h : Spaced ws s) :
    ∀ c ∈ s.head?, c ∈ [' ', '\t', '\n', '\x0b', '\x0c', '\r'] := by
  rcases Spaced.shape h with ⟨rfl, rfl⟩ | ⟨sp, t, rfl, hsp, hne, _⟩
  · simp
  · obtain ⟨x, sp', rfl⟩ := List.exists_cons_of_ne_nil hne
    intro c hc
    simp only [List.cons_append, List.head?_cons, Option.mem_def, Option.some.injEq] at hc
    subst hc
    exact hsp _ (by simp)

theorem Spaced.noHash {ws : List (List Char)} {s : List Char} (h : Spaced ws s) : '#' ∉ s := by
  have hs : ∀ {sp : List Char}, AllSpace sp → '#' ∉ sp := fun hsp hm => absurd (hsp _ hm) (by decide)
  induction h with
  | nil h => exact hs h
  | cons hsp _ hw _ ih =>
    simp only [List.mem_append, not_or]
    exact ⟨⟨hs hsp, fun hm => hw.2 _ hm (by simp)⟩, ih⟩

/-! ### Numbers -/

theorem digit_isDigit {d : Nat} (h : d < 10) : isDigit (digit d) = true ∧ (digit d).toNat - 48 = d ∧ isSpace (digit d) = false ∧
    digit d ≠ '#' ∧ digit d ≠ ':' ∧ digit d ≠ 'q' ∧ digit d ≠ '-' ∧ digit d ≠ '+' := by
  interval_cases d <;> decide

theorem numeral_digits {s : List Char} {n : Nat} (h : Numeral s n) : s ≠ [] ∧ (∀ c ∈ s, ∃ d < 10, c = digit d) ∧ digitsValue s = n := by
  induction h with
  | @one d hd =>
    refine ⟨by simp, by simpa using ⟨d, hd, rfl⟩, ?_⟩
    simp [digitsValue, (digit_isDigit hd).2.1]
  | @more s n d h hd ih =>
    refine ⟨by simp, ?_, ?_⟩
    · intro c hc
      rcases List.mem_append.1 hc with hc | hc
      · exact ih.2.1 c hc
      · exact ⟨d, hd, by simpa using hc⟩
    · have : digitsValue (s ++ [digit d]) = 10 * digitsValue s + ((digit d).toNat - 48) := by
        simp [digitsValue]
      rw [this, ih.2.2, (digit_isDigit hd).2.1]

theorem decimal_numeral (n : Nat) : Numeral (decimal n) n := by
  induction n using Nat.strong_induction_on with
  | _ n ih =>
    rw [decimal]
    split
    · rename_i h; exact .one h
    · rename_i h
      have h1 := Numeral.more (ih (n / 10) (by omega)) (Nat.mod_lt n (by omega : 10 > 0))
      rwa [Nat.div_add_mod] at h1

theorem takeWhile_append_stop {α : Type} {p : α → Bool} {a : List α} (ha : ∀ x ∈ a, p x = true) {b : List α}
    (hb : ∀ x ∈ b.head?, p x = false) : (a ++ b).takeWhile p = a ∧ (a ++ b).dropWhile p = b := by
  induction a with
  | nil =>
    cases b with
    | nil => exact ⟨rfl, rfl⟩
    | cons x b =>
      have := hb x (by simp)
      simp [List.takeWhile, List.dropWhile, this]
  | cons x a ih =>
    have hx := ha x (by simp)
    obtain ⟨h1, h2⟩ := ih (fun y hy => ha y (by simp [hy]))
    simp [List.takeWhile, List.dropWhile, hx, h1, h2]

theorem castInt32_of_range {q : Int} (h : IsInt32 q) : Dataset.castInt32 q = q := by
  unfold Dataset.castInt32
  unfold IsInt32 at h
  rw [Int.bmod_def]
  split <;> omega

theorem scanDigits_numeral {s : List Char} {n : Nat} (h : Numeral s n) (neg : Bool) {rest : List Char}
    (hrest : ∀ c ∈ rest.head?, isDigit c = false) :
    scanDigits neg (s ++ rest) = some (Dataset.castInt32 (if neg then -(n : Int) else n), rest) := by
  obtain ⟨hne, hd, hv⟩ := numeral_digits h
  obtain ⟨h1, h2⟩ := takeWhile_append_stop (p := isDigit) (a := s) (fun c hc => by
    obtain ⟨d, hd', rfl⟩ := hd c hc; exact (digit_isDigit hd').1) hrest
  unfold scanDigits
  simp only [h1, h2, hne, if_false, hv]

theorem scanU_numeral {s : List Char} {n : Nat} (h : Numeral s n) (hn : n < 2 ^ 31) {rest : List Char}
    (hrest : ∀ c ∈ rest.head?, isDigit c = false) : scanU (s ++ rest) = some ((n : Int), rest) := by
  have hs := scanDigits_numeral h false hrest
  obtain ⟨hne, hd, _⟩ := numeral_digits h
  obtain ⟨c, s', rfl⟩ := List.exists_cons_of_ne_nil hne
  obtain ⟨d, hd', rfl⟩ := hd c (by simp)
  have := digit_isDigit hd'
  have e : scanU (digit d :: s' ++ rest) = scanDigits false (digit d :: s' ++ rest) := by
    rw [List.cons_append]
    unfold scanU
    split
    · rename_i heq; simp only [List.cons.injEq] at heq; exact absurd heq.1 this.2.2.2.2.2.2.1
    · rename_i heq; simp only [List.cons.injEq] at heq; exact absurd heq.1 this.2.2.2.2.2.2.2
    · rfl
  rw [e, hs, castInt32_of_range]
  · rfl
  · unfold IsInt32; simp only [Bool.false_eq_true, if_false]; omega

theorem scanPair_text {sc : Scan F} {s : List Char} {p : Nat × F} (h : PairText sc s p) : scanPair sc s = some ((p.1 : Int), p.2) := by
  obtain ⟨a, b, rfl, hn, hlt, hv⟩ := h
  unfold scanPair
  rw [scanU_numeral hn hlt (by simp [isDigit])]
  simp only
  rw [hv.2]
  rfl

theorem scanQid_text {s : List Char} {q : Int} (h : QidText s q) : scanQid s = some q := by
  obtain ⟨a, n, rfl, hn, rfl, hlt⟩ := h
  have := scanU_numeral hn hlt (rest := []) (by simp)
  rw [List.append_nil] at this
  show (scanU a).map (·.1) = _
  rw [this]
  rfl

theorem scanQid_pair {sc : Scan F} {s : List Char} {p : Nat × F} (h : PairText sc s p) : scanQid s = none := by
  obtain ⟨a, b, rfl, hn, hlt, hv⟩ := h
  obtain ⟨hne, hd, _⟩ := numeral_digits hn
  obtain ⟨c, s', rfl⟩ := List.exists_cons_of_ne_nil hne
  obtain ⟨d, hd', rfl⟩ := hd c (by simp)
  have := digit_isDigit hd'
  unfold scanQid
  split
  · rename_i heq
    simp only [List.cons_append, List.cons.injEq] at heq
    exact absurd heq.1 this.2.2.2.2.2.1
  · rfl

/-! ### Rows -/

theorem reads_text {sc : Scan F} {sp lab body tail token : List Char} {tokens : List (List Char)} {y : F} {q : Option Int}
    {ps : List (Int × F)} (hsp : AllSpace sp) (hlabel : LabelText sc lab y) (htail : CommentTail tail)
    (hbody : Spaced (token :: tokens) body) (hq : scanQid token = q)
    (hp : List.Forall₂ (fun t p => scanPair sc t = some p) (q.elim (token :: tokens) (fun _ => tokens)) ps) :
    Reads sc (sp ++ lab ++ body ++ tail) (some (y, q, fillRow sc.zero 1 ps)) := by
  obtain ⟨hlw, hlab⟩ := hlabel
  have hhash : '#' ∉ sp ++ lab ++ body := by
    simp only [List.mem_append, not_or]
    exact ⟨⟨fun hm => absurd (hsp _ hm) (by decide), fun hm => hlw.2 _ hm (by simp)⟩, Spaced.noHash hbody⟩
  have htake : (sp ++ lab ++ body ++ tail).takeWhile (· ≠ '#') = sp ++ lab ++ body := by
    apply (takeWhile_append_stop _ _).1
    · intro c hc
      have : c ≠ '#' := by rintro rfl; exact hhash hc
      simpa using this
    · rcases htail with rfl | ⟨c, rfl⟩ <;> simp
  obtain ⟨x, lab', hlabeq⟩ := List.exists_cons_of_ne_nil hlw.1
  have hdrop : (sp ++ lab ++ body).dropWhile isSpace = lab ++ body := by
    rw [List.append_assoc]
    apply (takeWhile_append_stop _ _).2
    · intro c hc; exact isSpace_iff.2 (hsp c hc)
    · intro c hc
      rw [hlabeq] at hc
      simp only [List.cons_append, List.head?_cons, Option.mem_def, Option.some.injEq] at hc
      subst hc
      rw [← Bool.not_eq_true, isSpace_iff]
      exact fun hm => hlw.2 _ (by rw [hlabeq]; simp) (List.mem_cons_of_mem _ hm)
  have hne : sp ++ lab ++ body ++ tail ≠ [] := by
    rw [hlabeq]; simp
  have hc : ∀ c, sp ++ lab ++ body ++ tail ≠ '#' :: c := by
    intro c hc
    have : (sp ++ lab ++ body ++ tail).takeWhile (· ≠ '#') = [] := by rw [hc]; rfl
    rw [htake, hlabeq] at this
    simp at this
  have hl : sc.label (((sp ++ lab ++ body ++ tail).takeWhile (· ≠ '#')).dropWhile isSpace) = some (y, body) := by
    rw [htake, hdrop]
    exact hlab body (Spaced.head hbody)
  exact .row hne hc hl (words_spaced hbody) hq hp

theorem reads_row {sc : Scan F} {line : List Char} {r : SvmRow F} (h : SpellsRow sc line r) :
    Reads sc line (some (r.label, r.qid, fillRow sc.zero 1 (r.feats.map (fun p => ((p.1 : Int), p.2))))) := by
  obtain ⟨sp, lab, body, tail, ws, rfl, hsp, hlabel, htail, hbody, hws, hrow⟩ := h
  obtain ⟨token, tokens, rfl⟩ := List.exists_cons_of_ne_nil hws
  have hpairs : ∀ {ws : List (List Char)} {fs : List (Nat × F)}, List.Forall₂ (PairText sc) ws fs →
      List.Forall₂ (fun t p => scanPair sc t = some p) ws (fs.map (fun p => ((p.1 : Int), p.2))) := by
    intro ws fs h
    induction h with
    | nil => exact .nil
    | cons h _ ih => exact .cons (scanPair_text h) ih
  cases hq : r.qid with
  | none =>
    rw [hq] at hrow
    simp only at hrow
    have hf : scanQid token = none := by
      cases hfe : r.feats with
      | nil => rw [hfe] at hrow; cases hrow
      | cons p fs => rw [hfe] at hrow; cases hrow with | cons h _ => exact scanQid_pair h
    exact reads_text hsp hlabel htail hbody hf (hpairs hrow)
  | some q =>
    rw [hq] at hrow
    obtain ⟨w, ws', heq, hqt, hrow⟩ := hrow
    cases heq
    exact reads_text hsp hlabel htail hbody (scanQid_text hqt) (hpairs hrow)

theorem reads_rows {sc : Scan F} {lines : List (List Char)} {rs : List (SvmRow F)} (h : SpellsRows sc lines rs) :
    ∃ os, List.Forall₂ (Reads sc) lines os ∧
      os.filterMap id = rs.map (fun r => (r.label, r.qid, fillRow sc.zero 1 (r.feats.map (fun p => ((p.1 : Int), p.2))))) := by
  induction h with
  | nil => exact ⟨[], .nil, rfl⟩
  | @comment l c ls rs hl _ ih =>
    obtain ⟨os, h1, h2⟩ := ih
    subst hl
    exact ⟨none :: os, .cons (.comment c) h1, by simpa using h2⟩
  | @row l r ls rs hl _ ih =>
    obtain ⟨os, h1, h2⟩ := ih
    exact ⟨_ :: os, .cons (reads_row hl) h1, by simpa using h2⟩

/-! ### The cells of a row -/

/-- The value of feature `i` in a list of features. -/
def lookup (zero : F) (fs : List (Nat × F)) (i : Nat) : F :=
  match fs.find? (fun p => p.1 = i) with
  | some p => p.2
  | none => zero

theorem lookup_cons_self (zero : F) (i : Nat) (x : F) (fs : List (Nat × F)) : lookup zero ((i, x) :: fs) i = x := by
  simp [lookup]

theorem lookup_cons_ne (zero : F) {i j : Nat} (x : F) (fs : List (Nat × F)) (h : i ≠ j) :
    lookup zero ((i, x) :: fs) j = lookup zero fs j := by
  simp [lookup, h]

theorem lookup_none (zero : F) {j : Nat} {fs : List (Nat × F)} (h : ∀ p ∈ fs, p.1 ≠ j) : lookup zero fs j = zero := by
  unfold lookup
  rw [List.find?_eq_none.2 (by simpa using h)]

theorem fillRow_ordered (zero : F) (fs : List (Nat × F)) (next : Nat) (h1 : ∀ p ∈ fs, next ≤ p.1)
    (h2 : (fs.map (·.1)).Pairwise (· < ·)) :
    ∃ n, (fillRow zero next (fs.map (fun p => ((p.1 : Int), p.2)))).length = n ∧ (∀ p ∈ fs, p.1 < next + n) ∧
      (n = 0 ∧ fs = [] ∨ ∃ p ∈ fs, p.1 + 1 = next + n) ∧
      fillRow zero next (fs.map (fun p => ((p.1 : Int), p.2))) = (List.range' next n).map (lookup zero fs) := by
  induction fs generalizing next with
  | nil => exact ⟨0, rfl, by simp, .inl ⟨rfl, rfl⟩, rfl⟩
  | cons p fs ih =>
    obtain ⟨i, x⟩ := p
    have hi : next ≤ i := h1 (i, x) (by simp)
    rw [List.map_cons, List.pairwise_cons] at h2
    have hgt : ∀ p ∈ fs, i < p.1 := fun p hp => h2.1 p.1 (List.mem_map_of_mem hp)
    have hpad : ((i : Int) - (next : Int)).toNat = i - next := by omega
    have hnext : next + (i - next) + 1 = i + 1 := by omega
    obtain ⟨n, hn, hlt, hlast, heq⟩ := ih (i + 1) (fun p hp => hgt p hp) h2.2
    refine ⟨i - next + 1 + n, ?_, ?_, ?_, ?_⟩
    · simp only [List.map_cons, fillRow, hpad, hnext, List.length_append, List.length_replicate, List.length_cons, hn]
      clear hlast
      omega
    · clear hlast
      intro p hp
      rcases List.mem_cons.1 hp with rfl | hp
      · simp only; omega
      · have := hlt p hp; omega
    · right
      rcases hlast with ⟨h0, hnil⟩ | ⟨p, hp, he⟩
      · exact ⟨(i, x), by simp, by simp only; omega⟩
      · exact ⟨p, List.mem_cons_of_mem _ hp, by rw [he]; omega⟩
    · simp only [List.map_cons, fillRow, hpad, hnext, heq]
      rw [Nat.add_assoc, ← List.range'_append_1, List.map_append, show next + (i - next) = i by omega, Nat.add_comm 1 n,
        List.range'_succ, List.map_cons, lookup_cons_self]
      congr 1
      · symm
        rw [List.eq_replicate_iff]
        refine ⟨by simp, ?_⟩
        intro b hb
        obtain ⟨j, hj, rfl⟩ := List.mem_map.1 hb
        rw [List.mem_range'_1] at hj
        apply lookup_none
        intro p hp
        rcases List.mem_cons.1 hp with rfl | hp
        · simp only; omega
        · have := hgt p hp; omega
      · congr 1
        apply List.map_congr_left
        intro j hj
        rw [List.mem_range'_1] at hj
        rw [lookup_cons_ne]
        omega

theorem foldl_max_le {l : List Nat} {a b : Nat} : l.foldl max a ≤ b ↔ a ≤ b ∧ ∀ x ∈ l, x ≤ b := by
  induction l generalizing a with
  | nil => simp
  | cons x l ih =>
    rw [List.foldl_cons, ih]
    simp only [List.mem_cons, forall_eq_or_imp, max_le_iff, and_assoc]

theorem svmWidth_le {rows : List (SvmRow F)} {b : Nat} : svmWidth rows ≤ b ↔ ∀ r ∈ rows, ∀ p ∈ r.feats, p.1 ≤ b := by
  unfold svmWidth
  rw [foldl_max_le]
  simp only [Nat.zero_le, true_and, List.mem_flatMap, List.mem_map]
  constructor
  · intro h r hr p hp
    exact h p.1 ⟨r, hr, p, hp, rfl⟩
  · rintro h x ⟨r, hr, p, hp, rfl⟩
    exact h r hr p hp

theorem maxLen_le {cs : List (List F)} {b : Nat} : maxLen cs ≤ b ↔ ∀ c ∈ cs, c.length ≤ b := by
  unfold maxLen
  rw [foldl_max_le]
  simp

/-- The cells of a row with ordered features. -/
def rowCells (zero : F) (r : SvmRow F) : List F := fillRow zero 1 (r.feats.map (fun p => ((p.1 : Int), p.2)))

theorem maxLen_rows (zero : F) {rows : List (SvmRow F)} (h : ∀ r ∈ rows, r.Ordered) : maxLen (rows.map (rowCells zero)) = svmWidth rows := by
  apply le_antisymm
  · rw [maxLen_le]
    intro c hc
    obtain ⟨r, hr, rfl⟩ := List.mem_map.1 hc
    obtain ⟨n, hn, hlt, hlast, _⟩ := fillRow_ordered zero r.feats 1 (h r hr).1 (h r hr).2
    unfold rowCells
    rw [hn]
    rcases hlast with ⟨h0, _⟩ | ⟨p, hp, he⟩
    · omega
    · have := svmWidth_le.1 (le_refl (svmWidth rows)) r hr p hp
      omega
  · rw [svmWidth_le]
    intro r hr p hp
    obtain ⟨n, hn, hlt, _, _⟩ := fillRow_ordered zero r.feats 1 (h r hr).1 (h r hr).2
    have := le_maxLen (List.mem_map_of_mem (f := rowCells zero) hr)
    have h2 := hlt p hp
    rw [show (rowCells zero r).length = n from hn] at this
    omega

theorem padTo_rowCells (zero : F) {r : SvmRow F} (h : r.Ordered) {w : Nat} (hw : ∀ p ∈ r.feats, p.1 ≤ w) :
    padTo zero w (rowCells zero r) = r.dense zero w := by
  obtain ⟨n, hn, hlt, hlast, heq⟩ := fillRow_ordered zero r.feats 1 h.1 h.2
  have hnw : n ≤ w := by
    rcases hlast with ⟨h0, _⟩ | ⟨p, hp, he⟩
    · omega
    · have := hw p hp; omega
  have hat : ∀ i, r.at zero i = lookup zero r.feats i := fun i => rfl
  unfold padTo rowCells SvmRow.dense
  rw [hn, heq]
  have hr : (List.range w).map (fun j => r.at zero (j + 1)) = (List.range' 1 w).map (lookup zero r.feats) := by
    rw [List.range'_eq_map_range, List.map_map]
    apply List.map_congr_left
    intro j _
    simp [hat, Nat.add_comm]
  rw [hr]
  have hsplit : List.range' 1 w = List.range' 1 n ++ List.range' (1 + n) (w - n) := by
    rw [List.range'_append_1]; congr 1; omega
  rw [hsplit, List.map_append]
  congr 1
  symm
  rw [List.eq_replicate_iff]
  refine ⟨by simp, ?_⟩
  intro b hb
  obtain ⟨j, hj, rfl⟩ := List.mem_map.1 hb
  rw [List.mem_range'_1] at hj
  apply lookup_none
  intro p hp
  have := hlt p hp
  omega

/-! ### The matrix -/

theorem chunks_flatten (n : Nat) (rs : List (List F)) (h : ∀ r ∈ rs, r.length = n) : chunks n rs.length rs.flatten = rs := by
  induction rs with
  | nil => rfl
  | cons r rs ih =>
    have hr := h r (by simp)
    rw [List.length_cons, List.flatten_cons, chunks, ← hr, List.take_left, List.drop_left, hr, ih (fun x hx => h x (by simp [hx]))]

theorem parseFile_reads (sc : Scan F) {file : List Char} {lines : List (List Char)} (hf : IsLines lines file)
    {os : List (Option (F × Option Int × List F))} (h : List.Forall₂ (Reads sc) lines os) :
    parseFile sc file = .ok (stateOf sc.zero (os.filterMap id)) := by
  unfold parseFile
  rw [linesFrom_ok hf]
  have := parseLines_ok sc h []
  simpa [stateOf, layout, maxLen] using this

/-- Loading when the first row has a feature or no row has. -/
theorem loadFile_reads (sc : Scan F) {file : List Char} {rows : List (F × Option Int × List F)}
    (h : parseFile sc file = .ok (stateOf sc.zero rows)) (hne : rows ≠ [])
    (hfirst : (∀ r ∈ rows, r.2.2 = []) ∨ ∀ r ∈ rows.head?, r.2.2 ≠ []) :
    loadFile sc file = .ok (rows.map (fun r => (padTo sc.zero (maxLen (rows.map (·.2.2))) r.2.2).map sc.fixInf),
      maxLen (rows.map (·.2.2)), rows.map (·.1), rows.filterMap (·.2.1)) := by
  have hlay : layout sc.zero (rows.map (·.2.2)) = (rows.map (fun r => padTo sc.zero (maxLen (rows.map (·.2.2))) r.2.2)).flatten := by
    unfold layout
    rcases hfirst with hall | hhead
    · have h1 : (rows.map (·.2.2)).dropWhile List.isEmpty = [] := by
        apply dropWhile_nil
        intro a ha
        obtain ⟨r, hr, rfl⟩ := List.mem_map.1 ha
        rw [hall r hr]; rfl
      have h2 := maxLen_eq_zero.2 h1
      rw [h1, h2]
      simp only [List.map_nil, List.flatten_nil]
      symm
      rw [List.flatten_eq_nil_iff]
      intro l hl
      obtain ⟨r, hr, rfl⟩ := List.mem_map.1 hl
      rw [hall r hr]; rfl
    · obtain ⟨r, rows', rfl⟩ := List.exists_cons_of_ne_nil hne
      have := hhead r (by simp)
      rw [List.map_cons, List.dropWhile_cons, if_neg (by rw [List.isEmpty_iff]; exact this), ← List.map_cons (f := fun r : F × Option Int × List F => r.2.2), List.map_map]
      rfl
  have hlen : ∀ c ∈ rows.map (fun r => padTo sc.zero (maxLen (rows.map (·.2.2))) r.2.2), c.length = maxLen (rows.map (·.2.2)) := by
    intro c hc
    obtain ⟨r, hr, rfl⟩ := List.mem_map.1 hc
    have := le_maxLen (List.mem_map_of_mem (f := fun r : F × Option Int × List F => r.2.2) hr)
    simp only [padTo, List.length_append, List.length_replicate]
    omega
  have hflat := flatten_length_const hlen
  have hpos : 0 < rows.length := List.length_pos_iff.2 hne
  unfold loadFile
  rw [h]
  simp only [stateOf, bind, Except.bind, List.length_map]
  rw [if_neg (by omega), hlay, hflat, List.length_map, Nat.mul_div_cancel_left _ hpos, if_pos rfl]
  have hch := chunks_flatten _ _ hlen
  rw [List.length_map] at hch
  rw [hch, List.map_map]
  rfl

end Svm
end Verif
