/-
Properties C09 to C11: SVMlight files.
-/
import Verif.Lemmas.SvmlightDump
import Verif.Props.Dataset

namespace Verif.Props
open Spec Svm
variable {F : Type}

/-! ### C09 -/

/-- C09, proved part: if the file has at least one row, feature ids in each row start from 1 and increase, and the first row has a feature
(or no row has any), then cell `(i, j)` of the loaded matrix is the value that row `i` gives to feature `j + 1`, or 0; the number of features is
the largest id in the file; labels and query ids are those of the rows. `fixInf` replaces infinity by the largest float.
Missing: files that begin with rows without features, see `C09_leading_empty` and `C09_violated`. -/
theorem C09_load_partial (sc : Scan F) {file : List Char} {lines : List (List Char)} {rows : List (SvmRow F)} (hf : IsLines lines file)
    (hs : SpellsRows sc lines rows) (hne : rows ≠ []) (ho : ∀ r ∈ rows, r.Ordered)
    (hfirst : (∀ r ∈ rows, r.feats = []) ∨ ∀ r ∈ rows.head?, r.feats ≠ []) :
    loadFile sc file = .ok (rows.map (fun r => (r.dense sc.zero (svmWidth rows)).map sc.fixInf), svmWidth rows,
      rows.map (·.label), rows.filterMap (·.qid)) := by
  obtain ⟨os, h1, h2⟩ := reads_rows hs
  have hp := parseFile_reads sc hf h1
  rw [h2] at hp
  have hmap : (rows.map (fun r => (r.label, r.qid, fillRow sc.zero 1 (r.feats.map (fun p => ((p.1 : Int), p.2)))))).map (·.2.2) =
      rows.map (rowCells sc.zero) := by rw [List.map_map]; rfl
  have hnil : ∀ r : SvmRow F, rowCells sc.zero r = [] ↔ r.feats = [] := by
    intro r
    unfold rowCells
    cases r.feats with
    | nil => simp [fillRow]
    | cons p fs => simp [fillRow]
  rw [loadFile_reads sc hp (by simpa using hne) ?_]
  · rw [hmap, maxLen_rows sc.zero ho, List.map_map, List.map_map, List.filterMap_map]
    simp only [Except.ok.injEq, Prod.mk.injEq, true_and]
    refine ⟨?_, rfl, rfl⟩
    apply List.map_congr_left
    intro r hr
    simp only [Function.comp]
    rw [← padTo_rowCells sc.zero (ho r hr) (svmWidth_le.1 (le_refl _) r hr)]
    rfl
  · rcases hfirst with h | h
    · left
      intro x hx
      obtain ⟨r, hr, rfl⟩ := List.mem_map.1 hx
      exact (hnil r).2 (h r hr)
    · right
      obtain ⟨r, rows', rfl⟩ := List.exists_cons_of_ne_nil hne
      intro x hx
      simp only [List.map_cons, List.head?_cons, Option.mem_def, Option.some.injEq] at hx
      subst hx
      exact fun h0 => h r (by simp) ((hnil r).1 h0)

/-- For every other file of this kind the result is wrong: if the first row has no features but some row has, then loading fails with
`ValueError` or yields a matrix with fewer features than the largest feature id. -/
theorem C09_leading_empty (sc : Scan F) {file : List Char} {lines : List (List Char)} {rows : List (SvmRow F)} (hf : IsLines lines file)
    (hs : SpellsRows sc lines rows) (ho : ∀ r ∈ rows, r.Ordered) (hfirst : ∃ r rs, rows = r :: rs ∧ r.feats = [])
    (hsome : ∃ r ∈ rows, r.feats ≠ []) :
    loadFile sc file = .error .valueError ∨
      ∃ X nf, loadFile sc file = .ok (X, nf, rows.map (·.label), rows.filterMap (·.qid)) ∧ nf < svmWidth rows := by
  obtain ⟨os, h1, h2⟩ := reads_rows hs
  have hp := parseFile_reads sc hf h1
  rw [h2] at hp
  have hmap : (rows.map (fun r => (r.label, r.qid, fillRow sc.zero 1 (r.feats.map (fun p => ((p.1 : Int), p.2)))))).map (·.2.2) =
      rows.map (rowCells sc.zero) := by rw [List.map_map]; rfl
  have hwpos : 0 < svmWidth rows := by
    obtain ⟨r, hr, hne⟩ := hsome
    obtain ⟨p, fs, hp⟩ := List.exists_cons_of_ne_nil hne
    have h3 := (ho r hr).1 p (by rw [hp]; simp)
    have h4 := svmWidth_le.1 (le_refl (svmWidth rows)) r hr p (by rw [hp]; simp)
    omega
  have hlen : (layout sc.zero (rows.map (rowCells sc.zero))).length < rows.length * svmWidth rows := by
    unfold layout
    rw [maxLen_rows sc.zero ho]
    have hall : ∀ c ∈ ((rows.map (rowCells sc.zero)).dropWhile List.isEmpty).map (padTo sc.zero (svmWidth rows)),
        c.length = svmWidth rows := by
      intro c hc
      obtain ⟨x, hx, rfl⟩ := List.mem_map.1 hc
      have := le_maxLen (List.dropWhile_subset _ hx)
      rw [maxLen_rows sc.zero ho] at this
      simp only [padTo, List.length_append, List.length_replicate]
      omega
    rw [flatten_length_const hall, List.length_map]
    apply Nat.mul_lt_mul_of_pos_right _ hwpos
    obtain ⟨r, rs, rfl, hr⟩ := hfirst
    have hc : rowCells sc.zero r = [] := by simp [rowCells, hr, fillRow]
    rw [List.map_cons, hc, List.dropWhile_cons]
    simp only [List.isEmpty_nil, if_true, List.length_cons]
    have := (List.dropWhile_suffix List.isEmpty (l := rs.map (rowCells sc.zero))).length_le
    rw [List.length_map] at this
    omega
  have hrpos : 0 < rows.length := by
    obtain ⟨r, rs, rfl, _⟩ := hfirst
    simp
  unfold loadFile
  rw [hp]
  simp only [stateOf, hmap, bind, Except.bind, List.length_map]
  rw [if_neg (by omega)]
  split
  · right
    rw [List.map_map, List.filterMap_map]
    exact ⟨_, _, rfl, Nat.div_lt_of_lt_mul hlen⟩
  · exact .inl rfl

/-- No file makes the reader touch memory outside of its vectors or divide by zero: it ends with a result or with `RuntimeError`. -/
theorem C09_memory_safe (sc : Scan F) (file : List Char) :
    (∃ s, parseFile sc file = .ok s) ∨ parseFile sc file = .error .runtimeError := by
  unfold parseFile
  have h0 : (⟨[], [], [], 0⟩ : State F) = stateOf sc.zero [] := rfl
  rw [h0]
  rcases parseLines_cases sc (linesFrom [] file) with ⟨os, h⟩ | ⟨_, h⟩
  · exact .inl ⟨_, parseLines_ok sc h []⟩
  · exact .inr (h [])

/-- Natural numbers as floating point numbers. -/
def natScan : Scan Nat where
  zero := 0
  label := fun s => if s.takeWhile isDigit = [] then none else some (digitsValue (s.takeWhile isDigit), s.dropWhile isDigit)
  value := fun s => if s.takeWhile isDigit = [] then none else some (digitsValue (s.takeWhile isDigit))
  fixInf := id

/-- A file that grows to the right: rows 1:5, then 1:6 3:7, with a comment in between. -/
def growingFile : List Char := "1 qid:7 1:5\n# note\n2 qid:7 1:6 3:7 # end\n".toList

example : loadFile natScan growingFile = .ok ([[5, 0, 0], [6, 0, 7]], 3, [1, 2], [7, 7]) := by decide +kernel

theorem natScan_label {s : List Char} {n : Nat} (h : Numeral s n) : LabelText natScan s n := by
  obtain ⟨h1, h2, h3⟩ := numeral_digits h
  refine ⟨⟨h1, fun c hc => ?_⟩, fun rest hrest => ?_⟩
  · obtain ⟨d, hd, rfl⟩ := h2 c hc
    interval_cases d <;> decide
  · obtain ⟨h4, h5⟩ := takeWhile_append_stop (p := isDigit) (a := s) (fun c hc => by
      obtain ⟨d, hd', rfl⟩ := h2 c hc; exact (digit_isDigit hd').1) (b := rest) (by
      intro c hc
      have := hrest c hc
      simp only [List.mem_cons, List.not_mem_nil, or_false] at this
      rcases this with rfl | rfl | rfl | rfl | rfl | rfl <;> decide)
    show (if (s ++ rest).takeWhile isDigit = [] then none else some _) = _
    rw [h4, if_neg h1, h5, h3]

theorem natScan_value {s : List Char} {n : Nat} (h : Numeral s n) : ValueText natScan s n := by
  obtain ⟨h1, h2, h3⟩ := numeral_digits h
  refine ⟨(natScan_label h).1, ?_⟩
  obtain ⟨h4, h5⟩ := takeWhile_append_stop (p := isDigit) (a := s) (fun c hc => by
      obtain ⟨d, hd', rfl⟩ := h2 c hc; exact (digit_isDigit hd').1) (b := []) (by simp)
  rw [List.append_nil] at h4 h5
  show (if s.takeWhile isDigit = [] then none else some _) = _
  rw [h4, if_neg h1, h3]

/-- The rows of that file. -/
def growingRows : List (SvmRow Nat) := [⟨1, some 7, [(1, 5)]⟩, ⟨2, some 7, [(1, 6), (3, 7)]⟩]

/-- The hypotheses of `C09_load_partial` hold for it. -/
theorem growingFile_spelled : ∃ lines, IsLines lines growingFile ∧ SpellsRows natScan lines growingRows ∧ (∀ r ∈ growingRows, r.Ordered) ∧
    ∀ r ∈ growingRows.head?, r.feats ≠ [] := by
  have hd : ∀ d < 10, Numeral [digit d] d := fun d h => .one h
  refine ⟨["1 qid:7 1:5\n".toList, "# note\n".toList, "2 qid:7 1:6 3:7 # end\n".toList], ?_, ?_, ?_, ?_⟩
  · exact .cons (l := "1 qid:7 1:5".toList) (by decide) (.cons (l := "# note".toList) (by decide)
      (.cons (l := "2 qid:7 1:6 3:7 # end".toList) (by decide) .nil))
  · refine .row ?_ (.comment rfl (.row ?_ .nil))
    · refine ⟨[], ['1'], " qid:7 1:5\n".toList, [], ["qid:7".toList, "1:5".toList], rfl, (by intro c hc; cases hc),
        natScan_label (hd 1 (by decide)), .inl rfl, ?_, by simp, ?_⟩
      · refine .cons (sp := [' ']) (w := "qid:7".toList) (s := " 1:5\n".toList) (by decide) (by simp) (by decide)
          (.cons (sp := [' ']) (w := "1:5".toList) (s := ['\n']) (by decide) (by simp) (by decide) (.nil (by decide)))
      · refine ⟨_, _, rfl, ⟨['7'], 7, rfl, hd 7 (by decide), rfl, by decide⟩, .cons ?_ .nil⟩
        exact ⟨['1'], ['5'], rfl, hd 1 (by decide), by decide, natScan_value (hd 5 (by decide))⟩
    · refine ⟨[], ['2'], " qid:7 1:6 3:7 ".toList, "# end\n".toList, ["qid:7".toList, "1:6".toList, "3:7".toList], rfl,
        (by intro c hc; cases hc), natScan_label (hd 2 (by decide)), .inr ⟨" end\n".toList, rfl⟩, ?_, by simp, ?_⟩
      · refine .cons (sp := [' ']) (w := "qid:7".toList) (s := " 1:6 3:7 ".toList) (by decide) (by simp) (by decide)
          (.cons (sp := [' ']) (w := "1:6".toList) (s := " 3:7 ".toList) (by decide) (by simp) (by decide)
          (.cons (sp := [' ']) (w := "3:7".toList) (s := [' ']) (by decide) (by simp) (by decide) (.nil (by decide))))
      · refine ⟨_, _, rfl, ⟨['7'], 7, rfl, hd 7 (by decide), rfl, by decide⟩, .cons ?_ (.cons ?_ .nil)⟩
        · exact ⟨['1'], ['6'], rfl, hd 1 (by decide), by decide, natScan_value (hd 6 (by decide))⟩
        · exact ⟨['3'], ['7'], rfl, hd 3 (by decide), by decide, natScan_value (hd 7 (by decide))⟩
  · intro r hr
    simp only [growingRows, List.mem_cons, List.not_mem_nil, or_false] at hr
    rcases hr with rfl | rfl <;> exact ⟨by decide, by decide⟩
  · decide

/-- C09 is violated: the first row has no features, the second one has two; a matrix of one column comes out, in which each row has one of
the values of the second row. -/
theorem C09_violated :
    loadFile natScan "1 qid:1\n2 qid:1 1:5 2:7\n".toList = .ok ([[5], [7]], 1, [1, 2], [1, 1]) := by decide +kernel

/-- The move of the new row in `reshape_data` overlaps with its source. A `std::copy` that goes from the first to the last element
(which the standard allows) would destroy the row: here the row 2, 3, 4 is moved by two cells. -/
theorem C09_copy_overlap :
    memmove [1, 2, 3, 4, 0, 0] 1 3 3 = .ok [1, 2, 3, 2, 3, 4] ∧ copyForward [1, 2, 3, 4, 0, 0] 1 3 3 = [1, 2, 3, 2, 3, 2] := by
  decide +kernel

/-! ### C10 -/

/-- C10: a comment line changes nothing, wherever it stands. -/
theorem C10_comment_line (sc : Scan F) {a b : List (List Char)} {c file file' : List Char} (h : IsLines (a ++ ('#' :: c) :: b) file)
    (h' : IsLines (a ++ b) file') : loadFile sc file = loadFile sc file' := by
  have hp : parseFile sc file = parseFile sc file' := by
    unfold parseFile
    rw [linesFrom_ok h, linesFrom_ok h', List.foldlM_append, List.foldlM_append]
    congr 1
  unfold loadFile
  rw [hp]

/-- The part of a line before a comment. -/
def uncommented (line : List Char) : List Char := line.takeWhile (· ≠ '#')

/-- A line that is no comment and in which the label is missing or not numeric, or nothing follows the label, or a word after it is neither
`id:value` nor, in the first place, `qid:id`. -/
def Malformed (sc : Scan F) (line : List Char) : Prop :=
  (∀ c, line ≠ '#' :: c) ∧
    (sc.label ((uncommented line).dropWhile isSpace) = none ∨
      ∃ y rest ws, sc.label ((uncommented line).dropWhile isSpace) = some (y, rest) ∧ Spaced ws rest ∧
        (ws = [] ∨ (∃ w ∈ ws.tail, scanPair sc w = none) ∨ ∃ w ∈ ws.head?, scanPair sc w = none ∧ scanQid w = none))

/-- C10: one malformed line makes the load fail, whatever the other lines are. -/
theorem C10_malformed_rejected (sc : Scan F) {lines : List (List Char)} {file : List Char} (h : IsLines lines file)
    (hbad : ∃ l ∈ lines, Malformed sc l) : loadFile sc file = .error .runtimeError := by
  have hp : parseFile sc file = .error .runtimeError := by
    rcases parseLines_cases sc lines with ⟨os, hos⟩ | ⟨_, hall⟩
    · exfalso
      obtain ⟨l, hl, hc, hm⟩ := hbad
      obtain ⟨o, ho⟩ : ∃ o, Reads sc l o := by
        clear h
        induction hos with
        | nil => cases hl
        | cons h1 _ ih =>
          rcases List.mem_cons.1 hl with rfl | hl
          · exact ⟨_, h1⟩
          · exact ih hl
      cases ho with
      | comment c => exact hc c rfl
      | @row _ rest token tokens y q ps hne hc' hl' hw hq hp =>
        have hforall : ∀ t ∈ q.elim (token :: tokens) (fun _ => tokens), ∃ p, scanPair sc t = some p := by
          generalize q.elim (token :: tokens) (fun _ => tokens) = ts at hp
          clear hw
          induction hp with
          | nil => simp
          | cons h _ ih =>
            intro t ht
            rcases List.mem_cons.1 ht with rfl | ht
            · exact ⟨_, h⟩
            · exact ih t ht
        unfold uncommented at hm
        rw [hl'] at hm
        rcases hm with hm | ⟨y', rest', ws, heq, hsp, hm⟩
        · cases hm
        · cases heq
          have hws := words_spaced hsp
          rw [hw] at hws
          subst hws
          rcases hm with hm | ⟨w, hw', hn⟩ | ⟨w, hw', hn, hn2⟩
          · cases hm
          · obtain ⟨p, hp⟩ := hforall w (by
              cases q with
              | none => exact List.mem_cons_of_mem _ hw'
              | some q => exact hw')
            rw [hp] at hn; cases hn
          · simp only [List.head?_cons, Option.mem_def, Option.some.injEq] at hw'
            subst hw'
            rw [hn2] at hq
            subst hq
            obtain ⟨p, hp⟩ := hforall token (by simp)
            rw [hp] at hn; cases hn
    · unfold parseFile
      rw [linesFrom_ok h]
      exact hall []
  unfold loadFile
  rw [hp]
  rfl

/-- A word without a colon is not `id:value`, and neither is a word that does not begin with a digit or a sign. -/
theorem C10_bad_word (sc : Scan F) {w : List Char} (h : ':' ∉ w ∨ ∀ c ∈ w.head?, isDigit c = false ∧ c ≠ '-' ∧ c ≠ '+') :
    scanPair sc w = none := by
  have hsuf : ∀ neg s i r, scanDigits neg s = some (i, r) → r <:+ s := by
    intro neg s i r hs
    unfold scanDigits at hs
    simp only at hs
    split at hs
    · cases hs
    · simp only [Option.some.injEq, Prod.mk.injEq] at hs
      rw [← hs.2]
      exact List.dropWhile_suffix _
  unfold scanPair
  rcases h with h | h
  · have : ∀ i r, scanU w = some (i, r) → ':' ∉ r := by
      intro i r hs hm
      unfold scanU at hs
      split at hs
      · exact h (List.mem_cons_of_mem _ ((hsuf _ _ _ _ hs).mem hm))
      · exact h (List.mem_cons_of_mem _ ((hsuf _ _ _ _ hs).mem hm))
      · exact h ((hsuf _ _ _ _ hs).mem hm)
    split
    · rename_i i s hs
      exact absurd (List.mem_cons_self ..) (this _ _ hs)
    · rfl
  · have : scanU w = none := by
      unfold scanU
      split
      · exact absurd rfl (h '-' (by simp)).2.1
      · exact absurd rfl (h '+' (by simp)).2.2
      · unfold scanDigits
        have : w.takeWhile isDigit = [] := by
          cases w with
          | nil => rfl
          | cons c w =>
            have := (h c (by simp)).1
            simp [List.takeWhile, this]
        simp [this]
    rw [this]

theorem wordsFrom_trailing (s cur : List Char) {sp : List Char} (h : AllSpace sp) : wordsFrom cur (s ++ sp) = wordsFrom cur s := by
  induction s generalizing cur with
  | nil =>
    rw [List.nil_append]
    by_cases hc : cur = []
    · subst hc
      have := wordsFrom_space h []
      rwa [List.append_nil] at this
    · have := wordsFrom_flush hc h [] (.inr rfl)
      rw [List.append_nil] at this
      rw [this]
      simp [wordsFrom, hc]
  | cons c s ih =>
    rw [List.cons_append, wordsFrom, wordsFrom, ih, ih]

/-- C10: text after `#` is ignored. The hypothesis says that reading the label is not affected by a line feed at the end of the text. -/
theorem C10_trailing_comment (sc : Scan F)
    (hsc : ∀ s, sc.label (s ++ ['\n']) = (sc.label s).map (fun p => (p.1, p.2 ++ ['\n']))) {l : List Char} (hne : l ≠ [])
    (hl : '#' ∉ l) (c : List Char) (s : State F) :
    parseLine sc s (l ++ '#' :: (c ++ ['\n'])) = parseLine sc s (l ++ ['\n']) := by
  have hstart : ∀ (t x : List Char), l ++ t ≠ '#' :: x := by
    intro t x h
    obtain ⟨a, l', rfl⟩ := List.exists_cons_of_ne_nil hne
    simp only [List.cons_append, List.cons.injEq] at h
    exact hl (by simp [h.1])
  have hnot : ∀ x ∈ l, decide (x ≠ '#') = true := by
    intro x hx
    have : x ≠ '#' := by rintro rfl; exact hl hx
    simpa using this
  rw [parseLine_row (by simp) (hstart _), parseLine_row (by simp) (hstart _)]
  unfold parseRow
  rw [(takeWhile_append_stop hnot (b := '#' :: (c ++ ['\n'])) (by simp)).1,
    show (l ++ ['\n']).takeWhile (· ≠ '#') = l ++ ['\n'] from by
      have := (takeWhile_append_stop (p := fun x => decide (x ≠ '#')) (a := l ++ ['\n']) (by
        intro x hx
        rcases List.mem_append.1 hx with h | h
        · exact hnot x h
        · simp only [List.mem_singleton] at h; subst h; decide) (b := []) (by simp)).1
      rwa [List.append_nil] at this]
  by_cases hall : l.dropWhile isSpace = []
  · have h2 : (l ++ ['\n']).dropWhile isSpace = [] := by
      apply dropWhile_nil
      intro x hx
      rcases List.mem_append.1 hx with h | h
      · exact of_dropWhile_nil hall x h
      · simp only [List.mem_singleton] at h; subst h; decide
    rw [hall, h2]
  · have h2 : (l ++ ['\n']).dropWhile isSpace = l.dropWhile isSpace ++ ['\n'] := by
      rw [List.dropWhile_append, if_neg (by rwa [List.isEmpty_iff])]
    rw [h2, hsc]
    cases sc.label (l.dropWhile isSpace) with
    | none => rfl
    | some p =>
      simp only [Option.map_some]
      have : words (p.2 ++ ['\n']) = words p.2 := wordsFrom_trailing _ _ (by intro x hx; simp at hx; subst hx; decide)
      rw [this]

/-- Concrete cases: a word that is not a pair, a missing label, a blank line, and text that differs by comments only. -/
example : loadFile natScan "1 qid:1 1:5\n2 qid:1 x:5\n".toList = .error .runtimeError ∧
    loadFile natScan "qid:1 1:5\n".toList = .error .runtimeError ∧ loadFile natScan "1 qid:1 1:5\n\n".toList = .error .runtimeError ∧
    loadFile natScan "# c\n1 qid:1 1:5 # d\n# e\n".toList = loadFile natScan "1 qid:1 1:5 \n".toList := by
  refine ⟨?_, ?_, ?_, ?_⟩ <;> decide +kernel

/-- The hypothesis of `C10_trailing_comment` holds for `natScan`. -/
example (s : List Char) : natScan.label (s ++ ['\n']) = (natScan.label s).map (fun p => (p.1, p.2 ++ ['\n'])) := by
  have h : (s ++ ['\n']).takeWhile isDigit = s.takeWhile isDigit ∧ (s ++ ['\n']).dropWhile isDigit = s.dropWhile isDigit ++ ['\n'] := by
    induction s with
    | nil => exact ⟨rfl, rfl⟩
    | cons c s ih =>
      by_cases hc : isDigit c = true
      · simp [List.takeWhile, List.dropWhile, hc, ih]
      · simp [List.takeWhile, List.dropWhile, hc]
  unfold natScan
  simp only [h.1, h.2]
  split <;> simp

/-! ### C11 -/

theorem dumpRow_eq (showF : F → List Char) {y : List F} {qids : List Int} (zeroBased : Bool) {i : Nat} {l : F} {q : Option Int}
    (row : List F) (hy : y[i]? = some l) (hq : (qids.length ≤ 1 ∧ q = none) ∨ (2 ≤ qids.length ∧ qids[i]? = q ∧ q ≠ none)) :
    dumpRow showF y qids zeroBased i row = .ok (dumpLine showF zeroBased l q row) := by
  have hcells : (row.zipIdx.map (fun p => dumpCell showF zeroBased p.2 p.1)).flatten =
      ((cellWords showF zeroBased row 0).map (· ++ [' '])).flatten := by
    unfold cellWords
    rw [List.map_map]
    congr 1
    apply List.map_congr_left
    intro p _
    exact dumpCell_eq ..
  unfold dumpRow
  rw [hy]
  simp only
  unfold dumpHead
  rcases hq with ⟨h1, rfl⟩ | ⟨h1, h2, h3⟩
  · rw [if_neg (by omega)]
    simp only [bind, Except.bind, pure, Except.pure, hcells, dumpLine, Option.elim, List.nil_append]
    simp
  · rw [if_pos (by omega), h2]
    cases q with
    | none => exact absurd rfl h3
    | some q =>
      simp only [bind, Except.bind, pure, Except.pure, hcells, dumpLine, Option.elim]
      simp

theorem mapM_zipIdx_ok {α β : Type} {f : α × Nat → Except PyErr β} {g : α × Nat → β} (l : List α) (k : Nat)
    (h : ∀ p ∈ l.zipIdx k, f p = .ok (g p)) : (l.zipIdx k).mapM f = .ok ((l.zipIdx k).map g) := by
  generalize l.zipIdx k = ps at h
  induction ps with
  | nil => rfl
  | cons p ps ih =>
    rw [List.mapM_cons, h p (by simp), ih (fun x hx => h x (by simp [hx]))]
    rfl

/-- Dump and load for rows given with label and query id. -/
theorem dump_load (sc : Scan F) (showF : F → List Char) (zeroBased : Bool) {n : Nat} (rows : List (F × Option Int × List F)) (hne : rows ≠ [])
    (hw : ∀ r ∈ rows, r.2.2.length = n) (hn : n < 2 ^ 31) (hlab : ∀ r ∈ rows, LabelText sc (showF r.1) r.1)
    (hval : ∀ r ∈ rows, ∀ x ∈ r.2.2, ValueText sc (showF x) x ∧ sc.fixInf x = x) (hq : ∀ r ∈ rows, ∀ q ∈ r.2.1, IsInt32 q)
    (hsome : ∀ r ∈ rows, r.2.1 ≠ none ∨ 0 < n) :
    loadFile sc (rows.map (fun r => dumpLine showF zeroBased r.1 r.2.1 r.2.2)).flatten =
      .ok (rows.map (·.2.2), n, rows.map (·.1), rows.filterMap (·.2.1)) := by
  have hlines : IsLines (rows.map (fun r => dumpLine showF zeroBased r.1 r.2.1 r.2.2))
      (rows.map (fun r => dumpLine showF zeroBased r.1 r.2.1 r.2.2)).flatten := by
    apply isLines_flatten
    intro l hl
    obtain ⟨r, hr, rfl⟩ := List.mem_map.1 hl
    exact dumpLine_newline (sc := sc) (hlab r hr) (fun x hx => (hval r hr x hx).1)
  have hreads : List.Forall₂ (Reads sc) (rows.map (fun r => dumpLine showF zeroBased r.1 r.2.1 r.2.2)) (rows.map some) := by
    rw [List.forall₂_map_left_iff, List.forall₂_map_right_iff, List.forall₂_same]
    intro r hr
    refine reads_dumpLine (hlab r hr) (fun x hx => (hval r hr x hx).1) (hq r hr) (by rw [hw r hr]; exact hn) ?_
    rcases hsome r hr with h | h
    · exact .inl h
    · right
      intro h0
      have := hw r hr
      rw [h0] at this
      simp at this
      omega
  have hp := parseFile_reads sc hlines hreads
  rw [List.filterMap_map] at hp
  have hid : rows.filterMap (id ∘ some) = rows := by
    show rows.filterMap some = rows
    exact List.filterMap_some
  rw [hid] at hp
  have hmax : maxLen (rows.map (·.2.2)) = n := by
    apply le_antisymm
    · rw [maxLen_le]
      intro c hc
      obtain ⟨r, hr, rfl⟩ := List.mem_map.1 hc
      exact (hw r hr).le
    · obtain ⟨r, rs, rfl⟩ := List.exists_cons_of_ne_nil hne
      have := le_maxLen (List.mem_map_of_mem (f := fun r : F × Option Int × List F => r.2.2) (List.mem_cons_self (a := r) (l := rs)))
      rw [hw r (by simp)] at this
      exact this
  rw [loadFile_reads sc hp hne ?_, hmax]
  · simp only [Except.ok.injEq, Prod.mk.injEq, and_true]
    apply List.map_congr_left
    intro r hr
    rw [padTo, hw r hr, Nat.sub_self, List.replicate_zero, List.append_nil]
    have : r.2.2.map sc.fixInf = r.2.2.map id := List.map_congr_left (fun x hx => (hval r hr x hx).2)
    rw [this, List.map_id]
  · by_cases h0 : n = 0
    · left
      intro r hr
      exact List.length_eq_zero_iff.1 (by rw [hw r hr, h0])
    · right
      intro r hr h1
      have := hw r (List.mem_of_mem_head? hr)
      rw [h1] at this
      simp at this
      omega

/-- C11, proved part: a matrix with at least two rows, its labels and query ids survive a dump and a load, with feature ids written from 0 or
from 1. The hypotheses on `showF` say that each number of the matrix, printed, is read as that number (see C12), and `fixInf` that none of
them is infinite. Missing: matrices with one row, see `C11_one_row` and `C11_violated`. -/
theorem C11_roundtrip_partial (sc : Scan F) (showF : F → List Char) (zeroBased : Bool) {n : Nat} {X : List (List F)} {y : List F}
    {qids : List Int} (hX : ∀ row ∈ X, row.length = n) (hn : n < 2 ^ 31) (hy : y.length = X.length) (hq : qids.length = X.length)
    (h2 : 2 ≤ X.length) (hlab : ∀ l ∈ y, LabelText sc (showF l) l)
    (hval : ∀ row ∈ X, ∀ x ∈ row, ValueText sc (showF x) x ∧ sc.fixInf x = x) (h32 : ∀ q ∈ qids, IsInt32 q) :
    ∃ file, dumpFile showF X y qids zeroBased = .ok file ∧ loadFile sc file = .ok (X, n, y, qids) := by
  -- the rows side by side
  obtain ⟨rows, hrows⟩ : ∃ rows : List (F × Option Int × List F), rows = y.zip ((qids.map some).zip X) := ⟨_, rfl⟩
  have hlen : rows.length = X.length := by rw [hrows]; simp; omega
  have hget : ∀ (i : Nat) r, rows[i]? = some r → y[i]? = some r.1 ∧ (∃ q, qids[i]? = some q ∧ r.2.1 = some q) ∧ X[i]? = some r.2.2 := by
    intro i r hi
    rw [hrows, List.getElem?_zip_eq_some] at hi
    obtain ⟨h3, h4⟩ := hi
    rw [List.getElem?_zip_eq_some, List.getElem?_map] at h4
    obtain ⟨h4, h5⟩ := h4
    rw [Option.map_eq_some_iff] at h4
    obtain ⟨q, h6, h7⟩ := h4
    exact ⟨h3, ⟨q, h6, h7.symm⟩, h5⟩
  have hmem : ∀ r ∈ rows, ∃ i : Nat, rows[i]? = some r := fun r hr => List.mem_iff_getElem?.1 hr
  have hr1 : rows.map (·.1) = y := by
    rw [hrows]
    exact List.map_fst_zip (by simp; omega)
  have hr2 : rows.map (·.2) = (qids.map some).zip X := by
    rw [hrows]
    exact List.map_snd_zip (by simp; omega)
  have hr3 : rows.map (·.2.2) = X := by
    have := congrArg (List.map Prod.snd) hr2
    rw [List.map_map, List.map_snd_zip (by simp; omega)] at this
    exact this
  have hr4 : rows.filterMap (·.2.1) = qids := by
    have := congrArg (List.map Prod.fst) hr2
    rw [List.map_map, List.map_fst_zip (by simp; omega)] at this
    have h3 := congrArg (List.filterMap id) this
    rw [List.filterMap_map, List.filterMap_map] at h3
    have h4 : qids.filterMap (id ∘ some) = qids := by
      show qids.filterMap some = qids
      exact List.filterMap_some
    rw [h4] at h3
    exact h3
  refine ⟨(rows.map (fun r => dumpLine showF zeroBased r.1 r.2.1 r.2.2)).flatten, ?_, ?_⟩
  · unfold dumpFile
    have hmapM : X.zipIdx.mapM (fun p => dumpRow showF y qids zeroBased p.2 p.1) =
        .ok (rows.map (fun r => dumpLine showF zeroBased r.1 r.2.1 r.2.2)) := by
      have hg : ∀ p ∈ X.zipIdx 0, dumpRow showF y qids zeroBased p.2 p.1 =
          .ok ((fun p : List F × Nat => match rows[p.2]? with | some r => dumpLine showF zeroBased r.1 r.2.1 r.2.2 | none => []) p) := by
        intro p hp
        obtain ⟨row, i⟩ := p
        rw [List.mem_zipIdx_iff_getElem?] at hp
        simp only at hp
        have hi : i < rows.length := by rw [hlen]; exact (List.getElem?_eq_some_iff.1 hp).1
        obtain ⟨r, hr⟩ : ∃ r, rows[i]? = some r := ⟨_, List.getElem?_eq_getElem hi⟩
        obtain ⟨g1, ⟨q, g2, g3⟩, g4⟩ := hget i r hr
        rw [hp] at g4
        cases g4
        simp only [hr]
        exact dumpRow_eq showF zeroBased _ g1 (.inr ⟨by omega, by rw [g2, g3], by simp [g3]⟩)
      rw [mapM_zipIdx_ok X 0 hg]
      congr 1
      apply List.ext_getElem?
      intro i
      rw [List.getElem?_map, List.getElem?_map, List.getElem?_zipIdx, Option.map_map]
      cases hi : rows[i]? with
      | none =>
        have : X.length ≤ i := by rw [← hlen]; exact List.getElem?_eq_none_iff.1 hi
        rw [List.getElem?_eq_none_iff.2 this]
        rfl
      | some r =>
        rw [(hget i r hi).2.2]
        simp [hi]
    rw [hmapM]
    rfl
  · rw [dump_load sc showF zeroBased rows (by rintro rfl; simp at hlen; omega) (n := n), hr3, hr1, hr4]
    · intro r hr
      obtain ⟨i, hi⟩ := hmem r hr
      exact hX _ (List.mem_of_getElem? (hget i r hi).2.2)
    · exact hn
    · intro r hr
      obtain ⟨i, hi⟩ := hmem r hr
      exact hlab _ (List.mem_of_getElem? (hget i r hi).1)
    · intro r hr
      obtain ⟨i, hi⟩ := hmem r hr
      exact hval _ (List.mem_of_getElem? (hget i r hi).2.2)
    · intro r hr q hq'
      obtain ⟨i, hi⟩ := hmem r hr
      obtain ⟨q', g2, g3⟩ := (hget i r hi).2.1
      rw [g3] at hq'
      cases hq'
      exact h32 q (List.mem_of_getElem? g2)
    · intro r hr
      obtain ⟨i, hi⟩ := hmem r hr
      obtain ⟨q', g2, g3⟩ := (hget i r hi).2.1
      exact .inl (by simp [g3])

/-- The same for `Dataset.dump` followed by `Dataset.load`, for every dataset built by the constructor, with blocks of queries in any order. -/
theorem C11_dataset_partial (sc : Scan F) (showF : F → List Char) {n : Nat} {X : List (List F)} {y : List F} {ids : List Int}
    {d : Dataset (List F) F} (hd : mkDataset X n y ids = .ok d) (hX : ∀ row ∈ X, row.length = n) (hn : n < 2 ^ 31) (hy : y.length = X.length)
    (h2 : 2 ≤ X.length) (hlab : ∀ l ∈ y, LabelText sc (showF l) l)
    (hval : ∀ row ∈ X, ∀ x ∈ row, ValueText sc (showF x) x ∧ sc.fixInf x = x) (h32 : ∀ q ∈ ids, IsInt32 q) :
    ∃ file, dumpDataset showF d = .ok file ∧ loadDataset sc file = .ok d := by
  have hsp := mkDataset_spec hd
  obtain ⟨d', hd', rfl⟩ := C03_rebuild hd hy h32
  have hlen : d'.getQids.length = X.length := by
    unfold mkDataset at hd'
    split at hd'
    · cases hd'
    · rename_i h; omega
  have hrange : ∀ q ∈ d'.getQids, IsInt32 q := by
    intro q hq
    have key : ∀ (bs : List (Int × Nat × Nat)) (a : List Int), (∀ q ∈ a, IsInt32 q) →
        ∀ q ∈ bs.foldl (fun a b => Dataset.fillSlice a b.2.1 b.2.2 (Dataset.castInt32 b.1)) a, IsInt32 q := by
      intro bs
      induction bs with
      | nil => intro a h; exact h
      | cons b bs ih =>
        intro a h
        rw [List.foldl_cons]
        apply ih
        intro q hq
        unfold Dataset.fillSlice at hq
        rw [List.mem_mapIdx] at hq
        obtain ⟨i, hi, rfl⟩ := hq
        split
        · unfold Dataset.castInt32 IsInt32
          have h1 := Int.le_bmod (x := b.1) (m := 2 ^ 32) (by norm_num)
          have h2 := Int.bmod_lt (x := b.1) (m := 2 ^ 32) (by norm_num)
          rw [show ((2 ^ 32 : Nat) : Int) = 4294967296 by norm_num] at h1 h2
          rw [show (-2 ^ 31 : Int) = -2147483648 by norm_num, show (2 ^ 31 : Int) = 2147483648 by norm_num]
          generalize b.1.bmod (2 ^ 32) = k at *
          constructor <;> omega
        · exact h _ (List.getElem_mem hi)
    refine key _ _ ?_ q hq
    intro q hq
    rw [List.mem_replicate] at hq
    rw [hq.2]
    unfold IsInt32
    omega
  obtain ⟨file, h1, h3⟩ := C11_roundtrip_partial sc showF false hX hn hy hlen h2 hlab hval hrange
  refine ⟨file, ?_, ?_⟩
  · unfold dumpDataset Dataset.dumpQids
    rw [hsp.2.1, hsp.2.2.1]
    exact h1
  · unfold loadDataset
    rw [h3]
    exact hd'

/-- The hypotheses of `C11_roundtrip_partial` hold for natural numbers printed in decimal notation. -/
example : (∀ n : Nat, LabelText natScan (decimal n) n) ∧ (∀ n : Nat, ValueText natScan (decimal n) n ∧ natScan.fixInf n = n) ∧
    dumpFile decimal [[3, 0], [40, 5]] [1, 2] [7, -8] false = .ok "1 qid:7 1:3 2:0 \n2 qid:-8 1:40 2:5 \n".toList :=
  ⟨fun n => natScan_label (decimal_numeral n), fun n => ⟨natScan_value (decimal_numeral n), rfl⟩, by decide +kernel⟩

/-- A dataset of one row loses its query id in every case. -/
theorem C11_one_row (sc : Scan F) (showF : F → List Char) (zeroBased : Bool) {row : List F} {l : F} (q : Int) (hne : row ≠ [])
    (hn : row.length < 2 ^ 31) (hlab : LabelText sc (showF l) l) (hval : ∀ x ∈ row, ValueText sc (showF x) x ∧ sc.fixInf x = x) :
    ∃ file, dumpFile showF [row] [l] [q] zeroBased = .ok file ∧ loadFile sc file = .ok ([row], row.length, [l], []) ∧
      loadDataset sc file = .error .exception := by
  have hpos : 0 < row.length := List.length_pos_iff.2 hne
  have hload := dump_load sc showF zeroBased (n := row.length) [(l, none, row)] (by simp) (by simp) hn (by simpa using hlab)
    (by simpa using hval) (by simp) (by simp [hpos])
  refine ⟨_, ?_, hload, ?_⟩
  · unfold dumpFile
    have : [row].zipIdx.mapM (fun p => dumpRow showF [l] [q] zeroBased p.2 p.1) = .ok [dumpLine showF zeroBased l none row] := by
      have h1 := dumpRow_eq showF (y := [l]) (qids := [q]) zeroBased (i := 0) (l := l) (q := none) row rfl (.inl ⟨by simp, rfl⟩)
      simp only [List.zipIdx_cons, List.zipIdx_nil, List.mapM_cons, List.mapM_nil, h1, bind, Except.bind, pure, Except.pure]
    rw [this]
    rfl
  · unfold loadDataset
    rw [hload]
    rfl

/-- C11 is violated: the file written for one row with query id 7 has no query id, and `Dataset.load` rejects it. -/
theorem C11_violated :
    dumpFile decimal [[3, 0]] [1] [7] false = .ok "1 1:3 2:0 \n".toList ∧
    loadFile natScan "1 1:3 2:0 \n".toList = .ok ([[3, 0]], 2, [1], []) ∧
    loadDataset natScan "1 1:3 2:0 \n".toList = .error .exception := by decide +kernel

end Verif.Props
