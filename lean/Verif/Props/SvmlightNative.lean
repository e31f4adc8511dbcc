/-
C73: reading lines and ownership of memory in the C++ reader.
-/
import Verif.Model.SvmlightNative
import Verif.Props.Svmlight
import Mathlib.Data.List.TakeWhile

namespace Verif.Props
open Spec Svm
variable {F : Type}

theorem cString_eq {s : List Char} (h : '\x00' ∉ s) : cString s = s := by
  unfold cString
  rw [List.takeWhile_eq_self_iff]
  intro c hc
  simp only [decide_eq_true_eq]
  rintro rfl
  exact h hc

theorem linesFrom_ne (file : List Char) : ∀ cur, ∀ l ∈ linesFrom cur file, l ≠ [] ∧ ∀ c ∈ l, c ∈ cur ∨ c ∈ file := by
  induction file with
  | nil =>
    intro cur l hl
    unfold linesFrom at hl
    split at hl
    · cases hl
    · rename_i hne
      rw [List.mem_singleton] at hl
      subst hl
      exact ⟨hne, fun c hc => .inl hc⟩
  | cons x file ih =>
    intro cur l hl
    unfold linesFrom at hl
    split at hl
    · rcases List.mem_cons.1 hl with rfl | hl
      · exact ⟨by simp, fun c hc => by
          rcases List.mem_append.1 hc with h | h
          · exact .inl h
          · rw [List.mem_singleton] at h; subst h; simp⟩
      · obtain ⟨h1, h2⟩ := ih [] l hl
        refine ⟨h1, fun c hc => ?_⟩
        rcases h2 c hc with h | h
        · cases h
        · exact .inr (by simp [h])
    · obtain ⟨h1, h2⟩ := ih (cur ++ [x]) l hl
      refine ⟨h1, fun c hc => ?_⟩
      rcases h2 c hc with h | h
      · rcases List.mem_append.1 h with h | h
        · exact .inl h
        · rw [List.mem_singleton] at h; subst h; simp
      · exact .inr (by simp [h])

theorem readLoop_plain (sc : Scan F) (ls : List (List Char)) (h : ∀ l ∈ ls, l ≠ [] ∧ '\x00' ∉ l) :
    ∀ s, (readLoop sc (ls.map some) s).1 = ls.foldlM (parseLine sc) s := by
  induction ls with
  | nil => intro s; rfl
  | cons l ls ih =>
    intro s
    rw [List.map_cons, readLoop, List.foldlM_cons]
    simp only
    rw [cString_eq (h l (by simp)).2, if_neg (h l (by simp)).1]
    cases e : parseLine sc s l with
    | error e => rfl
    | ok s' => exact ih (fun x hx => h x (by simp [hx])) s'

/-- C73: a file without NUL that can be read is parsed line by line, as in C09 and C10. Missing: NUL (`C73_violated_nul`), errors of the stream
(`C73_violated_read_error`). -/
theorem C73_lines_partial (sc : Scan F) {file : List Char} (h : '\x00' ∉ file) : (nativeParse sc file).1 = parseFile sc file := by
  refine readLoop_plain sc _ (fun l hl => ?_) _
  obtain ⟨h1, h2⟩ := linesFrom_ne file [] l hl
  refine ⟨h1, fun hm => ?_⟩
  rcases h2 _ hm with hm | hm
  · cases hm
  · exact h hm

/-- C73: the rest of a line after NUL is ignored. -/
theorem C73_rest_of_line (sc : Scan F) {a : List Char} (b : List Char) (ha : '\x00' ∉ a) (rest : List (Option (List Char))) (s : State F) :
    readLoop sc (some (a ++ '\x00' :: b) :: rest) s = readLoop sc (some a :: rest) s := by
  have : cString (a ++ '\x00' :: b) = cString a := by
    rw [cString_eq ha]
    unfold cString
    rw [List.takeWhile_append_of_pos (by
      intro c hc
      simp only [decide_eq_true_eq]
      rintro rfl
      exact ha hc)]
    simp
  simp only [readLoop, this]

/-- C73: a line that begins with NUL ends the file. -/
theorem C73_ends (sc : Scan F) (ls : List (Option (List Char))) (t : List Char) (rest : List (Option (List Char))) :
    ∀ s, readLoop sc (ls ++ some ('\x00' :: t) :: rest) s = readLoop sc ls s := by
  have hnul : cString ('\x00' :: t) = [] := by simp [cString]
  induction ls with
  | nil =>
    intro s
    rw [List.nil_append, readLoop, readLoop]
    simp only [hnul, if_true]
  | cons l ls ih =>
    intro s
    cases l with
    | none => rfl
    | some l =>
      rw [List.cons_append, readLoop, readLoop]
      simp only [ih]

/-- C73 is violated: the rows after a line that begins with NUL are lost without an error. -/
theorem C73_violated_nul : nativeParse natScan "1 qid:1 1:5\n\x00\n2 qid:1 1:6\n3 qid:2 1:7\n".toList = (.ok ⟨[5], [1], [1], 1⟩, 2) ∧
    nativeParse natScan "1 qid:1 1:5\n2 qid:1 1:6\n3 qid:2 1:7\n".toList = (.ok ⟨[5, 6, 7], [1, 2, 3], [1, 1, 2], 1⟩, 4) := by
  decide +kernel

/-- C73 is violated: when reading a line fails (a damaged compressed file), the null pointer is used. -/
theorem C73_violated_read_error (sc : Scan F) {ls : List (List Char)} {s s' : State F} (h : ∀ l ∈ ls, l ≠ [] ∧ '\x00' ∉ l)
    (hp : ls.foldlM (parseLine sc) s = .ok s') (rest : List (Option (List Char))) :
    (readLoop sc (ls.map some ++ none :: rest) s).1 = .error .undefinedBehaviour := by
  induction ls generalizing s with
  | nil => rfl
  | cons l ls ih =>
    rw [List.foldlM_cons] at hp
    rw [List.map_cons, List.cons_append, readLoop]
    simp only
    rw [cString_eq (h l (by simp)).2, if_neg (h l (by simp)).1]
    cases e : parseLine sc s l with
    | error e => rw [e] at hp; cases hp
    | ok s1 =>
      rw [e] at hp
      exact ih (fun x hx => h x (by simp [hx])) hp

/-- C73 is violated: the objects of all lines of the file, and the empty one at its end, are never released. -/
theorem C73_violated_leak (sc : Scan F) {ls : List (List Char)} {s s' : State F} (h : ∀ l ∈ ls, l ≠ [] ∧ '\x00' ∉ l)
    (hp : ls.foldlM (parseLine sc) s = .ok s') : readLoop sc (ls.map some) s = (.ok s', ls.length + 1) := by
  induction ls generalizing s with
  | nil => cases hp; rfl
  | cons l ls ih =>
    rw [List.foldlM_cons] at hp
    rw [List.map_cons, readLoop]
    simp only
    rw [cString_eq (h l (by simp)).2, if_neg (h l (by simp)).1]
    cases e : parseLine sc s l with
    | error e => rw [e] at hp; cases hp
    | ok s1 =>
      rw [e] at hp
      simp only
      rw [ih (fun x hx => h x (by simp [hx])) hp]
      rfl

/-- The hypotheses can be met. -/
example : (∀ l ∈ ["1 qid:1 1:5\n".toList, "# c\n".toList], l ≠ [] ∧ '\x00' ∉ l) ∧
    ["1 qid:1 1:5\n".toList, "# c\n".toList].foldlM (parseLine natScan) ⟨[], [], [], 0⟩ = .ok ⟨[5], [1], [1], 1⟩ := by
  decide +kernel

/-! ### Ownership -/

theorem buildArrays_ok : ∀ (allocs : List (Bool × Bool)) (n : Nat), n ≤ allocs.length → (∀ a ∈ allocs, a = (true, true)) →
    buildArrays allocs (List.replicate n Cell.new) = (List.replicate n ⟨false, 1, true, 0⟩, true)
  | _, 0, _, _ => by unfold buildArrays; simp
  | a :: as, n + 1, h, ha => by
    have e := ha a (by simp)
    subst e
    rw [List.replicate_succ, buildArrays]
    rw [show to1dArray (true, true).1 (true, true).2 Cell.new = (⟨false, 1, true, 0⟩, true) from rfl]
    simp only
    rw [buildArrays_ok as n (by simpa using h) (fun x hx => ha x (by simp [hx]))]
    rfl

/-- After a failure, every memory block is in exactly one place, and there are no arrays besides the ones finished. -/
theorem buildArrays_cells : ∀ (allocs : List (Bool × Bool)) (n : Nat), ∀ c ∈ (buildArrays allocs (List.replicate n Cell.new)).1,
    c = Cell.new ∨ c = ⟨false, 1, true, 0⟩
  | [], n, c, hc => by
    unfold buildArrays at hc
    exact .inl (List.eq_of_mem_replicate hc)
  | a :: as, 0, c, hc => by simp [buildArrays] at hc
  | a :: as, n + 1, c, hc => by
    rw [List.replicate_succ, buildArrays] at hc
    rcases a with ⟨_ | _, _ | _⟩
    · simp only [to1dArray, Bool.false_eq_true, if_false] at hc
      rcases List.mem_cons.1 hc with rfl | hc
      · exact .inl rfl
      · exact .inl (List.eq_of_mem_replicate hc)
    · simp only [to1dArray, Bool.false_eq_true, if_false] at hc
      rcases List.mem_cons.1 hc with rfl | hc
      · exact .inl rfl
      · exact .inl (List.eq_of_mem_replicate hc)
    · rw [show to1dArray (true, false).1 (true, false).2 Cell.new = (Cell.new, false) from rfl] at hc
      simp only at hc
      rcases List.mem_cons.1 hc with rfl | hc
      · exact .inl rfl
      · exact .inl (List.eq_of_mem_replicate hc)
    · rw [show to1dArray (true, true).1 (true, true).2 Cell.new = (⟨false, 1, true, 0⟩, true) from rfl] at hc
      simp only at hc
      rcases List.mem_cons.1 hc with rfl | hc
      · exact .inr rfl
      · exact buildArrays_cells as n c hc

/-- C73: when no allocation fails, the tuple has the only reference to each array, and each array the memory of its vector; when the caller drops
the tuple every block has been freed exactly once. -/
theorem C73_returned {allocs : List (Bool × Bool)} {n : Nat} (hn : n ≤ allocs.length) (ha : ∀ a ∈ allocs, a = (true, true)) :
    toDense allocs true (List.replicate n Cell.new) = (List.replicate n ⟨false, 1, true, 0⟩, .tuple) ∧
      ∀ c ∈ (toDense allocs true (List.replicate n Cell.new)).1, c.unwind = c ∧ c.unwind.drop = ⟨false, 0, false, 1⟩ := by
  have h : toDense allocs true (List.replicate n Cell.new) = (List.replicate n ⟨false, 1, true, 0⟩, .tuple) := by
    unfold toDense
    rw [buildArrays_ok allocs n hn ha]
    simp only [if_true, List.map_replicate]
    rfl
  refine ⟨h, ?_⟩
  rw [h]
  intro c hc
  rw [List.eq_of_mem_replicate hc]
  decide

/-- C73: whichever allocation fails, after the vectors are destroyed no array is left, and every block has been freed exactly once. -/
theorem C73_failure (allocs : List (Bool × Bool)) (tuple : Bool) (n : Nat) (h : (toDense allocs tuple (List.replicate n Cell.new)).2 ≠ .tuple) :
    ∀ c ∈ (toDense allocs tuple (List.replicate n Cell.new)).1, c.unwind = ⟨false, 0, false, 1⟩ := by
  have hb := buildArrays_cells allocs n
  intro c hc
  unfold toDense at h hc
  cases hbuild : buildArrays allocs (List.replicate n Cell.new) with
  | mk cs b =>
    rw [hbuild] at h hc hb
    cases b with
    | true =>
      simp only at h hc
      split at h
      · exact absurd rfl h
      · rename_i ht
        rw [if_neg ht] at hc
        obtain ⟨x, hx, rfl⟩ := List.mem_map.1 hc
        rcases hb x hx with rfl | rfl <;> decide
    | false =>
      simp only at hc
      obtain ⟨x, hx, rfl⟩ := List.mem_map.1 hc
      rcases hb x hx with rfl | rfl <;> decide

/-- C73 is violated: when the allocation of an array fails, an exception object is read after its end. -/
theorem C73_violated_throw {allocs : List (Bool × Bool)} (hn : allocs.length = 3) (ha : ∃ a ∈ allocs, a ≠ (true, true)) (tuple : Bool) :
    (toDense allocs tuple (List.replicate 3 Cell.new)).2 = .danglingThrow := by
  have key : ∀ (as : List (Bool × Bool)), (∃ a ∈ as, a ≠ (true, true)) → (buildArrays as (List.replicate as.length Cell.new)).2 = false := by
    intro as
    induction as with
    | nil => simp
    | cons a as ih =>
      intro h
      rw [List.length_cons, List.replicate_succ, buildArrays]
      rcases a with ⟨_ | _, _ | _⟩
      · rfl
      · rfl
      · rfl
      · rw [show to1dArray (true, true).1 (true, true).2 Cell.new = (⟨false, 1, true, 0⟩, true) from rfl]
        simp only
        obtain ⟨x, hx, hne⟩ := h
        rcases List.mem_cons.1 hx with rfl | hx
        · exact absurd rfl hne
        · exact ih ⟨x, hx, hne⟩
  have := key allocs ha
  rw [hn] at this
  unfold toDense
  cases hb : buildArrays allocs (List.replicate 3 Cell.new) with
  | mk cs b => rw [hb] at this; simp only at this; subst this; rfl

/-- Both cases for the three vectors: the second owner cannot be allocated. -/
example : toDense [(true, true), (true, false), (true, true)] true (List.replicate 3 Cell.new) =
      ([⟨false, 0, false, 1⟩, ⟨true, 0, false, 0⟩, ⟨true, 0, false, 0⟩], .danglingThrow) ∧
    toDense [(true, true), (true, true), (true, true)] true (List.replicate 3 Cell.new) = (List.replicate 3 ⟨false, 1, true, 0⟩, .tuple) ∧
    (toDense [(true, true), (true, true), (true, true)] false (List.replicate 3 Cell.new)).2 = .null := by
  decide

end Verif.Props
