/-
Property C106: SVMlight rows whose feature ids are repeated, not ordered, or start from zero.
-/
import Verif.Props.Svmlight
import Verif.Spec.SvmlightOrder

namespace Verif.Props
open Spec Svm
variable {F : Type}

theorem columnsFrom_length (n : Nat) (is : List Nat) : (columnsFrom n is).length = is.length := by
  induction is generalizing n with
  | nil => rfl
  | cons i is ih => simp [columnsFrom, ih]

theorem columnsFrom_ge {n : Nat} {is : List Nat} : ∀ c ∈ columnsFrom n is, n ≤ c := by
  induction is generalizing n with
  | nil => intro c hc; cases hc
  | cons i is ih =>
    intro c hc
    rcases List.mem_cons.1 hc with rfl | hc
    · exact le_max_right _ _
    · have := ih c hc
      have := le_max_right i n
      omega

theorem columnsFrom_pairwise (n : Nat) (is : List Nat) : (columnsFrom n is).Pairwise (· < ·) := by
  induction is generalizing n with
  | nil => exact List.Pairwise.nil
  | cons i is ih =>
    refine List.Pairwise.cons ?_ (ih _)
    intro c hc
    have := columnsFrom_ge c hc
    omega

theorem placed_ids (r : SvmRow F) : r.placed.feats.map (·.1) = columnsFrom 1 (r.feats.map (·.1)) := by
  simp only [SvmRow.placed]
  rw [List.map_fst_zip]
  simp [columnsFrom_length]

theorem placed_values (r : SvmRow F) : r.placed.feats.map (·.2) = r.feats.map (·.2) := by
  simp only [SvmRow.placed]
  rw [List.map_snd_zip]
  simp [columnsFrom_length]

theorem placed_ordered (r : SvmRow F) : r.placed.Ordered := by
  refine ⟨?_, by rw [placed_ids]; exact columnsFrom_pairwise _ _⟩
  intro p hp
  have h : p.1 ∈ r.placed.feats.map (·.1) := List.mem_map_of_mem hp
  rw [placed_ids] at h
  exact columnsFrom_ge _ h

theorem fillRow_placed (zero : F) (fs : List (Nat × F)) : ∀ n, fillRow zero n (fs.map (fun p => ((p.1 : Int), p.2))) =
    fillRow zero n (((columnsFrom n (fs.map (·.1))).zip (fs.map (·.2))).map (fun p => ((p.1 : Int), p.2))) := by
  induction fs with
  | nil => intro n; rfl
  | cons p fs ih =>
    intro n
    obtain ⟨i, x⟩ := p
    simp only [List.map_cons, fillRow, columnsFrom, List.zip_cons_cons]
    have h1 : ((i : Int) - (n : Int)).toNat = (((max i n : Nat) : Int) - (n : Int)).toNat := by omega
    have h2 : n + ((i : Int) - (n : Int)).toNat + 1 = max i n + 1 := by omega
    rw [← h1, h2, ih (max i n + 1)]

/-- C106: what is loaded, for feature ids in any order: the matrix is the one of a file in which each value has the id of the next free column, if the
columns up to its own id are taken, and its own id otherwise. Nothing is rejected, and no value is lost or overwritten. -/
theorem C106_load (sc : Scan F) {file : List Char} {lines : List (List Char)} {rows : List (SvmRow F)} (hf : IsLines lines file)
    (hs : SpellsRows sc lines rows) (hne : rows ≠ []) (hfirst : (∀ r ∈ rows, r.feats = []) ∨ ∀ r ∈ rows.head?, r.feats ≠ []) :
    loadFile sc file = .ok (rows.map (fun r => (r.placed.dense sc.zero (svmWidth (rows.map SvmRow.placed))).map sc.fixInf),
      svmWidth (rows.map SvmRow.placed), rows.map (·.label), rows.filterMap (·.qid)) := by
  obtain ⟨os, h1, h2⟩ := reads_rows hs
  have hp := parseFile_reads sc hf h1
  rw [h2] at hp
  have hcells : ∀ r : SvmRow F, rowCells sc.zero r = rowCells sc.zero r.placed := fun r => fillRow_placed sc.zero r.feats 1
  have hmap : (rows.map (fun r => (r.label, r.qid, fillRow sc.zero 1 (r.feats.map (fun p => ((p.1 : Int), p.2)))))).map (·.2.2) =
      (rows.map SvmRow.placed).map (rowCells sc.zero) := by
    rw [List.map_map, List.map_map]
    exact List.map_congr_left (fun r _ => hcells r)
  have hnil : ∀ r : SvmRow F, rowCells sc.zero r = [] ↔ r.feats = [] := by
    intro r
    unfold rowCells
    cases r.feats with
    | nil => simp [fillRow]
    | cons p fs => simp [fillRow]
  have ho : ∀ r ∈ rows.map SvmRow.placed, r.Ordered := by
    intro r hr
    obtain ⟨r', -, rfl⟩ := List.mem_map.1 hr
    exact placed_ordered r'
  rw [loadFile_reads sc hp (by simpa using hne) ?_]
  · rw [hmap, maxLen_rows sc.zero ho, List.map_map, List.map_map, List.filterMap_map]
    simp only [Except.ok.injEq, Prod.mk.injEq, true_and]
    refine ⟨?_, rfl, rfl⟩
    apply List.map_congr_left
    intro r hr
    simp only [Function.comp]
    rw [← padTo_rowCells sc.zero (placed_ordered r) (svmWidth_le.1 (le_refl _) _ (List.mem_map_of_mem hr)), ← hcells r]
    rfl
  · rcases hfirst with h | h
    · left
      intro x hx
      obtain ⟨r, hr, rfl⟩ := List.mem_map.1 hx
      exact (hnil r).2 (h r hr)
    · right
      obtain ⟨r, rows', rfl⟩ := List.exists_cons_of_ne_nil hne
      intro x hx
      simp only [List.map_cons, List.head?_cons, Option.mem_def, Option.some.injEq] at hx
      subst hx
      exact fun h0 => h r (by simp) ((hnil r).1 h0)

theorem columnsFrom_self {n : Nat} {is : List Nat} (h1 : ∀ i ∈ is, n ≤ i) (h2 : is.Pairwise (· < ·)) : columnsFrom n is = is := by
  induction is generalizing n with
  | nil => rfl
  | cons i is ih =>
    obtain ⟨h3, h4⟩ := List.pairwise_cons.1 h2
    have h5 : max i n = i := max_eq_left (h1 i (by simp))
    rw [columnsFrom, h5, ih (fun j hj => h3 j hj) h4]

/-- C106, proved part: the values are in the columns of their ids exactly if the ids begin from 1 and increase. Missing: rows with other ids, which
are loaded all the same, see `C106_violated`. -/
theorem C106_own_columns_partial (r : SvmRow F) : r.placed.feats = r.feats ↔ r.Ordered := by
  constructor
  · intro h
    have := placed_ordered r
    unfold SvmRow.Ordered at this ⊢
    rw [h] at this
    exact this
  · intro h
    simp only [SvmRow.placed]
    rw [columnsFrom_self (n := 1) (fun i hi => by obtain ⟨p, hp, rfl⟩ := List.mem_map.1 hi; exact h.1 p hp) h.2]
    induction r.feats with
    | nil => rfl
    | cons p fs ih => simp [ih]

theorem columnsFrom_id_le {n : Nat} {is : List Nat} : ∀ k (h : k < is.length), is[k] ≤ (columnsFrom n is)[k]'(by rw [columnsFrom_length]; exact h) := by
  induction is generalizing n with
  | nil => intro k h; simp at h
  | cons i is ih =>
    intro k h
    cases k with
    | zero => simp [columnsFrom]
    | succ k => simpa [columnsFrom] using ih k (by simpa using h)

/-- C106: the columns are the least ones that keep the order of the values in the row: they increase, none is left of its id, and every other such
sequence of columns is further right. In particular a value that is not in the column of its id is to the right of it. -/
theorem C106_least (r : SvmRow F) :
    r.placed.feats.map (·.2) = r.feats.map (·.2) ∧
    List.Forall₂ (fun c i => i ≤ c) (r.placed.feats.map (·.1)) (r.feats.map (·.1)) ∧
    ∀ cols : List Nat, cols.Pairwise (· < ·) → (∀ c ∈ cols, 1 ≤ c) → List.Forall₂ (fun c i => i ≤ c) cols (r.feats.map (·.1)) →
      List.Forall₂ (· ≤ ·) (r.placed.feats.map (·.1)) cols := by
  refine ⟨placed_values r, ?_, ?_⟩
  · rw [placed_ids]
    generalize r.feats.map (·.1) = is
    generalize 1 = n
    induction is generalizing n with
    | nil => exact .nil
    | cons i is ih => exact .cons (le_max_left _ _) (ih _)
  · rw [placed_ids]
    generalize r.feats.map (·.1) = is
    intro cols h1 h2 h3
    generalize 1 = n at h2
    induction h3 generalizing n with
    | nil => exact .nil
    | @cons c i cols is h4 h5 ih =>
      obtain ⟨h6, h7⟩ := List.pairwise_cons.1 h1
      have h8 := h2 c (by simp)
      refine .cons (max_le h4 h8) (ih h7 (max i n + 1) ?_)
      intro c' hc'
      have := h6 c' hc'
      have := max_le h4 h8
      omega

/-- C106: the number of columns is at least the largest id, and larger by at most the number of values of a row. -/
theorem C106_width (rows : List (SvmRow F)) {n : Nat} (hn : ∀ r ∈ rows, r.feats.length ≤ n) :
    svmWidth rows ≤ svmWidth (rows.map SvmRow.placed) ∧ svmWidth (rows.map SvmRow.placed) ≤ svmWidth rows + n := by
  constructor
  · rw [svmWidth_le]
    intro r hr p hp
    obtain ⟨k, hk, rfl⟩ := List.mem_iff_getElem.1 hp
    have h1 := columnsFrom_id_le (n := 1) (is := r.feats.map (·.1)) k (by simpa using hk)
    refine le_trans (by simpa using h1) ?_
    have h2 : (columnsFrom 1 (r.feats.map (·.1)))[k]'(by rw [columnsFrom_length]; simpa using hk) ∈ r.placed.feats.map (·.1) := by
      rw [placed_ids]; exact List.getElem_mem _
    obtain ⟨q, hq, hq1⟩ := List.mem_map.1 h2
    rw [← hq1]
    exact svmWidth_le.1 (le_refl _) _ (List.mem_map_of_mem hr) q hq
  · rw [svmWidth_le]
    intro r hr p hp
    obtain ⟨r', hr', rfl⟩ := List.mem_map.1 hr
    have h1 : p.1 ∈ r'.placed.feats.map (·.1) := List.mem_map_of_mem hp
    rw [placed_ids] at h1
    have key : ∀ (is : List Nat) (m w : Nat), (∀ i ∈ is, i ≤ w) → m ≤ w + 1 → ∀ c ∈ columnsFrom m is, c ≤ w + is.length := by
      intro is
      induction is with
      | nil => intro m w _ _ c hc; cases hc
      | cons i is ih =>
        intro m w h2 h3 c hc
        have hi := h2 i (by simp)
        rcases List.mem_cons.1 hc with rfl | hc
        · simp only [List.length_cons]; omega
        · have := ih (max i m + 1) (w + 1) (fun j hj => by have := h2 j (by simp [hj]); omega) (by omega) c hc
          simp only [List.length_cons]; omega
    have := key (r'.feats.map (·.1)) 1 (svmWidth rows) (fun i hi => by
      obtain ⟨q, hq, rfl⟩ := List.mem_map.1 hi
      exact svmWidth_le.1 (le_refl _) r' hr' q hq) (by omega) p.1 h1
    have h3 := hn r' hr'
    simp only [List.length_map] at this
    omega

/-- C106, ids that begin from zero: each value is one column right of its id (as it should be) exactly if the row gives all the features 0, 1, 2, ...
up to its last one. Rows that leave out a feature have all later values in the columns of the features before. -/
theorem C106_zero_based {is : List Nat} (h : is.Pairwise (· < ·)) :
    columnsFrom 1 is = is.map (· + 1) ↔ is = List.range is.length := by
  have key : ∀ (is : List Nat) (n : Nat), is.Pairwise (· < ·) → (∀ i ∈ is, n ≤ i) →
      (columnsFrom (n + 1) is = is.map (· + 1) ↔ is = List.range' n is.length) := by
    intro is
    induction is with
    | nil => intro n _ _; simp [columnsFrom]
    | cons i is ih =>
      intro n h1 h2
      obtain ⟨h3, h4⟩ := List.pairwise_cons.1 h1
      have hi := h2 i (by simp)
      simp only [columnsFrom, List.map_cons, List.cons.injEq, List.length_cons, List.range'_succ]
      constructor
      · rintro ⟨h5, h6⟩
        have hin : i = n := by omega
        subst hin
        refine ⟨rfl, (ih (i + 1) h4 (fun j hj => h3 j hj)).1 ?_⟩
        rw [← h6]
        congr 1
        omega
      · rintro ⟨rfl, h6⟩
        have h7 : max i (i + 1) = i + 1 := by omega
        refine ⟨h7, ?_⟩
        rw [h7]
        exact (ih (i + 1) h4 (fun j hj => h3 j hj)).2 h6
  have := key is 0 h (fun i _ => Nat.zero_le i)
  rw [List.range_eq_range']
  exact this

/-- C106 is violated: in a row with ids 3 and 1 the value of feature 1 is loaded as feature 4; a repeated id makes a new column; and from a row
`0:5 2:7` written with ids from zero, the value of the third feature is loaded as the second feature. -/
theorem C106_violated :
    loadFile natScan "1 qid:1 3:5 1:2\n".toList = .ok ([[0, 0, 5, 2]], 4, [1], [1]) ∧
    loadFile natScan "1 qid:1 2:5 2:6\n".toList = .ok ([[0, 5, 6]], 3, [1], [1]) ∧
    loadFile natScan "1 qid:1 0:5 2:7\n".toList = .ok ([[5, 7]], 2, [1], [1]) ∧
    ¬ (⟨1, some 1, [(3, 5), (1, 2)]⟩ : SvmRow Nat).Ordered := by
  refine ⟨by decide +kernel, by decide +kernel, by decide +kernel, ?_⟩
  rintro ⟨-, h⟩
  revert h
  decide

/-- C106: the hypotheses of `C106_load` are met by a file with rows in order (`growingFile_spelled`) and by one with ids out of order. -/
example : ∃ lines, IsLines lines "1 qid:1 3:5 1:2\n".toList ∧ SpellsRows natScan lines [⟨1, some 1, [(3, 5), (1, 2)]⟩] ∧
    (∀ r ∈ ([⟨1, some 1, [(3, 5), (1, 2)]⟩] : List (SvmRow Nat)).head?, r.feats ≠ []) ∧
    svmWidth ([⟨1, some 1, [(3, 5), (1, 2)]⟩].map (SvmRow.placed (F := Nat))) = 4 := by
  have hd : ∀ d < 10, Numeral [digit d] d := fun d h => .one h
  refine ⟨["1 qid:1 3:5 1:2\n".toList], .cons (l := "1 qid:1 3:5 1:2".toList) (by decide) .nil, .row ?_ .nil, by decide, by decide⟩
  refine ⟨[], ['1'], " qid:1 3:5 1:2\n".toList, [], ["qid:1".toList, "3:5".toList, "1:2".toList], rfl, (by intro c hc; cases hc),
    natScan_label (hd 1 (by decide)), .inl rfl, ?_, by simp, ?_⟩
  · refine .cons (sp := [' ']) (w := "qid:1".toList) (s := " 3:5 1:2\n".toList) (by decide) (by simp) (by decide)
      (.cons (sp := [' ']) (w := "3:5".toList) (s := " 1:2\n".toList) (by decide) (by simp) (by decide)
      (.cons (sp := [' ']) (w := "1:2".toList) (s := ['\n']) (by decide) (by simp) (by decide) (.nil (by decide))))
  · refine ⟨_, _, rfl, ⟨['1'], 1, rfl, hd 1 (by decide), rfl, by decide⟩, .cons ?_ (.cons ?_ .nil)⟩
    · exact ⟨['3'], ['5'], rfl, hd 3 (by decide), by decide, natScan_value (hd 5 (by decide))⟩
    · exact ⟨['1'], ['2'], rfl, hd 1 (by decide), by decide, natScan_value (hd 2 (by decide))⟩

/-- C106: rows from zero, with all features and with a gap. -/
example : columnsFrom 1 [0, 1, 2] = [1, 2, 3] ∧ columnsFrom 1 [0, 2] = [1, 2] ∧ [0, 2].Pairwise (· < ·) := by decide

end Verif.Props
