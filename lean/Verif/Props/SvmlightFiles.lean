/-
Property C84: loading several SVMlight files at once.
-/
import Verif.Model.SvmlightFiles
import Verif.Props.Svmlight

namespace Verif.Props
open Spec Svm
variable {F : Type}

/-- A file that can be loaded (C09): its lines, its rows, and what C09 asks of them. -/
structure GoodFile (sc : Scan F) (file : List Char) (rows : List (SvmRow F)) : Prop where
  spelled : ∃ lines, IsLines lines file ∧ SpellsRows sc lines rows
  ne : rows ≠ []
  ordered : ∀ r ∈ rows, r.Ordered
  first : (∀ r ∈ rows, r.feats = []) ∨ ∀ r ∈ rows.head?, r.feats ≠ []

/-- What a file with these rows gives: its matrix, with `n` columns, its labels, and its query ids if they are asked for. -/
def itemsOf (sc : Scan F) (queryId : Bool) (n : Nat) (rows : List (SvmRow F)) : List (Item F) :=
  [.matrix (rows.map (fun r => (r.dense sc.zero n).map sc.fixInf)) n, .labels (rows.map (·.label))] ++
    if queryId then [.queryIds (rows.filterMap (·.qid))] else []

theorem fileItems_ok {sc : Scan F} {file : List Char} {rows : List (SvmRow F)} (h : GoodFile sc file rows) (queryId : Bool) :
    fileItems sc queryId file = .ok (itemsOf sc queryId (svmWidth rows) rows) := by
  obtain ⟨lines, h1, h2⟩ := h.spelled
  unfold fileItems
  rw [C09_load_partial sc h1 h2 h.ne h.ordered h.first]
  cases queryId <;> rfl

theorem loadFiles_fold {sc : Scan F} (queryId : Bool) {files : List (List Char)} {rowss : List (List (SvmRow F))}
    (h : List.Forall₂ (GoodFile sc) files rowss) : ∀ acc : List (Item F),
    files.foldlM (fun result f => do
      let items ← fileItems sc queryId f
      pure (result ++ items)) acc = Except.ok (acc ++ rowss.flatMap (fun rows => itemsOf sc queryId (svmWidth rows) rows)) := by
  induction h with
  | nil => intro acc; simp [pure, Except.pure]
  | cons hx _ ih =>
    intro acc
    rw [List.foldlM_cons, fileItems_ok hx]
    simp only [bind, Except.bind, pure, Except.pure] at ih ⊢
    rw [ih]
    simp

/-- C84: the result is the concatenation of what the files give one by one. -/
theorem C84_each (sc : Scan F) (queryId : Bool) {files : List (List Char)} {rowss : List (List (SvmRow F))} (hne : files ≠ [])
    (h : List.Forall₂ (GoodFile sc) files rowss) :
    loadFiles sc queryId files = .ok (rowss.flatMap (fun rows => itemsOf sc queryId (svmWidth rows) rows)) := by
  cases h with
  | nil => exact (hne rfl).elim
  | cons hx ht =>
    rw [loadFiles, fileItems_ok hx]
    exact (loadFiles_fold queryId ht _).trans (by simp)

/-- C84, proved part: if the largest feature number of every file is the same, all matrices have this number of columns. Missing: files with
different largest feature numbers, see `C84_violated`. -/
theorem C84_columns_partial (sc : Scan F) (queryId : Bool) {files : List (List Char)} {rowss : List (List (SvmRow F))} (hne : files ≠ [])
    (h : List.Forall₂ (GoodFile sc) files rowss) {n : Nat} (hn : ∀ rows ∈ rowss, svmWidth rows = n) :
    loadFiles sc queryId files = .ok (rowss.flatMap (itemsOf sc queryId n)) := by
  rw [C84_each sc queryId hne h]
  congr 1
  have key : ∀ l : List (List (SvmRow F)), (∀ rows ∈ l, svmWidth rows = n) →
      l.flatMap (fun rows => itemsOf sc queryId (svmWidth rows) rows) = l.flatMap (itemsOf sc queryId n) := by
    intro l
    induction l with
    | nil => intro _; rfl
    | cons r l ih =>
      intro hl
      rw [List.flatMap_cons, List.flatMap_cons, ih (fun x hx => hl x (List.mem_cons_of_mem _ hx)), hl r List.mem_cons_self]
  exact key rowss hn

/-- C84: the numbers of columns are the same only if the largest feature numbers are. -/
theorem C84_violated (sc : Scan F) (queryId : Bool) {f g : List Char} {a b : List (SvmRow F)} (ha : GoodFile sc f a) (hb : GoodFile sc g b)
    (hab : svmWidth a ≠ svmWidth b) : ∃ X Y m n, m ≠ n ∧ ∃ items, loadFiles sc queryId [f, g] = .ok items ∧ .matrix X m ∈ items ∧ .matrix Y n ∈ items := by
  refine ⟨a.map (fun r => (r.dense sc.zero (svmWidth a)).map sc.fixInf), b.map (fun r => (r.dense sc.zero (svmWidth b)).map sc.fixInf),
    svmWidth a, svmWidth b, hab, _, C84_each sc queryId (by simp) (.cons ha (.cons hb .nil)), ?_, ?_⟩
  · rw [List.flatMap_cons, itemsOf]
    exact List.mem_append_left _ (List.mem_append_left _ List.mem_cons_self)
  · rw [List.flatMap_cons, List.flatMap_cons, itemsOf, itemsOf]
    exact List.mem_append_right _ (List.mem_append_left _ (List.mem_append_left _ List.mem_cons_self))

/-- C84: no file at all. -/
theorem C84_violated_none (sc : Scan F) (queryId : Bool) : loadFiles sc queryId [] = .error .stopIteration := rfl

/-- C84: one malformed file makes the call fail, with the error of the first such file. -/
theorem C84_bad (sc : Scan F) (queryId : Bool) {pre post : List (List Char)} {rowss : List (List (SvmRow F))} {f : List Char} {e : PyErr}
    (h : List.Forall₂ (GoodFile sc) pre rowss) (hf : loadFile sc f = .error e) : loadFiles sc queryId (pre ++ f :: post) = .error e := by
  have he : fileItems sc queryId f = .error e := by
    unfold fileItems
    rw [hf]
    rfl
  cases h with
  | nil =>
    rw [List.nil_append, loadFiles, he]
    rfl
  | cons hx ht =>
    rw [List.cons_append, loadFiles, fileItems_ok hx]
    refine List.foldlM_append.trans ?_
    rw [loadFiles_fold queryId ht]
    show List.foldlM _ _ _ = _
    rw [List.foldlM_cons, he]
    rfl

/-- The file of C09 can be loaded. -/
theorem growing_good : GoodFile natScan growingFile growingRows := by
  obtain ⟨lines, h1, h2, h3, h4⟩ := growingFile_spelled
  exact ⟨⟨lines, h1, h2⟩, by decide, h3, .inr h4⟩

example : loadFiles natScan true [growingFile, "4 qid:9 2:8\n".toList] =
    .ok [.matrix [[5, 0, 0], [6, 0, 7]] 3, .labels [1, 2], .queryIds [7, 7], .matrix [[0, 8]] 2, .labels [4], .queryIds [9]] ∧
    loadFiles natScan false [growingFile, growingFile] =
    .ok [.matrix [[5, 0, 0], [6, 0, 7]] 3, .labels [1, 2], .matrix [[5, 0, 0], [6, 0, 7]] 3, .labels [1, 2]] ∧
    loadFiles natScan false [growingFile, "x\n".toList] = .error .runtimeError ∧ svmWidth growingRows = 3 ∧
    svmWidth [(⟨4, some 9, [(2, 8)]⟩ : SvmRow Nat)] = 2 := by
  decide +kernel

end Verif.Props
