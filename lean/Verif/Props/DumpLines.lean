/-
Property C123: which dumps are loaded, and dumps that have been cut off.
-/
import Verif.Lemmas.DumpLines
import Verif.Props.DumpText
import Verif.Props.SkFile

namespace Verif.Props
open Spec Ensemble
variable {F : Type}

/-- C123, XGBoost, for any lines: `load` succeeds exactly if at each line that begins a tree no child is expected and the number in the line is
less than the number of such lines. Nothing else is checked. -/
theorem C123_xgboost (zero one minusOne : F) (strictToLe : F → F) (ls : List (DumpLine F)) (lr : F) (bs : Option F) :
    (∃ a, xgboostLoad zero one minusOne strictToLe ls lr bs = .ok a) ↔
      ∀ p i r, ls = p ++ .tree i :: r → expected 0 p = 0 ∧ i < treeLineCount ls := by
  unfold xgboostLoad
  rw [dumpLoad_ok]
  refine ⟨fun h p i r e => (h p _ r e).1 i rfl, fun h p x r e => ⟨fun i hi => ?_, fun hc => by cases hc⟩⟩
  obtain rfl : x = .tree i := by cases x <;> simp_all [treeNumber]
  exact h p i r e

/-- C123, ScikitLearn, for any lines: as for XGBoost, and the number of each node, counted on from the nodes before its tree, is less than the
number of nodes in the file. -/
theorem C123_scikit (zero one minusOne : F) (ls : List (DumpLine F)) (lr : F) (bs : Option F) :
    (∃ a, scikitLoad zero one minusOne ls lr bs = .ok a) ↔
      (∀ p i r, ls = p ++ .tree i :: r → expected 0 p = 0 ∧ i < treeLineCount ls) ∧
        ∀ p x r id, ls = p ++ x :: r → nodeNumber x = some id → id + earlier 0 0 p < nodeLineCount ls := by
  unfold scikitLoad
  rw [dumpLoad_ok]
  refine ⟨fun h => ⟨fun p i r e => (h p _ r e).1 i rfl, fun p x r id e hx => (h p x r e).2 rfl id hx⟩, fun h p x r e => ⟨fun i hi => ?_,
    fun _ id hid => h.2 p x r id e hid⟩⟩
  obtain rfl : x = .tree i := by cases x <;> simp_all [treeNumber]
  exact h.1 p i r e

/-- C123: a file that is refused is refused by an `AssertionError` or an `IndexError`. -/
theorem C123_errors (zero one minusOne : F) (strictToLe : F → F) (ls : List (DumpLine F)) (lr : F) (bs : Option F) (e : PyErr)
    (h : xgboostLoad zero one minusOne strictToLe ls lr bs = .error e ∨ scikitLoad zero one minusOne ls lr bs = .error e) :
    e = .assertionError ∨ e = .indexError := by
  have key : ∀ (cfg : DumpCfg F), dumpLoad cfg zero minusOne ls lr bs = .error e → e = .assertionError ∨ e = .indexError := by
    intro cfg h
    unfold dumpLoad at h
    rw [dumpCount_lines] at h
    simp only [] at h
    have hfold : ∀ (l : List (DumpLine F)) (s : DumpState F), Room s (nodeLineCount ls) (treeLineCount ls) →
        l.foldlM (dumpStep cfg) s = .error e → e = .assertionError ∨ e = .indexError := by
      intro l
      induction l with
      | nil => intro s _ h; cases h
      | cons x l ih =>
        intro s hr h
        rw [List.foldlM_cons] at h
        have hstep : (∃ s', dumpStep cfg s x = .ok s' ∧ Room s' (nodeLineCount ls) (treeLineCount ls)) ∨
            dumpStep cfg s x = .error .assertionError ∨ dumpStep cfg s x = .error .indexError := by
          cases hx : nodeNumber x with
          | some id =>
            by_cases hn : position cfg s id < nodeLineCount ls
            · obtain ⟨s', e1, e2, -⟩ := step_node (cfg := cfg) hr hx hn
              exact .inl ⟨s', e1, e2⟩
            · exact .inr (.inr (step_node_error hr hx (by omega)))
          | none =>
            cases ht : treeNumber x with
            | some i =>
              obtain rfl : x = .tree i := by cases x <;> simp_all [treeNumber]
              by_cases hg : s.queue.length = 0 ∧ i < treeLineCount ls
              · obtain ⟨s', e1, e2, -⟩ := step_tree (cfg := cfg) hr hg.1 hg.2
                exact .inl ⟨s', e1, e2⟩
              · have := step_tree_error (cfg := cfg) hr hg
                split at this
                · exact .inr (.inr this)
                · exact .inr (.inl this)
            | none =>
              obtain ⟨s', e1, e2, -⟩ := step_other (cfg := cfg) hr hx ht
              exact .inl ⟨s', e1, e2⟩
        rcases hstep with ⟨s', e1, e2⟩ | e1 | e1
        · rw [e1] at h
          exact ih s' e2 h
        · rw [e1] at h
          cases h
          exact .inl rfl
        · rw [e1] at h
          cases h
          exact .inr rfl
    cases hf : ls.foldlM (dumpStep cfg) ⟨alloc zero minusOne (treeLineCount ls) (nodeLineCount ls), lr, bs, 0, 0, []⟩ with
    | error e' =>
      rw [hf] at h
      cases h
      exact hfold ls _ (room_alloc ..) hf
    | ok s => rw [hf] at h; cases h
  rcases h with h | h
  · exact key _ h
  · exact key _ h

theorem split_take {A : Type} {l p r : List A} {x : A} {n : Nat} (h : l.take n = p ++ x :: r) : l = p ++ x :: (r ++ l.drop n) := by
  conv_lhs => rw [← List.take_append_drop n l, h]
  simp

/-- C123, XGBoost: a dump cut off after any line is loaded without an error. -/
theorem C123_cut (zero one minusOne half : F) (strictToLe : F → F) {lines : List (DumpLine F)} {ts : List (LTree F)}
    (hlines : lines.filter relevant = forestDump 0 ts) (n : Nat) (lr : F) (bs : Option F) :
    ∃ a, rtEnsemble half .xgboost (xgboostLoad zero one minusOne strictToLe (lines.take n)) lr bs none = .ok a := by
  obtain ⟨a, ha⟩ := (C123_xgboost zero one minusOne strictToLe (lines.take n) lr (initialBase half .xgboost bs)).2 (by
    intro p i r e
    have e2 := congrArg (List.filter relevant) (split_take e)
    rw [hlines, List.filter_append, List.filter_cons_of_pos (by rfl)] at e2
    obtain ⟨h1, h2⟩ := forest_tree ts 0 _ i _ e2
    rw [expected_other] at h1
    rw [treeLineCount_other] at h2
    refine ⟨h1, ?_⟩
    rw [e, treeLineCount_append, h2]
    simp [treeLineCount, treeNumber])
  refine ⟨a, ?_⟩
  unfold rtEnsemble
  rw [ha]
  rfl

/-- C123, ScikitLearn: the same for trees numbered in the order of the lines, as by scikit-learn when trees grow depth first. Missing: other orders
(`C123_order`). -/
theorem C123_cut_scikit_partial (zero one minusOne half : F) {lines : List (DumpLine F)} {ts : List (LTree F)} {b l : F}
    (hlines : lines.filter relevant = .baseScore b :: .learningRate l :: forestDump 0 ts) (hids : ∀ t ∈ ts, t.ids = List.range t.ids.length)
    (n : Nat) (lr : F) (bs : Option F) :
    ∃ a, rtEnsemble half .scikitLearn (scikitLoad zero one minusOne (lines.take n)) lr bs none = .ok a := by
  have strip : ∀ {p : List (DumpLine F)} {x : DumpLine F} {r : List (DumpLine F)}, (treeNumber x ≠ none ∨ nodeNumber x ≠ none) →
      (.baseScore b :: .learningRate l :: forestDump 0 ts) = p ++ x :: r → ∃ q, p = .baseScore b :: .learningRate l :: q ∧ forestDump 0 ts = q ++ x :: r := by
    intro p x r hx e
    match p, e with
    | [], e => cases e; simp [treeNumber, nodeNumber] at hx
    | [y], e => cases e; simp [treeNumber, nodeNumber] at hx
    | y :: z :: q, e =>
      simp only [List.cons_append, List.cons.injEq] at e
      obtain ⟨rfl, rfl, e⟩ := e
      exact ⟨q, rfl, e⟩
  obtain ⟨a, ha⟩ := (C123_scikit zero one minusOne (lines.take n) lr (initialBase half .scikitLearn bs)).2 (by
    constructor
    · intro p i r e
      have e2 := congrArg (List.filter relevant) (split_take e)
      rw [hlines, List.filter_append, List.filter_cons_of_pos (by rfl)] at e2
      obtain ⟨q, hq, e3⟩ := strip (by simp [treeNumber]) e2
      obtain ⟨h1, h2⟩ := forest_tree ts 0 _ i _ e3
      have h3 := expected_other 0 p
      have h4 := treeLineCount_other p
      rw [hq] at h3 h4
      refine ⟨by rw [← h3]; exact h1, ?_⟩
      rw [e, treeLineCount_append, ← h4, h2]
      simp [treeLineCount, treeNumber, List.filterMap_cons]
    · intro p x r id e hx
      have hrel : relevant x = true := by cases x <;> first | rfl | cases hx
      have e2 := congrArg (List.filter relevant) (split_take e)
      rw [hlines, List.filter_append, List.filter_cons_of_pos hrel] at e2
      obtain ⟨q, hq, e3⟩ := strip (.inr (by rw [hx]; simp)) e2
      have h1 := forest_node ts hids 0 0 0 q x id _ e3 hx
      have h3 := earlier_other 0 0 p
      have h4 := nodeLineCount_other p
      rw [hq] at h3 h4
      have h5 : nodeLineCount (DumpLine.baseScore b :: .learningRate l :: q) = nodeLineCount q := by
        simp [nodeLineCount, nodeNumber, List.filterMap_cons]
      have h6 : nodeLineCount (x :: r) = 1 + nodeLineCount r := by simp [nodeLineCount, hx]; omega
      simp only [earlier] at h3
      rw [e, nodeLineCount_append, h6]
      omega)
  refine ⟨a, ?_⟩
  unfold rtEnsemble
  rw [ha]
  rfl

/-! ### The file of a failed export -/

theorem exportLines {D : Type} {float : List Char → Option F} (pr : Printer D) {fmt str : D → F} (hpr : PrinterReads pr float fmt str)
    {sks : List (SkTree D)} {ts : List (LTree D)} (henc : List.Forall₂ (fun a t => SkEncodes a 0 t) sks ts)
    (hids : ∀ t ∈ ts, t.ids.Perm (List.range t.ids.length)) (b l : D) :
    ∃ lines, Ensemble.exportText pr b l (sks.map oneOutput) = .ok lines.flatten ∧
      List.Forall₂ (SpellsSk float) lines (.baseScore (fmt b) :: .learningRate (fmt l) :: forestDump 0 (ts.map (fun t => t.mapValues fmt str))) ∧
      ∀ x ∈ lines, ∃ y, x = y ++ ['\n'] ∧ '\n' ∉ y := by
  obtain ⟨bodies, lines, h1, h2, h3, h4⟩ := exportBodies_ok pr henc hids hpr 0
  refine ⟨("base_score=".toList ++ pr.showF b ++ ['\n']) :: ("learning_rate=".toList ++ pr.showF l ++ ['\n']) :: lines, ?_, ?_, ?_⟩
  · unfold Ensemble.exportText
    rw [h1]
    simp only [bind, Except.bind, pure, Except.pure, h2]
    simp
  · exact .cons ⟨⟨_, _, rfl, hpr.f b, .inr rfl⟩, by intro _ _ h; cases h⟩
      (.cons ⟨⟨_, _, rfl, hpr.f l, .inr rfl⟩, by intro _ _ h; cases h⟩ h3)
  · intro x hx
    rcases List.mem_cons.1 hx with rfl | hx
    · refine ⟨_, rfl, ?_⟩
      rw [List.mem_append, not_or]
      exact ⟨by decide, fun h => (numText_plain (hpr.f b) _ h).2.2.2.1 rfl⟩
    · rcases List.mem_cons.1 hx with rfl | hx
      · refine ⟨_, rfl, ?_⟩
        rw [List.mem_append, not_or]
        exact ⟨by decide, fun h => (numText_plain (hpr.f l) _ h).2.2.2.1 rfl⟩
      · exact h4 x hx

theorem wholeLines_take : ∀ {lines : List (List Char)} {part rest : List Char}, (∀ x ∈ lines, ∃ y, x = y ++ ['\n'] ∧ '\n' ∉ y) → WholeLines part →
    part ++ rest = lines.flatten → ∃ n, part = (lines.take n).flatten
  | [], part, rest, _, _, e => ⟨0, by simp at e; simp [e.1]⟩
  | x :: lines, part, rest, h, hp, e => by
    rcases hp with rfl | hp
    · exact ⟨0, by simp⟩
    · obtain ⟨y, rfl, hy⟩ := h x (by simp)
      rw [List.flatten_cons] at e
      have key : ∃ q, part = (y ++ ['\n']) ++ q ∧ q ++ rest = lines.flatten := by
        rcases List.append_eq_append_iff.1 e with ⟨c, h1, h2⟩ | ⟨c, h1, h2⟩
        · rcases List.eq_nil_or_concat c with rfl | ⟨c', z, rfl⟩
          · exact ⟨[], by simpa using h1.symm, by simpa using h2⟩
          · exfalso
            rw [List.concat_eq_append, ← List.append_assoc] at h1
            have hpre : y = part ++ c' := List.append_inj_left' h1 rfl
            obtain ⟨w, hw⟩ : ∃ w, part = w ++ ['\n'] := by
              obtain ⟨w, hw⟩ := List.getLast?_eq_some_iff.1 hp
              exact ⟨w, hw⟩
            exact hy (by rw [hpre, hw]; simp)
        · exact ⟨c, h1, h2.symm⟩
      obtain ⟨q, rfl, hq⟩ := key
      have hq' : WholeLines q := by
        by_cases hn : q = []
        · exact .inl hn
        · right
          rw [List.getLast?_append_of_ne_nil _ hn] at hp
          exact hp
      obtain ⟨n, rfl⟩ := wholeLines_take (fun z hz => h z (by simp [hz])) hq' hq
      exact ⟨n + 1, by simp⟩

/-- C123: if `export_scikit_model` raises `RecursionError`, then the file it leaves is loaded without an error, for trees numbered depth first. Missing: other
orders. -/
theorem C123_export_partial {D : Type} {float : List Char → Option F} (zero one minusOne half : F) (pr : Printer D) {fmt str : D → F}
    (hpr : PrinterReads pr float fmt str) {sks : List (SkTree D)} {ts : List (LTree D)} (henc : List.Forall₂ (fun a t => SkEncodes a 0 t) sks ts)
    (hids : ∀ t ∈ ts, t.ids = List.range t.ids.length) (c : SkFile.Calls) (b l : D) (frames : Nat) (old : List Char)
    (hdeep : ∃ t ∈ ts, frames < 1 + max (max c.imports c.unique) t.levels) (lr : F) (bs : Option F) :
    ∃ file a, SkFile.exportSkFile pr c frames ⟨some (sks.map (fun a => some (oneOutput a))), some (some b, none), l⟩ old = (.error .runtimeError, file) ∧
      rtEnsemble half .scikitLearn (scikitTextLoad zero one minusOne float file) lr bs none = .ok a := by
  have hperm : ∀ t ∈ ts, t.ids.Perm (List.range t.ids.length) := fun t ht => by rw [← hids t ht]
  obtain ⟨text, h1, -, h2⟩ := C122_file pr c henc hperm b l frames old
  obtain ⟨part, rest, -, e, h3⟩ := h2 hdeep
  obtain ⟨lines, h4, h5, h6⟩ := exportLines pr hpr henc hperm b l
  rw [h1] at h4
  cases h4
  have hwhole := C122_lines pr c frames ⟨some (sks.map (fun a => some (oneOutput a))), some (some b, none), l⟩ [] (.inl rfl)
  have hsame : SkFile.exportSkFile pr c frames ⟨some (sks.map (fun a => some (oneOutput a))), some (some b, none), l⟩ [] = (.error .runtimeError, part) := h3
  rw [hsame] at hwhole
  simp only [] at hwhole
  obtain ⟨n, hn⟩ := wholeLines_take h6 hwhole e
  have hl : IsLines (lines.take n) part := by
    rw [hn]
    exact Svm.isLines_flatten (fun x hx => h6 x (List.mem_of_mem_take hx))
  obtain ⟨a, ha⟩ := C123_cut_scikit_partial (lines := .baseScore (fmt b) :: .learningRate (fmt l) :: forestDump 0 (ts.map (fun t => t.mapValues fmt str)))
    (ts := ts.map (fun t => t.mapValues fmt str)) zero one minusOne half (by
      have hfilter : ∀ k (us : List (LTree F)), (forestDump k us).filter relevant = forestDump k us := by
        have hd : ∀ u : LTree F, u.dump.filter relevant = u.dump := by
          intro u
          induction u with
          | leaf => rfl
          | node _ _ _ _ _ ihl ihr => rw [LTree.dump, List.filter_cons_of_pos (by rfl), List.filter_append, ihl, ihr]
        intro k us
        induction us generalizing k with
        | nil => rfl
        | cons u us ih => rw [forestDump, List.filter_cons_of_pos (by rfl), List.filter_append, hd, ih]
      rw [List.filter_cons_of_pos (by rfl), List.filter_cons_of_pos (by rfl), hfilter]) (by
      intro t ht
      obtain ⟨u, hu, rfl⟩ := List.mem_map.1 ht
      rw [ids_mapValues]
      exact hids u hu) n lr bs
  refine ⟨part, a, h3, ?_⟩
  rw [C71_scikit_text zero one minusOne hl (List.forall₂_take n h5)]
  exact ha

/-- C123: a tree numbered level by level, cut off after the leaf 3: the file is refused. -/
theorem C123_order : scikitLoad (0 : ℚ) 1 (-1) [.tree 0, .node 0 4 7, .node 1 5 3, .leaf 3 6, .leaf 4 8, .leaf 2 5] 1 none =
      .ok ⟨⟨1, 5, [0], [1], [1, 3, -1, -1, -1], [2, 4, -1, -1, -1], [7, 3, 5, 6, 8], [4, 5, -1, -1, -1]⟩, 1, none⟩ ∧
    scikitLoad (0 : ℚ) 1 (-1) [.tree 0, .node 0 4 7, .node 1 5 3, .leaf 3 6] 1 none = .error .indexError := by
  decide +kernel

/-- C123 is violated: an XGBoost dump of two trees that has lost its last lines is loaded without an error. The second tree is a split without children,
and its score is the threshold: the document gets 10 + 30 instead of 10 + 7. -/
theorem C123_violated :
    xgboostLoad (0 : ℚ) 1 (-1) id [.tree 0, .leaf 0 10, .tree 1, .node 0 0 30, .leaf 1 7, .leaf 2 8] 1 (some 0) =
      .ok ⟨⟨2, 4, [0, 1], [1, 1], [-1, 2, -1, -1], [-1, 3, -1, -1], [10, 30, 7, 8], [-1, 0, -1, -1]⟩, 1, some 0⟩ ∧
    scoreFresh (exactOps ℚ) ⟨2, 4, [0, 1], [1, 1], [-1, 2, -1, -1], [-1, 3, -1, -1], [10, 30, 7, 8], [-1, 0, -1, -1]⟩ 1 (some 0) false [[1]] 1 =
      .ok ⟨[17], none, none⟩ ∧
    xgboostLoad (0 : ℚ) 1 (-1) id [.tree 0, .leaf 0 10, .tree 1, .node 0 0 30] 1 (some 0) =
      .ok ⟨⟨2, 2, [0, 1], [1, 1], [-1, -1], [-1, -1], [10, 30], [-1, 0]⟩, 1, some 0⟩ ∧
    scoreFresh (exactOps ℚ) ⟨2, 2, [0, 1], [1, 1], [-1, -1], [-1, -1], [10, 30], [-1, 0]⟩ 1 (some 0) false [[1]] 1 = .ok ⟨[40], none, none⟩ := by
  decide +kernel

/-- C123: lines that are refused: a tree begins where a child is expected; a number of a tree that is too large. A node outside any tree is not refused. -/
example : xgboostLoad (0 : ℚ) 1 (-1) id [.tree 0, .node 0 0 30, .leaf 1 7, .tree 1, .leaf 0 8] 1 none = .error .assertionError ∧
    xgboostLoad (0 : ℚ) 1 (-1) id [.tree 0, .leaf 0 7, .tree 2, .leaf 0 8] 1 none = .error .indexError ∧
    xgboostLoad (0 : ℚ) 1 (-1) id [.leaf 0 7, .tree 0, .leaf 0 8] 1 none = .ok ⟨⟨1, 2, [1], [1], [-1, -1], [-1, -1], [7, 8], [-1, -1]⟩, 1, none⟩ := by
  decide +kernel

/-- C123: the hypotheses of the theorems on dumps that are cut off can be met. -/
example : [DumpLine.baseScore (3 : ℚ), .other, .learningRate 2, .tree 0, .node 0 4 7, .leaf 1 5, .leaf 2 6].filter relevant =
      .baseScore 3 :: .learningRate 2 :: forestDump 0 [.node 0 4 7 (.leaf 1 5) (.leaf 2 6)] ∧
    ∀ t ∈ [LTree.node 0 4 (7 : ℚ) (.leaf 1 5) (.leaf 2 6)], t.ids = List.range t.ids.length := by
  refine ⟨rfl, ?_⟩
  intro t ht
  rw [List.mem_singleton.1 ht]
  decide

end Verif.Props
