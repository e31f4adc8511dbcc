/-
Property C71: the text of dump files (XGBoost, ScikitLearn).
-/
import Verif.Lemmas.DumpText
import Verif.Lemmas.SvmlightDump
import Verif.Props.LoadDump
import Mathlib.Data.List.TakeWhile

namespace Verif.Props
open Spec Ensemble

/-- C71: the matcher is right: `search` fails iff no part of the text matches, and a result comes from a part that matches. -/
theorem C71_search (re : Re) (s : List Char) :
    (re.search s = none ↔ ∀ u t r g, u ++ t ++ r = s → ¬ Matches re t r g) ∧
      ∀ g, re.search s = some g → ∃ u t r, u ++ t ++ r = s ∧ Matches re t r g := by
  refine ⟨search_none, ?_⟩
  induction s with
  | nil =>
    intro g h
    obtain ⟨k, hk, rfl⟩ := Option.map_eq_some_iff.1 h
    have := mem_run.1 (List.mem_of_mem_head? hk)
    exact ⟨[], k.text, k.rest, by simpa using this.1, this.2⟩
  | cons c cs ih =>
    intro g h
    simp only [Re.search] at h
    cases hm : re.match (c :: cs) with
    | none =>
      rw [hm] at h
      obtain ⟨u, t, r, h1, h2⟩ := ih g h
      exact ⟨c :: u, t, r, by simp [h1], h2⟩
    | some g' =>
      rw [hm] at h
      obtain ⟨k, hk, rfl⟩ := Option.map_eq_some_iff.1 hm
      have := mem_run.1 (List.mem_of_mem_head? hk)
      cases h
      exact ⟨[], k.text, k.rest, by simpa using this.1, this.2⟩

/-- The expression for nodes on a line of a dump, and on one with a named feature. -/
example : (nodeReg ['<']).search "\t12:[f7<0.5] yes=13,no=14,missing=13\n".toList = some ["12".toList, "7".toList, "0.5".toList] ∧
    (nodeReg ['<']).search "\t12:[age<0.5] yes=13,no=14,missing=13\n".toList = none ∧
    xgbLeafReg.search "\t\t13:leaf=-1.5,cover=3\n".toList = some ["13".toList, "-1.5".toList, ",cover=3".toList] := by
  decide +kernel

section
variable {F : Type} {float : List Char → Option F}

/-- C71, XGBoost: a file whose lines spell the lines of a dump is loaded as that dump, including errors. -/
theorem C71_xgboost_text (zero one minusOne : F) (strictToLe : F → F) {file : List Char} {ls : List (List Char)} (hfile : IsLines ls file)
    {ds : List (DumpLine F)} (h : List.Forall₂ (SpellsDump ['<'] float) ls ds) :
    xgboostTextLoad zero one minusOne strictToLe float file = xgboostLoad zero one minusOne strictToLe ds :=
  textLoad_eq _ zero minusOne hfile (h.imp (fun _ _ h => xgboost_line strictToLe one h))

/-- C71, ScikitLearn. -/
theorem C71_scikit_text (zero one minusOne : F) {file : List Char} {ls : List (List Char)} (hfile : IsLines ls file)
    {ds : List (DumpLine F)} (h : List.Forall₂ (SpellsSk float) ls ds) :
    scikitTextLoad zero one minusOne float file = scikitLoad zero one minusOne ds :=
  textLoad_eq _ zero minusOne hfile (h.imp (fun _ _ h => scikit_line one h))

/-- C71, XGBoost: from the text of a dump to the trees. Missing: features from 2^15 on (`C69_violated_feature`) and named features
(`C71_violated_names`). -/
theorem C71_xgboost_partial (zero one minusOne half : F) (strictToLe : F → F) {file : List Char} {ls : List (List Char)} (hfile : IsLines ls file)
    {ds : List (DumpLine F)} (h : List.Forall₂ (SpellsDump ['<'] float) ls ds) {ts : List (LTree F)} (hds : ds.filter relevant = forestDump 0 ts)
    (hf : ∀ t ∈ ts, ∀ f ∈ (t.toTree strictToLe).features, f < 2 ^ 15) (lr : F) (bs : Option F) (nTrees : Option Nat) :
    ∃ a, rtEnsemble half .xgboost (xgboostTextLoad zero one minusOne strictToLe float file) lr bs nTrees = .ok ⟨a, lr, some (bs.elim half id)⟩ ∧
      Represents a ((ts.map (fun t => (t.toTree strictToLe, one))).take (nTrees.elim ts.length id)) := by
  rw [C71_xgboost_text zero one minusOne strictToLe hfile h]
  exact C38_load zero one minusOne half strictToLe hds hf lr bs nTrees

/-- C71, ScikitLearn: from the text to the trees. Missing: features from 2^15 on. -/
theorem C71_scikit_partial (zero one minusOne half : F) {file : List Char} {ls : List (List Char)} (hfile : IsLines ls file)
    {ds : List (DumpLine F)} (h : List.Forall₂ (SpellsSk float) ls ds) {ts : List (LTree F)} {b l : F}
    (hds : ds.filter relevant = .baseScore b :: .learningRate l :: forestDump 0 ts)
    (hids : ∀ t ∈ ts, t.ids.Perm (List.range t.ids.length) ∧ t.ids.head? = some 0)
    (hf : ∀ t ∈ ts, ∀ f ∈ (t.toTree id).features, f < 2 ^ 15) (lr : F) (bs : Option F) (nTrees : Option Nat) :
    ∃ a, rtEnsemble half .scikitLearn (scikitTextLoad zero one minusOne float file) lr bs nTrees = .ok ⟨a, l, some b⟩ ∧
      Represents a ((ts.map (fun t => (t.toTree id, one))).take (nTrees.elim ts.length id)) := by
  rw [C71_scikit_text zero one minusOne hfile h]
  exact C40_load zero one minusOne half hds hids hf lr bs nTrees

/-- C71: lines of splits with named features are skipped: the file is loaded as if they were missing. -/
theorem C71_named_splits (zero one minusOne : F) (strictToLe : F → F) {file : List Char} {ls : List (List Char)} (hfile : IsLines ls file)
    {ds : List (DumpLine F)} (h : List.Forall₂ (fun l d => SpellsDump ['<'] float l d ∨ NamedSplit l ∧ d = .other) ls ds) :
    xgboostTextLoad zero one minusOne strictToLe float file = xgboostLoad zero one minusOne strictToLe ds := by
  refine textLoad_eq _ zero minusOne hfile (h.imp ?_)
  rintro l d (h | ⟨⟨sp, ids, c, tail, id, rfl, hsp, hid, hc, htail⟩, rfl⟩)
  · exact xgboost_line strictToLe one h
  · exact namedLine _ (cfgOk_xgboost strictToLe one float) hsp hid hc htail

end

/-- A reader of natural numbers and decimal fractions, for the examples. -/
def readDecimal (s : List Char) : Option ℚ :=
  let a := s.takeWhile Re.isDigit
  match s.dropWhile Re.isDigit with
  | [] => if a = [] then none else some (Svm.digitsValue a)
  | '.' :: b => if a = [] ∨ b.any (fun c => !Re.isDigit c) then none else some (Svm.digitsValue a + Svm.digitsValue b / 10 ^ b.length)
  | _ => none

/-- A dump as written by XGBoost, with one tree. `name` is how the feature is written. -/
def dumpFile (name : String) : List Char :=
  ("booster[0]:\n0:[" ++ name ++ "<2.5] yes=1,no=2,missing=1\n\t1:leaf=10\n\t2:leaf=20\n").toList

/-- C71: the file for feature 0 meets the hypotheses, and is loaded as the tree. -/
example : ∃ ls ds, IsLines ls (dumpFile "f0") ∧ List.Forall₂ (SpellsDump ['<'] readDecimal) ls ds ∧
    ds.filter relevant = forestDump 0 [.node 0 0 (5 / 2) (.leaf 1 10) (.leaf 2 20)] ∧
    (rtEnsemble (1 / 2) .xgboost (xgboostTextLoad 0 1 (-1) id readDecimal (dumpFile "f0")) 1 (some 0) none).bind
      (fun l => scoreFresh (exactOps ℚ) l.arrays l.learningRate l.baseScore false [[1], [9]] 1) = .ok ⟨[10, 20], none, none⟩ := by
  refine ⟨["booster[0]:\n".toList, "0:[f0<2.5] yes=1,no=2,missing=1\n".toList, "\t1:leaf=10\n".toList, "\t2:leaf=20\n".toList],
    [.tree 0, .node 0 0 (5 / 2), .leaf 1 10, .leaf 2 20], ?_, ?_, by decide +kernel, by decide +kernel⟩
  · have : ["booster[0]:\n".toList, "0:[f0<2.5] yes=1,no=2,missing=1\n".toList, "\t1:leaf=10\n".toList, "\t2:leaf=20\n".toList].flatten = dumpFile "f0" := by
      decide +kernel
    rw [← this]
    apply Svm.isLines_flatten
    intro l hl
    refine ⟨l.dropLast, ?_⟩
    revert l
    decide +kernel
  · have n0 : Numeral ['0'] 0 := .one (d := 0) (by decide)
    have n1 : Numeral ['1'] 1 := .one (d := 1) (by decide)
    have n2 : Numeral ['2'] 2 := .one (d := 2) (by decide)
    refine .cons ⟨['0'], [':', '\n'], by decide, n0⟩ (.cons ?_ (.cons ?_ (.cons ?_ .nil)))
    · exact ⟨[], ['0'], ['0'], "2.5".toList, " yes=1,no=2,missing=1\n".toList, by decide, by intro c hc; simp at hc, n0, n0,
        ⟨by decide +kernel, by decide, by decide⟩, by decide⟩
    · exact ⟨['\t'], ['1'], "10".toList, ['\n'], by decide, by intro c hc; right; simpa using hc, n1, ⟨by decide +kernel, by decide, by decide⟩,
        .inl (.inr rfl)⟩
    · exact ⟨['\t'], ['2'], "20".toList, ['\n'], by decide, by intro c hc; right; simpa using hc, n2, ⟨by decide +kernel, by decide, by decide⟩,
        .inl (.inr rfl)⟩

/-- C71 is violated: the dump of a model trained with feature names is loaded without an error, and every document gets the value of the
first leaf. -/
theorem C71_violated_names : (rtEnsemble (1 / 2) .xgboost (xgboostTextLoad 0 1 (-1) id readDecimal (dumpFile "age")) 1 (some 0) none) =
      .ok ⟨⟨1, 2, [0], [1], [-1, -1], [-1, -1], [10, 20], [-1, -1]⟩, 1, some 0⟩ ∧
    scoreFresh (exactOps ℚ) ⟨1, 2, [0], [1], [-1, -1], [-1, -1], [10, 20], [-1, -1]⟩ 1 (some 0) false [[1], [9]] 1 = .ok ⟨[10, 10], none, none⟩ := by
  decide +kernel

/-! ### Writing -/

section
variable {D F : Type} {float : List Char → Option F}

/-- The arrays with one output for each node. -/
def oneOutput (a : SkTree D) : SkArrays D := ⟨a.feature, a.threshold, a.childrenLeft, a.childrenRight, a.value.map (fun v => [v])⟩

/-- The lines of a tree. -/
def treeLines (pr : Printer D) : Nat → LTree D → List (List Char)
  | depth, .leaf id v => [List.replicate depth '\t' ++ Svm.decimal id ++ ":leaf=".toList ++ pr.showS v ++ ['\n']]
  | depth, .node id f t l r =>
    (List.replicate depth '\t' ++ Svm.decimal id ++ ":[f".toList ++ Svm.decimal f ++ ['<', '='] ++ pr.showF t ++ [']', '\n']) ::
      (treeLines pr (depth + 1) l ++ treeLines pr (depth + 1) r)

theorem showInt_nat (n : Nat) : Svm.showInt (n : Int) = Svm.decimal n := by
  unfold Svm.showInt
  rw [if_neg (by omega)]
  simp

theorem exportTextNode_ok (pr : Printer D) {a : SkTree D} {i : Nat} {t : LTree D} (h : SkEncodes a i t) :
    ∀ fuel depth, t.ids.length ≤ fuel → exportTextNode pr (oneOutput a) fuel i depth = .ok (treeLines pr depth t).flatten := by
  induction h with
  | @leaf i v hf hv =>
    intro fuel depth hfuel
    obtain ⟨n, rfl⟩ : ∃ n, fuel = n + 1 := ⟨fuel - 1, by simp [LTree.ids] at hfuel; omega⟩
    have hv' : (oneOutput a).values[i]? = some [v] := by simp [oneOutput, hv]
    unfold exportTextNode
    rw [show (oneOutput a).feature = a.feature from rfl, pyGet_ok hf]
    simp only [bind, Except.bind, pyGet_ok hv', leafText, pure, Except.pure, showInt_nat, treeLines]
    simp
  | @node i f l r th tl tr hf ht hl hr _ _ ihl ihr =>
    intro fuel depth hfuel
    simp only [LTree.ids, List.length_cons, List.length_append] at hfuel
    obtain ⟨n, rfl⟩ : ∃ n, fuel = n + 1 := ⟨fuel - 1, by omega⟩
    unfold exportTextNode
    rw [show (oneOutput a).feature = a.feature from rfl, show (oneOutput a).threshold = a.threshold from rfl,
      show (oneOutput a).childrenLeft = a.childrenLeft from rfl, show (oneOutput a).childrenRight = a.childrenRight from rfl]
    simp only [pyGet_ok hf, pyGet_ok ht, pyGet_ok hl, pyGet_ok hr, bind, Except.bind, ihl n (depth + 1) (by omega), ihr n (depth + 1) (by omega)]
    rw [if_pos (by omega)]
    simp [showInt_nat, treeLines, pure, Except.pure]

/-- What the printer has to do: the texts are read as numbers, `fmt` and `str` of what was printed. -/
structure PrinterReads (pr : Printer D) (float : List Char → Option F) (fmt str : D → F) : Prop where
  f : ∀ x, NumText float (pr.showF x) (fmt x)
  s : ∀ x, NumText float (pr.showS x) (str x)

theorem noNewline_decimal (n : Nat) : '\n' ∉ Svm.decimal n := fun h => numeral_plain (Svm.decimal_numeral n) _ h (by simp)

theorem noComma_decimal (n : Nat) : ',' ∉ Svm.decimal n := fun h => by
  have := numeral_isDigit (Svm.decimal_numeral n) _ h
  exact absurd this (by decide)

theorem treeLines_spell {pr : Printer D} {fmt str : D → F} (hpr : PrinterReads pr float fmt str) (t : LTree D) : ∀ depth,
    List.Forall₂ (SpellsSk float) (treeLines pr depth t) (t.mapValues fmt str).dump ∧
      ∀ l ∈ treeLines pr depth t, ∃ b, l = b ++ ['\n'] ∧ '\n' ∉ b := by
  have hindent : ∀ depth, Indent (List.replicate depth '\t') := fun depth c hc => .inr (List.eq_of_mem_replicate hc)
  have hn : ∀ depth, '\n' ∉ List.replicate depth '\t' := fun depth hc => absurd (List.eq_of_mem_replicate hc) (by decide)
  have hcm : ∀ depth, ',' ∉ List.replicate depth '\t' := fun depth hc => absurd (List.eq_of_mem_replicate hc) (by decide)
  induction t with
  | leaf id v =>
    intro depth
    refine ⟨.cons ⟨⟨_, _, _, ['\n'], rfl, hindent depth, Svm.decimal_numeral id, hpr.s v, .inl (.inr rfl)⟩, ?_⟩ .nil, ?_⟩
    · rintro _ _ -
      simp only [List.mem_append, not_or]
      exact ⟨⟨⟨⟨hcm depth, noComma_decimal id⟩, by decide⟩, fun h => (numText_plain (hpr.s v) _ h).2.2.1 rfl⟩, by decide⟩
    · intro l hl
      simp only [treeLines, List.mem_singleton] at hl
      refine ⟨_, hl, ?_⟩
      simp only [List.mem_append, not_or]
      exact ⟨⟨⟨hn depth, noNewline_decimal id⟩, by decide⟩, fun h => (numText_plain (hpr.s v) _ h).2.2.2.1 rfl⟩
  | node id f t l r ihl ihr =>
    intro depth
    constructor
    · simp only [treeLines, LTree.mapValues, LTree.dump]
      refine .cons ⟨⟨_, _, _, _, ['\n'], ?_, hindent depth, Svm.decimal_numeral id, Svm.decimal_numeral f, hpr.f t, by decide⟩, ?_⟩
        (List.rel_append (ihl (depth + 1)).1 (ihr (depth + 1)).1)
      · simp
      · intro _ _ h; cases h
    · intro x hx
      simp only [treeLines, List.mem_cons, List.mem_append] at hx
      rcases hx with rfl | hx | hx
      · refine ⟨List.replicate depth '\t' ++ Svm.decimal id ++ ":[f".toList ++ Svm.decimal f ++ ['<', '='] ++ pr.showF t ++ [']'], by simp, ?_⟩
        simp only [List.mem_append, not_or]
        exact ⟨⟨⟨⟨⟨⟨hn depth, noNewline_decimal id⟩, by decide⟩, noNewline_decimal f⟩, by decide⟩,
          fun h => (numText_plain (hpr.f t) _ h).2.2.2.1 rfl⟩, by decide⟩
      · exact (ihl (depth + 1)).2 x hx
      · exact (ihr (depth + 1)).2 x hx

theorem mem_intersperse_flatten {sep : List Char} {L : List (List Char)} {c : Char} (h : c ∈ (List.intersperse sep L).flatten) :
    c ∈ sep ∨ ∃ l ∈ L, c ∈ l := by
  induction L with
  | nil => simp at h
  | cons x L ih =>
    cases L with
    | nil => simp at h; exact .inr ⟨x, by simp, h⟩
    | cons y L =>
      rw [List.intersperse_cons₂] at h
      simp only [List.flatten_cons, List.mem_append] at h
      rcases h with h | h | h
      · exact .inr ⟨x, by simp, h⟩
      · exact .inl h
      · rcases ih h with h | ⟨l, hl, h⟩
        · exact .inl h
        · exact .inr ⟨l, by simp [hl], h⟩

theorem treeHeader_spell (k : Nat) (a : SkArrays D) : SpellsSk float (treeHeader k a) (.tree k) ∧ ∃ b, treeHeader k a = b ++ ['\n'] ∧ '\n' ∉ b := by
  have e1 : "] [".toList = [']', ' ', '['] := by decide
  have e2 : "]:\n".toList = [']', ':', '\n'] := by decide
  refine ⟨⟨⟨Svm.decimal k, ' ' :: '[' :: ((List.intersperse [' '] (((a.feature.dedup.insertionSort (· ≤ ·)).filter (· ≠ -2)).map
      (fun f => 'f' :: Svm.showInt f))).flatten ++ "]:\n".toList), ?_, Svm.decimal_numeral k⟩, by intro _ _ h; cases h⟩, ?_⟩
  · unfold treeHeader
    rw [e1]
    simp
  · refine ⟨"booster[".toList ++ Svm.decimal k ++ "] [".toList ++ (List.intersperse [' '] (((a.feature.dedup.insertionSort (· ≤ ·)).filter
      (· ≠ -2)).map (fun f => 'f' :: Svm.showInt f))).flatten ++ "]:".toList, ?_, ?_⟩
    · unfold treeHeader
      rw [List.append_assoc _ "]:".toList]
      rfl
    · simp only [List.mem_append, not_or]
      refine ⟨⟨⟨⟨by decide, noNewline_decimal k⟩, by decide⟩, ?_⟩, by decide⟩
      intro h
      rcases mem_intersperse_flatten h with h | ⟨l, hl, h⟩
      · exact absurd h (by decide)
      · obtain ⟨f, -, rfl⟩ := List.mem_map.1 hl
        rcases List.mem_cons.1 h with h | h
        · exact absurd h (by decide)
        · exact (Svm.isWord_showInt f).2 _ h (by simp)

theorem exportBodies_ok (pr : Printer D) {sks : List (SkTree D)} {ts : List (LTree D)} (henc : List.Forall₂ (fun a t => SkEncodes a 0 t) sks ts)
    (hids : ∀ t ∈ ts, t.ids.Perm (List.range t.ids.length)) {fmt str : D → F} (hpr : PrinterReads pr float fmt str) (k : Nat) :
    ∃ bodies lines, ((sks.map oneOutput).zipIdx k).mapM (fun p => do
        let body ← exportTextNode pr p.1 (p.1.feature.length + 1) 0 1
        pure (treeHeader p.2 p.1 ++ body)) = .ok bodies ∧ bodies.flatten = lines.flatten ∧
      List.Forall₂ (SpellsSk float) lines (forestDump k (ts.map (fun t => t.mapValues fmt str))) ∧
      ∀ l ∈ lines, ∃ b, l = b ++ ['\n'] ∧ '\n' ∉ b := by
  induction henc generalizing k with
  | nil => exact ⟨[], [], rfl, rfl, .nil, by simp⟩
  | @cons a t as ts h _ ih =>
    obtain ⟨bodies, lines, h1, h2, h3, h4⟩ := ih (fun t ht => hids t (by simp [ht])) (k + 1)
    have hlen : t.ids.length ≤ a.feature.length + 1 := by
      by_contra hcon
      have hmem : t.ids.length - 1 ∈ t.ids := (hids t (by simp)).mem_iff.2 (List.mem_range.2 (by omega))
      have := (skEncodes_ids h).2 _ hmem
      omega
    have hbody := exportTextNode_ok pr h _ 1 hlen
    simp only [Nat.cast_zero] at hbody
    obtain ⟨s1, s2⟩ := treeLines_spell hpr t 1
    obtain ⟨t1, t2⟩ := treeHeader_spell (float := float) k (oneOutput a)
    refine ⟨(treeHeader k (oneOutput a) ++ (treeLines pr 1 t).flatten) :: bodies, treeHeader k (oneOutput a) :: (treeLines pr 1 t ++ lines), ?_, ?_, ?_, ?_⟩
    · rw [List.map_cons, List.zipIdx_cons, List.mapM_cons, h1]
      show (do
        let body ← (do
          let body ← exportTextNode pr (oneOutput a) (a.feature.length + 1) 0 1
          pure (treeHeader k (oneOutput a) ++ body))
        let bs ← Except.ok bodies
        pure (body :: bs)) = _
      rw [hbody]
      rfl
    · simp [h2]
    · rw [List.map_cons, forestDump]
      exact .cons t1 (List.rel_append s1 h3)
    · intro l hl
      rcases List.mem_cons.1 hl with rfl | hl
      · exact t2
      · rcases List.mem_append.1 hl with hl | hl
        · exact s2 l hl
        · exact h4 l hl

/-- C71: the text written by `export_scikit_model` for fitted trees with one output is loaded as the same trees, base score and learning
rate, up to what printing and reading do to the numbers. Missing: trees with several outputs (`C71_violated_classes`) and features from
2^15 on. -/
theorem C71_export_partial (zero one minusOne half : F) (pr : Printer D) {fmt str : D → F} (hpr : PrinterReads pr float fmt str) {sks : List (SkTree D)}
    {ts : List (LTree D)} (henc : List.Forall₂ (fun a t => SkEncodes a 0 t) sks ts) (hids : ∀ t ∈ ts, t.ids.Perm (List.range t.ids.length))
    (hf : ∀ t ∈ ts, ∀ f ∈ (t.toTree id).features, f < 2 ^ 15) (b l : D) (lr : F) (bs : Option F) :
    ∃ text a, exportText pr b l (sks.map oneOutput) = .ok text ∧
      rtEnsemble half .scikitLearn (scikitTextLoad zero one minusOne float text) lr bs none = .ok ⟨a, fmt l, some (fmt b)⟩ ∧
      Represents a (ts.map (fun t => ((t.mapValues fmt str).toTree id, one))) := by
  obtain ⟨bodies, lines, h1, h2, h3, h4⟩ := exportBodies_ok pr henc hids hpr 0
  have hhead : ∀ t ∈ ts, t.ids.head? = some 0 := by
    clear h1 h3 hf hids
    induction henc with
    | nil => simp
    | cons h _ ih => intro t ht; rcases List.mem_cons.1 ht with rfl | ht; exacts [(skEncodes_ids h).1, ih t ht]
  have hlines : IsLines (("base_score=".toList ++ pr.showF b ++ ['\n']) :: ("learning_rate=".toList ++ pr.showF l ++ ['\n']) :: lines)
      ("base_score=".toList ++ pr.showF b ++ ['\n'] ++ ("learning_rate=".toList ++ pr.showF l ++ ['\n']) ++ bodies.flatten) := by
    have := Svm.isLines_flatten (ls := ("base_score=".toList ++ pr.showF b ++ ['\n']) :: ("learning_rate=".toList ++ pr.showF l ++ ['\n']) :: lines) (by
      intro x hx
      rcases List.mem_cons.1 hx with rfl | hx
      · refine ⟨_, rfl, ?_⟩
        rw [List.mem_append, not_or]
        exact ⟨by decide, fun h => (numText_plain (hpr.f b) _ h).2.2.2.1 rfl⟩
      · rcases List.mem_cons.1 hx with rfl | hx
        · refine ⟨_, rfl, ?_⟩
          rw [List.mem_append, not_or]
          exact ⟨by decide, fun h => (numText_plain (hpr.f l) _ h).2.2.2.1 rfl⟩
        · exact h4 x hx)
    rw [h2]
    simpa using this
  have hspell : List.Forall₂ (SpellsSk float)
      (("base_score=".toList ++ pr.showF b ++ ['\n']) :: ("learning_rate=".toList ++ pr.showF l ++ ['\n']) :: lines)
      (.baseScore (fmt b) :: .learningRate (fmt l) :: forestDump 0 (ts.map (fun t => t.mapValues fmt str))) :=
    .cons ⟨⟨_, _, rfl, hpr.f b, .inr rfl⟩, by intro _ _ h; cases h⟩
      (.cons ⟨⟨_, _, rfl, hpr.f l, .inr rfl⟩, by intro _ _ h; cases h⟩ h3)
  have hfilter : ∀ k (us : List (LTree F)), (forestDump k us).filter relevant = forestDump k us := by
    have hd : ∀ u : LTree F, u.dump.filter relevant = u.dump := by
      intro u
      induction u with
      | leaf => rfl
      | node _ _ _ _ _ ihl ihr => rw [LTree.dump, List.filter_cons_of_pos (by rfl), List.filter_append, ihl, ihr]
    intro k us
    induction us generalizing k with
    | nil => rfl
    | cons u us ih => rw [forestDump, List.filter_cons_of_pos (by rfl), List.filter_append, hd, ih]
  obtain ⟨a, ha, hr⟩ := C71_scikit_partial (ts := ts.map (fun t => t.mapValues fmt str)) zero one minusOne half hlines hspell
    (by rw [List.filter_cons_of_pos (by rfl), List.filter_cons_of_pos (by rfl), hfilter])
    (by
      intro t ht
      obtain ⟨u, hu, rfl⟩ := List.mem_map.1 ht
      rw [ids_mapValues]
      exact ⟨hids u hu, hhead u hu⟩)
    (by
      intro t ht
      obtain ⟨u, hu, rfl⟩ := List.mem_map.1 ht
      rw [features_mapValues]
      exact hf u hu) lr bs none
  refine ⟨_, a, ?_, ha, ?_⟩
  · unfold exportText
    rw [h1]
    rfl
  · rw [List.map_map, Option.elim_none, List.length_map, List.take_of_length_le (by simp)] at hr
    exact hr

end

/-- Printing of natural numbers, for the examples. -/
def natPrinter : Printer ℚ := ⟨fun x => Svm.decimal x.num.toNat, fun x => Svm.decimal x.num.toNat, fun _ => 1⟩

theorem readDecimal_numeral {s : List Char} {n : Nat} (h : Numeral s n) : NumText readDecimal s (n : ℚ) := by
  obtain ⟨hne, hd, hv⟩ := Svm.numeral_digits h
  refine ⟨?_, hne, ?_⟩
  · have hd' := numeral_isDigit h
    have h1 : s.dropWhile Re.isDigit = [] := List.dropWhile_eq_nil_iff.2 hd'
    have h2 : s.takeWhile Re.isDigit = s := List.takeWhile_eq_self_iff.2 hd'
    unfold readDecimal
    rw [h1, h2]
    simp [hne, hv]
  · intro c hc
    obtain ⟨d, hd, rfl⟩ := hd c hc
    clear hc
    revert d
    decide

/-- The hypothesis on the printer can be met. -/
example : PrinterReads natPrinter readDecimal (fun x => (x.num.toNat : ℚ)) (fun x => (x.num.toNat : ℚ)) :=
  ⟨fun _ => readDecimal_numeral (Svm.decimal_numeral _), fun _ => readDecimal_numeral (Svm.decimal_numeral _)⟩

/-- C71: the text of a tree with a split, and what is loaded. -/
example : exportText natPrinter 3 2 [oneOutput ⟨[4, -2, -2], [7, 0, 0], [1, -1, -1], [2, -1, -1], [0, 5, 6]⟩] =
      .ok "base_score=3\nlearning_rate=2\nbooster[0] [f4]:\n\t0:[f4<=7]\n\t\t1:leaf=5\n\t\t2:leaf=6\n".toList ∧
    rtEnsemble (1 / 2) .scikitLearn (scikitTextLoad 0 1 (-1) readDecimal
        "base_score=3\nlearning_rate=2\nbooster[0] [f4]:\n\t0:[f4<=7]\n\t\t1:leaf=5\n\t\t2:leaf=6\n".toList) 1 none none =
      .ok ⟨⟨1, 3, [0], [1], [1, -1, -1], [2, -1, -1], [7, 5, 6], [4, -1, -1]⟩, 2, some 3⟩ := by
  decide +kernel

/-- C71 is violated: a tree with several outputs (a classifier) is written without an error, but the file cannot be loaded. -/
theorem C71_violated_classes : ∃ text, exportText natPrinter 3 2 [⟨[-2], [0], [-1], [-1], [[5, 6]]⟩] = .ok text ∧
    text = "base_score=3\nlearning_rate=2\nbooster[0] []:\n\t0:leaf=c1\n".toList ∧
    rtEnsemble (1 / 2) .scikitLearn (scikitTextLoad 0 1 (-1) readDecimal text) 1 none none = .error .valueError :=
  ⟨_, by decide +kernel, rfl, by decide +kernel⟩

end Verif.Props
