/-
Property C86: XGBoost models on data with features that are not given.
-/
import Verif.Spec.XgbMissing
import Verif.Props.TextScores

namespace Verif.Props
open Spec Ensemble
variable {F : Type}

theorem erase_features (g : F → F) (h : F → F) : ∀ t : XTree F, (t.erase.toTree g).features = (t.erase.toTree h).features
  | .leaf _ _ => rfl
  | .node _ _ _ _ l r => by simp [XTree.erase, LTree.toTree, Tree.features, erase_features g h l, erase_features g h r]

theorem numeral_plain {s : List Char} {n : Nat} (h : Numeral s n) : ∀ c ∈ s, c ≠ ':' ∧ c ≠ ']' ∧ c ≠ '\n' := by
  intro c hc
  obtain ⟨-, hd, -⟩ := Svm.numeral_digits h
  obtain ⟨d, hd, rfl⟩ := hd c hc
  clear hc
  revert d
  decide

theorem plain_append {a b : List Char} {P : Char → Prop} (ha : ∀ c ∈ a, P c) (hb : ∀ c ∈ b, P c) : ∀ c ∈ a ++ b, P c := by
  intro c hc
  rcases List.mem_append.1 hc with h | h
  · exact ha c h
  · exact hb c h

theorem indent_line {s : List Char} (h : Indent s) : ∀ c ∈ s, c ≠ '\n' := by
  intro c hc
  rcases h c hc with rfl | rfl <;> decide

theorem numText_line {float : List Char → Option F} {s : List Char} {v : F} (h : NumText float s v) : ∀ c ∈ s, c ≠ '\n' := by
  intro c hc e
  exact h.2.2 c hc (by rw [e]; simp)

/-- The lines of a tree spell the dump of the tree without its directions. -/
theorem lines_spell {float : List Char → Option F} {t : XTree F} {ls : List (List Char)} (h : t.Lines float ls) :
    List.Forall₂ (SpellsDump ['<'] float) ls t.erase.dump ∧ ∀ l ∈ ls, ∃ x, l = x ++ ['\n'] ∧ '\n' ∉ x := by
  induction h with
  | @leaf i v sp ids vs hsp hi hv =>
    refine ⟨.cons ⟨sp, ids, vs, ['\n'], rfl, hsp, hi, hv, .inl (.inr rfl)⟩ .nil, ?_⟩
    intro l hl
    rw [List.mem_singleton.1 hl]
    refine ⟨sp ++ ids ++ ":leaf=".toList ++ vs, rfl, fun h => ?_⟩
    have : ∀ c ∈ sp ++ ids ++ ":leaf=".toList ++ vs, c ≠ '\n' :=
      plain_append (plain_append (plain_append (indent_line hsp) (fun c hc => (numeral_plain hi c hc).2.2)) (by decide)) (numText_line hv)
    exact this _ h rfl
  | @node i f t toLeft l r sp ids fs ts yes no ll lr hsp hi hf ht hy hn _ _ ihl ihr =>
    have hm : ∀ c ∈ (if toLeft then yes else no), c ≠ ':' ∧ c ≠ ']' ∧ c ≠ '\n' := by
      cases toLeft
      · exact numeral_plain hn
      · exact numeral_plain hy
    have htail : ∀ c ∈ " yes=".toList ++ yes ++ ",no=".toList ++ no ++ ",missing=".toList ++ (if toLeft then yes else no),
        c ≠ ':' ∧ c ≠ ']' ∧ c ≠ '\n' :=
      plain_append (plain_append (plain_append (plain_append (plain_append (by decide) (numeral_plain hy)) (by decide)) (numeral_plain hn))
        (by decide)) hm
    refine ⟨.cons ⟨sp, ids, fs, ts, _, rfl, hsp, hi, hf, ht, ?_⟩ (List.rel_append ihl.1 ihr.1), ?_⟩
    · exact plain_append (fun c hc => ⟨(htail c hc).1, (htail c hc).2.1⟩) (by decide)
    · intro x hx
      rcases List.mem_cons.1 hx with rfl | hx
      · refine ⟨sp ++ ids ++ ":[f".toList ++ fs ++ ['<'] ++ ts ++ ']' ::
          (" yes=".toList ++ yes ++ ",no=".toList ++ no ++ ",missing=".toList ++ (if toLeft then yes else no)), by simp, fun h => ?_⟩
        have hts := numText_line ht
        have : ∀ c ∈ sp ++ ids ++ ":[f".toList ++ fs ++ ['<'] ++ ts ++ ']' ::
            (" yes=".toList ++ yes ++ ",no=".toList ++ no ++ ",missing=".toList ++ (if toLeft then yes else no)), c ≠ '\n' := by
          refine plain_append (plain_append (plain_append (plain_append (plain_append (plain_append (indent_line hsp)
            (fun c hc => (numeral_plain hi c hc).2.2)) (by decide)) (fun c hc => (numeral_plain hf c hc).2.2)) (by decide)) hts) ?_
          intro c hc
          rcases List.mem_cons.1 hc with rfl | hc
          · decide
          · exact (htail c hc).2.2
        exact this _ h rfl
      · rcases List.mem_append.1 hx with hx | hx
        · exact ihl.2 x hx
        · exact ihr.2 x hx

theorem xlines_spell {float : List Char → Option F} {k : Nat} {ts : List (XTree F)} {ls : List (List Char)} (h : XLines float k ts ls) :
    List.Forall₂ (SpellsDump ['<'] float) ls (forestDump k (ts.map XTree.erase)) ∧ ∀ l ∈ ls, ∃ x, l = x ++ ['\n'] ∧ '\n' ∉ x := by
  induction h with
  | nil => exact ⟨.nil, by simp⟩
  | @cons k t ts ds ll rest hk ht _ ih =>
    obtain ⟨h1, h2⟩ := lines_spell ht
    refine ⟨.cons ⟨ds, ":\n".toList, rfl, hk⟩ (List.rel_append h1 ih.1), ?_⟩
    intro l hl
    rcases List.mem_cons.1 hl with rfl | hl
    · refine ⟨"booster[".toList ++ ds ++ ']' :: ":".toList, by simp, fun h => ?_⟩
      have : ∀ c ∈ "booster[".toList ++ ds ++ ']' :: ":".toList, c ≠ '\n' :=
        plain_append (plain_append (by decide) (fun c hc => (numeral_plain hk c hc).2.2)) (by decide)
      exact this _ h rfl
    · rcases List.mem_append.1 hl with hl | hl
      · exact h2 l hl
      · exact ih.2 l hl

theorem dump_relevant : ∀ t : LTree F, t.dump.filter relevant = t.dump
  | .leaf _ _ => rfl
  | .node _ _ _ l r => by simp [LTree.dump, List.filter_append, dump_relevant l, dump_relevant r, List.filter_cons, relevant]

theorem forestDump_relevant : ∀ (k : Nat) (ts : List (LTree F)), (forestDump k ts).filter relevant = forestDump k ts
  | _, [] => rfl
  | k, t :: ts => by simp [forestDump, List.filter_append, dump_relevant t, forestDump_relevant (k + 1) ts, List.filter_cons, relevant]

/-- C86: the directions for features that are not given are not read: dumps of forests that differ in nothing else load to the same model. -/
theorem C86_directions_ignored {float : List Char → Option F} (zero one minusOne : F) (strictToLe : F → F) {ts ts' : List (XTree F)}
    {ls ls' : List (List Char)} (h : XLines float 0 ts ls) (h' : XLines float 0 ts' ls') (he : ts.map XTree.erase = ts'.map XTree.erase) :
    xgboostTextLoad zero one minusOne strictToLe float ls.flatten = xgboostTextLoad zero one minusOne strictToLe float ls'.flatten := by
  obtain ⟨h1, h2⟩ := xlines_spell h
  obtain ⟨h1', h2'⟩ := xlines_spell h'
  rw [C71_xgboost_text zero one minusOne strictToLe (Svm.isLines_flatten h2) h1,
    C71_xgboost_text zero one minusOne strictToLe (Svm.isLines_flatten h2') h1', he]

theorem value_agrees (lt : F → F → Bool) (zero : F) (doc : Nat → Option F) (row : List F) :
    ∀ t : XTree F, (∀ f ∈ (t.erase.toTree id).features, row[f]? = some ((doc f).elim zero id)) → t.AgreesOn lt zero doc →
      t.erase.value (goesLeft lt row) = t.value lt doc
  | .leaf _ _, _, _ => rfl
  | .node _ f t toLeft l r, hrow, ha => by
    have hf : row[f]? = some ((doc f).elim zero id) := hrow f (by simp [XTree.erase, LTree.toTree, Tree.features])
    have hl : ∀ g ∈ (l.erase.toTree id).features, row[g]? = some ((doc g).elim zero id) := fun g hg =>
      hrow g (by simp [XTree.erase, LTree.toTree, Tree.features, hg])
    have hr : ∀ g ∈ (r.erase.toTree id).features, row[g]? = some ((doc g).elim zero id) := fun g hg =>
      hrow g (by simp [XTree.erase, LTree.toTree, Tree.features, hg])
    have hg : goesLeft lt row f t = lt ((doc f).elim zero id) t := by rw [goesLeft, hf]
    cases hd : doc f with
    | some x =>
      have hg' : goesLeft lt row f t = lt x t := by rw [hg, hd]; rfl
      simp only [XTree.AgreesOn, hd] at ha
      simp only [XTree.erase, LTree.value, XTree.value, hg', hd]
      by_cases hc : lt x t = true
      · simp only [hc, if_true] at ha ⊢
        exact value_agrees lt zero doc row l hl ha
      · simp only [hc] at ha ⊢
        exact value_agrees lt zero doc row r hr ha
    | none =>
      have hg' : goesLeft lt row f t = lt zero t := by rw [hg, hd]; rfl
      simp only [XTree.AgreesOn, hd] at ha
      obtain ⟨h1, h2⟩ := ha
      simp only [XTree.erase, LTree.value, XTree.value, hg', ← h1, hd]
      cases toLeft with
      | true => simpa using value_agrees lt zero doc row l hl (by simpa using h2)
      | false => simpa using value_agrees lt zero doc row r hr (by simpa using h2)

theorem dense_given (zero : F) (r : SvmRow F) {n f : Nat} (h : f < n) : (r.dense zero n)[f]? = some ((r.given f).elim zero id) := by
  have : r.at zero (f + 1) = (r.given f).elim zero id := by
    unfold SvmRow.at SvmRow.given
    cases r.feats.find? (fun p => p.1 = f + 1) <;> rfl
  simp [SvmRow.dense, h, this]

/-- C86, proved part: the scores of an XGBoost dump on the rows of a data file are those of XGBoost, if at the tests reached of features that are
not given the direction of the dump is the one that the value 0 takes. Missing: other directions, see `C86_violated`. -/
theorem C86_scores_partial {float : List Char → Option F} (ops : FloatOps F) (zero one minusOne half : F) (lt : F → F → Bool)
    (strictToLe : F → F) (hconv : ∀ x t, ops.le x (strictToLe t) = lt x t) {ts : List (XTree F)} {ls : List (List Char)}
    (h : XLines float 0 ts ls) (hne : ts ≠ []) {nf : Nat} (hf16 : nf ≤ 2 ^ 15) (hf : ∀ t ∈ ts, ∀ f ∈ (t.erase.toTree id).features, f < nf)
    (bs : Option F) {rows : List (SvmRow F)} (hrows : ∀ r ∈ rows, ∀ t ∈ ts, t.AgreesOn lt zero r.given)
    {lr : F} (h1 : ops.isOne lr = true) (h0 : ops.isZero (bs.elim half id) = false) :
    ∃ l s, rtEnsemble half .xgboost (xgboostTextLoad zero one minusOne strictToLe float ls.flatten) lr bs none = .ok l ∧
      scoreFresh ops l.arrays l.learningRate l.baseScore false (rows.map (·.dense zero nf)) nf = .ok s ∧
      s.yPred = rows.map (fun r => ops.add ((ts.map (fun t => ops.mul (t.value lt r.given) one)).foldl ops.add ops.zero) (bs.elim half id)) := by
  obtain ⟨g1, g2⟩ := xlines_spell h
  have hf' : ∀ t ∈ ts.map XTree.erase, ∀ f ∈ (t.toTree strictToLe).features, f < nf := by
    intro t ht f hft
    obtain ⟨u, hu, rfl⟩ := List.mem_map.1 ht
    exact hf u hu f (by rw [erase_features id strictToLe]; exact hft)
  obtain ⟨l, s, e1, e2, e3⟩ := C69_text_xgboost_partial ops zero one minusOne half lt strictToLe hconv (Svm.isLines_flatten g2) g1
    (forestDump_relevant _ _) (by simpa using hne) (fun t ht f hft => (hf' t ht f hft).trans_le hf16) bs (nTrees := none) (by simp)
    (X := rows.map (·.dense zero nf)) (nf := nf) (by
      intro row hrow
      obtain ⟨r, -, rfl⟩ := List.mem_map.1 hrow
      simp [SvmRow.dense]) hf' h1 h0
  refine ⟨l, s, e1, e2, ?_⟩
  rw [e3, List.map_map]
  apply List.map_congr_left
  intro r hr
  simp only [Function.comp_apply, Option.elim_none, List.take_length, List.map_map]
  congr 2
  apply List.map_congr_left
  intro t ht
  simp only [Function.comp_apply]
  rw [value_agrees lt zero r.given _ t (fun f hft => dense_given zero r (hf t ht f hft)) (hrows r hr t ht)]

/-- The dump of a tree with one test of feature 0, whose direction for documents without it is the right one. -/
def missingFile : List Char := "booster[0]:\n0:[f0<3] yes=1,no=2,missing=2\n\t1:leaf=10\n\t2:leaf=20\n".toList

def missingTree (toLeft : Bool) : XTree ℚ := .node 0 0 3 toLeft (.leaf 1 10) (.leaf 2 20)

/-- A row that gives feature 2 only. -/
def sparseRow : SvmRow ℚ := ⟨1, some 1, [(2, 5)]⟩

theorem missingFile_lines : ∃ ls, XLines readDecimal 0 [missingTree false] ls ∧ ls.flatten = missingFile := by
  have n0 : Numeral ['0'] 0 := .one (d := 0) (by decide)
  have n1 : Numeral ['1'] 1 := .one (d := 1) (by decide)
  have n2 : Numeral ['2'] 2 := .one (d := 2) (by decide)
  have r3 : NumText readDecimal ['3'] 3 := by exact_mod_cast readDecimal_numeral (.one (d := 3) (by decide) : Numeral ['3'] 3)
  have r10 : NumText readDecimal "10".toList 10 := by
    exact_mod_cast readDecimal_numeral (.more (s := ['1']) (n := 1) (d := 0) n1 (by decide) : Numeral "10".toList 10)
  have r20 : NumText readDecimal "20".toList 20 := by
    exact_mod_cast readDecimal_numeral (.more (s := ['2']) (n := 2) (d := 0) n2 (by decide) : Numeral "20".toList 20)
  have it : Indent ['\t'] := by simp [Indent]
  exact ⟨_, .cons n0 (.node (sp := []) (by simp [Indent]) n0 n0 r3 n1 n2 (.leaf it n1 r10) (.leaf it n2 r20)) .nil, by decide +kernel⟩

/-- C86 is violated: XGBoost sends the row, which does not give feature 0, to the right; here it goes to the left. -/
theorem C86_violated : (∃ ls, XLines readDecimal 0 [missingTree false] ls ∧ ls.flatten = missingFile) ∧
    (missingTree false).value (fun x t => decide (x < t)) sparseRow.given = 20 ∧
    ((rtEnsemble (1 / 2) .xgboost (xgboostTextLoad 0 1 (-1) id readDecimal missingFile) 1 (some 1) none).bind
      (fun l => scoreFresh (exactOps ℚ) l.arrays l.learningRate l.baseScore false [sparseRow.dense 0 2] 2)) = .ok ⟨[10 + 1], none, none⟩ := by
  refine ⟨missingFile_lines, by decide +kernel, by decide +kernel⟩

/-- The tree over the integers, with the direction that 0 takes. -/
def agreeingTree : XTree Int := .node 0 0 3 true (.leaf 1 10) (.leaf 2 20)

/-- Non-vacuity: a dump and a row without the feature of the test that meet the hypotheses of `C86_scores_partial`. -/
example : ∃ ls, XLines intFloat 0 [agreeingTree] ls ∧ (∀ x t : Int, intOps.le x (t - 1) = decide (x < t)) ∧
    agreeingTree.AgreesOn (fun x t => decide (x < t)) 0 (SvmRow.given (⟨1, some 1, [(2, 5)]⟩ : SvmRow Int)) ∧
    agreeingTree.value (fun x t => decide (x < t)) (SvmRow.given (⟨1, some 1, [(2, 5)]⟩ : SvmRow Int)) = 10 ∧
    ((rtEnsemble 7 .xgboost (xgboostTextLoad 0 1 (-1) (· - 1) intFloat ls.flatten) 1 none none).bind
      (fun l => scoreFresh intOps l.arrays l.learningRate l.baseScore false [SvmRow.dense 0 2 ⟨1, some 1, [(2, 5)]⟩] 2)) =
        .ok ⟨[17], none, none⟩ := by
  have n0 : Numeral ['0'] 0 := .one (d := 0) (by decide)
  have n1 : Numeral ['1'] 1 := .one (d := 1) (by decide)
  have n2 : Numeral ['2'] 2 := .one (d := 2) (by decide)
  have it : Indent ['\t'] := by simp [Indent]
  refine ⟨_, .cons n0 (.node (sp := []) (ts := ['3']) (by simp [Indent]) n0 n0 ⟨by decide +kernel, by decide, by decide⟩ n1 n2
    (.leaf (vs := "10".toList) it n1 ⟨by decide +kernel, by decide, by decide⟩)
    (.leaf (vs := "20".toList) it n2 ⟨by decide +kernel, by decide, by decide⟩)) .nil, ?_, ?_, by decide +kernel, by decide +kernel⟩
  · intro x t
    simp [intOps, Int.le_sub_one_iff]
  · have : SvmRow.given (⟨1, some 1, [(2, 5)]⟩ : SvmRow Int) 0 = none := by decide +kernel
    simp [agreeingTree, XTree.AgreesOn, this]

end Verif.Props
