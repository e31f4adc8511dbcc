/-
Property C94: decisions with numbers that are rounded to single precision.
-/
import Verif.Lemmas.ExactNumbers
import Verif.Spec.ExactFiles
import Verif.Props.LightgbmText
import Verif.Props.DecimalText
import Verif.Props.Scoring

namespace Verif.Props
open Spec Decimal Ensemble Svm

/-- C94: a feature value and a threshold given as decimal texts are compared as their exact numbers, except that a value above the threshold goes left if
both are rounded to the same number. -/
theorem C94_decision {xs ts : List Char} {x t : Signed} (hx : DecimalText xs x.1 x.2) (ht : DecimalText ts t.1 t.2) :
    ∃ a b, readValue xs = some a ∧ pyFloat ts = some b ∧ (singleLe a b = true ↔ exactValue x ≤ exactValue t ∨ SameSingle a b) := by
  have hx0 := decimalText_nonneg hx
  have ht0 := decimalText_nonneg ht
  refine ⟨narrow x, narrow t, readValue_decimal hx, pyFloat_decimal ht, ?_, ?_⟩
  · intro h
    rcases le_or_gt (exactValue x) (exactValue t) with hc | hc
    · exact .inl hc
    · exact .inr (same_of_le h (narrow_le ht0 hx0 hc.le))
  · rintro (h | h)
    · exact narrow_le hx0 ht0 h
    · exact le_of_same h

theorem singleLe_trans {x y z : Single} (h1 : singleLe x y = true) (h2 : singleLe y z = true) : singleLe x z = true := by
  cases x with
  | nan a => cases y <;> simp [singleLe] at h1
  | inf a =>
    cases y with
    | nan b => cases a <;> simp [singleLe] at h1
    | inf b => cases a <;> cases b <;> cases z <;> simp_all [singleLe]
    | num b n => cases a <;> cases z <;> simp_all [singleLe]
  | num a m =>
    cases y with
    | nan b => simp [singleLe] at h1
    | inf b =>
      cases b with
      | true => simp [singleLe] at h1
      | false =>
        cases z with
        | nan c => simp [singleLe] at h2
        | inf c => cases c <;> simp_all [singleLe]
        | num c k => simp [singleLe] at h2
    | num b n =>
      cases z with
      | nan c => simp [singleLe] at h2
      | inf c => cases c <;> simp_all [singleLe]
      | num c k =>
        simp only [singleLe, decide_eq_true_eq] at h1 h2 ⊢
        omega

/-- C94: a value above the threshold goes right if two different single precision numbers lie between the threshold and the value, which may be the
threshold and the value themselves. -/
theorem C94_between {xs ts : List Char} {x t : Signed} (hx : DecimalText xs x.1 x.2) (ht : DecimalText ts t.1 t.2) {s s' : Bool} {m m' : Nat}
    (hm : IsMagnitude m) (hm' : IsMagnitude m') (h1 : exactValue t ≤ exactValue (s, m / 2 ^ 149))
    (h2 : exactValue (s, (m : ℚ) / 2 ^ 149) < exactValue (s', (m' : ℚ) / 2 ^ 149)) (h3 : exactValue (s', m' / 2 ^ 149) ≤ exactValue x) :
    ∃ a b, readValue xs = some a ∧ pyFloat ts = some b ∧ singleLe a b = false := by
  have hx0 := decimalText_nonneg hx
  have ht0 := decimalText_nonneg ht
  refine ⟨narrow x, narrow t, readValue_decimal hx, pyFloat_decimal ht, ?_⟩
  by_contra hc
  rw [Bool.not_eq_false] at hc
  have hp : (0 : ℚ) < 2 ^ 149 := by positivity
  have n0 : ∀ k : Nat, (0 : ℚ) ≤ (k : ℚ) / 2 ^ 149 := fun k => div_nonneg (Nat.cast_nonneg _) hp.le
  have h4 := singleLe_trans (singleLe_trans (narrow_le (n0 m') hx0 h3) hc) (narrow_le ht0 (n0 m) h1)
  rw [narrow_eq, narrow_eq, mag_exact hm, mag_exact hm'] at h4
  simp only [withSign, singleLe, decide_eq_true_eq] at h4
  have ev : ∀ (s : Bool) (k : Nat), exactValue (s, (k : ℚ) / 2 ^ 149) = ((signed s k : Int) : ℚ) / 2 ^ 149 := by
    intro s k
    cases s
    · simp [exactValue, signed]
    · simp [exactValue, signed, neg_div]
  rw [ev, ev, div_lt_div_iff_of_pos_right hp] at h2
  have h5 : ((signed s' m' : Int) : ℚ) ≤ ((signed s m : Int) : ℚ) := Int.cast_le.2 h4
  linarith

/-- The numbers of a LightGBM model in text are not negative as absolute values. -/
theorem numbers_nonneg {isZero : Signed → Bool} {ls : List (List Char)} {ds : List (LgbLine Signed)} (h : List.Forall₂ (SpellsLgb isZero exactFloat) ls ds)
    {as : List (ArrTree Signed)} {ts : List (Spec.Tree Signed)} (hds : ds.filter lgbRelevant = lgbForest 0 as) (has : List.Forall₂ ArrTree.Is as ts) :
    ∀ t ∈ ts, ∀ v ∈ t.numbers, 0 ≤ v.2 := by
  have hspell : ∀ d ∈ ds, ∃ l, SpellsLgb isZero exactFloat l d := by
    clear hds
    induction h with
    | nil => intro d hd; cases hd
    | cons hd _ ih =>
      intro d hmem
      rcases List.mem_cons.1 hmem with rfl | hmem
      · exact ⟨_, hd⟩
      · exact ih d hmem
  have hkey : ∀ {key line : List Char} {xs : List Signed}, KeyLine key (NumText exactFloat) line xs → ∀ v ∈ xs, (0 : ℚ) ≤ v.2 := by
    rintro key line xs ⟨ws, _, _, _, _, _, hsw, hw⟩
    clear hsw
    induction hw with
    | nil => intro v hv; cases hv
    | cons hd _ ih =>
      intro v hv
      rcases List.mem_cons.1 hv with rfl | hv
      · exact decimalText_nonneg (exactFloat_iff.1 hd.1)
      · exact ih v hv
  have hline : ∀ k (as : List (ArrTree Signed)), ∀ a ∈ as, LgbLine.threshold a.thresholds ∈ lgbForest k as ∧ LgbLine.leafValue a.leaves ∈ lgbForest k as := by
    intro k as
    induction as generalizing k with
    | nil => intro a ha; cases ha
    | cons b bs ih =>
      intro a ha
      rcases List.mem_cons.1 ha with rfl | ha
      · simp [lgbForest, ArrTree.lgbLines]
      · have := ih (k + 1) a ha
        exact ⟨List.mem_cons_of_mem _ (List.mem_append_right _ this.1), List.mem_cons_of_mem _ (List.mem_append_right _ this.2)⟩
  have hall : ∀ a ∈ as, ∀ v, v ∈ a.thresholds ∨ v ∈ a.leaves → (0 : ℚ) ≤ v.2 := by
    intro a ha v hv
    obtain ⟨h1, h2⟩ := hline 0 as a ha
    rw [← hds] at h1 h2
    obtain ⟨l1, hl1⟩ := hspell _ (List.mem_filter.1 h1).1
    obtain ⟨l2, hl2⟩ := hspell _ (List.mem_filter.1 h2).1
    rcases hv with hv | hv
    · exact hkey hl1 v hv
    · exact hkey hl2 v hv
  have hholds : ∀ {a : ArrTree Signed} {c : Int} {t : Spec.Tree Signed} {s : List Nat}, a.Holds c t s →
      ∀ v ∈ t.numbers, v ∈ a.thresholds ∨ v ∈ a.leaves := by
    intro a c t s h
    induction h with
    | leaf hv =>
      intro v hm
      rw [List.mem_singleton.1 hm]
      exact .inr (List.mem_of_getElem? hv)
    | node _ ht _ _ _ _ ihl ihr =>
      intro v hv
      rcases List.mem_cons.1 hv with rfl | hv
      · exact .inl (List.mem_of_getElem? ht)
      · rcases List.mem_append.1 hv with hv | hv
        · exact ihl v hv
        · exact ihr v hv
  intro t ht v hv
  obtain ⟨a, ha, hat⟩ : ∃ a ∈ as, a.Is t := by
    clear hds hline hall
    induction has with
    | nil => cases ht
    | cons hd _ ih =>
      rcases List.mem_cons.1 ht with rfl | ht
      · exact ⟨_, List.mem_cons_self, hd⟩
      · obtain ⟨a, h1, h2⟩ := ih ht
        exact ⟨a, List.mem_cons_of_mem _ h1, h2⟩
  obtain ⟨_, _, _, s, h4, _⟩ := hat
  exact hall a ha v (hholds h4 v hv)

theorem tests_numbers {F : Type} : ∀ (t : Spec.Tree F), ∀ p ∈ t.tests, p.2 ∈ t.numbers
  | .leaf _, p, hp => by cases hp
  | .node f t l r, p, hp => by
    rcases List.mem_cons.1 hp with rfl | hp
    · exact List.mem_cons_self
    · refine List.mem_cons_of_mem _ (List.mem_append.2 ?_)
      rcases List.mem_append.1 hp with hp | hp
      · exact .inl (tests_numbers l p hp)
      · exact .inr (tests_numbers r p hp)

/-- What is loaded from a dataset and a LightGBM model in texts: the rows and the trees with rounded numbers. -/
theorem load_exact (zero one minusOne half : Single) {isZero : Single → Bool}
    {data : List Char} {dl : List (List Char)} (hdata : IsLines dl data) {rows : List (SvmRow Signed)} (hrows : ExactRows dl rows)
    (ho : ∀ r ∈ rows, r.Ordered) (hne : rows ≠ []) (hfirst : ∀ r ∈ rows.head?, r.feats ≠ []) (hlab : ∀ r ∈ rows, r.label.2 < 2 ^ 128 - 2 ^ 103)
    (hval : ∀ r ∈ rows, ∀ p ∈ r.feats, p.2.2 ≤ 2 ^ 128 - 2 ^ 104)
    {file : List Char} {ls : List (List Char)} (hfile : IsLines ls file) {ds : List (LgbLine Signed)}
    (h : List.Forall₂ (SpellsLgb (fun v => isZero (narrow v)) exactFloat) ls ds) {as : List (ArrTree Signed)} {ts : List (Spec.Tree Signed)}
    (hds : ds.filter lgbRelevant = lgbForest 0 as) (has : List.Forall₂ ArrTree.Is as ts) (hts : ts ≠ [])
    (hf16 : ∀ a ∈ as, ∀ f ∈ a.features, f < 2 ^ 15) (hf : ∀ t ∈ ts, ∀ f ∈ t.features, f < svmWidth rows)
    (lr : Single) (bs : Option Single) :
    ∃ y ids m, loadFile singleScan data = .ok (rows.map (fun r => (r.dense (false, 0) (svmWidth rows)).map narrow), svmWidth rows, y, ids) ∧
      rtEnsemble half .lightGBM (lightgbmTextLoad zero one minusOne isZero pyFloat file) lr bs none = .ok ⟨m, lr, bs⟩ ∧
      Represents m (ts.map (fun t => (t.map narrow, one))) ∧ featureCheck m (svmWidth rows) = .ok () := by
  have hnn := exactRows_nonneg hrows
  have hload := C09_load_partial singleScan hdata (exactRows_spell hrows hlab) (by simpa using hne)
    (by
      intro r hr
      obtain ⟨r', hr', rfl⟩ := List.mem_map.1 hr
      exact ordered_round (ho r' hr'))
    (.inr (by
      intro r hr
      rw [List.head?_map] at hr
      obtain ⟨r', hr', rfl⟩ := Option.mem_map.1 hr
      simpa [roundRow] using hfirst r' hr'))
  rw [width_round] at hload
  have hX : ((rows.map roundRow).map (fun r => (r.dense singleScan.zero (svmWidth rows)).map singleScan.fixInf)) =
      rows.map (fun r => (r.dense (false, 0) (svmWidth rows)).map narrow) := by
    rw [List.map_map]
    exact List.map_congr_left (fun r hr => dense_round (hnn r hr) (hval r hr) _)
  rw [hX] at hload
  have hsp : List.Forall₂ (SpellsLgb isZero pyFloat) ls (ds.map (lineMap narrow)) := by
    rw [List.forall₂_map_right_iff]
    exact h.imp (fun l d hd => spellsLgb_map narrow (fun w v hv => pyFloat_decimal (exactFloat_iff.1 hv)) (fun _ => rfl) hd)
  have hflt : (ds.map (lineMap narrow)).filter lgbRelevant = lgbForest 0 (as.map (arrMap narrow)) := by
    rw [List.filter_map, ← lgbForest_map, ← hds]
    congr 1
    apply List.filter_congr
    intro d _
    exact relevant_map narrow d
  obtain ⟨m, hm, hrep⟩ := C72_load_partial zero one minusOne half hfile hsp hflt (forall₂_both (arrMap narrow) (Spec.Tree.map narrow) (fun _ _ h => is_map narrow h) has)
    (by
      intro a ha
      obtain ⟨a', ha', rfl⟩ := List.mem_map.1 ha
      exact hf16 a' ha') lr bs none
  simp only [Option.elim_none, List.length_map, List.map_map] at hrep
  have hrep' : Represents m (ts.map (fun t => (t.map narrow, one))) := by
    have : (ts.map (fun t => (t.map narrow, one))).take ts.length = ts.map (fun t => (t.map narrow, one)) := List.take_of_length_le (by simp)
    rw [← this]
    exact hrep
  have hcheck : featureCheck m (svmWidth rows) = .ok () := by
    rcases C31_memory_safe singleOps hrep' (by simpa using hts) (X := []) (nf := svmWidth rows) (by simp) lr bs false with ⟨_, p, hp, f, hfm, hge⟩ | ⟨⟨r, hr⟩, _⟩
    · obtain ⟨t, ht, rfl⟩ := List.mem_map.1 hp
      rw [features_map] at hfm
      have := hf t ht f hfm
      omega
    · unfold scoreFresh at hr
      cases hcc : featureCheck m (svmWidth rows) with
      | error e => rw [hcc] at hr; cases hr
      | ok u => rfl
  exact ⟨_, _, m, hload, hm, hrep', hcheck⟩

/-- The cells of a row are not negative as absolute values. -/
theorem dense_nonneg {r : SvmRow Signed} (h : ∀ p ∈ r.feats, 0 ≤ p.2.2) {n j : Nat} {x : Signed} (hx : (r.dense (false, 0) n)[j]? = some x) : 0 ≤ x.2 := by
  unfold SvmRow.dense at hx
  obtain ⟨j, _, rfl⟩ := List.mem_map.1 (List.mem_of_getElem? hx)
  rcases at_mem (r := r) (i := j + 1) with h1 | ⟨p', hp', h1⟩
  · rw [h1]
  · rw [h1]
    exact h p' hp'

/-- C94, proved part: a LightGBM model in a text and a dataset in a text give the scores of the leaves that are reached by comparing the exact numbers in
the two texts; only the outputs are rounded. The scores are added with arbitrary operations. Missing: values above a threshold that are rounded to the
same number, see `C94_violated`; features and labels that are too large for single precision. -/
theorem C94_scores_partial (ops : FloatOps Single) (hle : ops.le = singleLe) (zero one minusOne half : Single) {isZero : Single → Bool}
    {data file : List Char} {rows : List (SvmRow Signed)} {ts : List (Spec.Tree Signed)} (hE : ExactFiles isZero data file rows ts) (lr : Single)
    (bs : Option Single) :
    ∃ X y ids m, loadFile singleScan data = .ok (X, svmWidth rows, y, ids) ∧
      rtEnsemble half .lightGBM (lightgbmTextLoad zero one minusOne isZero pyFloat file) lr bs none = .ok ⟨m, lr, bs⟩ ∧
      featureCheck m (svmWidth rows) = .ok () ∧
      basicScoring ops m X = .ok (rows.map (fun r =>
        (ts.map (fun t => ops.mul (narrow (t.value (goesLeft exactLe (r.dense (false, 0) (svmWidth rows))))) one)).foldl ops.add ops.zero)) := by
  obtain ⟨⟨dl, hdata, hrows⟩, ho, hne, hfirst, hlab, hval, ⟨ls, ds, as, hfile, h, hds, has, hf16⟩, hts, hf, hsep⟩ := hE
  have hnn := exactRows_nonneg hrows
  obtain ⟨y, ids, m, hload, hm, hrep', hcheck⟩ := load_exact zero one minusOne half hdata hrows ho hne hfirst hlab hval hfile h hds has hts hf16 hf lr bs
  refine ⟨_, _, _, m, hload, hm, hcheck, ?_⟩
  rw [C29_score ops hrep' (nf := svmWidth rows) ?_ hcheck]
  · rw [List.map_map]
    congr 1
    apply List.map_congr_left
    intro r hr
    simp only [Function.comp_apply, Forest.contributions, List.map_map]
    congr 1
    apply List.map_congr_left
    intro t ht
    simp only [Function.comp_apply]
    congr 1
    rw [hle]
    apply value_map
    intro p hp x hx
    have hp0 := numbers_nonneg h hds has t ht _ (tests_numbers t p hp)
    have hx0 := dense_nonneg (hnn r hr) hx
    unfold exactLe
    rcases le_or_gt (exactValue x) (exactValue p.2) with hc | hc
    · rw [narrow_le hx0 hp0 hc, decide_eq_true hc]
    · rw [decide_eq_false (not_le.2 hc)]
      by_contra hl
      rw [Bool.not_eq_false] at hl
      exact hsep r hr t ht p hp x hx hc (same_of_le hl (narrow_le hp0 hx0 hc.le))
  · intro row hrow
    obtain ⟨r, -, rfl⟩ := List.mem_map.1 hrow
    simp [SvmRow.dense]

/-- A LightGBM model with one tree that compares the first feature with a threshold. -/
def stumpText (t : String) : List Char :=
  ("Tree=0\nnum_leaves=2\nsplit_feature=0\nthreshold=" ++ t ++ "\nleft_child=-1\nright_child=-2\nleaf_value=1 2\nshrinkage=1\n").toList

def stumpLines (t : String) : List (List Char) :=
  ["Tree=0\n".toList, "num_leaves=2\n".toList, "split_feature=0\n".toList, ("threshold=" ++ t ++ "\n").toList, "left_child=-1\n".toList,
    "right_child=-2\n".toList, "leaf_value=1 2\n".toList, "shrinkage=1\n".toList]

/-- The scores RankEval gives to the rows of a data file. -/
def scoresOf (model data : List Char) : Except PyErr (List Single) := do
  let d ← loadFile singleScan data
  let l ← rtEnsemble (.num false (2 ^ 148)) .lightGBM (lightgbmTextLoad (.num false 0) (.num false (2 ^ 149)) (.num true (2 ^ 149)) singleOps.isZero pyFloat model)
    (.num false (2 ^ 149)) none none
  let r ← scoreFresh singleOps l.arrays l.learningRate l.baseScore false d.1 d.2.1
  pure r.yPred

/-- Decimal numbers without sign and exponent. -/
theorem plain_text {ds fs : List Char} (hne : ds ++ fs ≠ []) (h : ∀ c ∈ ds ++ fs, isDigit c = true) :
    DecimalText (ds ++ '.' :: fs) false (digitsValue (ds ++ fs) * 10 ^ (0 - (fs.length : Int))) :=
  ⟨[], ds ++ '.' :: fs, [], _, fs.length, 0, by simp, .inl ⟨rfl, rfl⟩, .inr ⟨ds, fs, rfl, numeral_of_isDigits hne h, rfl⟩, .inl ⟨rfl, rfl⟩, rfl⟩

theorem integer_text {ds : List Char} (hne : ds ≠ []) (h : ∀ c ∈ ds, isDigit c = true) : DecimalText ds false (digitsValue ds) :=
  ⟨[], ds, [], _, 0, 0, by simp, .inl ⟨rfl, rfl⟩, .inl ⟨numeral_of_isDigits hne h, rfl⟩, .inl ⟨rfl, rfl⟩, by simp⟩

theorem tenth_text : DecimalText "0.1".toList false (1 / 10) := by
  have := plain_text (ds := ['0']) (fs := ['1']) (by simp) (by decide)
  have e : ((digitsValue (['0'] ++ ['1']) : Nat) : ℚ) * 10 ^ (0 - ((['1'] : List Char).length : Int)) = 1 / 10 := by decide +kernel
  rwa [e] at this

theorem fifth_text : DecimalText "0.2".toList false (1 / 5) := by
  have := plain_text (ds := ['0']) (fs := ['2']) (by simp) (by decide)
  have e : ((digitsValue (['0'] ++ ['2']) : Nat) : ℚ) * 10 ^ (0 - ((['2'] : List Char).length : Int)) = 1 / 5 := by decide +kernel
  rwa [e] at this

theorem above_text : DecimalText "0.1000000001".toList false (1000000001 / 10000000000) := by
  have := plain_text (ds := ['0']) (fs := "1000000001".toList) (by simp) (by decide)
  have e : ((digitsValue (['0'] ++ "1000000001".toList) : Nat) : ℚ) * 10 ^ (0 - (("1000000001".toList : List Char).length : Int)) =
    1000000001 / 10000000000 := by decide +kernel
  rwa [e] at this

/-- C94_between: 0.1, 0.125, 0.1875, 0.2. -/
example : IsMagnitude (2 ^ 146) ∧ IsMagnitude (3 * 2 ^ 145) ∧ exactValue (false, 1 / 10) ≤ exactValue (false, (2 ^ 146 : Nat) / 2 ^ 149) ∧
    exactValue (false, ((2 ^ 146 : Nat) : ℚ) / 2 ^ 149) < exactValue (false, ((3 * 2 ^ 145 : Nat) : ℚ) / 2 ^ 149) ∧
    exactValue (false, ((3 * 2 ^ 145 : Nat) : ℚ) / 2 ^ 149) ≤ exactValue (false, 1 / 5) :=
  ⟨⟨1, 146, by norm_num, by norm_num, by norm_num⟩, ⟨3, 145, by norm_num, by norm_num, by norm_num⟩, by decide +kernel, by decide +kernel,
    by decide +kernel⟩

/-- The row and the tree of the example. -/
def stumpRows : List (SvmRow Signed) := [⟨(false, 1), some 1, [(1, (false, 1 / 5))]⟩]

def stumpTrees : List (Spec.Tree Signed) := [.node 0 (false, 1 / 10) (.leaf (false, 1)) (.leaf (false, 2))]

/-- The model and a dataset with one row whose value 0.2 is not rounded to the threshold 0.1 meet the hypotheses of `C94_scores_partial`. -/
theorem stump_files : ExactFiles singleOps.isZero "1 qid:1 1:0.2\n".toList (stumpText "0.1") stumpRows stumpTrees := by
  have n0 : Numeral ['0'] 0 := .one (d := 0) (by decide)
  have n1 : Numeral ['1'] 1 := .one (d := 1) (by decide)
  have n2 : Numeral ['2'] 2 := .one (d := 2) (by decide)
  have d1 : DecimalText ['1'] false 1 := by
    have := integer_text (ds := ['1']) (by simp) (by decide)
    have e : ((digitsValue ['1'] : Nat) : ℚ) = 1 := by decide +kernel
    rwa [e] at this
  have d2 : DecimalText ['2'] false 2 := by
    have := integer_text (ds := ['2']) (by simp) (by decide)
    have e : ((digitsValue ['2'] : Nat) : ℚ) = 2 := by decide +kernel
    rwa [e] at this
  have one : ∀ w : List Char, IsWord w → SepWords [w] w := by
    intro w hw
    exact .inr ⟨[], w, [], [], rfl, by simp, by decide, hw, .nil (by decide)⟩
  refine ⟨⟨["1 qid:1 1:0.2\n".toList], ?_, ?_⟩, ?_, by simp [stumpRows], by simp [stumpRows], ?_, ?_, ⟨stumpLines "0.1",
    [.tree 0, .numLeaves 2, .splitFeature [0], .threshold [(false, 1 / 10)], .leftChild [-1], .rightChild [-2], .leafValue [(false, 1), (false, 2)],
      .shrinkage], [⟨[0], [(false, 1 / 10)], [-1], [-2], [(false, 1), (false, 2)]⟩], ?_, ?_, rfl, ?_, ?_⟩, by simp [stumpTrees], ?_, ?_⟩
  · exact .cons (l := "1 qid:1 1:0.2".toList) (by decide) .nil
  · refine .row ⟨[], ['1'], " qid:1 1:0.2\n".toList, [], ["qid:1".toList, "1:0.2".toList], rfl, by decide, d1, .inl rfl, ?_, by simp, .inr ?_⟩ .nil
    · exact .cons (sp := [' ']) (w := "qid:1".toList) (s := " 1:0.2\n".toList) (by decide) (by simp) (by decide)
        (.cons (sp := [' ']) (w := "1:0.2".toList) (s := ['\n']) (by decide) (by simp) (by decide) (.nil (by decide)))
    · exact ⟨1, _, _, rfl, rfl, ⟨['1'], 1, rfl, n1, rfl, by norm_num⟩, .cons ⟨['1'], "0.2".toList, rfl, n1, by norm_num, fifth_text⟩ .nil⟩
  · intro r hr
    rw [List.mem_singleton.1 hr]
    exact ⟨by simp, by simp⟩
  · intro r hr
    rw [List.mem_singleton.1 hr]
    norm_num
  · intro r hr p hp
    rw [List.mem_singleton.1 hr] at hp
    rw [List.mem_singleton.1 hp]
    norm_num
  · have : (stumpLines "0.1").flatten = stumpText "0.1" := by decide +kernel
    rw [← this]
    apply Svm.isLines_flatten
    intro l hl
    refine ⟨l.dropLast, ?_⟩
    revert l
    decide +kernel
  · refine .cons ⟨['0'], ['\n'], by decide +kernel, n0, .inr rfl⟩ (.cons ⟨['2'], ['\n'], by decide +kernel, n2, .inr rfl⟩
      (.cons ⟨[['0']], ['0'], ['\n'], by decide +kernel, by decide, .inr rfl, one _ (by decide), .cons n0 .nil⟩
      (.cons ⟨["0.1".toList], "0.1".toList, ['\n'], by decide +kernel, by decide, .inr rfl, one _ (by decide),
        .cons ⟨exactFloat_iff.2 tenth_text, by decide, by decide⟩ .nil⟩
      (.cons ⟨[['-', '1']], ['-', '1'], ['\n'], by decide +kernel, by decide, .inr rfl, one _ (by decide), .cons ⟨_, _, n1, .inr (.inl ⟨rfl, rfl⟩)⟩ .nil⟩
      (.cons ⟨[['-', '2']], ['-', '2'], ['\n'], by decide +kernel, by decide, .inr rfl, one _ (by decide), .cons ⟨_, _, n2, .inr (.inl ⟨rfl, rfl⟩)⟩ .nil⟩
      (.cons ⟨[['1'], ['2']], "1 2".toList, ['\n'], by decide +kernel, by decide, .inr rfl,
        .inr ⟨[], ['1'], [['2']], " 2".toList, rfl, rfl, by decide, by decide,
          .cons (sp := [' ']) (w := ['2']) (s := []) (by decide) (by decide) (by decide) (.nil (by decide))⟩,
        .cons ⟨exactFloat_iff.2 d1, by decide, by decide⟩ (.cons ⟨exactFloat_iff.2 d2, by decide, by decide⟩ .nil)⟩
      (.cons ⟨"1\n".toList, by decide +kernel⟩ .nil)))))))
  · refine .cons ⟨rfl, rfl, rfl, [0, 1, 2], ?_, List.Perm.refl _⟩ .nil
    exact .node (p := 0) rfl rfl rfl rfl (.leaf (p := 0) rfl) (.leaf (p := 1) rfl)
  · intro a ha f hf
    rw [List.mem_singleton.1 ha] at hf
    rw [List.mem_singleton.1 hf]
    norm_num
  · intro t ht f hf
    rw [List.mem_singleton.1 ht] at hf
    have : f = 0 := by simpa [Spec.Tree.features] using hf
    rw [this]
    decide
  · intro r hr t ht p hp x hx _ hs
    rw [List.mem_singleton.1 ht] at hp
    have hp' : p = (0, (false, 1 / 10)) := by simpa [Spec.Tree.tests] using hp
    rw [List.mem_singleton.1 hr, hp'] at hx
    have hx' : x = (false, 1 / 5) := by
      have e : (SvmRow.dense (false, 0) (svmWidth stumpRows) ⟨(false, 1), some 1, [(1, (false, 1 / 5))]⟩ : List Signed) = [(false, 1 / 5)] := by
        decide +kernel
      rw [e] at hx
      exact (Option.some.inj hx).symm
    rw [hp', hx'] at hs
    have := le_of_same hs
    revert this
    decide +kernel

/-- C94 is violated: a document whose first feature is 0.1000000001 is not `<= 0.1`, but goes left at the threshold 0.1 and gets the score 1 of the left
leaf (2^149 units of 2^-149) instead of 2. -/
theorem C94_violated : DecimalText "0.1000000001".toList false (1000000001 / 10000000000) ∧ DecimalText "0.1".toList false (1 / 10) ∧
    exactLe (false, 1000000001 / 10000000000) (false, 1 / 10) = false ∧
    SameSingle (narrow (false, 1000000001 / 10000000000)) (narrow (false, 1 / 10)) ∧
    scoresOf (stumpText "0.1") "1 qid:1 1:0.1000000001\n".toList = .ok [.num false (2 ^ 149)] ∧
    scoresOf (stumpText "0.1") "1 qid:1 1:0.2\n".toList = .ok [.num false (2 ^ 150)] := by
  refine ⟨above_text, tenth_text, by decide +kernel, .inl ⟨13421773 * 2 ^ 122, .inl (by decide +kernel), by decide +kernel⟩, by decide +kernel, by decide +kernel⟩

end Verif.Props
