/-
Property C110: the numbers in the text of an exported scikit-learn model.
-/
import Verif.Model.ExportNumbers
import Verif.Spec.ExportNumbers
import Verif.Props.Decisions
import Verif.Props.DumpText

namespace Verif.Props.ExportNumbers
open Spec Decimal Ensemble Svm Binary32

theorem nearest_even (y : ℚ) (n : Int) (h : |(nearest y : ℚ) - y| = |(n : ℚ) - y|) : n = nearest y ∨ nearest y % 2 = 0 := by
  have h1 := Int.floor_le y
  have h2 := Int.lt_floor_add_one y
  by_cases hn : n = nearest y
  · exact .inl hn
  right
  have hk : (n : ℚ) - y = -((nearest y : ℚ) - y) := by
    rcases abs_eq_abs.1 h.symm with h | h
    · exact absurd (by exact_mod_cast (sub_left_inj.1 h : (n : ℚ) = nearest y)) hn
    · exact h
  have hd : (n : ℚ) + (nearest y : ℚ) = 2 * y := by linarith
  have he := abs_le.1 (nearest_error y)
  have hne : (1 : ℚ) ≤ |(n : ℚ) - nearest y| := by
    have : (1 : Int) ≤ |n - nearest y| := Int.one_le_abs (by omega)
    exact_mod_cast this
  have hhalf : |(nearest y : ℚ) - y| = 1 / 2 := by
    have : (n : ℚ) - nearest y = -(2 * ((nearest y : ℚ) - y)) := by linarith
    rw [this, abs_neg, abs_mul, abs_two] at hne
    exact le_antisymm (nearest_error y) (by linarith)
  unfold nearest at hhalf ⊢
  simp only at hhalf ⊢
  split_ifs at hhalf ⊢ with c1 c2 c3
  · rw [abs_of_nonpos (by linarith)] at hhalf
    linarith
  · push_cast at hhalf
    rw [abs_of_nonneg (by linarith)] at hhalf
    linarith
  · exact c3
  · omega

theorem sixDigits_spec {n : Nat} (h : n < 10 ^ 6) : (sixDigits n).length = 6 ∧ (∀ c ∈ sixDigits n, isDigit c = true) ∧ digitsValue (sixDigits n) = n := by
  have hlen : (decimal n).length ≤ 6 := by
    by_cases h0 : n < 10
    · rw [decimal, if_pos h0]
      simp
    · obtain ⟨p, hp1, hp2, hp3⟩ : ∃ p, p < 6 ∧ n < 10 ^ (p + 1) ∧ 10 ^ p ≤ n := by
        by_cases h5 : 10 ^ 5 ≤ n
        · exact ⟨5, by omega, h, h5⟩
        by_cases h4 : 10 ^ 4 ≤ n
        · exact ⟨4, by omega, by omega, h4⟩
        by_cases h3 : 10 ^ 3 ≤ n
        · exact ⟨3, by omega, by omega, h3⟩
        by_cases h2 : 10 ^ 2 ≤ n
        · exact ⟨2, by omega, by omega, h2⟩
        · exact ⟨1, by omega, by omega, by omega⟩
      rw [decimal_length hp2 (.inl hp3)]
      omega
  refine ⟨by simp [sixDigits]; omega, ?_, ?_⟩
  · intro c hc
    rcases List.mem_append.1 hc with hc | hc
    · rw [List.eq_of_mem_replicate hc]
      decide
    · exact decimal_isDigits n c hc
  · rw [sixDigits, digitsValue_append, digitsValue_zeros, zero_mul, zero_add]
    exact (numeral_digits (decimal_numeral n)).2.2

theorem percentF_decimal (v : Signed) : DecimalText (percentF v) v.1 (millionths v / 10 ^ 6) ∧
    ∃ sg ds fs, percentF v = sg ++ (ds ++ '.' :: fs) ∧ SignText sg v.1 ∧ fs.length = 6 ∧ ∃ n, Numeral ds n := by
  obtain ⟨h1, h2, h3⟩ := sixDigits_spec (Nat.mod_lt (millionths v) (by norm_num : 0 < 10 ^ 6))
  have hdig : ∀ c ∈ decimal (millionths v / 10 ^ 6) ++ sixDigits (millionths v % 10 ^ 6), isDigit c = true := by
    intro c hc
    rcases List.mem_append.1 hc with hc | hc
    · exact decimal_isDigits _ c hc
    · exact h2 c hc
  have hne : decimal (millionths v / 10 ^ 6) ++ sixDigits (millionths v % 10 ^ 6) ≠ [] := by
    intro h
    rw [List.append_eq_nil_iff] at h
    rw [h.2] at h1
    cases h1
  have hval : digitsValue (decimal (millionths v / 10 ^ 6) ++ sixDigits (millionths v % 10 ^ 6)) = millionths v := by
    rw [digitsValue_append, h1, h3, (numeral_digits (decimal_numeral _)).2.2]
    exact Nat.div_add_mod' _ _
  refine ⟨⟨signText v.1, decimal (millionths v / 10 ^ 6) ++ '.' :: sixDigits (millionths v % 10 ^ 6), [], millionths v, 6, 0, ?_, signText_spec _,
    .inr ⟨_, _, rfl, ?_, h1.symm⟩, .inl ⟨rfl, rfl⟩, ?_⟩, ?_⟩
  · simp [percentF]
  · have := numeral_of_isDigits hne hdig
    rwa [hval] at this
  · norm_num [zpow_neg]
    ring
  · exact ⟨_, _, _, rfl, signText_spec _, h1, _, decimal_numeral _⟩

theorem millionths_six {v : Signed} (h : 0 ≤ v.2) : SixDecimals v.2 (millionths v / 10 ^ 6) := by
  have h0 : 0 ≤ nearest (v.2 * 10 ^ 6) := by
    have := (nearest_between (a := 0) (b := ⌈v.2 * 10 ^ 6⌉) (y := v.2 * 10 ^ 6) (by push_cast; positivity) (Int.le_ceil _)).1
    exact this
  have hc : ((millionths v : Nat) : Int) = nearest (v.2 * 10 ^ 6) := by
    unfold millionths
    omega
  have hq : ((millionths v : Nat) : ℚ) = (nearest (v.2 * 10 ^ 6) : ℚ) := by
    rw [← hc]
    rfl
  have hs : ∀ a : ℚ, |a / 10 ^ 6 - v.2| = |a - v.2 * 10 ^ 6| / 10 ^ 6 := by
    intro a
    have e : a / 10 ^ 6 - v.2 = (a - v.2 * 10 ^ 6) / 10 ^ 6 := by field_simp
    rw [e, abs_div, abs_of_pos (by norm_num : (0 : ℚ) < 10 ^ 6)]
  refine ⟨_, rfl, fun n => ?_⟩
  rw [hs, hs, hq]
  refine ⟨div_le_div_of_nonneg_right (nearest_best _ _) (by norm_num), fun h => ?_⟩
  have h' : |(nearest (v.2 * 10 ^ 6) : ℚ) - v.2 * 10 ^ 6| = |(n : ℚ) - v.2 * 10 ^ 6| := by
    have hp : (10 ^ 6 : ℚ) ≠ 0 := by norm_num
    exact (div_left_inj' hp).1 h
  rcases nearest_even _ _ h' with h | h
  · left
    rw [h, hc]
  · right
    omega

/-- C110: `%f` writes a number with six digits after the point, the nearest one. -/
theorem C110_text {v : Signed} (h : 0 ≤ v.2) : (∃ r, DecimalText (percentF v) v.1 r ∧ SixDecimals v.2 r) ∧
    ∃ sg ds fs, percentF v = sg ++ (ds ++ '.' :: fs) ∧ SignText sg v.1 ∧ fs.length = 6 ∧ ∃ n, Numeral ds n :=
  ⟨⟨_, (percentF_decimal v).1, millionths_six h⟩, (percentF_decimal v).2⟩

/-- `%f` of -3/8, of 1/4194304 (about 0.00000024) and of 5/2^21 = 0.000002384... -/
example : percentF (true, 3 / 8) = "-0.375000".toList ∧ percentF (false, 1 / 4194304) = "0.000000".toList ∧
    percentF (false, 5 / 2 ^ 21) = "0.000002".toList ∧ percentF (false, 1234567 / 8) = "154320.875000".toList := by decide +kernel

theorem six_error {q r : ℚ} (h : SixDecimals q r) : |r - q| ≤ 1 / (2 * 10 ^ 6) := by
  obtain ⟨k, rfl, h⟩ := h
  refine (h (nearest (q * 10 ^ 6))).1.trans ?_
  have e : (nearest (q * 10 ^ 6) : ℚ) / 10 ^ 6 - q = ((nearest (q * 10 ^ 6) : ℚ) - q * 10 ^ 6) / 10 ^ 6 := by field_simp
  rw [e, abs_div, abs_of_pos (by norm_num : (0 : ℚ) < 10 ^ 6), div_le_div_iff₀ (by norm_num) (by norm_num)]
  have := nearest_error (q * 10 ^ 6)
  generalize |(nearest (q * 10 ^ 6) : ℚ) - q * 10 ^ 6| = a at this ⊢
  linarith

theorem exact_error {q r : ℚ} (h : SixDecimals q r) (s : Bool) : |exactValue (s, r) - exactValue (s, q)| ≤ 1 / (2 * 10 ^ 6) := by
  have := six_error h
  cases s
  · simpa [exactValue] using this
  · simp only [exactValue, ↓reduceIte]
    rw [show -r - -q = -(r - q) by ring, abs_neg]
    exact this

theorem numText_decimal {s : List Char} {neg : Bool} {q : ℚ} (h : DecimalText s neg q) : NumText pyFloat s (narrow (neg, q)) := by
  refine ⟨pyFloat_decimal h, ?_, ?_⟩
  · intro hs
    subst hs
    have := pyFloat_decimal h
    revert this
    simp [pyFloat, scanDouble, special, Decimal.sign, scanNumber, fraction]
  · intro c hc
    rcases decimalText_chars h c hc with hd | hd
    · intro hm
      fin_cases hm <;> exact absurd hd (by decide)
    · intro hm
      fin_cases hm <;> exact absurd hd (by decide)

/-- `%s` writes decimal numbers with the right sign. -/
def WritesDecimals (showS : Signed → List Char) (out : Signed → ℚ) : Prop := ∀ v, DecimalText (showS v) v.1 (out v)

/-- C110: the text written by `export_scikit_model` is loaded as the same trees with thresholds, base score and learning rate rounded to six decimals and
then to single precision, and with the leaves as `%s` writes them, rounded to single precision. Trees with one output and features below 2^15. -/
theorem C110_export (zero one minusOne half : Single) {showS : Signed → List Char} {out : Signed → ℚ} (hS : WritesDecimals showS out)
    {sks : List (SkTree Signed)} {ts : List (LTree Signed)} (henc : List.Forall₂ (fun a t => SkEncodes a 0 t) sks ts)
    (hids : ∀ t ∈ ts, t.ids.Perm (List.range t.ids.length)) (hf : ∀ t ∈ ts, ∀ f ∈ (t.toTree id).features, f < 2 ^ 15) (b l : Signed) (lr : Single)
    (bs : Option Single) :
    ∃ six : Signed → ℚ, (∀ v, 0 ≤ six v) ∧ (∀ v, 0 ≤ v.2 → SixDecimals v.2 (six v)) ∧
      ∃ text a, exportText (skPrinter showS) b l (sks.map oneOutput) = .ok text ∧
        rtEnsemble half .scikitLearn (scikitTextLoad zero one minusOne pyFloat text) lr bs none = .ok ⟨a, narrow (l.1, six l), some (narrow (b.1, six b))⟩ ∧
        Represents a (ts.map (fun t => ((t.mapValues (fun v => narrow (v.1, six v)) (fun v => narrow (v.1, out v))).toTree id, one))) := by
  refine ⟨fun v => millionths v / 10 ^ 6, fun v => by positivity, fun v hv => millionths_six hv, ?_⟩
  exact C71_export_partial zero one minusOne half (skPrinter showS)
    ⟨fun v => numText_decimal (percentF_decimal v).1, fun v => numText_decimal (hS v)⟩ henc hids hf b l lr bs

theorem exact_units (s : Bool) (k : Nat) : exactValue (s, (k : ℚ) / 2 ^ 149) = ((signed s k : Int) : ℚ) / 2 ^ 149 := by
  cases s
  · simp [exactValue, signed]
  · simp [exactValue, signed, neg_div]

/-- C110: a value that is clear of the threshold goes the same way before and after the export. -/
theorem C110_decision {s : Bool} {m : Nat} (hm : IsMagnitude m) {t : Signed} {r : ℚ} (hr0 : 0 ≤ r) (hr : SixDecimals t.2 r)
    (hc : Clear s m t) : singleLe (.num s m) (narrow (t.1, r)) = exactLe (s, m / 2 ^ 149) t := by
  have hp : (0 : ℚ) < 2 ^ 149 := by positivity
  have n0 : ∀ k : Nat, (0 : ℚ) ≤ (k : ℚ) / 2 ^ 149 := fun k => div_nonneg (Nat.cast_nonneg _) hp.le
  have hx : narrow (s, (m : ℚ) / 2 ^ 149) = .num s m := by rw [narrow_eq, mag_exact hm]; rfl
  have he := abs_le.1 (exact_error hr t.1)
  unfold exactLe
  rcases hc with hc | ⟨s', m', hm', h1, h2⟩
  · have hle : exactValue (s, (m : ℚ) / 2 ^ 149) ≤ exactValue (t.1, r) := by
      have : exactValue (t.1, t.2) = exactValue t := rfl
      linarith [he.1]
    rw [decide_eq_true (by have : (0 : ℚ) < 1 / (2 * 10 ^ 6) := by norm_num
                           linarith), ← hx]
    exact narrow_le (n0 m) hr0 hle
  · have hpos : (0 : ℚ) < 1 / (2 * 10 ^ 6) := by norm_num
    rw [decide_eq_false (by linarith)]
    by_contra hl
    rw [Bool.not_eq_false] at hl
    have hle : exactValue (t.1, r) ≤ exactValue (s', (m' : ℚ) / 2 ^ 149) := by
      have : exactValue (t.1, t.2) = exactValue t := rfl
      linarith [he.2]
    have h4 := singleLe_trans hl (narrow_le (x := (t.1, r)) (t := (s', (m' : ℚ) / 2 ^ 149)) hr0 (n0 m') hle)
    rw [narrow_eq, mag_exact hm'] at h4
    simp only [withSign, singleLe, decide_eq_true_eq] at h4
    rw [exact_units, exact_units, div_lt_div_iff_of_pos_right hp] at h2
    have h5 : ((signed s m : Int) : ℚ) ≤ ((signed s' m' : Int) : ℚ) := Int.cast_le.2 h4
    linarith

/-- C110_decision: the value 1/4 is clear of the threshold 1/8, and of 0.3. -/
example : Clear false (2 ^ 147) (false, 1 / 8) ∧ Clear false (2 ^ 147) (false, 3 / 10) ∧ IsMagnitude (2 ^ 147) := by
  refine ⟨.inr ⟨false, 3 * 2 ^ 145, ⟨3, 145, by norm_num, by norm_num, by norm_num⟩, by norm_num [exactValue], by norm_num [exactValue]⟩,
    .inl (by norm_num [exactValue]), ⟨1, 147, by norm_num, by norm_num, by norm_num⟩⟩

theorem value_mapValues {D F : Type} (g h : D → F) {le : F → F → Bool} {row : List F} {test : Nat → D → Bool} : ∀ t : LTree D,
    (∀ p ∈ t.tests, goesLeft le row p.1 (g p.2) = test p.1 p.2) →
    ((t.mapValues g h).toTree id).value (goesLeft le row) = h (t.value test)
  | .leaf _ _, _ => rfl
  | .node _ f t l r, ht => by
    have hl := value_mapValues g h l (fun p hp => ht p (List.mem_cons_of_mem _ (List.mem_append_left _ hp)))
    have hr := value_mapValues g h r (fun p hp => ht p (List.mem_cons_of_mem _ (List.mem_append_right _ hp)))
    have h0 := ht (f, t) List.mem_cons_self
    simp only [LTree.mapValues, LTree.toTree, Spec.Tree.value, LTree.value, id_eq, h0, hl, hr]
    split <;> rfl

theorem tests_features {D : Type} : ∀ t : LTree D, ∀ p ∈ t.tests, p.1 ∈ (t.toTree id).features
  | .leaf _ _, p, hp => by cases hp
  | .node _ f t l r, p, hp => by
    simp only [LTree.toTree, Spec.Tree.features]
    rcases List.mem_cons.1 hp with rfl | hp
    · simp
    · rcases List.mem_append.1 hp with hp | hp
      · simp [tests_features l p hp]
      · simp [tests_features r p hp]

/-- C110, proved part: if every feature of the documents is clear of every threshold, RankEval scores the exported model with the leaves that scikit-learn
reaches. The numbers are added with arbitrary operations. Missing: values near a threshold, see `C110_violated`. -/
theorem C110_scores_partial (ops : FloatOps Single) (hle : ops.le = singleLe) (zero one minusOne half : Single) {showS : Signed → List Char}
    {out : Signed → ℚ} (hS : WritesDecimals showS out) {sks : List (SkTree Signed)} {ts : List (LTree Signed)}
    (henc : List.Forall₂ (fun a t => SkEncodes a 0 t) sks ts) (hids : ∀ t ∈ ts, t.ids.Perm (List.range t.ids.length)) (hts : ts ≠ [])
    (hf16 : ∀ t ∈ ts, ∀ f ∈ (t.toTree id).features, f < 2 ^ 15) (b l : Signed) (lr : Single) (bs : Option Single) {X : List (List Single)} {nf : Nat}
    (hX : ∀ row ∈ X, row.length = nf) (hnum : ∀ row ∈ X, ∀ x ∈ row, ∃ s m, x = .num s m ∧ IsMagnitude m)
    (hf : ∀ t ∈ ts, ∀ f ∈ (t.toTree id).features, f < nf) (hpos : ∀ t ∈ ts, ∀ p ∈ t.tests, 0 ≤ p.2.2)
    (hclear : ∀ row ∈ X, ∀ t ∈ ts, ∀ p ∈ t.tests, ∀ s m, row[p.1]? = some (.num s m) → Clear s m p.2) :
    ∃ text e, exportText (skPrinter showS) b l (sks.map oneOutput) = .ok text ∧
      rtEnsemble half .scikitLearn (scikitTextLoad zero one minusOne pyFloat text) lr bs none = .ok e ∧ featureCheck e.arrays nf = .ok () ∧
      basicScoring ops e.arrays X = .ok (X.map (fun row =>
        (ts.map (fun t => ops.mul (narrow ((t.value (skTest row)).1, out (t.value (skTest row)))) one)).foldl ops.add ops.zero)) := by
  obtain ⟨six, hsix0, hsix, text, a, h1, h2, hrep⟩ := C110_export zero one minusOne half hS henc hids hf16 b l lr bs
  have hcheck : featureCheck a nf = .ok () := by
    rcases C31_memory_safe singleOps hrep (by simpa using hts) (X := []) (nf := nf) (by simp) lr bs false with ⟨_, p, hp, f, hfm, hge⟩ | ⟨⟨r, hr⟩, _⟩
    · obtain ⟨t, ht, rfl⟩ := List.mem_map.1 hp
      simp only [features_mapValues] at hfm
      have := hf t ht f hfm
      omega
    · unfold scoreFresh at hr
      cases hcc : featureCheck a nf with
      | error e => rw [hcc] at hr; cases hr
      | ok u => rfl
  refine ⟨text, _, h1, h2, hcheck, ?_⟩
  rw [C29_score ops hrep hX hcheck]
  congr 1
  apply List.map_congr_left
  intro row hrow
  simp only [Forest.contributions, List.map_map]
  congr 1
  apply List.map_congr_left
  intro t ht
  simp only [Function.comp_apply]
  congr 1
  rw [hle]
  refine value_mapValues (fun v => narrow (v.1, six v)) (fun v => narrow (v.1, out v)) t ?_
  intro p hp
  have hlt : p.1 < row.length := by
    rw [hX row hrow]
    exact hf t ht _ (tests_features t p hp)
  obtain ⟨s, m, hx, hm⟩ := hnum row hrow _ (List.getElem_mem hlt)
  have hget : row[p.1]? = some (.num s m) := by rw [List.getElem?_eq_getElem hlt, hx]
  unfold goesLeft skTest
  rw [hget]
  exact C110_decision hm (hsix0 _) (hsix _ (hpos t ht p hp)) (hclear row hrow t ht p hp s m hget)

/-- C110: `%.12g` writes decimal numbers with twelve correct digits, so that it is one of the writers of learning rates allowed in `C110_scores_partial`. -/
theorem C110_twelve_digits {v : Signed} (h : 0 ≤ v.2) : ∃ d, DecimalText (percentG v) v.1 d ∧ Prints 12 v.2 d := by
  unfold percentG
  by_cases h0 : v.2 = 0
  · rw [if_pos h0]
    exact ⟨0, ⟨signText v.1, ['0'], [], 0, 0, 0, by simp, signText_spec _, .inl ⟨.one (d := 0) (by norm_num), rfl⟩, .inl ⟨rfl, rfl⟩, by simp⟩, .inl ⟨h0, rfl⟩⟩
  · rw [if_neg h0]
    have hv : 0 < v.2 := lt_of_le_of_ne h (Ne.symm h0)
    obtain ⟨h1, h2, h3⟩ := firstDigits_spec (p := 11) hv
    obtain ⟨mt, ex, nn, k, e, hg, hm, hex, hval⟩ := general_text (lo := -4) (hi := 12) (x := (firstDigits 12 v.2).2) (by norm_num) h1 h2
    refine ⟨_, ⟨signText v.1, mt, ex, nn, k, e, ?_, signText_spec _, hm, hex, rfl⟩, ?_⟩
    · rw [show firstDigits 12 v.2 = firstDigits (11 + 1) v.2 from rfl] at hg ⊢
      rw [hg, List.append_assoc]
    · rw [hval]
      exact h3

/-- The hypothesis on `%s` is met by `%.12g`. -/
example : ∃ out, WritesDecimals (fun v => percentG (v.1, |v.2|)) out ∧ ∀ v, Prints 12 |v.2| (out v) := by
  have h : ∀ v : Signed, ∃ d, DecimalText (percentG (v.1, |v.2|)) v.1 d ∧ Prints 12 |v.2| d := fun v => C110_twelve_digits (v := (v.1, |v.2|)) (abs_nonneg _)
  choose out h1 h2 using h
  exact ⟨out, h1, h2⟩

/-- A fitted tree with one test, and the tree it stands for. -/
def stump (t : Signed) : SkTree Signed := ⟨[0, -2, -2], [t, (true, 2), (true, 2)], [1, -1, -1], [2, -1, -1], [(false, 0), (false, 1), (false, 2)]⟩

def stumpTree (t : Signed) : LTree Signed := .node 0 0 t (.leaf 1 (false, 1)) (.leaf 2 (false, 2))

/-- The scores of documents with one feature, after the export of a model with one test and loading. -/
def exported (t b l : Signed) (X : List (List Single)) : Except PyErr (List Single) := do
  let text ← exportText (skPrinter percentG) b l [oneOutput (stump t)]
  let e ← rtEnsemble (.num false (2 ^ 148)) .scikitLearn
    (scikitTextLoad (.num false 0) (.num false (2 ^ 149)) (.num true (2 ^ 149)) pyFloat text) (.num false (2 ^ 149)) none none
  let r ← scoreFresh singleOps e.arrays e.learningRate e.baseScore false X 1
  pure r.yPred

/-- The hypotheses of `C110_scores_partial` are met by the test `<= 1/8` and the documents 1/4 and 1/16, which get the leaves 2 and 1. -/
example : List.Forall₂ (fun a t => SkEncodes a 0 t) [stump (false, 1 / 8)] [stumpTree (false, 1 / 8)] ∧
    (∀ t ∈ [stumpTree (false, 1 / 8)], t.ids.Perm (List.range t.ids.length)) ∧
    Clear false (2 ^ 147) (false, 1 / 8) ∧ Clear false (2 ^ 145) (false, 1 / 8) ∧
    exported (false, 1 / 8) (false, 0) (false, 1) [[.num false (2 ^ 147)], [.num false (2 ^ 145)]] = .ok [.num false (2 ^ 150), .num false (2 ^ 149)] := by
  refine ⟨.cons ?_ .nil, ?_, .inr ⟨false, 3 * 2 ^ 145, ⟨3, 145, by norm_num, by norm_num, by norm_num⟩, by norm_num [exactValue], by norm_num [exactValue]⟩,
    .inl (by norm_num [exactValue]), by decide +kernel⟩
  · exact .node (f := 0) (l := 1) (r := 2) rfl rfl rfl rfl (.leaf rfl rfl) (.leaf rfl rfl)
  · intro t ht
    rw [List.mem_singleton.1 ht]
    exact List.Perm.refl _

/-- C110 is violated: scikit-learn sends a document with the value 2^-23 (about 0.00000012) left at the threshold 2^-22 (about 0.00000024), to the leaf 1.
After the export the threshold is 0.000000, and the document gets the score 2. -/
theorem C110_violated : SkEncodes (stump (false, 1 / 2 ^ 22)) 0 (stumpTree (false, 1 / 2 ^ 22)) ∧
    (stumpTree (false, 1 / 2 ^ 22)).value (skTest [.num false (2 ^ 126)]) = (false, 1) ∧
    exported (false, 1 / 2 ^ 22) (false, 0) (false, 1) [[.num false (2 ^ 126)]] = .ok [.num false (2 ^ 150)] :=
  ⟨.node (f := 0) (l := 1) (r := 2) rfl rfl rfl rfl (.leaf rfl rfl) (.leaf rfl rfl), by decide +kernel, by decide +kernel⟩

/-- C110 is violated for the learning rate: 2^-22 is written as 0.000000, and all documents get the base score 1/2. -/
theorem C110_violated_rate : exported (false, 1 / 8) (false, 1 / 2) (false, 1 / 2 ^ 22) [[.num false (2 ^ 147)], [.num false (2 ^ 145)]] =
    .ok [.num false (2 ^ 148), .num false (2 ^ 148)] := by
  decide +kernel

end Verif.Props.ExportNumbers
