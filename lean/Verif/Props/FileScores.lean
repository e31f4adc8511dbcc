/-
Property C95: how far the scores computed from texts are from the exact ones.
-/
import Verif.Spec.FileScores
import Verif.Lemmas.SingleRounded
import Verif.Props.Decisions
import Verif.Props.Rounding

namespace Verif.Props
open Spec Decimal Ensemble Svm

/-- Single precision operations with any function that adds up an array. -/
def withSum (sum : List Single → Single) : FloatOps Single := { singleOps with sum := sum }

theorem withSum_rounded (sum : List Single → Single) : Rounded (withSum sum) SingleFinite singleNum (1 / 2 ^ 24) (1 / 2 ^ 150) :=
  ⟨singleRounded.u_nonneg, singleRounded.η_nonneg, singleRounded.zero, singleRounded.add, singleRounded.mul, singleRounded.le, singleRounded.isOne,
    singleRounded.isZero⟩

theorem withSum_noOverflow (sum : List Single → Single) : NoOverflow (withSum sum) SingleFinite singleNum ((1 - 1 / 2 ^ 24) * 2 ^ 128) :=
  ⟨singleNoOverflow.zero, singleNoOverflow.add, singleNoOverflow.mul⟩

theorem toReal_map (t : Spec.Tree Signed) : (t.map narrow).toReal singleNum = t.map (fun v => singleNum (narrow v)) := by
  induction t with
  | leaf v => rfl
  | node f t l r ihl ihr => simp [Spec.Tree.map, Spec.Tree.toReal, ihl, ihr]

theorem thresholds_map (t : Spec.Tree Signed) : ∀ x ∈ (t.map narrow).thresholds, ∃ v ∈ t.numbers, x = narrow v := by
  induction t with
  | leaf v => intro x hx; cases hx
  | node f t l r ihl ihr =>
    intro x hx
    rcases List.mem_cons.1 hx with rfl | hx
    · exact ⟨t, List.mem_cons_self, rfl⟩
    · rcases List.mem_append.1 hx with hx | hx
      · obtain ⟨v, hv, e⟩ := ihl x hx
        exact ⟨v, List.mem_cons_of_mem _ (List.mem_append_left _ hv), e⟩
      · obtain ⟨v, hv, e⟩ := ihr x hx
        exact ⟨v, List.mem_cons_of_mem _ (List.mem_append_right _ hv), e⟩

theorem outputs_map (t : Spec.Tree Signed) : ∀ x ∈ (t.map narrow).outputs, ∃ v ∈ t.numbers, x = narrow v := by
  induction t with
  | leaf v =>
    intro x hx
    exact ⟨v, List.mem_singleton.2 rfl, List.mem_singleton.1 hx⟩
  | node f t l r ihl ihr =>
    intro x hx
    rcases List.mem_append.1 hx with hx | hx
    · obtain ⟨v, hv, e⟩ := ihl x hx
      exact ⟨v, List.mem_cons_of_mem _ (List.mem_append_left _ hv), e⟩
    · obtain ⟨v, hv, e⟩ := ihr x hx
      exact ⟨v, List.mem_cons_of_mem _ (List.mem_append_right _ hv), e⟩

theorem value_number {F : Type} (left : Nat → F → Bool) (t : Spec.Tree F) : t.value left ∈ t.numbers := by
  induction t with
  | leaf v => exact List.mem_singleton.2 rfl
  | node f t l r ihl ihr =>
    unfold Spec.Tree.value
    split
    · exact List.mem_cons_of_mem _ (List.mem_append_left _ ihl)
    · exact List.mem_cons_of_mem _ (List.mem_append_right _ ihr)

theorem narrow_finite {v : Signed} (h0 : 0 ≤ v.2) (h : v.2 ≤ 2 ^ 128 - 2 ^ 104) : SingleFinite (narrow v) := by
  obtain ⟨m, hm⟩ := mag_finite h0 h
  rw [narrow_eq, hm]
  rfl

/-- Sums of rounded numbers. -/
theorem sums_near {α : Type} (l : List α) (f g : α → ℝ) {c d : ℝ} (h : ∀ a ∈ l, |f a - g a| ≤ c * |g a| + d) :
    |(l.map f).sum - (l.map g).sum| ≤ c * (l.map (fun a => |g a|)).sum + l.length * d ∧
    (l.map (fun a => |f a|)).sum ≤ (1 + c) * (l.map (fun a => |g a|)).sum + l.length * d := by
  induction l with
  | nil => simp
  | cons a l ih =>
    obtain ⟨h1, h2⟩ := ih (fun b hb => h b (List.mem_cons_of_mem _ hb))
    have h3 := h a List.mem_cons_self
    simp only [List.map_cons, List.sum_cons, List.length_cons]
    push_cast
    constructor
    · have e : f a + (l.map f).sum - (g a + (l.map g).sum) = (f a - g a) + ((l.map f).sum - (l.map g).sum) := by ring
      rw [e]
      refine (abs_add_le _ _).trans ?_
      linarith
    · have h4 : |f a| ≤ |f a - g a| + |g a| := by
        have := abs_add_le (f a - g a) (g a)
        rwa [sub_add_cancel] at this
      linarith

theorem small_power {T k : Nat} (hT : T ≤ 2 ^ 20) (hk : k ≤ T + 5) : (1 + 1 / 2 ^ 24 : ℝ) ^ k - 1 ≤ k / 2 ^ 23 ∧ (1 + 1 / 2 ^ 24 : ℝ) ^ k ≤ 2 := by
  have hk' : (k : ℝ) ≤ 1048581 := by
    have : ((k : Nat) : ℝ) ≤ ((1048581 : Nat) : ℝ) := Nat.cast_le.2 (by omega)
    rwa [Nat.cast_ofNat] at this
  have hk0 : (0 : ℝ) ≤ k := Nat.cast_nonneg _
  have h1 : (k : ℝ) * (1 / 2 ^ 24) ≤ 1 / 2 := by
    norm_num only
    linarith
  have h2 := C79_factor (u := 1 / 2 ^ 24) (by norm_num) k (by linarith)
  have h3 : (k : ℝ) * (1 / 2 ^ 24) / (1 - k * (1 / 2 ^ 24)) ≤ k / 2 ^ 23 := by
    rw [div_le_iff₀ (by linarith)]
    have : (k : ℝ) / 2 ^ 23 * (1 / 2) ≤ k / 2 ^ 23 * (1 - k * (1 / 2 ^ 24)) := mul_le_mul_of_nonneg_left (by linarith) (by positivity)
    refine le_trans (le_of_eq ?_) this
    ring
  refine ⟨h2.trans h3, ?_⟩
  have h4 : (k : ℝ) / 2 ^ 23 ≤ 1 := by
    norm_num only
    linarith
  linarith

/-- The errors of scoring and of reading together. -/
theorem error_total {P Q B L N A T D c k : ℝ} (hP1 : 1 ≤ P) (hP2 : P ≤ 2) (hQ : Q ≤ 2) (hk : P * (1 + c) - 1 ≤ k) (hc : 0 ≤ c) (hL : 0 ≤ L) (hA : 0 ≤ A)
    (hT : 0 ≤ T) (hB : 0 ≤ B) (hD : D ≤ c * A + T * (1 / 2 ^ 149)) (hN : N ≤ (1 + c) * A + T * (1 / 2 ^ 149)) :
    (P - 1) * (B + L * N) + Q * ((T * L + 1) * (1 / 2 ^ 150)) + L * D ≤ k * (B + L * A) + (3 * T * L + 1) / 2 ^ 149 := by
  obtain ⟨η, hη⟩ : ∃ η : ℝ, η = 1 / 2 ^ 150 := ⟨_, rfl⟩
  have hη0 : 0 ≤ η := by rw [hη]; positivity
  have h149 : (1 / 2 ^ 149 : ℝ) = 2 * η := by rw [hη]; norm_num
  rw [h149] at hD hN
  rw [div_eq_mul_one_div (3 * T * L + 1) _, h149, ← hη]
  clear h149 hη
  have h1 : (P - 1) * (L * N) ≤ (P - 1) * (L * ((1 + c) * A + T * (2 * η))) :=
    mul_le_mul_of_nonneg_left (mul_le_mul_of_nonneg_left hN hL) (by linarith)
  have h2 : L * D ≤ L * (c * A + T * (2 * η)) := mul_le_mul_of_nonneg_left hD hL
  have hTL : 0 ≤ T * L * η := by positivity
  have h3 : Q * ((T * L + 1) * η) ≤ 2 * ((T * L + 1) * η) := mul_le_mul_of_nonneg_right hQ (by positivity)
  have h4 : (P * (1 + c) - 1) * (L * A) ≤ k * (L * A) := mul_le_mul_of_nonneg_right hk (by positivity)
  have h5 : (P - 1) * B ≤ k * B := by
    refine mul_le_mul_of_nonneg_right ?_ hB
    have : P * 1 ≤ P * (1 + c) := mul_le_mul_of_nonneg_left (by linarith) (by linarith)
    linarith
  have h6 : P * (T * L * η) ≤ 2 * (T * L * η) := mul_le_mul_of_nonneg_right hP2 hTL
  have e : (P - 1) * (B + L * ((1 + c) * A + T * (2 * η))) + L * (c * A + T * (2 * η)) =
      (P - 1) * B + (P * (1 + c) - 1) * (L * A) + 2 * (P * (T * L * η)) := by ring
  have e1 : (P - 1) * (B + L * N) = (P - 1) * B + (P - 1) * (L * N) := by ring
  have e2 : (P - 1) * (B + L * ((1 + c) * A + T * (2 * η))) = (P - 1) * B + (P - 1) * (L * ((1 + c) * A + T * (2 * η))) := by ring
  have e3 : 2 * ((T * L + 1) * η) = 2 * (T * L * η) + 2 * η := by ring
  have e4 : (3 * T * L + 1) * (2 * η) = 6 * (T * L * η) + 2 * η := by ring
  have e5 : k * (B + L * A) = k * B + k * (L * A) := by ring
  linarith

/-- C95, proved part: the texts of a dataset and of a LightGBM model are loaded and scored without error and without overflow, and every prediction
differs from the exact score of the numbers in the texts by at most `(T + 5) / 2^23` of the sum of the absolute values of what is added up, where `T` is the
number of trees (plus a term for numbers near zero). `sum` is any way to add up an array. Missing: values above a threshold that are rounded to it
(`C94_violated`); more than 2^20 trees; numbers near the largest ones. -/
theorem C95_error_partial {sum : List Single → Single} (hsum : ∀ l, SumTree (withSum sum) l.length l (sum l)) (zero minusOne half : Single)
    {isZero : Single → Bool} {data file : List Char} {rows : List (SvmRow Signed)} {ts : List (Spec.Tree Signed)}
    (hE : ExactFiles isZero data file rows ts) (hT : ts.length ≤ 2 ^ 20)
    (hnum : ∀ t ∈ ts, ∀ v ∈ t.numbers, v.2 ≤ 2 ^ 128 - 2 ^ 104)
    {lr : Single} (hlr : SingleFinite lr) {bs : Option Single} (hbs : ∀ b ∈ bs, SingleFinite b)
    (hbig : ∀ r ∈ rows, fileSize (bs.elim 0 singleNum) (|singleNum lr| + 1) ts (r.dense (false, 0) (svmWidth rows)) + |singleNum lr| ≤ 2 ^ 125)
    (detailed : Bool) :
    ∃ X y ids m res, loadFile singleScan data = .ok (X, svmWidth rows, y, ids) ∧
      rtEnsemble half .lightGBM (lightgbmTextLoad zero (.num false (2 ^ 149)) minusOne isZero pyFloat file) lr bs none = .ok ⟨m, lr, bs⟩ ∧
      scoreFresh (withSum sum) m lr bs detailed X (svmWidth rows) = .ok res ∧ res.yPred.length = rows.length ∧
      ∀ (i : Nat) (r : SvmRow Signed), rows[i]? = some r → ∃ p, res.yPred[i]? = some p ∧ SingleFinite p ∧
        |singleNum p - fileScore (bs.elim 0 singleNum) (singleNum lr) ts (r.dense (false, 0) (svmWidth rows))| ≤
          (ts.length + 5) / 2 ^ 23 * fileSize (bs.elim 0 singleNum) (singleNum lr) ts (r.dense (false, 0) (svmWidth rows)) +
            (3 * ts.length * |singleNum lr| + 1) / 2 ^ 149 := by
  obtain ⟨⟨dl, hdata, hrows⟩, ho, hne, hfirst, hlab, hval, ⟨ls, ds, as, hfile, h, hds, has, hf16⟩, hts, hf, hsep⟩ := hE
  have hnn := exactRows_nonneg hrows
  have hnum0 := numbers_nonneg h hds has
  obtain ⟨y, ids, m, hload, hm, hrep, hcheck⟩ := load_exact zero (.num false (2 ^ 149)) minusOne half hdata hrows ho hne hfirst hlab hval hfile h hds has hts
    hf16 hf lr bs
  have hr := withSum_rounded sum
  have hX : ∀ row ∈ rows.map (fun r => (r.dense (false, 0) (svmWidth rows)).map narrow), row.length = svmWidth rows := by
    intro row hrow
    obtain ⟨r, -, rfl⟩ := List.mem_map.1 hrow
    simp [SvmRow.dense]
  have hres : ∃ res, scoreFresh (withSum sum) m lr bs detailed (rows.map (fun r => (r.dense (false, 0) (svmWidth rows)).map narrow)) (svmWidth rows) = .ok res := by
    rcases C31_memory_safe (withSum sum) hrep (by simpa using hts) hX lr bs detailed with ⟨_, p, hp, f, hfm, hge⟩ | ⟨hr, _⟩
    · obtain ⟨t, ht, rfl⟩ := List.mem_map.1 hp
      rw [features_map] at hfm
      have := hf t ht f hfm
      omega
    · exact hr
  obtain ⟨res, hres⟩ := hres
  refine ⟨_, y, ids, m, res, hload, hm, hres, ?_, ?_⟩
  · have hy : ∃ l : List Single, l.length = rows.length ∧ res.yPred = l.map (adjustOne (withSum sum) lr bs) := by
      unfold scoreFresh at hres
      cases detailed with
      | false =>
        simp only [hcheck, rawScore, Bool.false_eq_true, if_false, C29_score (withSum sum) hrep hX hcheck, bind, Except.bind, pure, Except.pure,
          Except.ok.injEq] at hres
        have e := adjust_yPred_map (withSum sum) lr bs ⟨(rows.map (fun r => (r.dense (false, 0) (svmWidth rows)).map narrow)).map (fun row =>
          (Forest.contributions (withSum sum).mul (goesLeft (withSum sum).le row) (ts.map (fun t => (t.map narrow, Single.num false (2 ^ 149))))).foldl
            (withSum sum).add (withSum sum).zero), none, none⟩
        rw [hres] at e
        exact ⟨_, by simp, e⟩
      | true =>
        obtain ⟨leaves, hd, -⟩ := C30_detailed (withSum sum) hrep hX hcheck
        simp only [hcheck, rawScore, if_true, hd, bind, Except.bind, pure, Except.pure, Except.ok.injEq] at hres
        exact ⟨((rows.map (fun r => (r.dense (false, 0) (svmWidth rows)).map narrow)).map (fun row => Forest.contributions (withSum sum).mul
          (goesLeft (withSum sum).le row) (ts.map (fun t => (t.map narrow, Single.num false (2 ^ 149)))))).map (withSum sum).sum, by simp,
          by rw [← hres, adjust_yPred_map]⟩
    obtain ⟨l, h1, h2⟩ := hy
    rw [h2, List.length_map, h1]
  intro i r hi
  have hmem : r ∈ rows := List.mem_of_getElem? hi
  set row := r.dense (false, 0) (svmWidth rows) with hrow
  have hcell : ∀ x ∈ row, 0 ≤ x.2 ∧ x.2 ≤ 2 ^ 128 - 2 ^ 104 := by
    intro x hx
    obtain ⟨j, _, rfl⟩ := List.mem_map.1 hx
    rcases at_mem (r := r) (i := j + 1) with h1 | ⟨p', hp', h1⟩
    · rw [h1]; norm_num
    · rw [h1]; exact ⟨hnn r hmem p' hp', hval r hmem p' hp'⟩
  have hfin : ∀ row' ∈ rows.map (fun r => (r.dense (false, 0) (svmWidth rows)).map narrow), ∀ x ∈ row', SingleFinite x := by
    intro row' hrow' x hx
    obtain ⟨r', hr', rfl⟩ := List.mem_map.1 hrow'
    obtain ⟨c, hc, rfl⟩ := List.mem_map.1 hx
    obtain ⟨j, _, rfl⟩ := List.mem_map.1 hc
    rcases at_mem (r := r') (i := j + 1) with h1 | ⟨p', hp', h1⟩
    · rw [h1]; exact narrow_finite le_rfl (by norm_num)
    · rw [h1]; exact narrow_finite (hnn r' hr' p' hp') (hval r' hr' p' hp')
  have hthr : ∀ p ∈ ts.map (fun t => (t.map narrow, Single.num false (2 ^ 149))), ∀ t ∈ p.1.thresholds, SingleFinite t := by
    intro p hp t ht
    obtain ⟨t', ht', rfl⟩ := List.mem_map.1 hp
    obtain ⟨v, hv, rfl⟩ := thresholds_map t' t ht
    exact narrow_finite (hnum0 t' ht' v hv) (hnum t' ht' v hv)
  have hout : ∀ p ∈ ts.map (fun t => (t.map narrow, Single.num false (2 ^ 149))), SingleFinite p.2 ∧ ∀ v ∈ p.1.outputs, SingleFinite v := by
    intro p hp
    obtain ⟨t', ht', rfl⟩ := List.mem_map.1 hp
    refine ⟨rfl, fun v hv => ?_⟩
    obtain ⟨v', hv', rfl⟩ := outputs_map t' v hv
    exact narrow_finite (hnum0 t' ht' v' hv') (hnum t' ht' v' hv')
  -- the sums
  set f : Spec.Tree Signed → ℝ := fun t => singleNum (narrow (t.value (goesLeft exactLe row))) with hfdef
  set g : Spec.Tree Signed → ℝ := fun t => (exactValue (t.value (goesLeft exactLe row)) : ℝ) with hgdef
  have hfg : ∀ t ∈ ts, |f t - g t| ≤ (1 / 2 ^ 24 + 1 / 2 ^ 52) * |g t| + 1 / 2 ^ 149 := by
    intro t ht
    have hv := value_number (goesLeft exactLe row) t
    exact narrow_near (hnum0 t ht _ hv) (narrow_finite (hnum0 t ht _ hv) (hnum t ht _ hv))
  obtain ⟨s1, s2⟩ := sums_near ts f g hfg
  have one : singleNum (.num false (2 ^ 149)) = 1 := singleRounded.isOne _ (by decide)
  have hvals : ∀ t ∈ ts, ((t.map narrow).toReal singleNum).value (goesLeft (fun a b => decide (a ≤ b)) ((row.map narrow).map singleNum)) = f t := by
    intro t ht
    rw [toReal_map, List.map_map]
    apply value_map (fun v => singleNum (narrow v)) (singleNum ∘ narrow)
    intro p hp x hx
    have hp1 := tests_numbers t p hp
    have hx1 := hcell x (List.mem_of_getElem? hx)
    have hle := singleRounded.le (narrow x) (narrow p.2) (narrow_finite hx1.1 hx1.2) (narrow_finite (hnum0 t ht _ hp1) (hnum t ht _ hp1))
    show decide (singleNum (narrow x) ≤ singleNum (narrow p.2)) = exactLe x p.2
    unfold exactLe
    rcases le_or_gt (exactValue x) (exactValue p.2) with hc | hc
    · rw [decide_eq_true hc, decide_eq_true (hle.1 (narrow_le hx1.1 (hnum0 t ht _ hp1) hc))]
    · rw [decide_eq_false (not_le.2 hc), decide_eq_false]
      intro hl
      exact hsep r hmem t ht p hp x hx hc (same_of_le (hle.2 hl) (narrow_le (hnum0 t ht _ hp1) hx1.1 hc.le))
  have e1 : ((Forest.toReal singleNum (ts.map (fun t => (t.map narrow, Single.num false (2 ^ 149))))).map
      (fun p => p.1.value (goesLeft (fun a b => decide (a ≤ b)) ((row.map narrow).map singleNum)) * p.2)) = ts.map f := by
    rw [Forest.toReal, List.map_map, List.map_map]
    apply List.map_congr_left
    intro t ht
    simp only [Function.comp_apply]
    rw [hvals t ht, one, mul_one]
  have e2 : ((Forest.toReal singleNum (ts.map (fun t => (t.map narrow, Single.num false (2 ^ 149))))).map
      (fun p => |p.1.value (goesLeft (fun a b => decide (a ≤ b)) ((row.map narrow).map singleNum)) * p.2|)) = ts.map (fun t => |f t|) := by
    rw [Forest.toReal, List.map_map, List.map_map]
    apply List.map_congr_left
    intro t ht
    simp only [Function.comp_apply]
    rw [hvals t ht, one, mul_one]
  have hlen : (ts.map (fun t => (t.map narrow, Single.num false (2 ^ 149)))).length = ts.length := by simp
  set A : ℝ := (ts.map (fun t => |g t|)).sum with hA
  have hA0 : 0 ≤ A := List.sum_nonneg (by
    intro x hx
    obtain ⟨t, _, rfl⟩ := List.mem_map.1 hx
    exact abs_nonneg _)
  set T : ℝ := (ts.length : ℝ) with hTdef
  have hT0 : 0 ≤ T := Nat.cast_nonneg _
  have hT1 : T ≤ 1048576 := by
    have : ((ts.length : Nat) : ℝ) ≤ ((1048576 : Nat) : ℝ) := Nat.cast_le.2 (by omega)
    rwa [Nat.cast_ofNat] at this
  set L : ℝ := |singleNum lr| with hL
  have hL0 : 0 ≤ L := abs_nonneg _
  set B : ℝ := |bs.elim 0 singleNum| with hB
  have hB0 : 0 ≤ B := abs_nonneg _
  set N : ℝ := (ts.map (fun t => |f t|)).sum with hN
  have hbig' : B + (L + 1) * A + L ≤ 2 ^ 125 := by
    have := hbig r hmem
    unfold fileSize at this
    rwa [abs_of_nonneg (by linarith : 0 ≤ L + 1)] at this
  have hsize : treesSize singleNum (ts.map (fun t => (t.map narrow, Single.num false (2 ^ 149)))) (row.map narrow) = N := by
    unfold treesSize
    rw [e2]
  have hscore : exactScore singleNum (bs.elim 0 singleNum) (singleNum lr) (ts.map (fun t => (t.map narrow, Single.num false (2 ^ 149)))) (row.map narrow) =
      bs.elim 0 singleNum + singleNum lr * (ts.map f).sum := by
    unfold exactScore
    rw [e1]
  have hssize : scoreSize singleNum (bs.elim 0 singleNum) (singleNum lr) (ts.map (fun t => (t.map narrow, Single.num false (2 ^ 149)))) (row.map narrow) =
      B + L * N := by
    unfold scoreSize
    rw [e2]
  obtain ⟨p2a, p2b⟩ := small_power hT (k := ts.length + 2) (by omega)
  obtain ⟨p1a, p1b⟩ := small_power hT (k := ts.length + 1) (by omega)
  obtain ⟨p5a, p5b⟩ := small_power hT (k := ts.length + 5) (by omega)
  obtain ⟨p3a, p3b⟩ := small_power hT (k := ts.length + 3) (by omega)
  have hN1 : N + T * (1 / 2 ^ 150) ≤ 2 * A + 1 := by
    have h1 : (1 / 2 ^ 24 + 1 / 2 ^ 52 : ℝ) ≤ 1 := by norm_num
    have h2 : (1 + (1 / 2 ^ 24 + 1 / 2 ^ 52)) * A ≤ 2 * A := mul_le_mul_of_nonneg_right (by linarith) hA0
    have h3 : T * (1 / 2 ^ 149) + T * (1 / 2 ^ 150) ≤ 1 := by
      have : T * (1 / 2 ^ 149) ≤ 1048576 * (1 / 2 ^ 149) := mul_le_mul_of_nonneg_right hT1 (by positivity)
      have : T * (1 / 2 ^ 150) ≤ 1048576 * (1 / 2 ^ 150) := mul_le_mul_of_nonneg_right hT1 (by positivity)
      have : (1048576 : ℝ) * (1 / 2 ^ 149) + 1048576 * (1 / 2 ^ 150) ≤ 1 := by norm_num
      linarith
    linarith
  have hN0 : 0 ≤ N + T * (1 / 2 ^ 150) := by
    have : 0 ≤ N := List.sum_nonneg (by
      intro x hx
      obtain ⟨t, _, rfl⟩ := List.mem_map.1 hx
      exact abs_nonneg _)
    positivity
  have hLA : 0 ≤ L * A := mul_nonneg hL0 hA0
  have hM : (1 + 1 / 2 ^ 24 : ℝ) ^ ((ts.map (fun t => (t.map narrow, Single.num false (2 ^ 149)))).length + 1) *
      (treesSize singleNum (ts.map (fun t => (t.map narrow, Single.num false (2 ^ 149)))) (row.map narrow) +
        (ts.map (fun t => (t.map narrow, Single.num false (2 ^ 149)))).length * (1 / 2 ^ 150)) ≤ (1 - 1 / 2 ^ 24) * 2 ^ 128 := by
    rw [hlen, hsize]
    have h1 : (1 + 1 / 2 ^ 24 : ℝ) ^ (ts.length + 1) * (N + T * (1 / 2 ^ 150)) ≤ 2 * (2 * A + 1) :=
      mul_le_mul p1b hN1 hN0 (by norm_num)
    refine h1.trans ?_
    have h2 : A ≤ 2 ^ 125 := by
      have e : (L + 1) * A = L * A + A := by ring
      rw [e] at hbig'
      linarith
    norm_num at h2 ⊢
    linarith
  have hM' : (1 + 1 / 2 ^ 24 : ℝ) ^ ((ts.map (fun t => (t.map narrow, Single.num false (2 ^ 149)))).length + 2) * (|singleNum lr| *
      (treesSize singleNum (ts.map (fun t => (t.map narrow, Single.num false (2 ^ 149)))) (row.map narrow) +
        (ts.map (fun t => (t.map narrow, Single.num false (2 ^ 149)))).length * (1 / 2 ^ 150))) + 1 / 2 ^ 150 + |bs.elim 0 singleNum| ≤
      (1 - 1 / 2 ^ 24) * 2 ^ 128 := by
    rw [hlen, hsize]
    have h1 : (1 + 1 / 2 ^ 24 : ℝ) ^ (ts.length + 2) * (L * (N + T * (1 / 2 ^ 150))) ≤ 2 * (L * (2 * A + 1)) :=
      mul_le_mul p2b (mul_le_mul_of_nonneg_left hN1 hL0) (mul_nonneg hL0 hN0) (by norm_num)
    have h2 : L * A + A + B + L ≤ 2 ^ 125 := by
      have e : (L + 1) * A = L * A + A := by ring
      rw [e] at hbig'
      linarith
    have h3 : 2 * (L * (2 * A + 1)) = 4 * (L * A) + 2 * L := by ring
    rw [h3] at h1
    change (1 + 1 / 2 ^ 24 : ℝ) ^ (ts.length + 2) * (L * (N + T * (1 / 2 ^ 150))) + 1 / 2 ^ 150 + B ≤ _
    have h4 : (1 : ℝ) / 2 ^ 150 ≤ 1 := by norm_num
    norm_num at h2 ⊢
    norm_num at h1 h4
    linarith
  obtain ⟨p, hp1, hp2, hp3⟩ := C79_finite hr (withSum_noOverflow sum) hrep hX hfin hthr hout hsum hlr hbs detailed hres (i := i) (row := row.map narrow)
    (by rw [List.getElem?_map, hi]; rfl) hM hM'
  refine ⟨p, hp1, hp2, ?_⟩
  rw [hscore] at hp3
  unfold errorBound at hp3
  rw [hssize, hlen] at hp3
  change |singleNum p - (bs.elim 0 singleNum + singleNum lr * (ts.map f).sum)| ≤
    ((1 + 1 / 2 ^ 24 : ℝ) ^ (ts.length + 3) - 1) * (B + L * N) + (1 + 1 / 2 ^ 24 : ℝ) ^ (ts.length + 2) * ((T * L + 1) * (1 / 2 ^ 150)) at hp3
  have hk : (1 + 1 / 2 ^ 24 : ℝ) ^ (ts.length + 3) * (1 + (1 / 2 ^ 24 + 1 / 2 ^ 52)) - 1 ≤ (T + 5) / 2 ^ 23 := by
    have h1 : (1 + (1 / 2 ^ 24 + 1 / 2 ^ 52) : ℝ) ≤ (1 + 1 / 2 ^ 24) ^ 2 := by norm_num
    have h2 : (1 + 1 / 2 ^ 24 : ℝ) ^ (ts.length + 3) * (1 + (1 / 2 ^ 24 + 1 / 2 ^ 52)) ≤ (1 + 1 / 2 ^ 24 : ℝ) ^ (ts.length + 5) := by
      rw [show ts.length + 5 = ts.length + 3 + 2 from rfl, pow_add _ (ts.length + 3) 2]
      exact mul_le_mul_of_nonneg_left h1 (by positivity)
    push_cast at p5a
    linarith
  have hP1 : 1 ≤ (1 + 1 / 2 ^ 24 : ℝ) ^ (ts.length + 3) := one_le_pow₀ (by norm_num)
  have hsum' := error_total (B := B) hP1 p3b p2b hk (by norm_num) hL0 hA0 hT0 hB0 s1 s2
  have hfs : fileScore (bs.elim 0 singleNum) (singleNum lr) ts row = bs.elim 0 singleNum + singleNum lr * (ts.map g).sum := rfl
  have hfz : fileSize (bs.elim 0 singleNum) (singleNum lr) ts row = B + L * A := rfl
  rw [hfs, hfz]
  have e3 : singleNum p - (bs.elim 0 singleNum + singleNum lr * (ts.map g).sum) =
      (singleNum p - (bs.elim 0 singleNum + singleNum lr * (ts.map f).sum)) + singleNum lr * ((ts.map f).sum - (ts.map g).sum) := by ring
  rw [e3]
  refine (abs_add_le _ _).trans ?_
  rw [abs_mul]
  linarith

/-- C95: two documents whose exact scores differ by more than both errors get predictions in the same order. -/
theorem C95_order_partial {sum : List Single → Single} (hsum : ∀ l, SumTree (withSum sum) l.length l (sum l)) (zero minusOne half : Single)
    {isZero : Single → Bool} {data file : List Char} {rows : List (SvmRow Signed)} {ts : List (Spec.Tree Signed)}
    (hE : ExactFiles isZero data file rows ts) (hT : ts.length ≤ 2 ^ 20) (hnum : ∀ t ∈ ts, ∀ v ∈ t.numbers, v.2 ≤ 2 ^ 128 - 2 ^ 104)
    {lr : Single} (hlr : SingleFinite lr) {bs : Option Single} (hbs : ∀ b ∈ bs, SingleFinite b)
    (hbig : ∀ r ∈ rows, fileSize (bs.elim 0 singleNum) (|singleNum lr| + 1) ts (r.dense (false, 0) (svmWidth rows)) + |singleNum lr| ≤ 2 ^ 125)
    (detailed : Bool) :
    ∃ X y ids m res, loadFile singleScan data = .ok (X, svmWidth rows, y, ids) ∧
      rtEnsemble half .lightGBM (lightgbmTextLoad zero (.num false (2 ^ 149)) minusOne isZero pyFloat file) lr bs none = .ok ⟨m, lr, bs⟩ ∧
      scoreFresh (withSum sum) m lr bs detailed X (svmWidth rows) = .ok res ∧
      ∀ (i j : Nat) (r r' : SvmRow Signed), rows[i]? = some r → rows[j]? = some r' →
        fileScore (bs.elim 0 singleNum) (singleNum lr) ts (r.dense (false, 0) (svmWidth rows)) +
          ((ts.length + 5) / 2 ^ 23 * (fileSize (bs.elim 0 singleNum) (singleNum lr) ts (r.dense (false, 0) (svmWidth rows)) +
            fileSize (bs.elim 0 singleNum) (singleNum lr) ts (r'.dense (false, 0) (svmWidth rows))) + (3 * ts.length * |singleNum lr| + 1) / 2 ^ 148) <
          fileScore (bs.elim 0 singleNum) (singleNum lr) ts (r'.dense (false, 0) (svmWidth rows)) →
        ∃ p p', res.yPred[i]? = some p ∧ res.yPred[j]? = some p' ∧ singleLe p p' = true ∧ singleLe p' p = false := by
  obtain ⟨X, y, ids, m, res, h1, h2, h3, -, h4⟩ := C95_error_partial hsum zero minusOne half hE hT hnum hlr hbs hbig detailed
  refine ⟨X, y, ids, m, res, h1, h2, h3, fun i j r r' hi hj hlt => ?_⟩
  obtain ⟨p, a1, a2, a3⟩ := h4 i r hi
  obtain ⟨p', b1, b2, b3⟩ := h4 j r' hj
  have c1 := (abs_le.1 a3).2
  have c2 := (abs_le.1 b3).1
  have e : (3 * (ts.length : ℝ) * |singleNum lr| + 1) / 2 ^ 148 = (3 * ts.length * |singleNum lr| + 1) / 2 ^ 149 + (3 * ts.length * |singleNum lr| + 1) / 2 ^ 149 := by
    ring
  rw [e] at hlt
  have hpp : singleNum p < singleNum p' := by linarith
  refine ⟨p, p', a1, b1, (singleRounded.le p p' a2 b2).2 hpp.le, ?_⟩
  by_contra hc
  rw [Bool.not_eq_false] at hc
  have : singleNum p' ≤ singleNum p := (singleRounded.le p' p b2 a2).1 hc
  linarith

theorem one_value : singleNum (.num false (2 ^ 149)) = 1 := singleRounded.isOne _ (by decide)

/-- The model and the dataset of C94 meet the hypotheses, with learning rate 1 and no base score. -/
example : ExactFiles singleOps.isZero "1 qid:1 1:0.2\n".toList (stumpText "0.1") stumpRows stumpTrees ∧ stumpTrees.length ≤ 2 ^ 20 ∧
    (∀ t ∈ stumpTrees, ∀ v ∈ t.numbers, v.2 ≤ 2 ^ 128 - 2 ^ 104) ∧ SingleFinite (.num false (2 ^ 149)) ∧
    (∀ r ∈ stumpRows, fileSize 0 (|singleNum (.num false (2 ^ 149))| + 1) stumpTrees (r.dense (false, 0) (svmWidth stumpRows)) +
      |singleNum (.num false (2 ^ 149))| ≤ 2 ^ 125) ∧
    (∀ l, SumTree (withSum singleOps.sum) l.length l (singleOps.sum l)) ∧
    scoresOf (stumpText "0.1") "1 qid:1 1:0.2\n".toList = .ok [.num false (2 ^ 150)] := by
  refine ⟨stump_files, by decide, ?_, rfl, ?_, fun l => foldl_sumTree l, C94_violated.2.2.2.2.2⟩
  · intro t ht v hv
    rw [List.mem_singleton.1 ht] at hv
    simp only [Spec.Tree.numbers, List.mem_cons, List.mem_append, List.not_mem_nil, or_false] at hv
    rcases hv with rfl | rfl | rfl <;> norm_num
  · intro r hr
    rw [List.mem_singleton.1 hr, one_value]
    have e : (SvmRow.dense (false, 0) (svmWidth stumpRows) ⟨(false, 1), some 1, [(1, (false, 1 / 5))]⟩ : List Signed) = [(false, 1 / 5)] := by
      decide +kernel
    rw [e]
    have e2 : (stumpTrees.map (fun t => t.value (goesLeft exactLe [((false, 1 / 5) : Signed)]))) = [(false, 2)] := by decide +kernel
    have e3 : (stumpTrees.map (fun t => |(exactValue (t.value (goesLeft exactLe [((false, 1 / 5) : Signed)])) : ℝ)|)).sum = 2 := by
      have : stumpTrees.map (fun t => |(exactValue (t.value (goesLeft exactLe [((false, 1 / 5) : Signed)])) : ℝ)|) =
          (stumpTrees.map (fun t => t.value (goesLeft exactLe [((false, 1 / 5) : Signed)]))).map (fun v => |(exactValue v : ℝ)|) := by
        rw [List.map_map]; rfl
      rw [this, e2]
      simp [exactValue]
    unfold fileSize
    rw [e3]
    norm_num

/-- A tree whose leaves have the same value. -/
def constantText (i v : String) : List Char :=
  ("Tree=" ++ i ++ "\nnum_leaves=2\nsplit_feature=0\nthreshold=0.1\nleft_child=-1\nright_child=-2\nleaf_value=" ++ v ++ " " ++ v ++ "\nshrinkage=1\n").toList

/-- A LightGBM model of such trees (at most four). -/
def constantsText (vs : List String) : List Char := (List.zipWith constantText ["0", "1", "2", "3"] vs).flatten

/-- C95 is violated for large numbers: four trees with the values 3e38, 3e38, -3e38, -3e38, all below the largest number, have the exact score 0 and the
prediction inf; in another order the prediction is 0. The leaves inf and -inf, which `float` accepts, give NaN. -/
theorem C95_violated : scoresOf (constantsText ["3e38", "3e38", "-3e38", "-3e38"]) "1 qid:1 1:0.2\n".toList = .ok [.inf false] ∧
    scoresOf (constantsText ["3e38", "-3e38", "3e38", "-3e38"]) "1 qid:1 1:0.2\n".toList = .ok [.num false 0] ∧
    scoresOf (constantsText ["-3e38", "-3e38", "3e38", "3e38"]) "1 qid:1 1:0.2\n".toList = .ok [.inf true] ∧
    scoresOf (constantsText ["inf", "-inf"]) "1 qid:1 1:0.2\n".toList = .ok [.nan false] ∧
    (3 * 10 ^ 38 : ℚ) < 2 ^ 128 - 2 ^ 104 :=
  ⟨by decide +kernel, by decide +kernel, by decide +kernel, by decide +kernel, by norm_num⟩

/-- C95: the error may be as large as the exact score, which the bound allows because it refers to the absolute values: the trees 2^24, 1, -2^24 have the
exact score 1 and the prediction 0, or 1 (2^149 units of 2^-149) in another order. -/
theorem C95_cancellation : scoresOf (constantsText ["16777216", "1", "-16777216"]) "1 qid:1 1:0.2\n".toList = .ok [.num false 0] ∧
    scoresOf (constantsText ["16777216", "-16777216", "1"]) "1 qid:1 1:0.2\n".toList = .ok [.num false (2 ^ 149)] :=
  ⟨by decide +kernel, by decide +kernel⟩

end Verif.Props
