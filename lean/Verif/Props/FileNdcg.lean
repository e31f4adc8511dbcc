/-
Property C103: from a data file and a LightGBM model file to `NDCG.eval`, in floating point.
-/
import Verif.Props.FileScores
import Verif.Props.NdcgFloat
import Verif.Props.Effect

namespace Verif.Props
open Spec Ensemble Etree Metrics Svm Decimal

/-- The bound of C95 for the error of the prediction for a document. -/
noncomputable def scoreError (base lr : ℝ) (ts : List (Spec.Tree Signed)) (row : List Signed) : ℝ :=
  (ts.length + 5) / 2 ^ 23 * fileSize base lr ts row + (3 * ts.length * |lr| + 1) / 2 ^ 149

/-- Two documents of a query with different exact scores have scores that differ by more than the errors of both predictions. -/
def ScoresApart (base lr : ℝ) (ts : List (Spec.Tree Signed)) (rows : List (SvmRow Signed)) : Prop :=
  ∀ r ∈ rows, ∀ r' ∈ rows, r.qid = r'.qid →
    fileScore base lr ts (r.dense (false, 0) (svmWidth rows)) < fileScore base lr ts (r'.dense (false, 0) (svmWidth rows)) →
    fileScore base lr ts (r.dense (false, 0) (svmWidth rows)) + scoreError base lr ts (r.dense (false, 0) (svmWidth rows)) +
      scoreError base lr ts (r'.dense (false, 0) (svmWidth rows)) < fileScore base lr ts (r'.dense (false, 0) (svmWidth rows))

theorem single_magnitude {m : Nat} (hm : IsMagnitude m) {x : ℚ} (h : x * 2 ^ 149 = m) : single false x = .num false m := by
  have hr := round_near hm (x := x * 2 ^ 149) (by
    rw [h, sub_self, abs_zero]
    exact div_nonneg (Nat.cast_nonneg _) (by norm_num))
  unfold single
  rw [hr]
  rfl

theorem single_nat {n : Nat} (h : n ≤ 24) : single false (n : ℚ) = .num false (n * 2 ^ 149) := by
  refine single_magnitude ⟨n, 149, rfl, by omega, by norm_num⟩ ?_
  rw [Nat.cast_mul, Nat.cast_pow, Nat.cast_ofNat]

theorem singleNum_nat (n : Nat) : SingleFinite (.num false (n * 2 ^ 149)) ∧ singleNum (.num false (n * 2 ^ 149)) = n := by
  refine ⟨rfl, ?_⟩
  show (((signed false (n * 2 ^ 149) : Int) : ℝ) / 2 ^ 149) = n
  have : signed false (n * 2 ^ 149) = ((n * 2 ^ 149 : Nat) : Int) := rfl
  rw [this, Int.cast_natCast, Nat.cast_mul, Nat.cast_pow, Nat.cast_ofNat]
  field_simp

theorem forall₂_of_rows {α β : Type} {P : α → β → Prop} : ∀ {l : List α} {l' : List β}, l'.length = l.length →
    (∀ (i : Nat) a, l[i]? = some a → ∃ b, l'[i]? = some b ∧ P a b) → List.Forall₂ P l l'
  | [], [], _, _ => .nil
  | [], _ :: _, h, _ => by simp at h
  | _ :: _, [], h, _ => by simp at h
  | a :: l, b :: l', h, hp => by
    obtain ⟨b', h1, h2⟩ := hp 0 a rfl
    rw [List.getElem?_cons_zero, Option.some.injEq] at h1
    subst h1
    exact .cons h2 (forall₂_of_rows (by simpa using h) (fun i a' hi => hp (i + 1) a' hi))

/-- The documents of a query with their predictions. -/
theorem ofQuery_forall₂ {F β : Type} {P : SvmRow F → β → Prop} (q : Int) {rows : List (SvmRow F)} {ps : List β} (h : List.Forall₂ P rows ps) :
    (∀ r ∈ rows, r.qid ≠ none) → List.Forall₂ P (ofQid q rows) (ofQuery q (rows.filterMap (·.qid)) ps) := by
  induction h with
  | nil => intro _; exact .nil
  | @cons r p rows ps hd _ ih =>
    intro hq
    have ih := ih (fun r' hr => hq r' (List.mem_cons_of_mem _ hr))
    cases hr : r.qid with
    | none => exact absurd hr (hq r List.mem_cons_self)
    | some q' =>
      unfold ofQuery ofQid at ih ⊢
      by_cases hqq : q' = q
      · simp only [List.filterMap_cons, hr, List.zip_cons_cons, List.filter_cons, hqq, decide_true, if_true, List.map_cons]
        exact .cons hd ih
      · have h1 : ¬ (some q' = some q) := by simpa using hqq
        simp only [List.filterMap_cons, hr, List.zip_cons_cons, List.filter_cons, hqq, h1, decide_false, Bool.false_eq_true, if_false]
        exact ih

/-- An order of predictions is an order of exact scores if smaller exact scores have smaller predictions. -/
theorem argsort_exact {α β : Type} {P : α → β → Prop} (f : α → ℝ) (g : β → ℝ) {l : List α} {ps : List β} (h : List.Forall₂ P l ps)
    (hlt : ∀ a ∈ l, ∀ a' ∈ l, ∀ b b', P a b → P a' b' → f a < f a' → g b < g b') {idx : List Nat} (hs : Verif.IsArgsort (ps.map g) idx) :
    Verif.IsArgsort (l.map f) idx := by
  refine ⟨?_, ?_⟩
  · rw [List.length_map, h.length_eq]
    simpa using hs.1
  · refine hs.2.imp ?_
    intro i j hij x hx y hy
    rw [List.getElem?_map] at hx hy
    obtain ⟨a, ha, rfl⟩ := Option.mem_map.1 hx
    obtain ⟨a', ha', rfl⟩ := Option.mem_map.1 hy
    rw [Option.mem_def] at ha ha'
    obtain ⟨hi, rfl⟩ := List.getElem?_eq_some_iff.1 ha
    obtain ⟨hj, rfl⟩ := List.getElem?_eq_some_iff.1 ha'
    have hi' : i < ps.length := h.length_eq ▸ hi
    have hj' : j < ps.length := h.length_eq ▸ hj
    have h1 := h.get hi hi'
    have h2 := h.get hj hj'
    by_contra hc
    rw [not_le] at hc
    have := hlt _ (List.getElem_mem hj) _ (List.getElem_mem hi) _ _ h2 h1 hc
    have h3 := hij (g ps[i]) (by simp [hi']) (g ps[j]) (by simp [hj'])
    simp only [List.get_eq_getElem] at this
    linarith

theorem isNdcg_exact {g : ℝ → ℝ} {d : ℝ} {c : Option Nat} {docs r : List (Nat × ℝ)} {t : List Nat} (hr : IsRanking docs r) (ht : t.Perm (docs.map (·.1)))
    (hts : t.Pairwise (· ≥ ·)) : IsNdcg g c d (docs.map (fun p => ((p.1 : ℝ), p.2))) (exactNdcg g d c r t) := by
  refine ⟨r.map (fun p => ((p.1 : ℝ), p.2)), realLabels t, ⟨hr.perm.map _, ?_⟩, ?_, ?_, ?_⟩
  · rw [List.pairwise_map]
    exact hr.sorted
  · have := ht.map (fun n : Nat => (n : ℝ))
    rw [List.map_map] at this ⊢
    exact this
  · unfold realLabels
    rw [List.pairwise_map]
    refine hts.imp ?_
    intro a b hab
    exact_mod_cast hab
  · have e1 : retrieved c (r.map (fun p => ((p.1 : ℝ), p.2))) = realLabels (retrieved c r) := by
      rw [retrieved_eq_top, retrieved_eq_top, List.map_map]
      unfold realLabels
      rw [← top_map, ← top_map, List.map_map]
      rfl
    have e2 : top c (realLabels t) = realLabels (top c t) := (top_map _ c _).symm
    unfold exactNdcg
    rw [e1, e2]
    exact (ite_not _ _ _).symm

/-- C103: a dataset and a LightGBM model in text files are loaded, scored and evaluated with NDCG; the average that is returned differs from the mean of the
exact NDCG of the queries, which are computed from the numbers in the texts, by at most `(e + 31) / 2^23`, for up to `112 * 2^e + 16` queries. Missing: what C95
excludes; documents of a query whose scores are different but too close; labels that are no natural numbers up to 24. -/
theorem C103_ndcg_partial {sum : List Single → Single} (hsum : ∀ l, SumTree (withSum sum) l.length l (sum l)) (zero minusOne half : Single)
    {isZero : Single → Bool} {data file : List Char} {rows : List (SvmRow Signed)} {ts : List (Spec.Tree Signed)}
    (hE : ExactFiles isZero data file rows ts) (hT : ts.length ≤ 2 ^ 20) (hnum : ∀ t ∈ ts, ∀ v ∈ t.numbers, v.2 ≤ 2 ^ 128 - 2 ^ 104)
    {lr : Single} (hlr : SingleFinite lr) {bs : Option Single} (hbs : ∀ b ∈ bs, SingleFinite b)
    (hbig : ∀ r ∈ rows, fileSize (bs.elim 0 singleNum) (|singleNum lr| + 1) ts (r.dense (false, 0) (svmWidth rows)) + |singleNum lr| ≤ 2 ^ 125)
    (hapart : ScoresApart (bs.elim 0 singleNum) (singleNum lr) ts rows)
    (hlab : ∀ r ∈ rows, ∃ n : Nat, n ≤ 24 ∧ r.label = (false, (n : ℚ))) (hqid : ∀ r ∈ rows, r.qid ≠ none) (hcont : Contiguous (rows.filterMap (·.qid)))
    (hrn : rows.length ≤ 2 ^ 40) (detailed : Bool)
    {dbl : ℚ → ℚ} (hdbl : ∀ x, |dbl x - x| ≤ |x| / 2 ^ 53) {log2 : Nat → ℚ} {exp2 : ℚ → ℚ} (hlog : AccurateLog log2) (hexp : ExactPowers exp2)
    {value : Single → ℚ} (hvalue : ∀ x, SingleFinite x → (value x : ℝ) = singleNum x)
    {sort : List Single → List Nat} (hs : ∀ p : List Single, (∀ x ∈ p, SingleFinite x) → Verif.IsArgsort (p.map singleNum) (sort p))
    {sortY : List ℚ → List Nat} (hsY : ∀ y, Verif.IsArgsort y (sortY y))
    (c : Option Nat) {impl : Impl} {g : ℝ → ℝ} (hg : IsGain impl g) {noRel : ℚ} (hd : 0 ≤ noRel ∧ noRel ≤ 1) {e : Nat} (he : e ≤ 40)
    (hq : (rows.filterMap (·.qid)).dedup.length ≤ 112 * 2 ^ e + 16) :
    ∃ d m res avg det exact, loadDataset singleScan data = .ok d ∧
      rtEnsemble half .lightGBM (lightgbmTextLoad zero (.num false (2 ^ 149)) minusOne isZero pyFloat file) lr bs none = .ok ⟨m, lr, bs⟩ ∧
      scoreFresh (withSum sum) m lr bs detailed d.X d.nFeatures = .ok res ∧
      metricEvalFloat Binary32.ops toSingle (divSingle dbl)
        (fun y p => (ndcgFloat log2 exp2 sort sortY (cut c) impl noRel (y.map value) p).map some) d res.yPred = .ok (some (some avg), det) ∧
      d.queryIds.Nodup ∧ (∀ q, q ∈ d.queryIds ↔ ∃ r ∈ rows, r.qid = some q) ∧
      (∀ q ∈ d.queryIds, IsNdcg g c noRel ((ofQid q rows).map (fun r => ((exactValue r.label : ℝ),
        fileScore (bs.elim 0 singleNum) (singleNum lr) ts (r.dense (false, 0) (svmWidth rows))))) (exact q)) ∧
      |Binary32.num (some avg) - (d.queryIds.map exact).sum / d.queryIds.length| ≤ (e + 31) / 2 ^ 23 := by
  obtain ⟨X, y, ids, m, res, h1, h2, h3, h4, h5⟩ := C95_error_partial hsum zero minusOne half hE hT hnum hlr hbs hbig detailed
  obtain ⟨dl, hdata, hrows⟩ := hE.data
  have hload := C09_load_partial singleScan hdata (exactRows_spell hrows hE.labels) (by simpa using hE.rows_ne)
    (by
      intro r hr
      obtain ⟨r', hr', rfl⟩ := List.mem_map.1 hr
      exact ordered_round (hE.ordered r' hr'))
    (.inr (by
      intro r hr
      rw [List.head?_map] at hr
      obtain ⟨r', hr', rfl⟩ := Option.mem_map.1 hr
      simpa [roundRow] using hE.first r' hr'))
  rw [h1, Except.ok.injEq, Prod.mk.injEq, Prod.mk.injEq, Prod.mk.injEq] at hload
  obtain ⟨hX, -, hy, hids⟩ := hload
  have hids' : ids = rows.filterMap (·.qid) := by
    rw [hids, List.filterMap_map]
    rfl
  have hy' : y = rows.map (fun r => single r.label.1 r.label.2) := by
    rw [hy, List.map_map]
    rfl
  clear hy hids
  have hlid : ids.length = rows.length := by rw [hids', length_qids hqid]
  have hlX : X.length = rows.length := by rw [hX, List.length_map, List.length_map]
  clear hX
  obtain ⟨d, hmk⟩ := mkDataset_isOk (X := X) (nf := svmWidth rows) (y := y) (ids := ids) (by rw [hlid, hlX])
  obtain ⟨_, hdX, hdy, hdn, hperm, -⟩ := mkDataset_spec hmk
  have hb := built_of_mk hmk
  choose! lab hlab24 hlabel using hlab
  set score : SvmRow Signed → ℝ := fun r => fileScore (bs.elim 0 singleNum) (singleNum lr) ts (r.dense (false, 0) (svmWidth rows)) with hscore
  set err : SvmRow Signed → ℝ := fun r => scoreError (bs.elim 0 singleNum) (singleNum lr) ts (r.dense (false, 0) (svmWidth rows)) with herr
  have hall : List.Forall₂ (fun r p => SingleFinite p ∧ |singleNum p - score r| ≤ err r) rows res.yPred := forall₂_of_rows h4 h5
  have hyv : ∀ q, (ofQuery q ids y).map value = labels ((ofQid q rows).map lab) := by
    intro q
    rw [hy', hids', ofQuery_qids _ q hqid]
    unfold labels
    rw [List.map_map, List.map_map]
    apply List.map_congr_left
    intro r hr
    have hr' : r ∈ rows := (List.mem_filter.1 hr).1
    have hl := hlabel r hr'
    show value (single r.label.1 r.label.2) = ((lab r : Nat) : ℚ)
    rw [hl]
    simp only
    rw [single_nat (hlab24 r hr')]
    obtain ⟨f1, f2⟩ := singleNum_nat (lab r)
    have := hvalue _ f1
    rw [f2] at this
    generalize value (Single.num false (lab r * 2 ^ 149)) = z at this
    exact_mod_cast this
  have key : ∀ q, ∃ x : ℝ, IsNdcg g c noRel ((ofQid q rows).map (fun r => ((exactValue r.label : ℝ), score r))) x ∧ (0 ≤ x ∧ x ≤ 1) ∧
      ∃ v : ℚ, ndcgFloat log2 exp2 sort sortY (cut c) impl noRel ((ofQuery q ids y).map value) (ofQuery q ids res.yPred) = .ok v ∧ |(v : ℝ) - x| ≤ 1 / 2 ^ 23 := by
    intro q
    have hq2 := ofQuery_forall₂ q hall hqid
    rw [← hids'] at hq2
    have hfin : ∀ x ∈ ofQuery q ids res.yPred, SingleFinite x := by
      intro x hx
      obtain ⟨r, -, h, -⟩ := forall₂_exists_left hq2 hx
      exact h
    have harg : Verif.IsArgsort ((ofQid q rows).map score) (sort (ofQuery q ids res.yPred)) := by
      refine argsort_exact score singleNum hq2 ?_ (hs _ hfin)
      rintro r hr r' hr' p p' ⟨-, e1⟩ ⟨-, e2⟩ hlt
      obtain ⟨m1, m2⟩ := List.mem_filter.1 hr
      obtain ⟨m3, m4⟩ := List.mem_filter.1 hr'
      have := hapart r m1 r' m3 ((of_decide_eq_true m2).trans (of_decide_eq_true m4).symm) hlt
      have e1 := (abs_le.1 e1).2
      have e2 := (abs_le.1 e2).1
      simp only [hscore, herr] at e1 e2
      linarith
    have hlenq : ((ofQid q rows).map lab).length = ((ofQid q rows).map score).length := by rw [List.length_map, List.length_map]
    obtain ⟨r, t, hr, ht, hts, hv⟩ := C96_error (sort := fun _ : List ℝ => sort (ofQuery q ids res.yPred)) hlog hexp (ns := (ofQid q rows).map lab) harg hlenq
      (hsY _) (by
        intro n hn
        obtain ⟨r, hr, rfl⟩ := List.mem_map.1 hn
        exact hlab24 r (List.mem_filter.1 hr).1) (by
        rw [List.length_map]
        exact (List.length_filter_le _ _).trans hrn)
    obtain ⟨v, hv1, hv2, hv3⟩ := hv c impl g noRel hg
    have hbd := exactNdcg_bounds hg (d := (noRel : ℝ)) ⟨by exact_mod_cast hd.1, by exact_mod_cast hd.2⟩ c hlenq hr ht hts
    refine ⟨exactNdcg g noRel c r t, ?_, hbd, v, ?_, ?_⟩
    · have := isNdcg_exact (g := g) (d := (noRel : ℝ)) (c := c) hr (by rwa [List.map_fst_zip hlenq.le]) hts
      rw [zip_map_self, List.map_map] at this
      have e : (ofQid q rows).map ((fun p : Nat × ℝ => ((p.1 : ℝ), p.2)) ∘ fun r => (lab r, score r)) =
          (ofQid q rows).map (fun r => ((exactValue r.label : ℝ), score r)) := by
        apply List.map_congr_left
        intro r hr
        have hl := hlabel r (List.mem_filter.1 hr).1
        simp only [Function.comp, hl, exactValue, Prod.mk.injEq, and_true]
        simp
      rwa [e] at this
    · rw [hyv, ← hv1]
      rfl
    · by_cases h0 : Spec.dcg g (realLabels (top c t)) = 0
      · rw [hv2 h0]
        unfold exactNdcg
        rw [if_pos h0, sub_self, abs_zero]
        norm_num
      · have h1 := hv3 h0
        unfold exactNdcg at hbd ⊢
        rw [if_neg h0] at hbd ⊢
        refine h1.trans ?_
        exact div_le_div_of_nonneg_right hbd.2 (by norm_num)
  choose exact hex using key
  have hne : ids ≠ [] := by
    rw [← List.length_pos_iff, hlid, List.length_pos_iff]
    exact hE.rows_ne
  obtain ⟨avg, det, g1, g2⟩ := C91_binary32 (yPred := res.yPred)
    (evalQ := fun y p => (ndcgFloat log2 exp2 sort sortY (cut c) impl noRel (y.map value) p).map some) hdbl hmk (hids' ▸ hcont) hne
    (by rw [hy', List.length_map, hlid]) (by rw [h4, hlid]) exact (fun q _ => (hex q).2.1) (ε := 1 / 2 ^ 23) (by norm_num) (by norm_num) (by
      intro q _
      obtain ⟨-, -, v, hv, herr⟩ := hex q
      refine ⟨v, ?_, herr⟩
      simp only [hv]
      rfl) he (by
      rw [hperm.length_eq, hids']
      exact hq)
  refine ⟨d, m, res, avg, det, exact, ?_, h2, ?_, g1, hb.nodup, ?_, fun q _ => (hex q).1, g2.trans (le_of_eq ?_)⟩
  · unfold loadDataset
    rw [h1]
    exact hmk
  · rw [hdX, hdn]
    exact h3
  · intro q
    rw [hb.mem_iff, hids', List.mem_filterMap]
  · ring

/-- Two documents of a query. -/
def pairRows : List (SvmRow Signed) := [⟨(false, 1), some 1, [(1, (false, 1 / 5))]⟩, ⟨(false, 0), some 1, [(1, (false, 1 / 10))]⟩]

theorem pair_files : ExactFiles singleOps.isZero "1 qid:1 1:0.2\n0 qid:1 1:0.1\n".toList (stumpText "0.1") pairRows stumpTrees := by
  have n1 : Numeral ['1'] 1 := .one (d := 1) (by decide)
  have d1 : DecimalText ['1'] false 1 := by
    have := integer_text (ds := ['1']) (by simp) (by decide)
    have e : ((digitsValue ['1'] : Nat) : ℚ) = 1 := by decide +kernel
    rwa [e] at this
  have d0 : DecimalText ['0'] false 0 := by
    have := integer_text (ds := ['0']) (by simp) (by decide)
    have e : ((digitsValue ['0'] : Nat) : ℚ) = 0 := by decide +kernel
    rwa [e] at this
  refine ⟨⟨["1 qid:1 1:0.2\n".toList, "0 qid:1 1:0.1\n".toList], ?_, ?_⟩, ?_, by simp [pairRows], by simp [pairRows], ?_, ?_, stump_files.model,
    stump_files.trees_ne, ?_, ?_⟩
  · exact .cons (l := "1 qid:1 1:0.2".toList) (by decide) (.cons (l := "0 qid:1 1:0.1".toList) (by decide) .nil)
  · refine .row ⟨[], ['1'], " qid:1 1:0.2\n".toList, [], ["qid:1".toList, "1:0.2".toList], rfl, by decide, d1, .inl rfl, ?_, by simp, .inr ?_⟩
      (.row ⟨[], ['0'], " qid:1 1:0.1\n".toList, [], ["qid:1".toList, "1:0.1".toList], rfl, by decide, d0, .inl rfl, ?_, by simp, .inr ?_⟩ .nil)
    · exact .cons (sp := [' ']) (w := "qid:1".toList) (s := " 1:0.2\n".toList) (by decide) (by simp) (by decide)
        (.cons (sp := [' ']) (w := "1:0.2".toList) (s := ['\n']) (by decide) (by simp) (by decide) (.nil (by decide)))
    · exact ⟨1, _, _, rfl, rfl, ⟨['1'], 1, rfl, n1, rfl, by norm_num⟩, .cons ⟨['1'], "0.2".toList, rfl, n1, by norm_num, fifth_text⟩ .nil⟩
    · exact .cons (sp := [' ']) (w := "qid:1".toList) (s := " 1:0.1\n".toList) (by decide) (by simp) (by decide)
        (.cons (sp := [' ']) (w := "1:0.1".toList) (s := ['\n']) (by decide) (by simp) (by decide) (.nil (by decide)))
    · exact ⟨1, _, _, rfl, rfl, ⟨['1'], 1, rfl, n1, rfl, by norm_num⟩, .cons ⟨['1'], "0.1".toList, rfl, n1, by norm_num, tenth_text⟩ .nil⟩
  · intro r hr
    simp only [pairRows, List.mem_cons, List.not_mem_nil, or_false] at hr
    rcases hr with rfl | rfl <;> exact ⟨by simp, by simp⟩
  · intro r hr
    simp only [pairRows, List.mem_cons, List.not_mem_nil, or_false] at hr
    rcases hr with rfl | rfl <;> norm_num
  · intro r hr p hp
    simp only [pairRows, List.mem_cons, List.not_mem_nil, or_false] at hr
    rcases hr with rfl | rfl <;> rw [List.mem_singleton.1 hp] <;> norm_num
  · exact stump_files.features
  · intro r hr t ht p hp x hx hlt hs
    rw [List.mem_singleton.1 ht] at hp
    have hp' : p = (0, (false, 1 / 10)) := by simpa [Spec.Tree.tests] using hp
    rw [hp'] at hx hlt hs
    simp only [pairRows, List.mem_cons, List.not_mem_nil, or_false] at hr
    rcases hr with rfl | rfl
    · have hx' : x = (false, 1 / 5) := by
        have e : (SvmRow.dense (false, 0) (svmWidth pairRows) ⟨(false, 1), some 1, [(1, (false, 1 / 5))]⟩ : List Signed) = [(false, 1 / 5)] := by
          decide +kernel
        rw [e] at hx
        exact (Option.some.inj hx).symm
      rw [hx'] at hs
      have := le_of_same hs
      revert this
      decide +kernel
    · have hx' : x = (false, 1 / 10) := by
        have e : (SvmRow.dense (false, 0) (svmWidth pairRows) ⟨(false, 0), some 1, [(1, (false, 1 / 10))]⟩ : List Signed) = [(false, 1 / 10)] := by
          decide +kernel
        rw [e] at hx
        exact (Option.some.inj hx).symm
      rw [hx'] at hlt
      exact absurd hlt (lt_irrefl _)

theorem stump_sum (x : Signed) (h : exactLe x (false, 1 / 10) = false) :
    fileScore 0 1 stumpTrees [x] = 2 ∧ ∀ lr, fileSize 0 lr stumpTrees [x] = |lr| * 2 := by
  have e : (Spec.Tree.value (goesLeft exactLe [x]) (.node 0 (false, 1 / 10) (.leaf (false, 1)) (.leaf (false, 2))) : Signed) = (false, 2) := by
    simp only [Spec.Tree.value, goesLeft, List.getElem?_cons_zero, h]
    rfl
  unfold fileScore fileSize stumpTrees
  simp only [List.map_cons, List.map_nil, e]
  simp [exactValue]

theorem stump_sum_left (x : Signed) (h : exactLe x (false, 1 / 10) = true) :
    fileScore 0 1 stumpTrees [x] = 1 ∧ ∀ lr, fileSize 0 lr stumpTrees [x] = |lr| * 1 := by
  have e : (Spec.Tree.value (goesLeft exactLe [x]) (.node 0 (false, 1 / 10) (.leaf (false, 1)) (.leaf (false, 2))) : Signed) = (false, 1) := by
    simp only [Spec.Tree.value, goesLeft, List.getElem?_cons_zero, h]
    rfl
  unfold fileScore fileSize stumpTrees
  simp only [List.map_cons, List.map_nil, e]
  simp [exactValue]

/-- The texts of the example meet the hypotheses of `C103_ndcg_partial`. -/
example : ∃ (log2 : Nat → ℚ) (exp2 : ℚ → ℚ) (value : Single → ℚ) (sort : List Single → List Nat) (d : Dataset (List Single) Single) (m : Ensemble Single)
    (res : Scored Single) (avg : Int) (det : List (Option (Option Int))) (exact : Int → ℝ),
    loadDataset singleScan "1 qid:1 1:0.2\n0 qid:1 1:0.1\n".toList = .ok d ∧
    rtEnsemble singleOps.zero .lightGBM (lightgbmTextLoad singleOps.zero (.num false (2 ^ 149)) singleOps.zero singleOps.isZero pyFloat (stumpText "0.1"))
      (.num false (2 ^ 149)) none none = .ok ⟨m, .num false (2 ^ 149), none⟩ ∧
    scoreFresh (withSum singleOps.sum) m (.num false (2 ^ 149)) none false d.X d.nFeatures = .ok res ∧
    metricEvalFloat Binary32.ops toSingle (divSingle id)
      (fun y p => (ndcgFloat log2 exp2 sort argsort (cut none) .flat 0 (y.map value) p).map some) d res.yPred = .ok (some (some avg), det) ∧
    (∀ q ∈ d.queryIds, IsNdcg (fun v => v) none 0 ((ofQid q pairRows).map (fun r => ((exactValue r.label : ℝ),
        fileScore 0 1 stumpTrees (r.dense (false, 0) (svmWidth pairRows))))) (exact q)) ∧
    |Binary32.num (some avg) - (d.queryIds.map exact).sum / d.queryIds.length| ≤ 31 / 2 ^ 23 := by
  obtain ⟨log2, exp2, hlog, hexp⟩ := accurate_exists
  have e1 : (SvmRow.dense (false, 0) (svmWidth pairRows) ⟨(false, 1), some 1, [(1, (false, 1 / 5))]⟩ : List Signed) = [(false, 1 / 5)] := by decide +kernel
  have e2 : (SvmRow.dense (false, 0) (svmWidth pairRows) ⟨(false, 0), some 1, [(1, (false, 1 / 10))]⟩ : List Signed) = [(false, 1 / 10)] := by decide +kernel
  have s1 := stump_sum (false, 1 / 5) (by decide +kernel)
  have s2 := stump_sum_left (false, 1 / 10) (by decide +kernel)
  obtain ⟨d, m, res, avg, det, exact, h1, h2, h3, h4, -, -, h5, h6⟩ := C103_ndcg_partial (sum := singleOps.sum) (fun l => foldl_sumTree l) singleOps.zero
    singleOps.zero singleOps.zero pair_files (by decide)
    (by
      intro t ht v hv
      rw [List.mem_singleton.1 ht] at hv
      simp only [Spec.Tree.numbers, List.mem_cons, List.mem_append, List.not_mem_nil, or_false] at hv
      rcases hv with rfl | rfl | rfl <;> norm_num)
    (lr := .num false (2 ^ 149)) rfl (bs := none) (by simp)
    (by
      intro r hr
      rw [one_value]
      simp only [pairRows, List.mem_cons, List.not_mem_nil, or_false] at hr
      rcases hr with rfl | rfl
      · rw [e1, Option.elim_none, s1.2]
        norm_num
      · rw [e2, Option.elim_none, s2.2]
        norm_num)
    (by
      intro r hr r' hr' _ hlt
      rw [one_value, Option.elim_none] at hlt ⊢
      unfold scoreError
      simp only [pairRows, List.mem_cons, List.not_mem_nil, or_false] at hr hr'
      rcases hr with rfl | rfl <;> rcases hr' with rfl | rfl
      · exact absurd hlt (lt_irrefl _)
      · rw [e1, e2, s1.1, s2.1] at hlt
        norm_num at hlt
      · rw [e1, e2, s1.1, s2.1, s1.2, s2.2]
        simp only [stumpTrees, List.length_singleton]
        norm_num
      · exact absurd hlt (lt_irrefl _))
    (by
      intro r hr
      simp only [pairRows, List.mem_cons, List.not_mem_nil, or_false] at hr
      rcases hr with rfl | rfl
      · exact ⟨1, by norm_num, by norm_num⟩
      · exact ⟨0, by norm_num, by norm_num⟩)
    (by simp [pairRows]) (by decide) (by decide) false (dbl := id) (by intro x; simp; positivity) hlog hexp
    (value := fun x => (toB x).elim 0 (fun k => (k : ℚ) / 2 ^ 149))
    (by
      intro x hx
      obtain ⟨k, hk⟩ := Option.isSome_iff_exists.1 hx
      unfold singleNum
      rw [hk]
      simp [Binary32.num])
    (sort := fun p => argsort (p.map singleNum)) (fun p _ => argsort_isArgsort _) (sortY := argsort) (fun y => argsort_isArgsort y) none (impl := .flat)
    (g := fun v => v) (fun _ => rfl) (noRel := 0) ⟨le_rfl, by norm_num⟩ (e := 0) (by norm_num) (by decide)
  refine ⟨log2, exp2, _, _, d, m, res, avg, det, exact, h1, h2, h3, h4, ?_, h6.trans (le_of_eq (by norm_num))⟩
  intro q hq
  have := h5 q hq
  rw [one_value, Rat.cast_zero] at this
  exact this

/-- C103 without the hypothesis of C94: the first document has label 1 and the higher score, but the values 0.1000000001 and 0.1 are the same in single
precision, so both get the same prediction, and the second document may be ranked first: NDCG with cutoff 1 is 0 instead of 1. -/
theorem C103_violated {log2 : Nat → ℚ} (hlog : log2 2 = 1) (exp2 : ℚ → ℚ) :
    scoresOf (stumpText "0.1") "1 qid:1 1:0.1000000001\n0 qid:1 1:0.1\n".toList = .ok [.num false (2 ^ 149), .num false (2 ^ 149)] ∧
    Verif.IsArgsort ([Single.num false (2 ^ 149), .num false (2 ^ 149)].map singleNum) [0, 1] ∧
    (∃ X, loadDataset singleScan "1 qid:1 1:0.1000000001\n0 qid:1 1:0.1\n".toList = .ok ⟨X, 1, [.num false (2 ^ 149), .num false 0], [1], [0, 2]⟩) ∧
    ndcgFloat log2 exp2 (fun _ => [0, 1]) argsort (cut (some 1)) .flat 0 [1, 0] [Single.num false (2 ^ 149), .num false (2 ^ 149)] = .ok 0 ∧
    ∀ v, IsNdcg (fun v => v) (some 1) 0 [(1, fileScore 0 1 stumpTrees [(false, 1000000001 / 10000000000)]), (0, fileScore 0 1 stumpTrees [(false, 1 / 10)])] v →
      v = 1 := by
  refine ⟨by decide +kernel, ⟨by decide, ?_⟩, ⟨[[narrow (false, 1000000001 / 10000000000)], [narrow (false, 1 / 10)]], by decide +kernel⟩, ?_, ?_⟩
  · simp
  · have a1 : topIdx (fun _ : List Single => [0, 1]) (cut (some 1)) [Single.num false (2 ^ 149), .num false (2 ^ 149)] = [1] := by decide +kernel
    have a2 : topIdx argsort (cut (some 1)) ([1, 0] : List ℚ) = [0] := by decide +kernel
    unfold ndcgFloat dcgFloat
    rw [a1, a2]
    simp only [gainFloat, bind, Except.bind, pure, Except.pure, List.length_singleton, List.range'_one, List.map_cons, List.map_nil, hlog]
    decide +kernel
  · rintro v ⟨r, t, hr, ht, hts, rfl⟩
    rw [(stump_sum (false, 1000000001 / 10000000000) (by decide +kernel)).1, (stump_sum_left (false, 1 / 10) (by decide +kernel)).1] at hr
    simp only [List.map_cons, List.map_nil] at ht
    have hr' : r = [(1, 2), (0, 1)] := by
      refine List.Perm.eq_of_pairwise (le := fun a b : ℝ × ℝ => b.2 ≤ a.2) ?_ hr.sorted (by norm_num) hr.perm
      intro a b ha hb h1 h2
      have ha := hr.perm.mem_iff.1 ha
      simp only [List.mem_cons, List.not_mem_nil, or_false] at ha hb
      rcases ha with rfl | rfl <;> rcases hb with rfl | rfl <;> first | rfl | (norm_num at h1; done) | (norm_num at h2; done)
    have ht' : t = [1, 0] := by
      refine List.Perm.eq_of_pairwise (le := fun a b : ℝ => a ≥ b) ?_ hts (by norm_num) ht
      intro a b _ _ h1 h2
      exact le_antisymm h2 h1
    rw [hr', ht']
    have e : Spec.dcg (fun v => v) [1] = 1 := by
      rw [← sum_zipWith_div]
      simp
    show (if Spec.dcg (fun v => v) [1] ≠ 0 then Spec.dcg (fun v => v) [1] / Spec.dcg (fun v => v) [1] else 0) = 1
    rw [e]
    norm_num

end Verif.Props
