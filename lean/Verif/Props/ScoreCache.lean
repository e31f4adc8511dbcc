/-
Property C33: the cache of scorers.
-/
import Verif.Model.ScoreCache
import Verif.Props.Scoring
import Verif.Model.Ndcg

namespace Verif.Props
open Spec Ensemble

section
variable {F D : Type} (ops : FloatOps F) (ds : Rows F D)

/-- Scoring succeeds on an ensemble that represents a forest; only detailed scoring gives partial scores. -/
theorem rawScore_ok {m : Ensemble F} {fo : Forest F} {X : List (List F)} {nf : Nat} (h : Represents m fo)
    (hX : ∀ row ∈ X, row.length = nf) (hc : featureCheck m nf = .ok ()) (detailed : Bool) :
    ∃ s, rawScore ops m detailed X = .ok s ∧ s.partialY.isSome = detailed := by
  cases detailed with
  | false =>
    have hb := C29_score ops h hX hc
    cases hbs : basicScoring ops m X with
    | error e => rw [hbs] at hb; cases hb
    | ok y =>
      refine ⟨⟨y, none, none⟩, ?_, rfl⟩
      simp only [rawScore, hbs, Bool.false_eq_true, ↓reduceIte, bind, Except.bind]
      rfl
  | true =>
    obtain ⟨leaves, hd, _⟩ := C30_detailed ops h hX hc
    cases hbs : detailedScoring ops m X with
    | error e => rw [hbs] at hd; cases hd
    | ok r =>
      obtain ⟨l, p⟩ := r
      refine ⟨⟨p.map ops.sum, some p, some l⟩, ?_, rfl⟩
      simp only [rawScore, hbs, ↓reduceIte, bind, Except.bind]
      rfl

theorem adjust_isSome (lr : F) (bs : Option F) (s : Scored F) :
    (adjust ops lr bs s).partialY.isSome = s.partialY.isSome := by
  unfold adjust
  split <;> (split <;> [simp; (split <;> simp)])

/-- A cache entry is the outcome of an uncached basic or detailed scoring of rows equal to those of its key. -/
def EntryOk (b : Booster F D) (e : D × Scorer F) : Prop :=
  ∃ detailed s, rawScore ops b.arrays detailed (ds.X e.1) = .ok s ∧ s.partialY.isSome = detailed ∧
    e.2 = (adjust ops b.learningRate b.baseScore s).toScorer

/-- The state of a model: arrays of a forest, correct cache. -/
def BoosterOk (b : Booster F D) : Prop :=
  (∃ fo, Represents b.arrays fo) ∧ ∀ e ∈ b.cache, EntryOk ops ds b e

theorem scorerSet_mem {same : D → D → Bool} {d : D} {s : Scorer F} :
    ∀ {c : List (D × Scorer F)} {e}, e ∈ scorerSet same c d s → e ∈ c ∨ (e.2 = s ∧ (e.1 = d ∨ same e.1 d = true)) := by
  intro c
  induction c with
  | nil => intro e h; simp only [scorerSet, List.mem_singleton] at h; subst h; exact Or.inr ⟨rfl, Or.inl rfl⟩
  | cons x c ih =>
    intro e h
    unfold scorerSet at h
    split at h
    · next hs =>
      rcases List.mem_cons.1 h with rfl | h
      · exact Or.inr ⟨rfl, Or.inr hs⟩
      · exact Or.inl (List.mem_cons_of_mem _ h)
    · rcases List.mem_cons.1 h with rfl | h
      · exact Or.inl (List.mem_cons_self ..)
      · rcases ih h with h | h
        · exact Or.inl (List.mem_cons_of_mem _ h)
        · exact Or.inr h

variable (hsame : ∀ a b, ds.same a b = true → ds.X a = ds.X b)
  (hrows : ∀ d, ∀ row ∈ ds.X d, row.length = ds.nFeatures d)

include hsame hrows

theorem scoreAnew_ok {b : Booster F D} (hb : BoosterOk ops ds b) (d : D) (detailed cache : Bool)
    (hc : featureCheck b.arrays (ds.nFeatures d) = .ok ()) :
    BoosterOk ops ds (scoreAnew ops ds b d detailed cache).1 ∧
    ∃ s, scoreFresh ops b.arrays b.learningRate b.baseScore detailed (ds.X d) (ds.nFeatures d) = .ok s ∧
      (scoreAnew ops ds b d detailed cache).2 = .ok s.toScorer := by
  obtain ⟨⟨fo, hfo⟩, hcache⟩ := hb
  obtain ⟨s, h1, h2⟩ := rawScore_ok ops hfo (hrows d) hc detailed
  have hres : result detailed (adjust ops b.learningRate b.baseScore s).toScorer
      = (adjust ops b.learningRate b.baseScore s).toScorer := by
    cases detailed with
    | true => rfl
    | false =>
      have hp : s.partialY = none := by
        cases hs : s.partialY with
        | none => rfl
        | some _ => rw [hs] at h2; cases h2
      have hl : s.leaves = none := by
        simp only [rawScore, Bool.false_eq_true, ↓reduceIte] at h1
        cases hbs : basicScoring ops b.arrays (ds.X d) with
        | error e => rw [hbs] at h1; cases h1
        | ok y => rw [hbs] at h1; cases h1; rfl
      simp only [result, Bool.false_eq_true, ↓reduceIte, Scored.toScorer]
      obtain ⟨y, p, l⟩ := s
      simp only at hp hl
      subst hp hl
      unfold adjust
      split <;> (split <;> [rfl; (split <;> rfl)])
  constructor
  · simp only [scoreAnew, h1]
    cases cache with
    | false => exact ⟨⟨fo, hfo⟩, hcache⟩
    | true =>
      refine ⟨⟨fo, hfo⟩, ?_⟩
      intro e he
      rcases scorerSet_mem he with he | ⟨he, hd⟩
      · exact hcache e he
      · refine ⟨detailed, s, ?_, h2, he⟩
        rcases hd with hd | hd
        · rw [hd]; exact h1
        · rw [hsame _ _ hd]; exact h1
  · refine ⟨adjust ops b.learningRate b.baseScore s, ?_, ?_⟩
    · simp only [scoreFresh, hc, h1, bind, Except.bind]; rfl
    · simp only [scoreAnew, h1, hres]

theorem scoreCall_ok {b : Booster F D} (hb : BoosterOk ops ds b) (d : D) (detailed cache : Bool) :
    BoosterOk ops ds (scoreCall ops ds b d detailed cache).1 ∧
    ∃ full, (full = detailed ∨ full = true) ∧
      (scoreCall ops ds b d detailed cache).2 =
        (scoreFresh ops b.arrays b.learningRate b.baseScore full (ds.X d) (ds.nFeatures d)).map
          (fun s => result detailed s.toScorer) := by
  unfold scoreCall
  cases hc : featureCheck b.arrays (ds.nFeatures d) with
  | error e =>
    refine ⟨hb, detailed, Or.inl rfl, ?_⟩
    simp only [scoreFresh, hc, bind, Except.bind]; rfl
  | ok u =>
    have anew : BoosterOk ops ds (scoreAnew ops ds b d detailed cache).1 ∧
      ∃ full, (full = detailed ∨ full = true) ∧
      (scoreAnew ops ds b d detailed cache).2 =
        (scoreFresh ops b.arrays b.learningRate b.baseScore full (ds.X d) (ds.nFeatures d)).map
          (fun s => result detailed s.toScorer) := by
      obtain ⟨h1, s, h2, h3⟩ := scoreAnew_ok ops ds hsame hrows hb d detailed cache hc
      refine ⟨h1, detailed, Or.inl rfl, ?_⟩
      have hres : result detailed s.toScorer = s.toScorer := by
        have := h3
        unfold scoreAnew at this
        split at this
        · cases this
        · have h4 := Except.ok.inj this
          rw [← h4]
          cases detailed <;> rfl
      rw [h2, h3]
      simp only [Except.map, hres]
    simp only
    cases hg : scorerGet ds.same b.cache d with
    | none => exact anew
    | some s =>
      simp only
      split
      · exact anew
      · next hcond =>
        refine ⟨hb, ?_⟩
        simp only [scorerGet, Option.map_eq_some_iff] at hg
        obtain ⟨e, he, rfl⟩ := hg
        have hmem := List.mem_of_find?_eq_some he
        have hs := List.find?_some he
        obtain ⟨full, sc, h1, h2, h3⟩ := hb.2 e hmem
        rw [hsame _ _ hs] at h1
        refine ⟨full, ?_, ?_⟩
        · cases full with
          | true => exact Or.inr rfl
          | false =>
            left
            cases detailed with
            | false => rfl
            | true =>
              exfalso
              apply hcond
              rw [h3]
              have := adjust_isSome ops b.learningRate b.baseScore sc
              rw [h2] at this
              simp only [Bool.true_and, Scored.toScorer]
              cases hp : (adjust ops b.learningRate b.baseScore sc).partialY with
              | none => rfl
              | some _ => rw [hp] at this; cases this
        · simp only [scoreFresh, hc, h1, bind, Except.bind, pure, Except.pure, Except.map, h3]

theorem modelRun_ok {w : List (Booster F D)} (hw : ∀ b ∈ w, BoosterOk ops ds b) (calls : List (ModelCall D))
    (hint : ∀ j d det ca, ModelCall.interrupted j d det ca ∉ calls) : ∀ b ∈ modelRun ops ds w calls, BoosterOk ops ds b := by
  induction calls generalizing w with
  | nil => exact hw
  | cons c calls ih =>
    apply ih _ (fun j d det ca h => hint j d det ca (List.mem_cons_of_mem _ h))
    have hmod : ∀ (j : Nat) (f : Booster F D → Booster F D), (∀ b, BoosterOk ops ds b → BoosterOk ops ds (f b)) →
        ∀ b ∈ w.modify j f, BoosterOk ops ds b := by
      intro j f hf b hb
      obtain ⟨i, hi⟩ := List.mem_iff_getElem?.1 hb
      rw [List.getElem?_modify] at hi
      cases hwi : w[i]? with
      | none => rw [hwi] at hi; simp at hi
      | some x =>
        rw [hwi] at hi
        have hx := hw x (List.mem_of_getElem? hwi)
        simp only [Option.map_eq_map, Option.map_some, Option.some.injEq] at hi
        subst hi
        split
        · exact hf x hx
        · exact hx
    cases c with
    | score j d det ca => exact hmod j _ (fun b hb => (scoreCall_ok ops ds hsame hrows hb d det ca).1)
    | interrupted j d det ca => exact (hint j d det ca (List.mem_cons_self ..)).elim
    | clear j => exact hmod j _ (fun b hb => ⟨hb.1, by intro e he; cases he⟩)
    | copy j n =>
      simp only [modelStep]
      cases hj : w[j]? with
      | none => exact hw
      | some b =>
        have hb := hw b (List.mem_of_getElem? hj)
        simp only
        cases hcp : copyModel b n with
        | error e => exact hw
        | ok b' =>
          intro x hx
          rcases List.mem_append.1 hx with hx | hx
          · exact hw x hx
          · rw [List.mem_singleton] at hx
            subst hx
            cases n with
            | none => cases hcp; exact hb
            | some n =>
              simp only [copyModel] at hcp
              split at hcp
              · cases hcp; exact hb
              · obtain ⟨fo, hfo⟩ := hb.1
                obtain ⟨m', h1, h2⟩ := C35_prune hfo n
                rw [h1] at hcp
                cases hcp
                exact ⟨⟨_, h2⟩, by intro e he; cases he⟩

/-- C33, proved part: start with any models that represent forests and have empty caches. After every history of `score`, `clear_cache`
and `copy` calls on them and on their copies, a score call on any model returns what scoring the arrays of this model without cache
returns. Two cases need care. A basic call on a dataset for which a detailed scorer is cached returns the predictions of the detailed
scoring; `C33_transparent_exact_partial` shows that this is the same for exact numbers. Missing: histories in which a score call is
interrupted, see `C33_violated`. `hsame`: datasets identified by the dictionary have the same rows, see `C33_identified`. -/
theorem C33_transparent_partial {w : List (Booster F D)}
    (hw : ∀ b ∈ w, (∃ fo, Represents b.arrays fo) ∧ b.cache = []) (calls : List (ModelCall D))
    (hint : ∀ j d det ca, ModelCall.interrupted j d det ca ∉ calls)
    {b : Booster F D} (hb : b ∈ modelRun ops ds w calls) (d : D) (cache : Bool) :
    (scoreCall ops ds b d true cache).2 =
      (scoreFresh ops b.arrays b.learningRate b.baseScore true (ds.X d) (ds.nFeatures d)).map (fun s => ⟨some s.yPred, s.partialY, s.leaves⟩) ∧
    ∃ full, (scoreCall ops ds b d false cache).2 =
      (scoreFresh ops b.arrays b.learningRate b.baseScore full (ds.X d) (ds.nFeatures d)).map
        (fun s => ⟨some s.yPred, none, none⟩) := by
  have hok := modelRun_ok ops ds hsame hrows (fun b hb => ⟨(hw b hb).1, by rw [(hw b hb).2]; intro e he; cases he⟩) calls hint b hb
  constructor
  · obtain ⟨full, h1, h2⟩ := (scoreCall_ok ops ds hsame hrows hok d true cache).2
    have : full = true := by simpa using h1
    subst this
    exact h2
  · obtain ⟨full, h1, h2⟩ := (scoreCall_ok ops ds hsame hrows hok d false cache).2
    exact ⟨full, h2⟩

end

section exact
variable {K D : Type} [Field K] [LinearOrder K] (ds : Rows K D)

/-- C33, proved part, with exact numbers: basic calls too return what scoring without cache returns. -/
theorem C33_transparent_exact_partial (hsame : ∀ a b, ds.same a b = true → ds.X a = ds.X b)
    (hrows : ∀ d, ∀ row ∈ ds.X d, row.length = ds.nFeatures d) {w : List (Booster K D)}
    (hw : ∀ b ∈ w, (∃ fo, Represents b.arrays fo) ∧ b.cache = []) (calls : List (ModelCall D))
    (hint : ∀ j d det ca, ModelCall.interrupted j d det ca ∉ calls)
    {b : Booster K D} (hb : b ∈ modelRun (exactOps K) ds w calls) (d : D) (detailed cache : Bool) :
    (scoreCall (exactOps K) ds b d detailed cache).2 =
      (scoreFresh (exactOps K) b.arrays b.learningRate b.baseScore detailed (ds.X d) (ds.nFeatures d)).map (fun s => ⟨some s.yPred, s.partialY, s.leaves⟩) := by
  have hok := modelRun_ok (exactOps K) ds hsame hrows
    (fun b hb => ⟨(hw b hb).1, by rw [(hw b hb).2]; intro e he; cases he⟩) calls hint b hb
  obtain ⟨h1, full, h2⟩ := C33_transparent_partial (exactOps K) ds hsame hrows hw calls hint hb d cache
  cases detailed with
  | true => exact h1
  | false =>
    obtain ⟨fo, hfo⟩ := hok.1
    rw [h2]
    cases hc : featureCheck b.arrays (ds.nFeatures d) with
    | error e => simp only [scoreFresh, hc, bind, Except.bind, Except.map]
    | ok u =>
      obtain ⟨y, part, leaves, h3, h4, _⟩ := C30_same_prediction hfo (hrows d) hc
      have key : ∀ p l, (adjust (exactOps K) b.learningRate b.baseScore ⟨y, p, l⟩).yPred =
          (adjust (exactOps K) b.learningRate b.baseScore ⟨y, none, none⟩).yPred := by
        intro p l
        unfold adjust
        split <;> (split <;> [rfl; (split <;> rfl)])
      have key2 : (adjust (exactOps K) b.learningRate b.baseScore ⟨y, none, none⟩).partialY = none ∧
          (adjust (exactOps K) b.learningRate b.baseScore ⟨y, none, none⟩).leaves = none := by
        unfold adjust
        split <;> (split <;> [exact ⟨rfl, rfl⟩; (split <;> exact ⟨rfl, rfl⟩)])
      cases full with
      | false => simp only [scoreFresh, hc, h3, bind, Except.bind, pure, Except.pure, Except.map, key2]
      | true => simp only [scoreFresh, hc, h3, h4, bind, Except.bind, pure, Except.pure, Except.map, key2, key]

end exact

/-! ### Concrete histories -/

/-- Two datasets `true`, `false` of two rows each. -/
def rows0 : Rows ℚ Bool where
  X := fun d => if d then [[0, 9], [1, 4]] else [[2, 2], [0, 0]]
  nFeatures := fun _ => 2
  same := fun a b => a == b

def booster0 : Booster ℚ Bool := ⟨ens0, 1, none, []⟩

/-- C33: the hypotheses are met, and a history with hits, a replacement of a basic by a detailed scorer and a pruned copy. -/
example : (∀ a b, rows0.same a b = true → rows0.X a = rows0.X b) ∧
    (∀ d, ∀ row ∈ rows0.X d, row.length = rows0.nFeatures d) ∧
    (∀ b ∈ [booster0], (∃ fo, Represents b.arrays fo) ∧ b.cache = []) ∧
    ((modelRun (exactOps ℚ) rows0 [booster0]
      [.score 0 true false true, .score 0 false false true, .score 0 true true true, .copy 0 none, .copy 0 (some 1),
        .clear 0, .score 2 true false true]).map (fun b => (scoreCall (exactOps ℚ) rows0 b true false false).2)
      = [.ok ⟨some [9, 17], none, none⟩, .ok ⟨some [9, 17], none, none⟩, .ok ⟨some [2, 10], none, none⟩]) := by
  refine ⟨fun a b h => by rw [eq_of_beq h], ?_, ?_, by decide +kernel⟩
  · intro d row hr
    cases d <;> simp [rows0] at hr ⊢ <;> rcases hr with rfl | rfl <;> rfl
  · intro b hb
    rw [List.mem_singleton] at hb
    subst hb
    exact ⟨⟨_, ens0_represents⟩, rfl⟩

/-- C33 is violated by a history with an interrupted call: the scorer is put into the cache before it has scored, so after an
exception in the scoring (out of memory, Ctrl-C) all later basic calls return `None` as predictions. -/
theorem C33_violated :
    (modelRun (exactOps ℚ) rows0 [booster0] [.interrupted 0 true false true]).map
      (fun b => (scoreCall (exactOps ℚ) rows0 b true false true).2) = [.ok ⟨none, none, none⟩] ∧
    (scoreFresh (exactOps ℚ) ens0 1 none false (rows0.X true) 2).map (fun s => (⟨some s.yPred, s.partialY, s.leaves⟩ : Scorer ℚ)) = .ok ⟨some [9, 17], none, none⟩ := by
  decide +kernel

/-- Operations that round each addition to an integer, and `sum` rounds once: as with float32, summing a row in another order or
precision gives another number. -/
def roundOps : FloatOps ℚ :=
  { exactOps ℚ with add := fun a b => ((a + b).floor : ℚ), sum := fun l => (l.sum.floor : ℚ) }

/-- Two trees that are one leaf each. -/
def ensHalf : Ensemble ℚ where
  nTrees := 2
  nNodes := 2
  root := [0, 1]
  weight := [1, 1]
  left := [-1, -1]
  right := [-1, -1]
  value := [1 / 2, 1 / 2]
  feature := [-1, -1]

/-- C33 with rounding: a basic call after a cached detailed call returns the rounded sum of the partial scores, not the accumulated
score of an uncached basic call. -/
theorem C33_violated_by_rounding :
    (modelRun roundOps rows0 [⟨ensHalf, 1, none, []⟩] [.score 0 true true true]).map
      (fun b => (scoreCall roundOps rows0 b true false true).2) = [.ok ⟨some [1, 1], none, none⟩] ∧
    (scoreFresh roundOps ensHalf 1 none false (rows0.X true) 2).map (fun s => (⟨some s.yPred, s.partialY, s.leaves⟩ : Scorer ℚ)) = .ok ⟨some [0, 0], none, none⟩ := by
  decide +kernel

section
variable {F D : Type} (ops : FloatOps F) (ds : Rows F D)

theorem scorerGet_set {d : D} (hrefl : ds.same d d = true) (s : Scorer F) : ∀ c : List (D × Scorer F),
    scorerGet ds.same (scorerSet ds.same c d s) d = some s := by
  intro c
  induction c with
  | nil => simp [scorerSet, scorerGet, hrefl]
  | cons e c ih =>
    unfold scorerSet
    split
    · next h => simp [scorerGet, h]
    · next h =>
      rw [← ih]
      simp [scorerGet, h]

/-- C33: an exception in the scoring of a call with `cache=True`, of a dataset not scored before or not in detail, leaves an empty scorer: each later
basic call on the dataset returns `None`, until `clear_cache`. -/
theorem C33_interrupted {b : Booster F D} {d : D} (hrefl : ds.same d d = true) (hc : featureCheck b.arrays (ds.nFeatures d) = .ok ()) {detailed : Bool}
    (hnew : (∀ e ∈ b.cache, ds.same e.1 d = false) ∨ (detailed = true ∧ ∀ e ∈ b.cache, ds.same e.1 d = true → e.2.partialY = none)) (ca : Bool) :
    scoreCall ops ds (scoreInterrupted ds b d detailed true) d false ca = (scoreInterrupted ds b d detailed true, .ok ⟨none, none, none⟩) ∧
    clearCache (scoreInterrupted ds b d detailed true) = { b with cache := [] } := by
  have key : scoreInterrupted ds b d detailed true = { b with cache := scorerSet ds.same b.cache d ⟨none, none, none⟩ } := by
    unfold scoreInterrupted
    rw [hc]
    dsimp only
    cases hg : scorerGet ds.same b.cache d with
    | none => simp
    | some s =>
      obtain ⟨e, he, rfl⟩ := Option.map_eq_some_iff.1 hg
      have hs := List.find?_some he
      have hm := List.mem_of_find?_eq_some he
      rcases hnew with h | ⟨h1, h2⟩
      · exact absurd (h e hm) (by simp [hs])
      · simp [h1, h2 e hm hs]
  rw [key]
  refine ⟨?_, rfl⟩
  simp [scoreCall, hc, scorerGet_set ds hrefl, result]

/-- C33: an exception changes nothing without `cache`, and if the scores asked for are there (then nothing is computed). -/
theorem C33_interrupted_harmless {b : Booster F D} {d : D} {detailed cache : Bool}
    (h : cache = false ∨ ((∃ e ∈ b.cache, ds.same e.1 d = true) ∧
      (detailed = true → ∀ e ∈ b.cache, ds.same e.1 d = true → e.2.partialY ≠ none))) :
    scoreInterrupted ds b d detailed cache = b := by
  unfold scoreInterrupted
  cases featureCheck b.arrays (ds.nFeatures d) with
  | error e => rfl
  | ok u =>
    dsimp only
    rcases h with rfl | ⟨⟨e, he, hs⟩, h2⟩
    · cases scorerGet ds.same b.cache d <;> simp
    · cases hg : b.cache.find? (fun e => ds.same e.1 d) with
      | none => exact absurd (List.find?_eq_none.1 hg e he) (by simp [hs])
      | some e' =>
        have hs' := List.find?_some hg
        have hm := List.mem_of_find?_eq_some hg
        simp only [scorerGet, hg, Option.map_some]
        cases detailed with
        | false => simp
        | true =>
          cases hp : e'.2.partialY with
          | none => exact absurd hp (h2 rfl e' hm hs')
          | some _ => simp
end

/-- A detailed call interrupted after a basic one with `cache=True`: the scores that were there are lost. -/
example : (modelRun (exactOps ℚ) rows0 [booster0] [.score 0 true false true, .interrupted 0 true true true]).map
      (fun b => (scoreCall (exactOps ℚ) rows0 b true false true).2) = [.ok ⟨none, none, none⟩] ∧
    (modelRun (exactOps ℚ) rows0 [booster0] [.score 0 true false true, .interrupted 0 true false true]).map
      (fun b => (scoreCall (exactOps ℚ) rows0 b true false true).2) = [.ok ⟨some [9, 17], none, none⟩] ∧
    rows0.same true true = true ∧ featureCheck booster0.arrays (rows0.nFeatures true) = .ok () := by
  decide +kernel

/-! ### Which datasets the dictionary identifies -/

/-- C33: valid datasets (as many labels as rows, at least one query if there are rows, not more queries than rows) with the same
hash for which `==` is true have the same rows, labels and query ids. So `hsame` holds, for a digest without collisions and
arrays whose elements have a fixed number of bytes. -/
theorem C33_identified {R L H B : Type} [BEq L] (rowEq : R → R → Bool) (digest : List B → H) (bX : List R → List B)
    (bY : List L → List B) (bQ : List Int → List B) {wX wY wQ : Nat} (hinj : Function.Injective digest)
    (hbX : Function.Injective bX) (hbY : Function.Injective bY) (hbQ : Function.Injective bQ)
    (hlX : ∀ l, (bX l).length = wX * l.length) (hlY : ∀ l, (bY l).length = wY * l.length)
    (hlQ : ∀ l, (bQ l).length = wQ * l.length) (hwY : 0 < wY) (hwQ : 0 < wQ) {a b : Dataset R L}
    (ha : a.y.length = a.X.length ∧ a.queryIds.length ≤ a.X.length ∧ (a.X.length ≠ 0 → a.queryIds.length ≠ 0))
    (hb : b.y.length = b.X.length ∧ b.queryIds.length ≤ b.X.length ∧ (b.X.length ≠ 0 → b.queryIds.length ≠ 0))
    (hhash : a.hash digest bX bY bQ = b.hash digest bX bY bQ) (heq : Dataset.eq rowEq a b = .ok true) :
    a.X = b.X ∧ a.y = b.y ∧ a.queryIds = b.queryIds := by
  have hbytes : bX a.X ++ bY a.y ++ bQ a.queryIds = bX b.X ++ bY b.y ++ bQ b.queryIds := hinj hhash
  have hlen := congrArg List.length hbytes
  simp only [List.length_append, hlX, hlY, hlQ, ha.1, hb.1] at hlen
  have hcases : a.X.length = b.X.length ∨ a.X.length = 1 ∨ b.X.length = 1 := by
    unfold Dataset.eq npAllEqRows at heq
    by_contra hcon
    push Not at hcon
    obtain ⟨h1, h2, h3⟩ := hcon
    have herr : @npAllEq R ⟨rowEq⟩ a.X b.X = .error .attributeError := by
      unfold npAllEq
      rw [if_neg h1]
      cases hA : a.X with
      | nil =>
        cases hB : b.X with
        | nil => simp [hA, hB] at h1
        | cons z B =>
          cases B with
          | nil => rw [hB] at h3; exact (h3 rfl).elim
          | cons z' B => rfl
      | cons x A =>
        cases A with
        | nil => rw [hA] at h2; exact (h2 rfl).elim
        | cons x' A =>
          cases hB : b.X with
          | nil => rfl
          | cons z B =>
            cases B with
            | nil => rw [hB] at h3; exact (h3 rfl).elim
            | cons z' B => rfl
    simp only [herr, bind, Except.bind] at heq
    cases heq
  have hne : ∀ n q q' : Nat, n ≠ 1 → q ≤ n → (n ≠ 0 → q ≠ 0) → q' = 1 →
      wX * n + wY * n + wQ * q ≠ wX * 1 + wY * 1 + wQ * q' := by
    rintro n q q' hn hq hq0 rfl h
    rcases Nat.lt_or_ge n 1 with hlt | hge
    · have : n = 0 := by omega
      subst this
      have : q = 0 := by omega
      subst this
      simp only [Nat.mul_zero, Nat.mul_one] at h
      omega
    · have h1 : wX * 2 ≤ wX * n := Nat.mul_le_mul_left _ (by omega)
      have h2 : wY * 2 ≤ wY * n := Nat.mul_le_mul_left _ (by omega)
      have h3 : wQ * 1 ≤ wQ * q := Nat.mul_le_mul_left _ (by omega)
      omega
  have hX : a.X.length = b.X.length := by
    rcases hcases with h | h | h
    · exact h
    · rw [h] at hlen ⊢
      by_contra hn
      exact hne b.X.length b.queryIds.length a.queryIds.length (fun h => hn h.symm) hb.2.1 hb.2.2 (by omega) hlen.symm
    · rw [h] at hlen ⊢
      by_contra hn
      exact hne a.X.length a.queryIds.length b.queryIds.length hn ha.2.1 ha.2.2 (by omega) hlen
  rw [List.append_assoc, List.append_assoc] at hbytes
  obtain ⟨h1, h2⟩ := List.append_inj hbytes (by rw [hlX, hlX, hX])
  obtain ⟨h3, h4⟩ := List.append_inj h2 (by rw [hlY, hlY, ha.1, hb.1, hX])
  exact ⟨hbX h1, hbY h3, hbQ h4⟩

/-- C33: the hypotheses on the byte representation are met by one byte per element. -/
example : Function.Injective (fun l : List Int => l) ∧ (∀ l : List Int, ((fun l : List Int => l) l).length = 1 * l.length) ∧
    Dataset.eq (R := Int) (L := Int) (· == ·) ⟨[5, 6], 1, [0, 1], [3], [0, 2]⟩ ⟨[5, 6], 1, [0, 1], [3], [0, 2]⟩ = .ok true :=
  ⟨fun _ _ h => h, fun l => (Nat.one_mul _).symm, by decide +kernel⟩

end Verif.Props
