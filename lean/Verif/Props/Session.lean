/-
Property C117 (sessions).
-/
import Verif.Lemmas.Ndcg
import Verif.Props.ScoreCache
import Verif.Props.Tables
import Verif.Spec.Session

namespace Verif.Props.Sessions
open Spec Session Ensemble Metrics
variable {F D : Type}

/-! ### Steps that keep an invariant and have a fixed result -/

def Computes {α : Type} (I : State F D → Prop) (x : Act F D α) (r : Except PyErr α) : Prop := ∀ s, I s → I (x s).1 ∧ (x s).2 = r

theorem computes_lift {α : Type} {I : State F D → Prop} (r : Except PyErr α) : Computes I (lift r) r := fun _ h => ⟨h, rfl⟩

theorem computes_andThen {α β : Type} {I : State F D → Prop} {x : Act F D α} {r : Except PyErr α} {k : α → Act F D β} {g : α → Except PyErr β}
    (hx : Computes I x r) (hk : ∀ a, Computes I (k a) (g a)) : Computes I (x.andThen k) (r >>= g) := by
  intro s hs
  obtain ⟨h1, h2⟩ := hx s hs
  unfold Act.andThen
  cases hxs : x s with
  | mk s' a =>
    rw [hxs] at h1 h2
    simp only at h1 h2
    subst h2
    cases a with
    | error e => exact ⟨h1, rfl⟩
    | ok a => exact hk a s' h1

theorem computes_loop {α β : Type} {I : State F D → Prop} {body : β → α → Act F D β} {g : β → α → Except PyErr β} :
    ∀ (l : List α) (b : β), (∀ b, ∀ a ∈ l, Computes I (body b a) (g b a)) → Computes I (loop body b l) (l.foldlM g b)
  | [], b, _ => computes_lift _
  | a :: l, b, h => by
    rw [List.foldlM_cons]
    exact computes_andThen (h b a (by simp)) (fun b' => computes_loop l b' (fun b a ha => h b a (List.mem_cons_of_mem _ ha)))

/-! ### The invariant -/

/-- No detailed scores are cached. -/
def NoDetail (b : Booster F D) : Prop := ∀ e ∈ b.cache, e.2.partialY = none

/-- The arrays are those of trees, the cache has results of scoring, and detailed results only if `A`. -/
def ModelOk (A : Prop) (w : World F D) (b : Booster F D) : Prop := BoosterOk w.ops w.rows b ∧ (A ∨ NoDetail b)

def ObjOk (w : World F D) : MetricObj F → Prop
  | .stateless _ => True
  | .ndcg cfg _ st => CacheOk cfg (fun x => ∃ d, x = w.data d) st.cache

def Ok (A : Prop) (w : World F D) (s : State F D) : Prop := (∀ b ∈ s.models, ModelOk A w b) ∧ ∀ o ∈ s.metrics, ObjOk w o

theorem adjust_none (ops : FloatOps F) (lr : F) (bs : Option F) {s : Scored F} (h : s.partialY = none) : (adjust ops lr bs s).partialY = none := by
  have := adjust_isSome ops lr bs s
  rw [h] at this
  simpa using this

theorem scoreAnew_cache (ops : FloatOps F) (ds : Rows F D) (b : Booster F D) (d : D) (detailed cache : Bool) :
    unusedModel (scoreAnew ops ds b d detailed cache).1 = unusedModel b := by
  unfold scoreAnew
  split <;> cases cache <;> rfl

theorem scoreCall_cache (ops : FloatOps F) (ds : Rows F D) (b : Booster F D) (d : D) (detailed cache : Bool) :
    unusedModel (scoreCall ops ds b d detailed cache).1 = unusedModel b := by
  unfold scoreCall
  split
  · rfl
  · split
    · exact scoreAnew_cache ops ds b d detailed cache
    · split
      · exact scoreAnew_cache ops ds b d detailed cache
      · rfl

theorem scoreAnew_noDetail (ops : FloatOps F) (ds : Rows F D) {b : Booster F D} (h : NoDetail b) (d : D) {detailed cache : Bool}
    (hdc : detailed = false ∨ cache = false) : NoDetail (scoreAnew ops ds b d detailed cache).1 := by
  unfold scoreAnew
  have set : ∀ sc : Scorer F, sc.partialY = none → NoDetail { b with cache := scorerSet ds.same b.cache d sc } := by
    intro sc hsc e he
    rcases scorerSet_mem he with he | ⟨he, -⟩
    · exact h e he
    · rw [he, hsc]
  split
  · cases cache with
    | true => exact set _ rfl
    | false => exact h
  · rename_i s hs
    cases cache with
    | false => exact h
    | true =>
      have : detailed = false := by simpa using hdc
      subst this
      refine set _ ?_
      refine adjust_none ops _ _ ?_
      simp only [rawScore, Bool.false_eq_true, ↓reduceIte, bind, Except.bind] at hs
      split at hs
      · cases hs
      · cases hs
        rfl

theorem scoreCall_noDetail (ops : FloatOps F) (ds : Rows F D) {b : Booster F D} (h : NoDetail b) (d : D) {detailed cache : Bool}
    (hdc : detailed = false ∨ cache = false) : NoDetail (scoreCall ops ds b d detailed cache).1 := by
  unfold scoreCall
  split
  · exact h
  · split
    · exact scoreAnew_noDetail ops ds h d hdc
    · split
      · exact scoreAnew_noDetail ops ds h d hdc
      · exact h

section
variable {w : World F D} (hw : Clean w)
include hw

theorem sameX : ∀ a b, w.rows.same a b = true → w.rows.X a = w.rows.X b := fun a b h => by
  show (w.data a).X = (w.data b).X
  rw [hw.same a b h]

theorem scoreCall_model {A : Prop} {b : Booster F D} (hb : ModelOk A w b) (d : D) {detailed cache : Bool}
    (hdc : A ∨ detailed = false ∨ cache = false) : ModelOk A w (scoreCall w.ops w.rows b d detailed cache).1 := by
  refine ⟨(scoreCall_ok w.ops w.rows (sameX hw) hw.rows hb.1 d detailed cache).1, ?_⟩
  rcases hb.2 with h | h
  · exact .inl h
  · exact hdc.imp id (scoreCall_noDetail _ _ h d)

/-- A basic call returns the predictions of uncached basic scoring. -/
theorem scoreCall_value {b : Booster F D} (hb : ModelOk (DetailedAgrees w) w b) (d : D) (cache : Bool) :
    (scoreCall w.ops w.rows b d false cache).2 =
      (scoreFresh w.ops b.arrays b.learningRate b.baseScore false (w.data d).X (w.data d).nFeatures).map (fun s => ⟨some s.yPred, none, none⟩) := by
  obtain ⟨full, h1, h2⟩ := (scoreCall_ok w.ops w.rows (sameX hw) hw.rows hb.1 d false cache).2
  have hres : ∀ s : Scored F, result false s.toScorer = ⟨some s.yPred, none, none⟩ := fun _ => rfl
  simp only [hres] at h2
  change _ = (scoreFresh w.ops b.arrays b.learningRate b.baseScore full (w.data d).X (w.data d).nFeatures).map _ at h2
  cases full with
  | false => exact h2
  | true =>
    rcases hb.2 with h | h
    · have e := h b.arrays b.learningRate b.baseScore d hb.1.1
      rw [h2]
      have comp : ∀ r : Except PyErr (Scored F), r.map (fun s => (⟨some s.yPred, none, none⟩ : Scorer F)) = (r.map (·.yPred)).map (fun y => ⟨some y, none, none⟩) := by
        intro r
        cases r <;> rfl
      rw [comp, comp, e]
    · unfold scoreCall
      cases hc : featureCheck b.arrays (w.rows.nFeatures d) with
      | error e =>
        have hc' : featureCheck b.arrays (w.data d).nFeatures = .error e := hc
        simp only [scoreFresh, hc', bind, Except.bind]
        rfl
      | ok u =>
        simp only
        cases hg : scorerGet w.rows.same b.cache d with
        | none =>
          obtain ⟨s, h3, h4⟩ := (scoreAnew_ok w.ops w.rows (sameX hw) hw.rows hb.1 d false cache hc).2
          simp only
          rw [h4]
          have h3' : scoreFresh w.ops b.arrays b.learningRate b.baseScore false (w.data d).X (w.data d).nFeatures = .ok s := h3
          rw [h3']
          simp only [scoreFresh, bind, Except.bind, rawScore, Bool.false_eq_true, ↓reduceIte] at h3'
          split at h3'
          · cases h3'
          · split at h3'
            · cases h3'
            · rename_i v hv
              split at hv
              · cases hv
              · cases hv
                cases h3'
                have key : ∀ y, (adjust w.ops b.learningRate b.baseScore ⟨y, none, none⟩).partialY = none ∧
                    (adjust w.ops b.learningRate b.baseScore ⟨y, none, none⟩).leaves = none := by
                  intro y
                  unfold adjust
                  split <;> (split <;> [exact ⟨rfl, rfl⟩; (split <;> exact ⟨rfl, rfl⟩)])
                simp only [Scored.toScorer, key, Except.map]
        | some s =>
          simp only [Bool.false_and, Bool.false_eq_true, ↓reduceIte]
          unfold scorerGet at hg
          obtain ⟨e, he, rfl⟩ := Option.map_eq_some_iff.1 hg
          have hmem := List.mem_of_find?_eq_some he
          have hs : w.rows.same e.1 d = true := by simpa using List.find?_some he
          obtain ⟨det, s, k1, k2, k3⟩ := hb.1.2 e hmem
          have hn := h e hmem
          have : det = false := by
            rw [← k2, ← adjust_isSome w.ops b.learningRate b.baseScore s]
            rw [k3] at hn
            simp only [Scored.toScorer] at hn
            rw [hn]
            rfl
          subst this
          rw [sameX hw _ _ hs] at k1
          have k1' : rawScore w.ops b.arrays false (w.data d).X = .ok s := k1
          have hc' : featureCheck b.arrays (w.data d).nFeatures = .ok u := hc
          simp only [scoreFresh, hc', k1', bind, Except.bind, k3]
          rfl

end

/-! ### The steps -/

section
variable {w : World F D} (hw : Clean w) {s0 : State F D}

/-- The objects are in order, and are those of `s0`. -/
def Inv (A : Prop) (w : World F D) (s0 s : State F D) : Prop := Ok A w s ∧ unused s = unused s0

theorem set_map {α β : Type} {f : α → β} {l : List α} {j : Nat} {a b : α} (h : l[j]? = some a) (e : f b = f a) : (l.set j b).map f = l.map f := by
  rw [List.map_set, e]
  apply List.ext_getElem?
  intro i
  rw [List.getElem?_set]
  split
  · rename_i hij
    subst hij
    obtain ⟨this, rfl⟩ := List.getElem?_eq_some_iff.1 h
    simp [this]
  · rfl

theorem mem_set {α : Type} {P : α → Prop} {l : List α} {j : Nat} {b : α} (h : ∀ a ∈ l, P a) (hb : P b) : ∀ a ∈ l.set j b, P a := by
  intro a ha
  rcases List.mem_or_eq_of_mem_set ha with h' | rfl
  · exact h a h'
  · exact hb

include hw in
theorem scoreModel_computes (j : Nat) (d : D) (cache : Bool) : Computes (Inv (DetailedAgrees w) w s0) (scoreModel w j d cache) (predictions w s0 j d) := by
  rintro s ⟨hok, hs⟩
  have hm : (s.models[j]?).map unusedModel = (s0.models[j]?).map unusedModel := by
    have := congrArg (fun s => s.models[j]?) hs
    simpa [unused] using this
  unfold scoreModel predictions
  cases hj : s.models[j]? with
  | none =>
    rw [hj] at hm
    have : s0.models[j]? = none := by simpa using hm.symm
    rw [this]
    exact ⟨⟨hok, hs⟩, rfl⟩
  | some b =>
    rw [hj] at hm
    obtain ⟨b0, h0, e0⟩ := Option.map_eq_some_iff.1 hm.symm
    rw [h0]
    have hb := hok.1 b (List.mem_of_getElem? hj)
    refine ⟨⟨⟨mem_set hok.1 (scoreCall_model hw hb d (.inr (.inl rfl))), hok.2⟩, ?_⟩, ?_⟩
    · rw [← hs]
      simp only [unused]
      rw [set_map hj (scoreCall_cache w.ops w.rows b d false cache)]
    · simp only
      rw [scoreCall_value hw hb]
      have e1 : b0.arrays = b.arrays := show (unusedModel b0).arrays = (unusedModel b).arrays by rw [e0]
      have e2 : b0.learningRate = b.learningRate := show (unusedModel b0).learningRate = (unusedModel b).learningRate by rw [e0]
      have e3 : b0.baseScore = b.baseScore := show (unusedModel b0).baseScore = (unusedModel b).baseScore by rw [e0]
      rw [e1, e2, e3]
      cases scoreFresh w.ops b.arrays b.learningRate b.baseScore false (w.data d).X (w.data d).nFeatures <;> rfl

include hw in
theorem same_labels : ∀ a b, (∃ d, a = w.data d) → (∃ d, b = w.data d) → w.same a b = true → SameLabels a b := by
  rintro a b ⟨d, rfl⟩ ⟨d', rfl⟩ h
  rw [hw.same d d' h]
  rfl

include hw in
theorem eval_obj {o : MetricObj F} (ho : ObjOk w o) (d : D) (yPred : List F) :
    ObjOk w (o.eval w.same (w.data d) yPred).1 ∧ unusedMetric (o.eval w.same (w.data d) yPred).1 = unusedMetric o ∧
      (o.eval w.same (w.data d) yPred).2 = ((unusedMetric o).eval w.same (w.data d) yPred).2 := by
  cases o with
  | stateless f => exact ⟨trivial, rfl, rfl⟩
  | ndcg cfg store st =>
    have h1 := ndcgEval_spec cfg w.same store (D := fun x => ∃ d, x = w.data d) (fun a _ => hw.refl a) (same_labels hw) (st := st) ho ⟨d, rfl⟩ yPred
    have h2 := ndcgEval_spec cfg w.same store (D := fun x => ∃ d, x = w.data d) (fun a _ => hw.refl a) (same_labels hw) (st := ndcgFresh)
      (by simp [CacheOk, ndcgFresh]) ⟨d, rfl⟩ yPred
    exact ⟨h1.2.1, rfl, by simp only [MetricObj.eval, unusedMetric]; rw [h1.1, h2.1]⟩

theorem unusedMetric_twice (o : MetricObj F) : unusedMetric (unusedMetric o) = unusedMetric o := by cases o <;> rfl

include hw in
theorem evalMetric_computes {A : Prop} (k : Nat) (d : D) (yPred : List F) : Computes (Inv A w s0) (Session.evalMetric w k d yPred) (values w s0 k d yPred) := by
  rintro s ⟨hok, hs⟩
  have hm : (s.metrics[k]?).map unusedMetric = (s0.metrics[k]?).map unusedMetric := by
    have := congrArg (fun s => s.metrics[k]?) hs
    simpa [unused] using this
  unfold Session.evalMetric values
  cases hk : s.metrics[k]? with
  | none =>
    rw [hk] at hm
    have : s0.metrics[k]? = none := by simpa using hm.symm
    rw [this]
    exact ⟨⟨hok, hs⟩, rfl⟩
  | some o =>
    rw [hk] at hm
    obtain ⟨o0, h0, e0⟩ := Option.map_eq_some_iff.1 hm.symm
    rw [h0]
    obtain ⟨h1, h2, h3⟩ := eval_obj hw (hok.2 o (List.mem_of_getElem? hk)) d yPred
    refine ⟨⟨⟨hok.1, mem_set hok.2 h1⟩, ?_⟩, ?_⟩
    · rw [← hs]
      simp only [unused]
      rw [set_map hk h2]
    · simp only
      rw [h3, e0]

include hw in
theorem performance_computes (store : Option ℝ → Option ℝ) (datasets : List D) (models metrics : List Nat) (cache : Bool) :
    Computes (Inv (DetailedAgrees w) w s0) (performance w store datasets models metrics cache)
      (Stat.modelPerformance store (some 0) (predictions w s0) datasets models (metrics.map (fun k d y => (values w s0 k d y).map (·.1)))) := by
  unfold performance Stat.modelPerformance
  rw [List.length_map]
  refine computes_loop _ _ (fun data di _ => computes_loop _ _ (fun data mi _ => computes_andThen (scoreModel_computes hw _ _ _) (fun y => ?_)))
  rw [List.zipIdx_map, List.foldlM_map]
  refine computes_loop _ _ (fun data fi _ => ?_)
  have := computes_andThen (evalMetric_computes (A := DetailedAgrees w) (s0 := s0) hw fi.1 di.1 y) (fun v : Values => computes_lift
    (Stat.atIndex di.2 (Stat.atIndex mi.2 (fun row => pySet row (fi.2 : Int) (store v.1))) data))
  refine cast (congrArg _ ?_) this
  simp only [Prod.map]
  cases values w s0 fi.1 di.1 y <;> rfl

include hw in
theorem significance_computes (datasets : List D) (modelA modelB : Nat) (metrics : List Nat) (draws : Nat → Nat → List (List Bool)) (cache : Bool) :
    Computes (Inv (DetailedAgrees w) w s0) (Session.significance w datasets modelA modelB metrics draws cache)
      (Stat.significance (predictions w s0) datasets modelA modelB (metrics.map (fun k d y => (values w s0 k d y).map (·.2))) draws) := by
  unfold Session.significance Stat.significance
  rw [List.length_map]
  refine computes_loop _ _ (fun data di _ => computes_andThen (scoreModel_computes hw _ _ _) (fun yA => computes_andThen (scoreModel_computes hw _ _ _) (fun yB => ?_)))
  rw [List.zipIdx_map, List.foldlM_map]
  refine computes_loop _ _ (fun data fi _ => ?_)
  have := computes_andThen (evalMetric_computes (A := DetailedAgrees w) (s0 := s0) hw fi.1 di.1 yA) (fun a : Values => computes_andThen (evalMetric_computes (A := DetailedAgrees w) (s0 := s0) hw fi.1 di.1 yB)
    (fun b : Values => computes_lift (do
      let p ← Stat.randomizationNaN a.2 b.2 (draws di.2 fi.2)
      Stat.atIndex di.2 (fun row => pySet row (fi.2 : Int) p) data)))
  refine cast (congrArg _ ?_) this
  simp only [Prod.map]
  cases values w s0 fi.1 di.1 yA with
  | error e => rfl
  | ok a => cases values w s0 fi.1 di.1 yB <;> rfl

/-! ### Sessions -/

theorem mem_modify {α : Type} {P : α → Prop} {l : List α} (j : Nat) {f : α → α} (h : ∀ a ∈ l, P a) (hf : ∀ a, P a → P (f a)) : ∀ a ∈ l.modify j f, P a := by
  intro a ha
  obtain ⟨i, hi⟩ := List.mem_iff_getElem?.1 ha
  rw [List.getElem?_modify] at hi
  cases hl : l[i]? with
  | none => rw [hl] at hi; simp at hi
  | some x =>
    rw [hl] at hi
    have hx := h x (List.mem_of_getElem? hl)
    simp only [Option.map_eq_map, Option.map_some, Option.some.injEq] at hi
    subst hi
    split
    · exact hf x hx
    · exact hx

theorem mem_snoc {α : Type} {P : α → Prop} {l : List α} {b : α} (h : ∀ a ∈ l, P a) (hb : P b) : ∀ a ∈ l ++ [b], P a := by
  intro a ha
  rcases List.mem_append.1 ha with h' | h'
  · exact h a h'
  · rw [List.mem_singleton.1 h']
    exact hb

include hw in
theorem step_ok {s : State F D} (hs : Ok (DetailedAgrees w) w s) {c : Call F D} (hc : Allowed w c) : Ok (DetailedAgrees w) w (step w s c) := by
  cases c with
  | newModel a l b => exact ⟨mem_snoc hs.1 ⟨⟨hc, fun e he => by cases he⟩, .inr (fun e he => by cases he)⟩, hs.2⟩
  | newNdcg cfg store => exact ⟨hs.1, mem_snoc hs.2 (by simp [ObjOk, CacheOk, ndcgFresh])⟩
  | newMetric f => exact ⟨hs.1, mem_snoc hs.2 trivial⟩
  | eval k d y => exact ((evalMetric_computes (A := DetailedAgrees w) (s0 := s) hw k d y) s ⟨hs, rfl⟩).1.1
  | performance store ds ms fs cache => exact ((performance_computes (s0 := s) hw store ds ms fs cache) s ⟨hs, rfl⟩).1.1
  | significance ds a b fs draws cache => exact ((significance_computes (s0 := s) hw ds a b fs draws cache) s ⟨hs, rfl⟩).1.1
  | perQuery k y yPred =>
    refine ⟨hs.1, mem_modify k hs.2 (fun o ho => ?_)⟩
    cases o with
    | stateless f => trivial
    | ndcg cfg store st =>
      simp only [ObjOk] at ho ⊢
      rw [(ndcgPerQuery_cache cfg w.same st y yPred).1]
      exact ho
  | model c =>
    refine ⟨?_, hs.2⟩
    show ∀ b ∈ modelStep w.ops w.rows s.models c, ModelOk (DetailedAgrees w) w b
    cases c with
    | score j d detailed cache =>
      refine mem_modify j hs.1 (fun b hb => scoreCall_model hw hb d ?_)
      cases detailed <;> cases cache <;> simp_all [Allowed]
    | interrupted j d detailed cache => exact hc.elim
    | clear j => exact mem_modify j hs.1 (fun b hb => ⟨⟨hb.1.1, fun e he => by cases he⟩, .inr (fun e he => by cases he)⟩)
    | copy j n =>
      simp only [modelStep]
      cases hj : s.models[j]? with
      | none => exact hs.1
      | some b =>
        have hb := hs.1 b (List.mem_of_getElem? hj)
        simp only
        cases hcp : copyModel b n with
        | error e => exact hs.1
        | ok b' =>
          refine mem_snoc hs.1 ?_
          cases n with
          | none => cases hcp; exact hb
          | some n =>
            simp only [copyModel] at hcp
            split at hcp
            · cases hcp; exact hb
            · obtain ⟨fo, hfo⟩ := hb.1.1
              obtain ⟨m', h1, h2⟩ := C35_prune hfo n
              rw [h1] at hcp
              cases hcp
              exact ⟨⟨⟨_, h2⟩, fun e he => by cases he⟩, .inr (fun e he => by cases he)⟩

include hw in
theorem run_ok {calls : List (Call F D)} (hc : ∀ c ∈ calls, Allowed w c) : Ok (DetailedAgrees w) w (run w calls) := by
  have : ∀ (calls : List (Call F D)) (s : State F D), Ok (DetailedAgrees w) w s → (∀ c ∈ calls, Allowed w c) → Ok (DetailedAgrees w) w (calls.foldl (step w) s) := by
    intro calls
    induction calls with
    | nil => exact fun s hs _ => hs
    | cons c calls ih => exact fun s hs h => ih _ (step_ok hw hs (h c (by simp))) (fun c hc => h c (List.mem_cons_of_mem _ hc))
  exact this calls _ ⟨by simp, by simp⟩ hc

include hw

/-- C117, proved part, `model_performance`: after every session in which no score call is interrupted and detailed scores are cached only if the arithmetic gives
the same predictions for them, `model_performance` returns the table of the values that new metric objects give for predictions without cache. This holds for
models and metric objects in any state, with `cache` or without. Also the exceptions are the same. Missing: other sessions, see the violations; datasets that change. -/
theorem C117_performance_partial {calls : List (Call F D)} (hc : ∀ c ∈ calls, Allowed w c) (store : Option ℝ → Option ℝ) (datasets : List D)
    (models metrics : List Nat) (cache : Bool) :
    (performance w store datasets models metrics cache (run w calls)).2 =
      Stat.modelPerformance store (some 0) (predictions w (run w calls)) datasets models (metrics.map (fun k d y => (values w (run w calls) k d y).map (·.1))) :=
  (performance_computes hw store datasets models metrics cache _ ⟨run_ok hw hc, rfl⟩).2

/-- C117, proved part, `statistical_significance`: likewise, for the same random draws. -/
theorem C117_significance_partial {calls : List (Call F D)} (hc : ∀ c ∈ calls, Allowed w c) (datasets : List D) (modelA modelB : Nat)
    (metrics : List Nat) (draws : Nat → Nat → List (List Bool)) (cache : Bool) :
    (Session.significance w datasets modelA modelB metrics draws cache (run w calls)).2 =
      Stat.significance (predictions w (run w calls)) datasets modelA modelB (metrics.map (fun k d y => (values w (run w calls) k d y).map (·.2))) draws :=
  (significance_computes hw datasets modelA modelB metrics draws cache _ ⟨run_ok hw hc, rfl⟩).2

/-- C117, proved part: two sessions that end with the same models and the same metric objects, whatever is in their caches, give the same results. In particular
one may use copies that were never used (`calls'` only makes the objects), repeat an analysis, or choose `cache` otherwise. -/
theorem C117_history_partial {calls calls' : List (Call F D)} (hc : ∀ c ∈ calls, Allowed w c) (hc' : ∀ c ∈ calls', Allowed w c)
    (he : unused (run w calls) = unused (run w calls')) (cache cache' : Bool) :
    (∀ store datasets models metrics, (performance w store datasets models metrics cache (run w calls)).2 =
      (performance w store datasets models metrics cache' (run w calls')).2) ∧
    (∀ datasets modelA modelB metrics draws, (Session.significance w datasets modelA modelB metrics draws cache (run w calls)).2 =
      (Session.significance w datasets modelA modelB metrics draws cache' (run w calls')).2) ∧
    (∀ j d, (scoreModel w j d cache (run w calls)).2 = (scoreModel w j d cache' (run w calls')).2) ∧
    ∀ k d y, (Session.evalMetric w k d y (run w calls)).2 = (Session.evalMetric w k d y (run w calls')).2 := by
  have h1 : Inv (DetailedAgrees w) w (run w calls') (run w calls) := ⟨run_ok hw hc, he⟩
  have h2 : Inv (DetailedAgrees w) w (run w calls') (run w calls') := ⟨run_ok hw hc', rfl⟩
  refine ⟨fun store ds ms fs => ?_, fun ds a b fs draws => ?_, fun j d => ?_, fun k d y => ?_⟩
  · rw [(performance_computes hw store ds ms fs cache _ h1).2, (performance_computes hw store ds ms fs cache' _ h2).2]
  · rw [(significance_computes hw ds a b fs draws cache _ h1).2, (significance_computes hw ds a b fs draws cache' _ h2).2]
  · rw [(scoreModel_computes hw j d cache _ h1).2, (scoreModel_computes hw j d cache' _ h2).2]
  · rw [(evalMetric_computes hw k d y _ h1).2, (evalMetric_computes hw k d y _ h2).2]

/-- C117: an analysis changes no model and no metric object but for the caches. -/
theorem C117_unchanged_partial {calls : List (Call F D)} (hc : ∀ c ∈ calls, Allowed w c) (cache : Bool) :
    (∀ store datasets models metrics, unused (performance w store datasets models metrics cache (run w calls)).1 = unused (run w calls)) ∧
    ∀ datasets modelA modelB metrics draws, unused (Session.significance w datasets modelA modelB metrics draws cache (run w calls)).1 = unused (run w calls) :=
  ⟨fun store ds ms fs => (performance_computes (s0 := run w calls) hw store ds ms fs cache _ ⟨run_ok hw hc, rfl⟩).1.2,
    fun ds a b fs draws => (significance_computes (s0 := run w calls) hw ds a b fs draws cache _ ⟨run_ok hw hc, rfl⟩).1.2⟩

end

/-- C117: exact arithmetic gives the same predictions in detailed scoring. -/
theorem C117_exact {K : Type} [Field K] [LinearOrder K] {w : World K D} (hw : Clean w) (ho : w.ops = exactOps K) : DetailedAgrees w := by
  rintro m lr bs d ⟨fo, hfo⟩
  rw [ho]
  cases hc : featureCheck m (w.data d).nFeatures with
  | error e => simp only [scoreFresh, hc, bind, Except.bind, Except.map]
  | ok u =>
    obtain ⟨y, part, leaves, h3, h4, _⟩ := C30_same_prediction hfo (hw.rows d) hc
    have key : ∀ p l, (adjust (exactOps K) lr bs ⟨y, p, l⟩).yPred = (adjust (exactOps K) lr bs ⟨y, none, none⟩).yPred := by
      intro p l
      unfold adjust
      split <;> (split <;> [rfl; (split <;> rfl)])
    simp only [scoreFresh, hc, h3, h4, bind, Except.bind, pure, Except.pure, Except.map, key]

/-! ### Concrete sessions -/

/-- The two datasets of `rows0`, each with one query. -/
noncomputable def world0 (ops : FloatOps ℚ) : World ℚ Bool where
  ops := ops
  data := fun d => ⟨if d then [[0, 9], [1, 4]] else [[2, 2], [0, 0]], 2, [1, 0], [7], [0, 2]⟩
  same := fun a b => a.X == b.X

/-- A metric whose mean is NaN for predictions `[1, 1]`. -/
noncomputable def metric0 : Dataset (List ℚ) ℝ → List ℚ → Except PyErr Values := fun _ y => .ok (if y = [1, 1] then none else some 5, [])

/-- Which cells of a table are numbers, not NaN. -/
def cells (r : Except PyErr (List (List (List (Option ℝ))))) : Except PyErr (List (List (List Bool))) := r.map (List.map (List.map (List.map Option.isSome)))

theorem world0_clean (ops : FloatOps ℚ) : Clean (world0 ops) := by
  refine ⟨?_, fun d => by simp [world0], ?_⟩
  · intro d row hr
    cases d <;> simp [world0] at hr ⊢ <;> rcases hr with rfl | rfl <;> rfl
  · intro a b h
    have : (world0 ops).data a = (world0 ops).data b ∨ a ≠ b := by by_cases e : a = b <;> simp [e]
    rcases this with h' | h'
    · exact h'
    · exfalso
      cases a <;> cases b <;> first | exact h' rfl | (revert h; simp [world0])

/-- A session: a model, an NDCG object, a metric without state; cached detailed scores, a table with cache, a pruned copy, a table of it. -/
noncomputable def session0 (cfg : NdcgCfg ℚ) : List (Call ℚ Bool) :=
  [.newModel ens0 1 none, .newNdcg cfg id, .newMetric metric0, .model (.score 0 true true true), .performance id [true, false] [0] [0, 1] true,
    .model (.copy 0 (some 1)), .performance id [true] [1, 0] [1, 0] true, .significance [true] 0 1 [0] (fun _ _ => [[true]]) true]

/-- C117: the session is allowed, so its models and metric objects give what new ones give. -/
example (cfg : NdcgCfg ℚ) : (∀ c ∈ session0 cfg, Allowed (world0 (exactOps ℚ)) c) ∧
    (performance (world0 (exactOps ℚ)) id [true, false] [1, 0] [0, 1] true (run (world0 (exactOps ℚ)) (session0 cfg))).2 =
      Stat.modelPerformance id (some 0) (predictions (world0 (exactOps ℚ)) (run (world0 (exactOps ℚ)) (session0 cfg))) [true, false] [1, 0]
        ([0, 1].map (fun k d y => (values (world0 (exactOps ℚ)) (run (world0 (exactOps ℚ)) (session0 cfg)) k d y).map (·.1))) := by
  have h : ∀ c ∈ session0 cfg, Allowed (world0 (exactOps ℚ)) c := by
    intro c hc
    simp only [session0, List.mem_cons, List.not_mem_nil, or_false] at hc
    rcases hc with rfl | rfl | rfl | rfl | rfl | rfl | rfl | rfl
    · exact ⟨_, ens0_represents⟩
    · trivial
    · trivial
    · exact C117_exact (world0_clean _) rfl
    all_goals trivial
  exact ⟨h, C117_performance_partial (world0_clean _) h _ _ _ _ _⟩

/-- C117: a table of two datasets, a model and a pruned copy, after cached detailed scores. -/
example : cells (performance (world0 (exactOps ℚ)) id [true, false] [1, 0] [0, 0] true (run (world0 (exactOps ℚ))
      [.newModel ens0 1 none, .newMetric metric0, .model (.score 0 true true true), .model (.copy 0 (some 1))])).2 =
    .ok [[[true, true], [true, true]], [[true, true], [true, true]]] ∧
    (scoreModel (world0 (exactOps ℚ)) 1 true true (run (world0 (exactOps ℚ))
      [.newModel ens0 1 none, .newMetric metric0, .model (.score 0 true true true), .model (.copy 0 (some 1))])).2 = .ok [2, 10] := by
  decide +kernel

/-- C117 is violated by cached detailed scores with rounding: `model_performance` gives another table after `score(detailed=True, cache=True)`, even if it is itself
called without cache. -/
theorem C117_violated_by_rounding :
    cells (performance (world0 roundOps) id [true] [0] [0] false (run (world0 roundOps) [.newModel ensHalf 1 none, .newMetric metric0])).2 = .ok [[[true]]] ∧
    cells (performance (world0 roundOps) id [true] [0] [0] false (run (world0 roundOps)
      [.newModel ensHalf 1 none, .newMetric metric0, .model (.score 0 true true true)])).2 = .ok [[[false]]] := by
  decide +kernel

/-- C117 is violated by an interrupted score call: afterwards `model_performance` raises. -/
theorem C117_violated_interrupted :
    cells (performance (world0 (exactOps ℚ)) id [true] [0] [0] false (run (world0 (exactOps ℚ)) [.newModel ens0 1 none, .newMetric metric0])).2 = .ok [[[true]]] ∧
    cells (performance (world0 (exactOps ℚ)) id [true] [0] [0] false (run (world0 (exactOps ℚ))
      [.newModel ens0 1 none, .newMetric metric0, .model (.interrupted 0 true false true)])).2 = .error .typeError := by
  decide +kernel

end Verif.Props.Sessions
