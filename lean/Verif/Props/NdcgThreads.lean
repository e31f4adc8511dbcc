/-
Property C108: one NDCG object used by several threads, and after interrupted evaluations.
-/
import Verif.Lemmas.NdcgThreads

namespace Verif.Props.NdcgThreads
open Metrics Metrics.NdcgThreads
variable {D X V W : Type}

/-- Call `t` has begun and has not ended. -/
def running (s : State D X V W) (t : Nat) : Bool := (s.calls[t]?).any (fun x => x.2.active)

/-- What call `t` of `eval` has returned: the average, and the array as it is now; or the exception. -/
def outcome (s : State D X V W) (t : Nat) : Option (Except PyErr (W × List V)) :=
  match s.calls[t]? with
  | some (_, .done (.ok (m, r))) => (s.obj.heap[r]?).map (fun a => .ok (m, a))
  | some (_, .done (.error e)) => some (.error e)
  | _ => none

/-- What call `t` of `eval_per_query` has returned. -/
def outcomeQuery (s : State D X V W) (t : Nat) : Option (Except PyErr V) :=
  match s.calls[t]? with
  | some (_, .doneQuery res) => some res
  | _ => none

/-- At no time are two calls running. -/
def Serial (env : Env D X V W) (calls : List (Call D X)) (events : List Event) : Prop :=
  ∀ a, a <+: events → ∀ t u, t ≠ u → ¬ (running (run env (start calls) a) t = true ∧ running (run env (start calls) a) u = true)

theorem calls_same (env : Env D X V W) (calls : List (Call D X)) (events : List Event) (t : Nat) :
    ((run env (start calls) events).calls[t]?).map (·.1) = calls[t]? := by
  induction events using List.reverseRecOn with
  | nil => simp [run, start, Function.comp_def]
  | append_singleton events e ih =>
    rw [run_snoc]
    have key : ∀ (s : State D X V W) (u : Nat) (c : Call D X) (pc pc' : Pc X V W), s.calls[u]? = some (c, pc) →
        ((s.calls.set u (c, pc'))[t]?).map (·.1) = (s.calls[t]?).map (·.1) := by
      intro s u c pc pc' h
      by_cases hut : u = t
      · subst hut; rw [set_self h, h]; rfl
      · rw [List.getElem?_set_ne hut]
    cases e with
    | step u =>
      cases hu : (run env (start calls) events).calls[u]? with
      | none => rw [exec_step_none hu]; exact ih
      | some x => obtain ⟨c, pc⟩ := x; rw [exec_step_some hu, ← ih]; exact key _ u c pc _ hu
    | stop u =>
      cases hu : (run env (start calls) events).calls[u]? with
      | none => rw [exec_stop_none hu]; exact ih
      | some x => obtain ⟨c, pc⟩ := x; rw [exec_stop_some hu, ← ih]; exact key _ u c pc _ hu

theorem serial_inv {env : Env D X V W} (hrefl : ∀ a, env.same a a = true) {P : D → Prop}
    (hsame : ∀ a b, P a → P b → env.same a b = true → env.ideal a = env.ideal b) {calls : List (Call D X)} {events : List Event}
    (hcalls : ∀ c ∈ calls, ∃ d dcgs, c = .eval d dcgs ∧ P d) (h : Serial env calls events) :
    CacheOk env P (run env (start calls) events).obj.cache ∧
      ∀ (t : Nat) (d : D) (dcgs : List (Except PyErr X)) (pc : Pc X V W), (run env (start calls) events).calls[t]? = some (.eval d dcgs, pc) →
        Mine env (run env (start calls) events) t d dcgs pc := by
  induction events using List.reverseRecOn with
  | nil =>
    refine ⟨by intro e he; simp [run, start] at he, ?_⟩
    intro t d dcgs pc ht
    simp only [run, start, List.foldl_nil, List.getElem?_map, Option.map_eq_some_iff] at ht
    obtain ⟨c, -, h2⟩ := ht
    cases h2
    trivial
  | append_singleton events e ih =>
    obtain ⟨ih1, ih2⟩ := ih (fun a ha => h a (ha.trans (List.prefix_append _ _)))
    have hnow := h events (List.prefix_append _ _)
    have hnext := h (events ++ [e]) (List.prefix_refl _)
    have hc := calls_same env calls events
    rw [run_snoc] at hnext ⊢
    generalize run env (start calls) events = s at ih1 ih2 hnow hnext hc
    have hev : ∀ (u : Nat) (c : Call D X) (pc : Pc X V W), s.calls[u]? = some (c, pc) → ∃ d dcgs, c = .eval d dcgs ∧ P d := by
      intro u c pc hu
      have := hc u
      rw [hu] at this
      exact hcalls c (List.mem_of_getElem? this.symm)
    cases e with
    | step u =>
      cases hu : s.calls[u]? with
      | none => rw [exec_step_none hu]; exact ⟨ih1, ih2⟩
      | some x =>
        obtain ⟨cu, pcu⟩ := x
        obtain ⟨du, dcgsu, rfl, hP⟩ := hev u cu pcu hu
        by_cases hend : pcu.ended = true
        · rw [exec_ended hu hend]; exact ⟨ih1, ih2⟩
        · have hself := mine_self hrefl hsame ih1 hP hu (ih2 u du dcgsu pcu hu) (by
            intro hact u' c' pc' hut hu'
            have := hnow u u' (Ne.symm hut)
            simp only [running, hu, hu', Option.any_some, hact, true_and] at this
            simpa using this)
          refine ⟨hself.2, ?_⟩
          intro t d dcgs pc ht
          by_cases hut : u = t
          · subst hut
            have ht' := ht
            rw [exec_step_some hu] at ht'
            dsimp only at ht'
            rw [set_self hu] at ht'
            cases ht'
            exact hself.1
          · have ht' := ht
            rw [exec_step_some hu] at ht'
            dsimp only at ht'
            rw [List.getElem?_set_ne hut] at ht'
            refine mine_other hut hu (ih2 t d dcgs pc ht') ?_
            by_contra hact
            have hact : pc.active = true := by simpa using hact
            have h1 := hnow u t hut
            have h2 := hnext u t hut
            simp only [running, hu, ht', Option.any_some, hact, and_true] at h1
            rw [exec_step_some hu] at h2
            simp only [running] at h2
            rw [set_self hu, List.getElem?_set_ne hut, ht'] at h2
            simp only [Option.any_some, hact, and_true] at h2
            cases pcu <;> first
              | (simp [Pc.active] at h1; done)
              | (simp [Pc.ended] at hend; done)
              | (simp [stepCall, Pc.active] at h2)
    | stop u =>
      cases hu : s.calls[u]? with
      | none => rw [exec_stop_none hu]; exact ⟨ih1, ih2⟩
      | some x =>
        obtain ⟨cu, pcu⟩ := x
        refine ⟨by rw [exec_stop_some hu]; exact ih1, ?_⟩
        intro t d dcgs pc ht
        by_cases hut : u = t
        · subst hut
          rw [exec_stop_some hu] at ht
          dsimp only at ht
          rw [set_self hu] at ht
          simp only [Option.some.injEq, Prod.mk.injEq] at ht
          obtain ⟨rfl, rfl⟩ := ht
          have hm := mine_stop (cu := .eval d dcgs) hu (ih2 u d dcgs pcu hu)
          cases pcu <;> first | exact hm | trivial
        · have ht' := ht
          rw [exec_stop_some hu] at ht'
          dsimp only at ht'
          rw [List.getElem?_set_ne hut] at ht'
          exact mine_stop hu (ih2 t d dcgs pc ht')

theorem serial_outcome {env : Env D X V W} (hrefl : ∀ a, env.same a a = true) {P : D → Prop}
    (hsame : ∀ a b, P a → P b → env.same a b = true → env.ideal a = env.ideal b) {calls : List (Call D X)} {events : List Event}
    (hcalls : ∀ c ∈ calls, ∃ d dcgs, c = .eval d dcgs ∧ P d) (h : Serial env calls events) {t : Nat} {d : D} {dcgs : List (Except PyErr X)}
    (hc : calls[t]? = some (.eval d dcgs)) {res : Except PyErr (W × List V)} (hres : outcome (run env (start calls) events) t = some res) :
    res = (match env.ideal d with
      | .error e => .error e
      | .ok arr => (fill env.ratio arr 0 dcgs (List.replicate (env.nQueries d) env.zero)).map (fun a => (env.fin a, a))) := by
  have hi := (serial_inv hrefl hsame hcalls h).2
  have hcs := calls_same env calls events t
  rw [hc] at hcs
  obtain ⟨⟨c, pc⟩, ht, h2⟩ := Option.map_eq_some_iff.1 hcs
  dsimp only at h2
  subst h2
  have hm := hi t d dcgs pc ht
  unfold outcome at hres
  rw [ht] at hres
  cases pc with
  | done r =>
    cases r with
    | error e =>
      simp only [Option.some.injEq] at hres
      subst hres
      rcases hm with hm | ⟨arr, hm, hf⟩
      · rw [hm]
      · rw [hm]; dsimp only; rw [hf]; rfl
    | ok x =>
      obtain ⟨m, r⟩ := x
      obtain ⟨a, arr, h1, h2, h3, h4, -⟩ := hm
      simp only [h1, Option.map_some, Option.some.injEq] at hres
      rw [h2]
      dsimp only
      rw [h3, ← hres, h4]
      rfl
  | _ => cases hres

/-- The NDCG object of `Verif/Model/Ndcg.lean`. -/
noncomputable def ndcgEnv {R S : Type} (cfg : NdcgCfg S) (same : Dataset R ℝ → Dataset R ℝ → Bool) (store : Option ℝ → Option ℝ) :
    Env (Dataset R ℝ) ℝ (Option ℝ) (Option ℝ) :=
  ⟨same, fun d => d.nQueries, ndcgIdeal cfg, fun x y => store (some (ndcgRatio cfg x y)), nanmean, some 0⟩

/-- The call `eval(d, yPred)`. -/
noncomputable def ndcgEvalCall {R S : Type} (cfg : NdcgCfg S) (d : Dataset R ℝ) (yPred : List S) : Call (Dataset R ℝ) ℝ :=
  .eval d ((queryIter d yPred).map (fun b => dcg cfg.sort cfg.cutoff cfg.impl b.2.1 b.2.2))

theorem fill_ndcgLoop {R S : Type} (cfg : NdcgCfg S) (same : Dataset R ℝ → Dataset R ℝ → Bool) (store : Option ℝ → Option ℝ) (d : Dataset R ℝ)
    (hd : same d d = true) (arr : List ℝ) (l : List (Int × List ℝ × List S)) :
    ∀ (i : Nat) (a : List (Option ℝ)), (ndcgLoop cfg same store ⟨some d, some i, [(d, arr)]⟩ i l a).2 =
      fill (fun x y => store (some (ndcgRatio cfg x y))) arr i (l.map (fun b => dcg cfg.sort cfg.cutoff cfg.impl b.2.1 b.2.2)) a := by
  induction l with
  | nil => intro i a; rfl
  | cons b l ih =>
    intro i a
    obtain ⟨q, qy, qs⟩ := b
    simp only [ndcgLoop, ndcgPerQuery, List.map_cons, fill]
    cases hq : dcg cfg.sort cfg.cutoff cfg.impl qy qs with
    | error e => rfl
    | ok x =>
      have hg : (some d).bind (Metrics.cacheGet same [(d, arr)]) = some arr := by simp [Metrics.cacheGet, hd]
      simp only [hg]
      cases hk : arr[i]? with
      | none => rfl
      | some y =>
        dsimp only
        cases hp : pySet a (i : Int) (store (some (ndcgRatio cfg x y))) with
        | error e => rfl
        | ok a' => exact ih (i + 1) a'

/-- C108, proved part: for every history of calls of `NDCG.eval` on one object, by any threads, each of them possibly ended by an exception from outside
at any point, in which no two calls are running at the same time: each call gives what it gives on a new object, also if earlier calls were interrupted,
and the arrays returned are not changed later. The condition on datasets is the one of C17. Missing: calls that overlap (`C108_violated_cursor`,
`C108_violated_poisoned`), and `eval_per_query` after an interrupted call (`C108_violated_default`). -/
theorem C108_serial_partial {R S : Type} (cfg : NdcgCfg S) (same : Dataset R ℝ → Dataset R ℝ → Bool) (store : Option ℝ → Option ℝ)
    (hrefl : ∀ a, same a a = true) {calls : List (Dataset R ℝ × List S)}
    (hsame : ∀ a b, (∃ p, (a, p) ∈ calls) → (∃ p, (b, p) ∈ calls) → same a b = true →
      a.y = b.y ∧ a.queryIds = b.queryIds ∧ a.queryOffsets = b.queryOffsets) {events : List Event}
    (h : Serial (ndcgEnv cfg same store) (calls.map (fun c => ndcgEvalCall cfg c.1 c.2)) events) {t : Nat} {d : Dataset R ℝ} {yPred : List S}
    (hc : calls[t]? = some (d, yPred)) {res : Except PyErr (Option ℝ × List (Option ℝ))}
    (hres : outcome (run (ndcgEnv cfg same store) (start (calls.map (fun c => ndcgEvalCall cfg c.1 c.2))) events) t = some res) :
    res = (ndcgEval cfg same store ndcgFresh d yPred).2 := by
  have hideal : ∀ a b, (∃ p, (a, p) ∈ calls) → (∃ p, (b, p) ∈ calls) → same a b = true → ndcgIdeal cfg a = ndcgIdeal cfg b := by
    intro a b ha hb hab
    obtain ⟨h1, h2, h3⟩ := hsame a b ha hb hab
    simp only [ndcgIdeal, queryIter, Dataset.queryIterator, h1, h2, h3]
  rw [serial_outcome (env := ndcgEnv cfg same store) hrefl (P := fun a => ∃ p, (a, p) ∈ calls) hideal ?_ h (t := t) (d := d)
    (dcgs := (queryIter d yPred).map (fun b => dcg cfg.sort cfg.cutoff cfg.impl b.2.1 b.2.2)) (by simp [hc, ndcgEvalCall]) hres]
  · simp only [ndcgEnv, ndcgEval, ndcgFresh, Metrics.cacheGet, List.find?_nil, Option.map_none]
    cases hi : ndcgIdeal cfg d with
    | error e => rfl
    | ok arr =>
      have hl := fill_ndcgLoop cfg same store d (hrefl d) arr (queryIter d yPred) 0 (List.replicate d.nQueries (some 0))
      simp only [ndcgBaseEval]
      rw [← hl]
      generalize ndcgLoop cfg same store ⟨some d, some 0, [(d, arr)]⟩ 0 (queryIter d yPred) (List.replicate d.nQueries (some 0)) = z
      obtain ⟨st, x⟩ := z
      cases x <;> rfl
  · intro c hcm
    obtain ⟨⟨d', p⟩, hm, rfl⟩ := List.mem_map.1 hcm
    exact ⟨d', _, rfl, p, hm⟩

/-- Two datasets of two queries; the score is the pair of the DCG and the ideal DCG it is divided by. -/
def twoSets : Env Nat Nat (Nat × Nat) Nat := ⟨fun a b => a == b, fun _ => 2, fun d => .ok [10 * d, 10 * d + 1], fun x y => (x, y), List.length, (0, 0)⟩

/-- `k` steps of call `t`. -/
def steps (t k : Nat) : List Event := List.replicate k (.step t)

/-- C108 is violated: a call on the same dataset begins when the first query is done, and the second query is divided by the ideal score of the first. -/
theorem C108_violated_cursor :
    outcome (run twoSets (start [.eval 1 [.ok 1, .ok 2], .eval 1 [.ok 1, .ok 2]]) (steps 0 14 ++ steps 1 2 ++ steps 0 12)) 0 =
      some (.ok (2, [(1, 10), (2, 10)])) ∧
    outcome (run twoSets (start [.eval 1 [.ok 1, .ok 2]]) (steps 0 26)) 0 = some (.ok (2, [(1, 10), (2, 11)])) := by
  decide +kernel

/-- C108 is violated for good: a call on another dataset begins while the ideal scores are computed; they are stored as the ones of the other dataset. All
later calls on that dataset, long after the two have ended, are divided by the ideal scores of the first dataset. -/
theorem C108_violated_poisoned :
    outcome (run twoSets (start [.eval 1 [.ok 1, .ok 2], .eval 2 [.ok 3, .ok 4], .eval 2 [.ok 5, .ok 6]])
      (steps 0 4 ++ steps 1 1 ++ steps 0 26 ++ steps 1 26 ++ steps 2 26)) 2 = some (.ok (2, [(5, 10), (6, 11)])) ∧
    outcome (run twoSets (start [.eval 2 [.ok 5, .ok 6]]) (steps 0 26)) 0 = some (.ok (2, [(5, 20), (6, 21)])) := by
  decide +kernel

/-- C108 is violated without threads: `eval` is interrupted before the ideal scores are stored; `eval_per_query` then fails and makes the dictionary put a
zero for the dataset, so that all later calls of `eval` on this dataset fail. -/
theorem C108_violated_default :
    let s := run twoSets (start [.eval 1 [.ok 1, .ok 2], .perQuery (.ok 1) (.ok 10), .eval 1 [.ok 1, .ok 2]])
      (steps 0 3 ++ [.stop 0] ++ steps 1 4 ++ steps 2 26)
    outcomeQuery s 1 = some (.error .typeError) ∧ outcome s 2 = some (.error .typeError) := by
  decide +kernel

/-- C108 is violated without threads: after an `eval` that is interrupted in its second query, `eval_per_query` divides by the ideal score of that query,
and the next call of it fails. -/
theorem C108_violated_query :
    let s := run twoSets (start [.eval 1 [.ok 1, .ok 2], .perQuery (.ok 7) (.ok 9), .perQuery (.ok 7) (.ok 9)])
      (steps 0 14 ++ [.stop 0] ++ steps 1 7 ++ steps 2 7)
    outcomeQuery s 1 = some (.ok (7, 11)) ∧ outcomeQuery s 2 = some (.error .indexError) ∧
      outcomeQuery (run twoSets (start [.perQuery (.ok 7) (.ok 9)]) (steps 0 7)) 0 = some (.ok (7, 9)) := by
  decide +kernel

theorem serial_of_check {env : Env D X V W} {calls : List (Call D X)} {events : List Event}
    (h : ∀ a ∈ events.inits, ∀ t ∈ List.range calls.length, ∀ u ∈ List.range calls.length, t ≠ u →
      ¬ (running (run env (start calls) a) t = true ∧ running (run env (start calls) a) u = true)) : Serial env calls events := by
  intro a ha t u htu hrun
  have key : ∀ v, running (run env (start calls) a) v = true → v ∈ List.range calls.length := by
    intro v hv
    rw [List.mem_range]
    by_contra hlen
    have h1 := calls_same env calls a v
    rw [List.getElem?_eq_none (l := calls) (by omega), Option.map_eq_none_iff] at h1
    simp [running, h1] at hv
  exact h a ((List.mem_inits _ _).2 ha) t (key t hrun.1) u (key u hrun.2) htu hrun

/-- C108: a history without overlap: a call that is interrupted, then calls on the other and on the same dataset. -/
example :
    let calls : List (Call Nat Nat) := [.eval 1 [.ok 1, .ok 2], .eval 2 [.ok 3, .ok 4], .eval 1 [.ok 5, .ok 6]]
    let events := steps 0 9 ++ [.stop 0] ++ steps 1 26 ++ steps 2 26
    Serial twoSets calls events ∧ outcome (run twoSets (start calls) events) 2 = some (.ok (2, [(5, 10), (6, 11)])) ∧
      (∀ c ∈ calls, ∃ d dcgs, c = .eval d dcgs) :=
  ⟨serial_of_check (by decide +kernel), by decide +kernel, by simp⟩

end Verif.Props.NdcgThreads
