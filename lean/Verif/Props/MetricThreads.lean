/-
Property C107: one metric object used by several threads, and after interrupted evaluations.
-/
import Verif.Lemmas.MetricThreads

namespace Verif.Props.MetricThreads
open Metrics Metrics.Threads
variable {V W : Type}

/-- Call `t` has begun and has not ended. -/
def running (s : State V W) (t : Nat) : Bool := (s.threads[t]?).any (fun x => x.2.active)

/-- What call `t` has returned: the average, and the array as it is now; or the exception. -/
def outcome (s : State V W) (t : Nat) : Option (Except PyErr (W × List V)) :=
  match s.threads[t]? with
  | some (_, .done (.ok (m, r))) => (s.heap[r]?).map (fun a => .ok (m, a.2))
  | some (_, .done (.error e)) => some (.error e)
  | _ => none

/-- At no time during the schedule are call `t` and another call on the same metric object both running. -/
def Apart (zero : V) (calls : List (Call V W)) (events : List Event) (t : Nat) : Prop :=
  ∀ a, a <+: events → ∀ u, u ≠ t → (calls[u]?).map (·.obj) = (calls[t]?).map (·.obj) →
    ¬ (running (run zero (start calls) a) t = true ∧ running (run zero (start calls) a) u = true)

theorem threads_calls (zero : V) (calls : List (Call V W)) (events : List Event) (t : Nat) :
    ((run zero (start calls) events).threads[t]?).map (·.1) = calls[t]? := by
  induction events using List.reverseRecOn with
  | nil => simp [run, start, Function.comp_def]
  | append_singleton events e ih =>
    rw [run_snoc]
    have key : ∀ (s : State V W) (u : Nat) (c : Call V W) (pc pc' : Pc V W), s.threads[u]? = some (c, pc) →
        ((s.threads.set u (c, pc'))[t]?).map (·.1) = (s.threads[t]?).map (·.1) := by
      intro s u c pc pc' h
      by_cases hut : u = t
      · subst hut; rw [set_self h, h]; rfl
      · rw [List.getElem?_set_ne hut]
    cases e with
    | step u =>
      cases hu : (run zero (start calls) events).threads[u]? with
      | none => rw [exec_step_none zero hu]; exact ih
      | some x => obtain ⟨c, pc⟩ := x; rw [exec_step_some zero hu, ← ih]; exact key _ u c pc _ hu
    | stop u =>
      cases hu : (run zero (start calls) events).threads[u]? with
      | none => rw [exec_stop_none zero hu]; exact ih
      | some x => obtain ⟨c, pc⟩ := x; rw [exec_stop_some zero hu, ← ih]; exact key _ u c pc _ hu

theorem mine_run (zero : V) {calls : List (Call V W)} {events : List Event} {t : Nat} {c : Call V W} (hc : calls[t]? = some c)
    (h : Apart zero calls events t) :
    ∃ pc, (run zero (start calls) events).threads[t]? = some (c, pc) ∧ Mine zero (run zero (start calls) events) t c pc := by
  induction events using List.reverseRecOn with
  | nil => exact ⟨.begin, by simp [run, start, hc], trivial⟩
  | append_singleton events e ih =>
    obtain ⟨pc, ht, hm⟩ := ih (fun a ha => h a (ha.trans (List.prefix_append _ _)))
    have hnow := h events (List.prefix_append _ _)
    have hnext := h (events ++ [e]) (List.prefix_refl _)
    have hg := glob_run zero calls events
    rw [run_snoc] at hnext ⊢
    have hobj : ∀ (u : Nat) (c' : Call V W) (pc' : Pc V W), (run zero (start calls) events).threads[u]? = some (c', pc') → c'.obj = c.obj →
        (calls[u]?).map (·.obj) = (calls[t]?).map (·.obj) := by
      intro u c' pc' hu ho
      have := threads_calls zero calls events u
      rw [hu] at this
      rw [← this, hc]
      simp [ho]
    cases e with
    | step u =>
      by_cases hut : u = t
      · subst hut
        refine ⟨_, by rw [exec_step_some zero ht]; exact set_self ht _, mine_self zero ht hm ?_⟩
        intro hact u' c' pc' hne hu' ho
        have := hnow u' hne (hobj u' c' pc' hu' ho)
        simp only [running, ht, hu', Option.any_some, hact, true_and] at this
        simpa using this
      · cases hu : (run zero (start calls) events).threads[u]? with
        | none => rw [exec_step_none zero hu]; exact ⟨pc, ht, hm⟩
        | some x =>
          obtain ⟨cu, pcu⟩ := x
          refine ⟨pc, by rw [exec_step_some zero hu]; dsimp only; rw [List.getElem?_set_ne hut]; exact ht, mine_other zero hg hut hu hm ?_⟩
          intro hact ho
          have h1 := hnow u hut (hobj u cu pcu hu ho)
          have h2 := hnext u hut (hobj u cu pcu hu ho)
          simp only [running, ht, hu, Option.any_some, hact, true_and] at h1
          rw [exec_step_some zero hu] at h2
          simp only [running] at h2
          rw [set_self hu, List.getElem?_set_ne hut, ht] at h2
          simp only [Option.any_some, hact, true_and] at h2
          cases pcu with
          | begin => simp [stepCall, Pc.active] at h2
          | done res => exact .inr ⟨res, rfl⟩
          | stopped => exact .inl rfl
          | _ => simp [Pc.active] at h1
    | stop u =>
      by_cases hut : u = t
      · subst hut
        refine ⟨stopCall pc, by rw [exec_stop_some zero ht]; exact set_self ht _, ?_⟩
        cases pc with
        | done res =>
          rw [exec_stop_some zero ht]
          cases res with
          | error e => exact hm
          | ok x =>
            obtain ⟨m, r⟩ := x
            obtain ⟨a, h2, h3, h4, h5⟩ := hm
            refine ⟨a, h2, h3, h4, ?_⟩
            intro u' c' pc' hut' hu' ho' hact'
            dsimp only at hu'
            rw [List.getElem?_set_ne (Ne.symm hut')] at hu'
            exact h5 u' c' pc' hut' hu' ho' hact'
        | _ => trivial
      · cases hu : (run zero (start calls) events).threads[u]? with
        | none => rw [exec_stop_none zero hu]; exact ⟨pc, ht, hm⟩
        | some x =>
          obtain ⟨cu, pcu⟩ := x
          exact ⟨pc, by rw [exec_stop_some zero hu]; dsimp only; rw [List.getElem?_set_ne hut]; exact ht, mine_stop zero hu hm⟩

theorem apart_outcome (zero : V) {calls : List (Call V W)} {events : List Event} {t : Nat} {c : Call V W} (hc : calls[t]? = some c)
    (h : Apart zero calls events t) {res : Except PyErr (W × List V)} (hres : outcome (run zero (start calls) events) t = some res) :
    res = (writes (List.replicate c.n zero) c.items).map (fun a => (c.fin a, a)) := by
  obtain ⟨pc, ht, hm⟩ := mine_run zero hc h
  unfold outcome at hres
  rw [ht] at hres
  cases pc with
  | done r =>
    cases r with
    | error e =>
      have hm : writes (List.replicate c.n zero) c.items = .error e := hm
      rw [hm]
      simp only [Option.some.injEq] at hres
      rw [← hres]
      rfl
    | ok x =>
      obtain ⟨m, r⟩ := x
      obtain ⟨a, h2, h3, h4, -⟩ := hm
      rw [h3]
      simp only [h2, Option.map_some, Option.some.injEq] at hres
      rw [← hres, h4]
      rfl
  | _ => cases hres

theorem writes_evalLoop {L S V : Type} (store : V → V) (evalQ : List L → List S → Except PyErr V) (l : List (Int × List L × List S)) :
    ∀ (k : Nat) (a : List V), writes a ((l.zipIdx k).map (fun b => ((b.2 : Int), (evalQ b.1.2.1 b.1.2.2).map store))) = evalLoop store evalQ k l a := by
  induction l with
  | nil => intro k a; rfl
  | cons b l ih =>
    intro k a
    obtain ⟨q, qy, qs⟩ := b
    simp only [List.zipIdx_cons, List.map_cons, writes, evalLoop]
    cases hq : evalQ qy qs with
    | error e => rfl
    | ok v =>
      simp only [Except.map, bind, Except.bind]
      cases hp : pySet a (k : Int) (store v) with
      | error e => rfl
      | ok a' => exact ih (k + 1) a'

theorem writes_mseLoop {L S K : Type} [Field K] (evalQ : List L → List S → K) (n : Nat) (l : List (Int × List L × List S)) :
    ∀ (a : List K), writes a (l.map (fun b => (b.1, .ok (evalQ b.2.1 b.2.2 / (n : K))))) = mseLoop evalQ n l a := by
  induction l with
  | nil => intro a; rfl
  | cons b l ih =>
    intro a
    obtain ⟨q, qy, qs⟩ := b
    simp only [List.map_cons, writes, mseLoop, bind, Except.bind]
    cases hp : pySet a q (evalQ qy qs / (n : K)) with
    | error e => rfl
    | ok a' => exact ih a'

/-- C107, proved part: for every schedule of the steps of any calls on any metric objects, with exceptions from outside that end calls at any point:
a call of `eval` that does not overlap with another call on the same object gives what `eval` gives alone, and the array it has returned is never changed
by later calls (the schedule may go on after the call has returned). Calls on other objects may overlap with it. Missing: overlapping calls on one
object, see `C107_violated_mean`, `C107_violated_later`, `C107_violated_error`. -/
theorem C107_apart_partial {R L S K : Type} [Field K] (store : Option K → Option K) (evalQ : List L → List S → Except PyErr (Option K)) (o : Nat)
    (d : Dataset R L) (yPred : List S) {calls : List (Call (Option K) (Option K))} {events : List Event} {t : Nat}
    (hc : calls[t]? = some (evalCall store evalQ o d yPred)) (h : Apart (some 0) calls events t) {res : Except PyErr (Option K × List (Option K))}
    (hres : outcome (run (some 0) (start calls) events) t = some res) : res = metricEval store evalQ d yPred := by
  rw [apart_outcome (some 0) hc h hres]
  simp only [evalCall, metricEval]
  rw [writes_evalLoop store evalQ (queryIter d yPred) 0]
  cases evalLoop store evalQ 0 (queryIter d yPred) (List.replicate d.nQueries (some 0)) <;> rfl

/-- C107, proved part for `MSE.eval`, as `C107_apart_partial`. -/
theorem C107_mse_partial {R K : Type} [Field K] [LinearOrder K] (sort : List K → List Nat) (cutoff : Option Int) (o : Nat) (d : Dataset R K)
    (yPred : List K) {calls : List (Call K K)} {events : List Event} {t : Nat} (hc : calls[t]? = some (mseCall sort cutoff o d yPred))
    (h : Apart 0 calls events t) {res : Except PyErr (K × List K)} (hres : outcome (run 0 (start calls) events) t = some res) :
    res = mseEval sort cutoff d yPred := by
  rw [apart_outcome 0 hc h hres]
  simp only [mseCall, mseEval]
  rw [writes_mseLoop (msePerQuery sort cutoff) d.nInstances (queryIter d yPred)]
  cases mseLoop (msePerQuery sort cutoff) d.nInstances (queryIter d yPred) (List.replicate d.nQueries 0) <;> rfl

/-- C107: a call ends after at most three steps for each query and five more, whatever the other calls do: no call waits for another. -/
theorem C107_finishes (zero : V) {calls : List (Call V W)} {events : List Event} {t : Nat} {c : Call V W} (hc : calls[t]? = some c)
    (h : 3 * c.items.length + 5 ≤ events.count (.step t)) :
    running (run zero (start calls) events) t = false ∧
      (Event.stop t ∉ events → ∃ res, (run zero (start calls) events).threads[t]? = some (c, .done res)) := by
  have key : ∀ events : List Event, ∃ pc, (run zero (start calls) events).threads[t]? = some (c, pc) ∧
      pc.rank c ≤ 3 * c.items.length + 5 - events.count (.step t) ∧ (Event.stop t ∉ events → pc ≠ .stopped) := by
    intro events
    induction events using List.reverseRecOn with
    | nil => exact ⟨.begin, by simp [run, start, hc], by simp [Pc.rank], fun _ => by simp⟩
    | append_singleton events e ih =>
      obtain ⟨pc, ht, hr, hs⟩ := ih
      rw [run_snoc]
      by_cases het : e = .step t
      · subst het
        refine ⟨_, by rw [exec_step_some zero ht]; exact set_self ht _, ?_, ?_⟩
        · have := step_rank zero (c := c) (heap := (run zero (start calls) events).heap) (attr := (run zero (start calls) events).attr) (pc := pc)
          simp only [List.count_append, List.count_singleton_self]
          omega
        · intro hn hst
          have := hs (fun hm => hn (by simp [hm]))
          cases pc <;> simp only [stepCall] at hst <;> (repeat' split at hst) <;> simp_all
      · have hcnt : (events ++ [e]).count (.step t) = events.count (.step t) := by simp [het]
        rw [hcnt]
        by_cases hst : e = .stop t
        · subst hst
          refine ⟨stopCall pc, by rw [exec_stop_some zero ht]; exact set_self ht _, ?_, ?_⟩
          · cases pc <;> simp [stopCall, Pc.rank]
          · intro hn; simp at hn
        · refine ⟨pc, ?_, hr, fun hn => hs (fun hm => hn (by simp [hm]))⟩
          cases e with
          | step u =>
            have hut : u ≠ t := fun h => het (by rw [h])
            cases hu : (run zero (start calls) events).threads[u]? with
            | none => rw [exec_step_none zero hu]; exact ht
            | some x => obtain ⟨c', pc'⟩ := x; rw [exec_step_some zero hu]; dsimp only; rw [List.getElem?_set_ne hut]; exact ht
          | stop u =>
            have hut : u ≠ t := fun h => hst (by rw [h])
            cases hu : (run zero (start calls) events).threads[u]? with
            | none => rw [exec_stop_none zero hu]; exact ht
            | some x => obtain ⟨c', pc'⟩ := x; rw [exec_stop_some zero hu]; dsimp only; rw [List.getElem?_set_ne hut]; exact ht
  obtain ⟨pc, ht, hr, hs⟩ := key events
  have h0 : pc.rank c = 0 := by omega
  constructor
  · simp only [running, ht, Option.any_some]
    cases pc <;> first | rfl | (simp [Pc.rank] at h0)
  · intro hn
    have := hs hn
    cases pc <;> first | exact ⟨_, ht⟩ | exact absurd rfl this | (simp [Pc.rank] at h0)

theorem pySet_ok {a a' : List V} {p : Int} {v : V} (h : pySet a p v = .ok a') :
    ∃ k, k < a.length ∧ a' = a.set k v ∧ (p = (k : Int) ∨ p + (a.length : Int) = (k : Int)) := by
  have key : ∀ j : Int, (if 0 ≤ j ∧ j.toNat < a.length then (.ok (a.set j.toNat v) : Except PyErr (List V)) else .error .indexError) = .ok a' →
      0 ≤ j ∧ j.toNat < a.length ∧ a' = a.set j.toNat v := by
    intro j hj
    by_cases hk : 0 ≤ j ∧ j.toNat < a.length
    · rw [if_pos hk] at hj
      exact ⟨hk.1, hk.2, (Except.ok.inj hj).symm⟩
    · rw [if_neg hk] at hj; cases hj
  obtain ⟨h1, h2, h3⟩ := key _ h
  refine ⟨_, h2, h3, ?_⟩
  rw [Int.toNat_of_nonneg h1]
  by_cases hp : 0 ≤ p
  · left; rw [if_pos hp]
  · right; rw [if_neg hp]

/-- C107: what can be in an array at all, under every schedule: each element is zero or a value that some call on the same object has computed and
written at this position. -/
theorem C107_any (zero : V) (calls : List (Call V W)) (events : List Event) {r o j : Nat} {a : List V} {x : V}
    (hr : (run zero (start calls) events).heap[r]? = some (o, a)) (hx : a[j]? = some x) :
    x = zero ∨ ∃ c ∈ calls, c.obj = o ∧ ∃ p, (p, .ok x) ∈ c.items ∧ (p = (j : Int) ∨ p + (a.length : Int) = (j : Int)) := by
  let Good : Nat → List V → Prop := fun o a => ∀ (j : Nat) (x : V), a[j]? = some x →
    x = zero ∨ ∃ c ∈ calls, c.obj = o ∧ ∃ p, (p, .ok x) ∈ c.items ∧ (p = (j : Int) ∨ p + (a.length : Int) = (j : Int))
  have key : ∀ events : List Event, (∀ (r o : Nat) (a : List V), (run zero (start calls) events).heap[r]? = some (o, a) → Good o a) ∧
      (∀ (u : Nat) (c : Call V W) (pc : Pc V W), (run zero (start calls) events).threads[u]? = some (c, pc) →
        (∀ i p v, pc = .load i p v → (p, .ok v) ∈ c.items) ∧ (∀ i p v r, pc = .store i p v r → (p, .ok v) ∈ c.items)) := by
    intro events
    induction events using List.reverseRecOn with
    | nil =>
      refine ⟨by intro r o a h; simp [run, start] at h, ?_⟩
      intro u c pc hu
      simp only [run, start, List.foldl_nil, List.getElem?_map, Option.map_eq_some_iff] at hu
      obtain ⟨c', -, h2⟩ := hu
      cases h2
      exact ⟨by simp, by simp⟩
    | append_singleton events e ih =>
      obtain ⟨ih1, ih2⟩ := ih
      have hg := glob_run zero calls events
      have hcalls := threads_calls zero calls events
      rw [run_snoc]
      generalize run zero (start calls) events = s at ih1 ih2 hg hcalls
      cases e with
      | stop t =>
        cases ht : s.threads[t]? with
        | none => rw [exec_stop_none zero ht]; exact ⟨ih1, ih2⟩
        | some y =>
          obtain ⟨c, pc⟩ := y
          rw [exec_stop_some zero ht]
          refine ⟨ih1, ?_⟩
          intro u c' pc' hu
          dsimp only at hu
          by_cases hut : t = u
          · subst hut
            rw [set_self ht] at hu
            cases hu
            constructor
            · intro i p v h; cases pc <;> simp [stopCall] at h
            · intro i p v r h; cases pc <;> simp [stopCall] at h
          · rw [List.getElem?_set_ne hut] at hu
            exact ih2 u c' pc' hu
      | step t =>
        cases ht : s.threads[t]? with
        | none => rw [exec_step_none zero ht]; exact ⟨ih1, ih2⟩
        | some y =>
          obtain ⟨c, pc⟩ := y
          have hcm : c ∈ calls := by
            have := hcalls t
            rw [ht] at this
            exact List.mem_of_getElem? this.symm
          rw [exec_step_some zero ht]
          constructor
          · intro r o a hr
            dsimp only at hr
            cases pc
            case begin =>
              simp only [stepCall] at hr
              by_cases hlt : r < s.heap.length
              · rw [List.getElem?_append_left hlt] at hr
                exact ih1 r o a hr
              · rw [List.getElem?_append_right (by omega)] at hr
                have hrr : r = s.heap.length := by
                  have := getElem?_lt hr
                  simp at this
                  omega
                subst hrr
                simp only [Nat.sub_self, List.getElem?_cons_zero, Option.some.injEq, Prod.mk.injEq] at hr
                obtain ⟨rfl, rfl⟩ := hr
                intro j x hx
                left
                exact List.eq_of_mem_replicate (List.mem_of_getElem? hx)
            case store i p v r' =>
              simp only [stepCall] at hr
              obtain ⟨b, hb⟩ := hg.loc t c _ r' ht rfl
              simp only [hb] at hr
              cases hp : pySet b p v with
              | error e => simp only [hp] at hr; exact ih1 r o a hr
              | ok a' =>
                simp only [hp] at hr
                by_cases hrr : r' = r
                · subst hrr
                  rw [set_self hb] at hr
                  simp only [Option.some.injEq, Prod.mk.injEq] at hr
                  obtain ⟨rfl, rfl⟩ := hr
                  have hgood := ih1 r' _ b hb
                  obtain ⟨k, hk, rfl, hpk⟩ := pySet_ok hp
                  intro j x hx
                  rw [List.length_set]
                  by_cases hjj : k = j
                  · subst hjj
                    rw [List.getElem?_set_self hk] at hx
                    cases hx
                    exact .inr ⟨c, hcm, rfl, p, (ih2 t c _ ht).2 i p v r' rfl, hpk⟩
                  · rw [List.getElem?_set_ne hjj] at hx
                    exact hgood j x hx
                · rw [List.getElem?_set_ne hrr] at hr
                  exact ih1 r o a hr
            all_goals
              simp only [stepCall] at hr
              (repeat' split at hr) <;> exact ih1 r o a hr
          · intro u c' pc' hu
            dsimp only at hu
            by_cases hut : t = u
            · subst hut
              rw [set_self ht] at hu
              cases hu
              have hold := ih2 t c pc ht
              cases pc
              case eval k =>
                simp only [stepCall]
                split
                · exact ⟨by simp, by simp⟩
                · exact ⟨by simp, by simp⟩
                · rename_i hk
                  refine ⟨?_, by simp⟩
                  intro i p v h
                  cases h
                  exact List.mem_of_getElem? hk
              case load k q w =>
                simp only [stepCall]
                split
                · exact ⟨by simp, by simp⟩
                · refine ⟨by simp, ?_⟩
                  intro i p v r h
                  cases h
                  exact hold.1 _ _ _ rfl
              all_goals
                simp only [stepCall]
                (repeat' split) <;> exact ⟨by simp, by simp⟩
            · rw [List.getElem?_set_ne hut] at hu
              exact ih2 u c' pc' hu
  exact (key events).1 r o a hr j x hx

/-- Two evaluations of two queries each and one of one query, on one object, and one on another object. -/
def callA : Call Nat Nat := ⟨0, 2, [(0, .ok 1), (1, .ok 2)], List.sum⟩
def callB : Call Nat Nat := ⟨0, 2, [(0, .ok 5), (1, .ok 6)], List.sum⟩
def callC : Call Nat Nat := ⟨0, 1, [(0, .ok 7)], List.sum⟩
def callD : Call Nat Nat := ⟨1, 2, [(0, .ok 8), (1, .ok 9)], List.sum⟩

/-- `k` steps of call `t`. -/
def steps (t k : Nat) : List Event := List.replicate k (.step t)

/-- C107 is violated: if another call begins after the first value is stored, this value is lost, and the average is of an array that has a zero for it. -/
theorem C107_violated_mean : outcome (run 0 (start [callA, callB]) (steps 0 4 ++ steps 1 1 ++ steps 0 7)) 0 = some (.ok (2, [0, 2])) ∧
    outcome (run 0 (start [callA]) (steps 0 11)) 0 = some (.ok (3, [1, 2])) := by
  decide +kernel

/-- C107 is violated: a call gives the right result, and another call, begun before it, later puts its own values into the array that was returned. -/
theorem C107_violated_later :
    outcome (run 0 (start [callA, callB]) (steps 1 1 ++ steps 0 11)) 0 = some (.ok (3, [1, 2])) ∧
    outcome (run 0 (start [callA, callB]) (steps 1 1 ++ steps 0 11 ++ steps 1 10)) 0 = some (.ok (3, [5, 6])) := by
  decide +kernel

/-- C107 is violated: a call fails because another call on a smaller dataset has begun. -/
theorem C107_violated_error : outcome (run 0 (start [callA, callC]) (steps 0 4 ++ steps 1 1 ++ steps 0 7)) 0 = some (.error .indexError) := by
  decide +kernel

theorem apart_of_check (zero : V) {calls : List (Call V W)} {events : List Event} {t : Nat}
    (h : ∀ a ∈ events.inits, ∀ u ∈ List.range calls.length, u ≠ t → (calls[u]?).map (·.obj) = (calls[t]?).map (·.obj) →
      ¬ (running (run zero (start calls) a) t = true ∧ running (run zero (start calls) a) u = true)) : Apart zero calls events t := by
  intro a ha u hut ho hrun
  refine h a ((List.mem_inits _ _).2 ha) u ?_ hut ho hrun
  rw [List.mem_range]
  by_contra hlen
  have h1 := threads_calls zero calls a u
  rw [List.getElem?_eq_none (l := calls) (by omega)] at h1
  have h2 := hrun.2
  rw [Option.map_eq_none_iff] at h1
  simp [running, h1] at h2

/-- C107: the hypotheses of `C107_apart_partial` are met by a schedule in which a call is ended by an exception, the next call on the same object
overlaps with one on another object, and a third call on the same object follows. -/
example : Apart 0 [callA, callB, callD, callC] (steps 0 5 ++ [.stop 0] ++ (List.replicate 11 [.step 1, .step 2]).flatten ++ steps 3 8) 1 ∧
    outcome (run 0 (start [callA, callB, callD, callC])
      (steps 0 5 ++ [.stop 0] ++ (List.replicate 11 [Event.step 1, .step 2]).flatten ++ steps 3 8)) 1 = some (.ok (11, [5, 6])) :=
  ⟨apart_of_check 0 (by decide +kernel), by decide +kernel⟩

end Verif.Props.MetricThreads
