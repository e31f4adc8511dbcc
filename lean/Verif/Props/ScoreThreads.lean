/-
Property C105: `RTEnsemble.score` called by several threads on one model, and interrupted at any step.
-/
import Verif.Lemmas.ScoreThreads

namespace Verif.Props
open Spec Ensemble Ensemble.Threads

section
variable {F D : Type} {ops : FloatOps F} {ds : Rows F D} {b : Fixed F}

/-- What earlier calls that ran to their ends leave: every scorer holds the outcome of an uncached scoring of its dataset, and the
dictionary refers to scorers of datasets equal to the keys. -/
def CacheRight (ops : FloatOps F) (ds : Rows F D) (b : Fixed F) (heap : List (D × Scorer F)) (cache : List (D × Nat)) : Prop :=
  (∀ c ∈ heap, ∃ full s, rawScore ops b.arrays full (ds.X c.1) = .ok s ∧ c.2 = (adjust ops b.learningRate b.baseScore s).toScorer) ∧
  ∀ e ∈ cache, ∃ d v, heap[e.2]? = some (d, v) ∧ ds.same e.1 d = true

/-- What a call must return: the outcome of scoring without any cache. A basic call may read the predictions of a detailed scoring. -/
def Expected (ops : FloatOps F) (ds : Rows F D) (b : Fixed F) (c : Call D) (res : Except PyErr (Scorer F)) : Prop :=
  ∃ full, (full = c.detailed ∨ full = true) ∧
    res = (scoreFresh ops b.arrays b.learningRate b.baseScore full (ds.X c.d) (ds.nFeatures c.d)).map (fun s => result c.detailed s.toScorer)

theorem inv_start {heap : List (D × Scorer F)} {cache : List (D × Nat)} (h : CacheRight ops ds b heap cache) (calls : List (Call D)) :
    Inv ops ds b (start heap cache calls) := by
  have hpc : ∀ (t : Nat) (c : Call D) (pc : Pc F), (start heap cache calls : State F D).threads[t]? = some (c, pc) → pc = .check := by
    intro t c pc h1
    simp only [start, List.getElem?_map, Option.map_eq_some_iff] at h1
    obtain ⟨a, -, h2⟩ := h1
    exact (Prod.mk.inj h2).2.symm
  refine ⟨?_, ?_, ?_, h.2, ?_, ?_⟩
  · intro r d v h1 _
    obtain ⟨full, s, h2, h3⟩ := h.1 (d, v) (List.mem_of_getElem? h1)
    exact ⟨full, s, h2, h3⟩
  · intro t c pc r h1 h2; rw [hpc t c pc h1] at h2; cases h2
  · intro t t' c c' pc pc' r h1 _ h2; rw [hpc t c pc h1] at h2; cases h2
  · intro e he t c pc h1 h2; rw [hpc t c pc h1] at h2; cases h2
  · intro t c pc h1 h2; rw [hpc t c pc h1] at h2; cases h2

theorem start_thread {heap : List (D × Scorer F)} {cache : List (D × Nat)} {calls : List (Call D)} {t : Nat} {c : Call D} (h : calls[t]? = some c) :
    (start heap cache calls : State F D).threads[t]? = some (c, .check) := by simp [start, h]

theorem good_expected {s : State F D} {c : Call D} {res : Except PyErr (Scorer F)} (h : Good ops ds b s c (.done res))
    (hc : featureCheck b.arrays (ds.nFeatures c.d) = .ok ()) : Expected ops ds b c res := by
  obtain ⟨v, ⟨full, h1, sc, h2, rfl⟩, rfl⟩ := h
  refine ⟨full, h1, ?_⟩
  simp only [scoreFresh, hc, h2, bind, Except.bind, pure, Except.pure, Except.map]

/-- C105: no call waits for another one. Whatever the other threads do, a call has returned (or raised) after 15 steps of its thread. -/
theorem C105_finishes (heap : List (D × Scorer F)) (cache : List (D × Nat)) (calls : List (Call D)) {t : Nat} {c : Call D} (hc : calls[t]? = some c)
    {events : List Event} (hn : 15 ≤ events.count (.step t)) :
    ∃ res, (run ops ds b (start heap cache calls) events).threads[t]? = some (c, .done res) := by
  obtain ⟨pc, h1, h2⟩ := steps_rank (ops := ops) (ds := ds) (b := b) (start_thread (heap := heap) (cache := cache) hc) events
  have h3 : pc.rank = 0 := by
    have : (Pc.check : Pc F).rank = 15 := rfl
    omega
  cases pc <;> simp [Pc.rank] at h3
  exact ⟨_, h1⟩

/-- C105, under every schedule: a call that computes the scores itself returns what scoring without cache returns, whatever the other threads do
meanwhile (also if they clear the cache or replace the entry). Only calls that find an entry can go wrong. -/
theorem C105_computing (S : Setting ds b) {heap : List (D × Scorer F)} {cache : List (D × Nat)} (h0 : CacheRight ops ds b heap cache)
    (calls : List (Call D)) {t : Nat} {c : Call D} {before : List Event}
    (hcreate : (run ops ds b (start heap cache calls) before).threads[t]? = some (c, .create)) (after : List Event)
    {res : Except PyErr (Scorer F)} (hdone : (run ops ds b (start heap cache calls) (before ++ after)).threads[t]? = some (c, .done res)) :
    Expected ops ds b c res := by
  have hinv := inv_run S (inv_start h0 calls) before
  obtain ⟨pc, h1, h2⟩ := good_run S hinv hcreate trivial after
  rw [run, List.foldl_append] at hdone
  have h3 : (run ops ds b (run ops ds b (start heap cache calls) before) after).threads[t]? = some (c, .done res) := hdone
  rw [h1] at h3
  obtain ⟨-, rfl⟩ := Prod.mk.inj (Option.some.inj h3)
  exact good_expected h2 (hinv.checked t c _ hcreate rfl)

/-- C105, proved part: if no other call with `cache=True` is on an equal dataset, and the cache is not cleared meanwhile, a call returns under every
schedule what scoring without cache returns. Missing: calls with `cache=True` on equal datasets that overlap, see `C105_violated_none` and
`C105_violated_raw`, and `clear_cache` between two steps, see `C105_violated_clear`. -/
theorem C105_alone_partial (S : Setting ds b) {heap : List (D × Scorer F)} {cache : List (D × Nat)} (h0 : CacheRight ops ds b heap cache)
    {calls : List (Call D)} {t : Nat} {c : Call D} (hc : calls[t]? = some c)
    (hothers : ∀ t' c', calls[t']? = some c' → t' ≠ t → c'.cache = true → ds.same c'.d c.d = false)
    {events : List Event} (hclear : Event.clear ∉ events) {res : Except PyErr (Scorer F)}
    (hdone : (run ops ds b (start heap cache calls) events).threads[t]? = some (c, .done res)) : Expected ops ds b c res := by
  have ha : Alone ds (start heap cache calls : State F D) t c := by
    intro t' c' pc' h1 h2 h3
    simp only [start, List.getElem?_map, Option.map_eq_some_iff] at h1
    obtain ⟨a, h4, h5⟩ := h1
    obtain ⟨rfl, -⟩ := Prod.mk.inj h5
    exact hothers t' a h4 h2 h3
  have hinv := inv_start h0 calls
  obtain ⟨pc, h1, h2⟩ := alone_run S hinv (start_thread hc) ha trivial hclear
  rw [h1] at hdone
  obtain ⟨-, rfl⟩ := Prod.mk.inj (Option.some.inj hdone)
  cases hf : featureCheck b.arrays (ds.nFeatures c.d) with
  | ok u =>
    rcases h2 with h2 | h2
    · cases res with
      | error e => simp only [Careful] at h2; rw [hf] at h2; cases h2
      | ok v => exact h2.elim
    · exact good_expected h2 hf
  | error e =>
    -- the check of the features fails: the call never gets past it
    refine ⟨c.detailed, Or.inl rfl, ?_⟩
    simp only [scoreFresh, hf, bind, Except.bind, Except.map]
    rcases h2 with h2 | h2
    · cases res with
      | error e' => simp only [Careful] at h2; rw [hf] at h2; rw [Except.error.inj h2]
      | ok v => exact h2.elim
    · exfalso
      obtain ⟨v, ⟨full, -, -⟩, rfl⟩ := h2
      -- after its first step the call is `done (error e)`, and it stays so
      have key : ∀ (es : List Event) (s : State F D), (s.threads[t]? = some (c, .check) ∨ s.threads[t]? = some (c, .done (.error e))) →
          (run ops ds b s es).threads[t]? = some (c, .check) ∨ (run ops ds b s es).threads[t]? = some (c, .done (.error e)) := by
        intro es
        induction es with
        | nil => intro s h; exact h
        | cons ev es ih =>
          intro s h
          apply ih
          by_cases he : ev = .step t
          · subst he
            rcases h with h | h
            · right; rw [thread_step h]; simp only [stepCall, hf]
            · right; rw [thread_step h]; rfl
          · rcases h with h | h
            · exact Or.inl (thread_other h he)
            · exact Or.inr (thread_other h he)
      rcases key events _ (Or.inl (start_thread hc)) with h3 | h3 <;> rw [h1] at h3 <;> cases (Prod.mk.inj (Option.some.inj h3)).2

/-- C105: if no call has `cache=True` (the default is `False`), all calls return what they should under every schedule. -/
theorem C105_uncached (S : Setting ds b) {heap : List (D × Scorer F)} {cache : List (D × Nat)} (h0 : CacheRight ops ds b heap cache)
    {calls : List (Call D)} (hno : ∀ c ∈ calls, c.cache = false) {events : List Event} (hclear : Event.clear ∉ events) {t : Nat} {c : Call D}
    (hc : calls[t]? = some c) {res : Except PyErr (Scorer F)}
    (hdone : (run ops ds b (start heap cache calls) events).threads[t]? = some (c, .done res)) : Expected ops ds b c res := by
  refine C105_alone_partial S h0 hc ?_ hclear hdone
  intro t' c' h1 _ h2
  rw [hno c' (List.mem_of_getElem? h1)] at h2
  cases h2

/-- C105: the damage does not last. Once all calls have returned, the cache is right again, after every schedule (with `clear_cache` at any time,
and also if calls on equal datasets overlapped). -/
theorem C105_settles (S : Setting ds b) {heap : List (D × Scorer F)} {cache : List (D × Nat)} (h0 : CacheRight ops ds b heap cache)
    (calls : List (Call D)) (events : List Event)
    (hdone : ∀ p ∈ (run ops ds b (start heap cache calls) events).threads, ∃ res, p.2 = .done res) :
    CacheRight ops ds b (run ops ds b (start heap cache calls) events).heap (run ops ds b (start heap cache calls) events).cache := by
  have hinv := inv_run S (inv_start h0 calls) events
  refine ⟨?_, hinv.cache⟩
  intro cell hcell
  obtain ⟨r, hr⟩ := List.mem_iff_getElem?.1 hcell
  obtain ⟨d, v⟩ := cell
  refine hinv.cells r d v hr ?_
  intro t c pc h1 h2
  obtain ⟨res, h3⟩ := hdone _ (List.mem_of_getElem? h1)
  dsimp only at h3
  rw [h3] at h2
  cases h2

/-- C105: what can be returned at all. Under every schedule, with interruptions and `clear_cache` anywhere, a call raises what the check of the
features raises or a `KeyError`, or its predictions are `None`, the sums of the trees, these times the learning rate, or right; its partial scores and
leaves are `None` or of the same kinds. Scores of other datasets or half of an array are never returned. -/
theorem C105_any (S : Setting ds b) {heap : List (D × Scorer F)} {cache : List (D × Nat)} (h0 : CacheRight ops ds b heap cache)
    {calls : List (Call D)} {t : Nat} {c : Call D} (hc : calls[t]? = some c) (events : List Event) {res : Except PyErr (Scorer F)}
    (hdone : (run ops ds b (start heap cache calls) events).threads[t]? = some (c, .done res)) :
    match res with
    | .error e => featureCheck b.arrays (ds.nFeatures c.d) = .error e ∨ e = .keyError
    | .ok v =>
      (v.yPred = none ∨ ∃ full s, rawScore ops b.arrays full (ds.X c.d) = .ok s ∧
        (v.yPred = some s.yPred ∨ v.yPred = some (adjust ops b.learningRate none s).yPred ∨
          v.yPred = some (adjust ops b.learningRate b.baseScore s).yPred)) ∧
      (v.partialY = none ∨ ∃ s, rawScore ops b.arrays true (ds.X c.d) = .ok s ∧
        (v.partialY = s.partialY ∨ v.partialY = (adjust ops b.learningRate none s).partialY ∨
          v.partialY = (adjust ops b.learningRate b.baseScore s).partialY)) ∧
      (v.leaves = none ∨ ∃ s, rawScore ops b.arrays true (ds.X c.d) = .ok s ∧ v.leaves = s.leaves) := by
  obtain ⟨pc, h1, h2⟩ := held_run S (inv_start h0 calls) (start_thread hc) trivial events
  rw [h1] at hdone
  obtain ⟨-, rfl⟩ := Prod.mk.inj (Option.some.inj hdone)
  cases res <;> exact h2

/-- C105: with learning rate 1 and no base score the predictions of a call that does not raise are `None` or right. -/
theorem C105_any_plain (S : Setting ds b) (hlr : ops.isOne b.learningRate = true) (hbs : b.baseScore = none) {heap : List (D × Scorer F)}
    {cache : List (D × Nat)} (h0 : CacheRight ops ds b heap cache) {calls : List (Call D)} {t : Nat} {c : Call D} (hc : calls[t]? = some c)
    (events : List Event) {v : Scorer F} (hdone : (run ops ds b (start heap cache calls) events).threads[t]? = some (c, .done (.ok v))) :
    v.yPred = none ∨ ∃ full s, rawScore ops b.arrays full (ds.X c.d) = .ok s ∧ v.yPred = some (adjust ops b.learningRate b.baseScore s).yPred := by
  rcases (C105_any S h0 hc events hdone).1 with h | ⟨full, s, h1, h2⟩
  · exact Or.inl h
  · refine Or.inr ⟨full, s, h1, ?_⟩
    have h3 : adjust ops b.learningRate none s = s := by simp [adjust, hlr]
    rw [hbs]
    rw [hbs] at h2
    rw [h3] at h2 ⊢
    simpa using h2

end

section exact
variable {K D : Type} [Field K] [LinearOrder K] {ds : Rows K D} {b : Fixed K}

/-- C105, proved part, with exact numbers: basic calls too return what an uncached call returns. -/
theorem C105_alone_exact_partial (S : Setting ds b) {heap : List (D × Scorer K)} {cache : List (D × Nat)} (h0 : CacheRight (exactOps K) ds b heap cache)
    {calls : List (Call D)} {t : Nat} {c : Call D} (hc : calls[t]? = some c)
    (hothers : ∀ t' c', calls[t']? = some c' → t' ≠ t → c'.cache = true → ds.same c'.d c.d = false)
    {events : List Event} (hclear : Event.clear ∉ events) {res : Except PyErr (Scorer K)}
    (hdone : (run (exactOps K) ds b (start heap cache calls) events).threads[t]? = some (c, .done res)) :
    res = (scoreFresh (exactOps K) b.arrays b.learningRate b.baseScore c.detailed (ds.X c.d) (ds.nFeatures c.d)).map
      (fun s => ⟨some s.yPred, s.partialY, s.leaves⟩) := by
  obtain ⟨full, h1, h2⟩ := C105_alone_partial S h0 hc hothers hclear hdone
  rw [h2]
  cases hd : c.detailed with
  | true =>
    have hf : full = true := by simpa [hd] using h1
    rw [hf]
    rfl
  | false =>
    obtain ⟨fo, hfo⟩ := S.forest
    cases hc : featureCheck b.arrays (ds.nFeatures c.d) with
    | error e => simp only [scoreFresh, hc, bind, Except.bind, Except.map]
    | ok u =>
      obtain ⟨y, part, leaves, h3, h4, _⟩ := C30_same_prediction hfo (S.width c.d) hc
      have key : ∀ p l, (adjust (exactOps K) b.learningRate b.baseScore ⟨y, p, l⟩).yPred =
          (adjust (exactOps K) b.learningRate b.baseScore ⟨y, none, none⟩).yPred := by
        intro p l
        unfold adjust
        split <;> (split <;> [rfl; (split <;> rfl)])
      have key2 : (adjust (exactOps K) b.learningRate b.baseScore ⟨y, none, none⟩).partialY = none ∧
          (adjust (exactOps K) b.learningRate b.baseScore ⟨y, none, none⟩).leaves = none := by
        unfold adjust
        split <;> (split <;> [exact ⟨rfl, rfl⟩; (split <;> exact ⟨rfl, rfl⟩)])
      cases full with
      | false => simp [scoreFresh, hc, h3, bind, Except.bind, pure, Except.pure, Except.map, key2, result, Scored.toScorer]
      | true => simp [scoreFresh, hc, h3, h4, bind, Except.bind, pure, Except.pure, Except.map, key2, key, result, Scored.toScorer]

end exact

/-! ### Concrete schedules -/

/-- The model `ens0` with learning rate 2. -/
def fixed0 : Fixed ℚ := ⟨ens0, 2, none⟩

theorem setting0 : Setting rows0 fixed0 := by
  refine ⟨⟨_, ens0_represents⟩, fun d => by cases d <;> rfl, ?_, ?_, ?_, ?_⟩
  · intro d e h; cases d <;> cases e <;> simp_all [rows0]
  · intro d e f; cases d <;> cases e <;> cases f <;> simp [rows0]
  · intro d e h; rw [eq_of_beq h]
  · intro d row hr
    cases d <;> simp [rows0] at hr ⊢ <;> rcases hr with rfl | rfl <;> rfl

/-- The outcomes after a schedule. -/
def outcomes (s : State ℚ Bool) : List (Option (Except PyErr (Scorer ℚ))) := s.threads.map (fun p => match p.2 with | .done r => some r | _ => none)

/-- `n` steps of thread `t`. -/
def turns (t n : Nat) : List Event := List.replicate n (.step t)

/-- C105: the hypotheses are met by two interleaved calls on different datasets and a third one without `cache` on the first dataset;
after that a call that finds the entry. -/
example : CacheRight (exactOps ℚ) rows0 fixed0 [] [] ∧
    (let calls : List (Call Bool) := [⟨true, true, true⟩, ⟨false, false, true⟩]
     let events := (List.replicate 15 [.step 0, .step 1]).flatten
     (∀ t' c', calls[t']? = some c' → t' ≠ 0 → c'.cache = true → rows0.same c'.d true = false) ∧ Event.clear ∉ events ∧
     outcomes (run (exactOps ℚ) rows0 fixed0 (start [] [] calls) events) =
      [some (.ok ⟨some [18, 34], some [[4, 14], [20, 14]], some [[1, 5], [4, 5]]⟩), some (.ok ⟨some [6, 18], none, none⟩)]) := by
  refine ⟨⟨(by intro c h; cases h), (by intro e h; cases h)⟩, ?_, by decide, by decide +kernel⟩
  intro t' c' h1 h2 _
  match t' with
  | 0 => exact absurd rfl h2
  | 1 => simp at h1; subst h1; rfl
  | n + 2 => simp at h1

/-- C105 is violated: thread 0 has put its new scorer into the cache and not scored yet (or was interrupted there); thread 1 finds the entry and
returns `None` as predictions. -/
theorem C105_violated_none :
    outcomes (run (exactOps ℚ) rows0 fixed0 (start [] [] [⟨true, false, true⟩, ⟨true, false, true⟩]) (turns 0 4 ++ turns 1 4)) =
      [none, some (.ok ⟨none, none, none⟩)] ∧
    ¬ Expected (exactOps ℚ) rows0 fixed0 ⟨true, false, true⟩ (.ok ⟨none, none, none⟩) := by
  refine ⟨by decide +kernel, ?_⟩
  rintro ⟨full, -, h⟩
  cases full <;> revert h <;> decide +kernel

/-- C105 is violated: thread 0 is between the kernel and the multiplication by the learning rate (or was interrupted there); thread 1 returns the
plain sums of the trees, half of what it should return. -/
theorem C105_violated_raw :
    outcomes (run (exactOps ℚ) rows0 fixed0 (start [] [] [⟨true, false, true⟩, ⟨true, false, false⟩]) (turns 0 5 ++ turns 1 4)) =
      [none, some (.ok ⟨some [9, 17], none, none⟩)] ∧
    outcomes (run (exactOps ℚ) rows0 fixed0 (start [] [] [⟨true, false, true⟩, ⟨true, false, false⟩]) (turns 0 8 ++ turns 1 4)) =
      [some (.ok ⟨some [18, 34], none, none⟩), some (.ok ⟨some [18, 34], none, none⟩)] := by
  decide +kernel

/-- C105 is violated: predictions adjusted and partial scores not. -/
theorem C105_violated_half :
    outcomes (run (exactOps ℚ) rows0 fixed0 (start [] [] [⟨true, true, true⟩, ⟨true, true, true⟩]) (turns 0 8 ++ turns 1 7)) =
      [none, some (.ok ⟨some [18, 34], some [[2, 7], [10, 7]], some [[1, 5], [4, 5]]⟩)] := by
  decide +kernel

/-- C105 is violated: a detailed call returns no partial scores, since a basic call that began before puts its scorer over the detailed one between
the test and the lookup. All three calls run to their ends. -/
theorem C105_violated_replaced :
    outcomes (run (exactOps ℚ) rows0 fixed0 (start [] [] [⟨true, false, true⟩, ⟨true, true, true⟩, ⟨true, true, true⟩])
      (turns 0 3 ++ turns 1 15 ++ turns 2 3 ++ turns 0 15 ++ turns 2 15)) =
      [some (.ok ⟨some [18, 34], none, none⟩), some (.ok ⟨some [18, 34], some [[4, 14], [20, 14]], some [[1, 5], [4, 5]]⟩),
        some (.ok ⟨some [18, 34], none, none⟩)] := by
  decide +kernel

/-- C105 is violated: `clear_cache` between the test and the lookup makes a call raise `KeyError`. -/
theorem C105_violated_clear :
    outcomes (run (exactOps ℚ) rows0 fixed0 (start [] [] [⟨true, false, true⟩, ⟨true, false, true⟩]) (turns 0 15 ++ turns 1 2 ++ [.clear] ++ turns 1 2)) =
      [some (.ok ⟨some [18, 34], none, none⟩), some (.error .keyError)] := by
  decide +kernel

end Verif.Props
