/-
Lemmas about `Verif/Model/MetricThreads.lean`.
-/
import Verif.Model.MetricThreads

namespace Verif.Metrics.Threads
variable {V W : Type}

/-- The elements written one after another. -/
def writes : List V → List (Int × Except PyErr V) → Except PyErr (List V)
  | a, [] => .ok a
  | a, (p, x) :: rest =>
    match x with
    | .error e => .error e
    | .ok v =>
      match pySet a p v with
      | .error e => .error e
      | .ok a' => writes a' rest

/-- A call past its first step and not ended. -/
def Pc.active : Pc V W → Bool
  | .begin | .done _ | .stopped => false
  | _ => true

/-- The array that a call has read from the attribute. -/
def Pc.arr : Pc V W → Option Nat
  | .store _ _ _ r | .fin r => some r
  | _ => none

/-- The number of steps that a call still needs at most. -/
def Pc.rank (c : Call V W) : Pc V W → Nat
  | .begin => 3 * c.items.length + 5
  | .eval i => 3 * (c.items.length - i) + 4
  | .load i _ _ => 3 * (c.items.length - (i + 1)) + 6
  | .store i _ _ _ => 3 * (c.items.length - (i + 1)) + 5
  | .mean => 3
  | .fin _ => 2
  | .ret _ => 1
  | .done _ | .stopped => 0

theorem exec_step_none (zero : V) {s : State V W} {t : Nat} (h : s.threads[t]? = none) : exec zero s (.step t) = s := by simp only [exec, h]

theorem exec_step_some (zero : V) {s : State V W} {t : Nat} {c : Call V W} {pc : Pc V W} (h : s.threads[t]? = some (c, pc)) :
    exec zero s (.step t) = ⟨(stepCall zero c s.heap s.attr pc).2.1, (stepCall zero c s.heap s.attr pc).2.2,
      s.threads.set t (c, (stepCall zero c s.heap s.attr pc).1)⟩ := by simp only [exec, h]

theorem exec_stop_none (zero : V) {s : State V W} {t : Nat} (h : s.threads[t]? = none) : exec zero s (.stop t) = s := by simp only [exec, h]

theorem exec_stop_some (zero : V) {s : State V W} {t : Nat} {c : Call V W} {pc : Pc V W} (h : s.threads[t]? = some (c, pc)) :
    exec zero s (.stop t) = { s with threads := s.threads.set t (c, stopCall pc) } := by simp only [exec, h]

theorem run_snoc (zero : V) (s : State V W) (events : List Event) (e : Event) : run zero s (events ++ [e]) = exec zero (run zero s events) e := by
  simp [run]

theorem getElem?_lt {α : Type} {l : List α} {i : Nat} {x : α} (h : l[i]? = some x) : i < l.length := (List.getElem?_eq_some_iff.1 h).1

theorem set_self {α : Type} {l : List α} {i : Nat} {x : α} (h : l[i]? = some x) (y : α) : (l.set i y)[i]? = some y := by
  rw [List.getElem?_set_self]; exact getElem?_lt h

/-- References are to arrays made for the same object. -/
structure Glob (s : State V W) : Prop where
  own : ∀ (o r : Nat), s.attr o = some r → ∃ a, s.heap[r]? = some (o, a)
  loc : ∀ (u : Nat) (c : Call V W) (pc : Pc V W) (r : Nat), s.threads[u]? = some (c, pc) → pc.arr = some r → ∃ a, s.heap[r]? = some (c.obj, a)

section
variable (zero : V)

theorem step_cell {c : Call V W} {heap : List (Nat × List V)} {attr : Nat → Option Nat} {pc : Pc V W} {r o : Nat} {a : List V}
    (h : heap[r]? = some (o, a)) : ∃ a', (stepCall zero c heap attr pc).2.1[r]? = some (o, a') := by
  cases pc <;> simp only [stepCall]
  case begin => exact ⟨a, by rw [List.getElem?_append_left (getElem?_lt h)]; exact h⟩
  case store i p v r' =>
    split
    · exact ⟨a, h⟩
    · rename_i b hb
      split
      · exact ⟨a, h⟩
      · rename_i a' _
        by_cases hr : r' = r
        · subst hr
          rw [h] at hb
          cases hb
          exact ⟨a', set_self h _⟩
        · exact ⟨a, by rw [List.getElem?_set_ne hr]; exact h⟩
  all_goals (repeat' split) <;> exact ⟨a, h⟩

/-- A step changes only the array that the call has read from the attribute. -/
theorem step_other {c : Call V W} {heap : List (Nat × List V)} {attr : Nat → Option Nat} {pc : Pc V W} {r : Nat} {x : Nat × List V}
    (hb : pc.arr ≠ some r) (h : heap[r]? = some x) : (stepCall zero c heap attr pc).2.1[r]? = some x := by
  cases pc <;> simp only [stepCall]
  case begin => rw [List.getElem?_append_left (getElem?_lt h)]; exact h
  case store i p v r' =>
    split
    · exact h
    · split
      · exact h
      · rw [List.getElem?_set_ne (by simpa [Pc.arr] using hb)]; exact h
  all_goals (repeat' split) <;> exact h

theorem step_attr {c : Call V W} {heap : List (Nat × List V)} {attr : Nat → Option Nat} {pc : Pc V W} {o : Nat}
    (h : pc ≠ .begin ∨ o ≠ c.obj) : (stepCall zero c heap attr pc).2.2 o = attr o := by
  cases pc <;> simp only [stepCall] <;> (repeat' split) <;> simp_all

theorem step_arr {c : Call V W} {heap : List (Nat × List V)} {attr : Nat → Option Nat} {pc : Pc V W} {r : Nat}
    (h : (stepCall zero c heap attr pc).1.arr = some r) : pc ≠ .begin ∧ attr c.obj = some r := by
  cases pc <;> simp only [stepCall] at h <;> (repeat' split at h) <;> simp_all [Pc.arr]

theorem step_rank {c : Call V W} {heap : List (Nat × List V)} {attr : Nat → Option Nat} {pc : Pc V W} :
    (stepCall zero c heap attr pc).1.rank c ≤ pc.rank c - 1 := by
  cases pc <;> simp only [stepCall]
  case eval i =>
    split
    · simp [Pc.rank]
    · simp [Pc.rank]
    · rename_i h
      have := getElem?_lt h
      simp only [Pc.rank]; omega
  case store i p v r =>
    split
    · simp [Pc.rank]
    · split
      · simp [Pc.rank]
      · simp only [Pc.rank]; omega
  all_goals (repeat' split) <;> simp [Pc.rank]

theorem glob_exec {s : State V W} (h : Glob s) (e : Event) : Glob (exec zero s e) := by
  cases e with
  | stop t =>
    cases ht : s.threads[t]? with
    | none => rw [exec_stop_none zero ht]; exact h
    | some x =>
      obtain ⟨c, pc⟩ := x
      rw [exec_stop_some zero ht]
      refine ⟨h.own, ?_⟩
      intro u c' pc' r hu hr
      dsimp only at hu ⊢
      by_cases hut : t = u
      · subst hut
        rw [set_self ht] at hu
        cases hu
        cases pc <;> simp [stopCall, Pc.arr] at hr
      · rw [List.getElem?_set_ne hut] at hu
        exact h.loc u c' pc' r hu hr
  | step t =>
    cases ht : s.threads[t]? with
    | none => rw [exec_step_none zero ht]; exact h
    | some x =>
      obtain ⟨c, pc⟩ := x
      rw [exec_step_some zero ht]
      constructor
      · intro o r ho
        dsimp only at ho ⊢
        by_cases hb : pc = .begin ∧ o = c.obj
        · obtain ⟨rfl, rfl⟩ := hb
          simp only [stepCall, if_true, Option.some.injEq] at ho ⊢
          subst ho
          exact ⟨List.replicate c.n zero, by simp⟩
        · rw [step_attr zero (by tauto)] at ho
          obtain ⟨a, ha⟩ := h.own o r ho
          exact step_cell zero ha
      · intro u c' pc' r hu hr
        dsimp only at hu ⊢
        by_cases hut : t = u
        · subst hut
          rw [set_self ht] at hu
          cases hu
          obtain ⟨a, ha⟩ := h.own _ _ (step_arr zero hr).2
          exact step_cell zero ha
        · rw [List.getElem?_set_ne hut] at hu
          obtain ⟨a, ha⟩ := h.loc u c' pc' r hu hr
          exact step_cell zero ha

theorem glob_run (calls : List (Call V W)) (events : List Event) : Glob (run zero (start calls) events) := by
  induction events using List.reverseRecOn with
  | nil =>
    constructor
    · intro o r h; simp [run, start] at h
    · intro u c pc r hu hr
      simp only [run, start, List.foldl_nil, List.getElem?_map, Option.map_eq_some_iff] at hu
      obtain ⟨c', -, h2⟩ := hu
      cases h2
      simp [Pc.arr] at hr
  | append_singleton events e ih => rw [run_snoc]; exact glob_exec zero ih e

/-- What the call of thread `t` has stored, if nobody interferes. -/
def Mine (s : State V W) (t : Nat) (c : Call V W) : Pc V W → Prop
  | .begin | .stopped => True
  | .eval i => ∃ r a, s.attr c.obj = some r ∧ s.heap[r]? = some (c.obj, a) ∧
      writes (List.replicate c.n zero) c.items = writes a (c.items.drop i)
  | .load i p v => c.items[i]? = some (p, .ok v) ∧ ∃ r a, s.attr c.obj = some r ∧ s.heap[r]? = some (c.obj, a) ∧
      writes (List.replicate c.n zero) c.items = writes a (c.items.drop i)
  | .store i p v r => c.items[i]? = some (p, .ok v) ∧ ∃ a, s.attr c.obj = some r ∧ s.heap[r]? = some (c.obj, a) ∧
      writes (List.replicate c.n zero) c.items = writes a (c.items.drop i)
  | .mean => ∃ r a, s.attr c.obj = some r ∧ s.heap[r]? = some (c.obj, a) ∧ writes (List.replicate c.n zero) c.items = .ok a
  | .fin r => ∃ a, s.attr c.obj = some r ∧ s.heap[r]? = some (c.obj, a) ∧ writes (List.replicate c.n zero) c.items = .ok a
  | .ret m => ∃ r a, s.attr c.obj = some r ∧ s.heap[r]? = some (c.obj, a) ∧ writes (List.replicate c.n zero) c.items = .ok a ∧ m = c.fin a
  | .done (.error e) => writes (List.replicate c.n zero) c.items = .error e
  | .done (.ok (m, r)) => ∃ a, s.heap[r]? = some (c.obj, a) ∧ writes (List.replicate c.n zero) c.items = .ok a ∧ m = c.fin a ∧
      ∀ (u : Nat) (c' : Call V W) (pc' : Pc V W), u ≠ t → s.threads[u]? = some (c', pc') → c'.obj = c.obj → pc'.active = true →
        s.attr c.obj ≠ some r ∧ pc'.arr ≠ some r

theorem writes_drop {c : Call V W} {i : Nat} {p : Int} {x : Except PyErr V} (h : c.items[i]? = some (p, x)) (a : List V) :
    writes a (c.items.drop i) = writes a ((p, x) :: c.items.drop (i + 1)) := by
  obtain ⟨hi, h⟩ := List.getElem?_eq_some_iff.1 h
  rw [List.drop_eq_getElem_cons hi, h]

/-- The step of the call itself. -/
theorem mine_self {s : State V W} {t : Nat} {c : Call V W} {pc : Pc V W} (ht : s.threads[t]? = some (c, pc)) (h : Mine zero s t c pc)
    (hapart : pc.active = true → ∀ (u : Nat) (c' : Call V W) (pc' : Pc V W), u ≠ t → s.threads[u]? = some (c', pc') → c'.obj = c.obj → pc'.active = false) :
    Mine zero (exec zero s (.step t)) t c (stepCall zero c s.heap s.attr pc).1 := by
  rw [exec_step_some zero ht]
  cases pc with
  | begin => exact ⟨s.heap.length, List.replicate c.n zero, by simp [stepCall], by simp [stepCall], by simp⟩
  | stopped => trivial
  | eval i =>
    obtain ⟨r, a, h1, h2, h3⟩ := h
    simp only [stepCall]
    split
    · rename_i hi
      refine ⟨r, a, h1, h2, ?_⟩
      rw [h3, List.drop_eq_nil_of_le (by simpa using hi)]
      rfl
    · rename_i hi
      show _ = _
      rw [h3, writes_drop hi]
      rfl
    · rename_i hi
      exact ⟨hi, r, a, h1, h2, h3⟩
  | load i p v =>
    obtain ⟨hi, r, a, h1, h2, h3⟩ := h
    simp only [stepCall, h1]
    exact ⟨hi, a, h1, h2, h3⟩
  | store i p v r =>
    obtain ⟨hi, a, h1, h2, h3⟩ := h
    rw [writes_drop hi, writes] at h3
    simp only [stepCall, h2]
    cases hp : pySet a p v with
    | error e => rw [hp] at h3; exact h3
    | ok a' => rw [hp] at h3; exact ⟨r, a', h1, set_self h2 _, h3⟩
  | mean =>
    obtain ⟨r, a, h1, h2, h3⟩ := h
    simp only [stepCall, h1]
    exact ⟨a, h1, h2, h3⟩
  | fin r =>
    obtain ⟨a, h1, h2, h3⟩ := h
    simp only [stepCall, h2]
    exact ⟨r, a, h1, h2, h3, rfl⟩
  | ret m =>
    obtain ⟨r, a, h1, h2, h3, h4⟩ := h
    simp only [stepCall, h1]
    refine ⟨a, h2, h3, h4, ?_⟩
    intro u c' pc' hut hu ho hact
    dsimp only at hu
    rw [List.getElem?_set_ne (Ne.symm hut)] at hu
    rw [hapart rfl u c' pc' hut hu ho] at hact
    cases hact
  | done res =>
    cases res with
    | error e => exact h
    | ok x =>
      obtain ⟨m, r⟩ := x
      obtain ⟨a, h2, h3, h4, h5⟩ := h
      refine ⟨a, h2, h3, h4, ?_⟩
      intro u c' pc' hut hu ho hact
      dsimp only at hu
      rw [List.getElem?_set_ne (Ne.symm hut)] at hu
      exact h5 u c' pc' hut hu ho hact

/-- `Mine` depends only on the attribute, the array, and for ended calls on the other calls on the same object. -/
theorem mine_congr {s s' : State V W} {t : Nat} {c : Call V W} {pc : Pc V W} (h : Mine zero s t c pc) (hact : pc.active = true)
    (hattr : s'.attr c.obj = s.attr c.obj) (hheap : ∀ r a, s.attr c.obj = some r → s.heap[r]? = some (c.obj, a) → s'.heap[r]? = some (c.obj, a)) :
    Mine zero s' t c pc := by
  cases pc with
  | begin => trivial
  | stopped => trivial
  | eval i => obtain ⟨r, a, h1, h2, h3⟩ := h; exact ⟨r, a, by rw [hattr]; exact h1, hheap r a h1 h2, h3⟩
  | load i p v => obtain ⟨hi, r, a, h1, h2, h3⟩ := h; exact ⟨hi, r, a, by rw [hattr]; exact h1, hheap r a h1 h2, h3⟩
  | store i p v r => obtain ⟨hi, a, h1, h2, h3⟩ := h; exact ⟨hi, a, by rw [hattr]; exact h1, hheap r a h1 h2, h3⟩
  | mean => obtain ⟨r, a, h1, h2, h3⟩ := h; exact ⟨r, a, by rw [hattr]; exact h1, hheap r a h1 h2, h3⟩
  | fin r => obtain ⟨a, h1, h2, h3⟩ := h; exact ⟨a, by rw [hattr]; exact h1, hheap r a h1 h2, h3⟩
  | ret m => obtain ⟨r, a, h1, h2, h3⟩ := h; exact ⟨r, a, by rw [hattr]; exact h1, hheap r a h1 h2, h3⟩
  | done res => cases hact

/-- A step of another call, on another object or while one of the two calls is not running. -/
theorem mine_other {s : State V W} (hg : Glob s) {t u : Nat} {c cu : Call V W} {pc pcu : Pc V W} (hut : u ≠ t)
    (hu : s.threads[u]? = some (cu, pcu)) (h : Mine zero s t c pc)
    (hapart : pc.active = true → cu.obj = c.obj → pcu = .stopped ∨ ∃ res, pcu = .done res) :
    Mine zero (exec zero s (.step u)) t c pc := by
  rw [exec_step_some zero hu]
  by_cases hact : pc.active = true
  · refine mine_congr zero h hact ?_ ?_
    · dsimp only
      by_cases ho : cu.obj = c.obj
      · rcases hapart hact ho with rfl | ⟨res, rfl⟩ <;> rfl
      · exact step_attr zero (.inr (Ne.symm ho))
    · intro r a h1 h2
      dsimp only
      by_cases ho : cu.obj = c.obj
      · rcases hapart hact ho with rfl | ⟨res, rfl⟩ <;> exact h2
      · refine step_other zero ?_ h2
        intro hr
        obtain ⟨a', ha'⟩ := hg.loc u cu pcu r hu hr
        rw [h2] at ha'
        exact ho (Prod.mk.inj (Option.some.inj ha')).1.symm
  · cases pc with
    | begin => trivial
    | stopped => trivial
    | done res =>
      cases res with
      | error e => exact h
      | ok x =>
        obtain ⟨m, r⟩ := x
        obtain ⟨a, h2, h3, h4, h5⟩ := h
        have hne : pcu.arr ≠ some r := by
          intro hr
          obtain ⟨a', ha'⟩ := hg.loc u cu pcu r hu hr
          rw [h2] at ha'
          have ho : cu.obj = c.obj := (Prod.mk.inj (Option.some.inj ha')).1.symm
          have hac : pcu.active = true := by cases pcu <;> simp [Pc.arr] at hr <;> rfl
          exact (h5 u cu pcu hut hu ho hac).2 hr
        refine ⟨a, step_other zero hne h2, h3, h4, ?_⟩
        intro u' c' pc' hut' hu' ho' hact'
        dsimp only at hu' ⊢
        by_cases huu : u = u'
        · subst huu
          rw [set_self hu] at hu'
          cases hu'
          by_cases hb : pcu = .begin
          · subst hb
            constructor
            · simp only [stepCall, ho', if_true]
              intro hr
              have := getElem?_lt h2
              cases hr
              omega
            · simp [stepCall, Pc.arr]
          · have hac : pcu.active = true := by cases pcu <;> first | rfl | exact absurd rfl hb | (simp [stepCall, Pc.active] at hact')
            obtain ⟨g1, g2⟩ := h5 u cu pcu hut hu ho' hac
            refine ⟨by rw [step_attr zero (.inl hb)]; exact g1, ?_⟩
            intro hr
            exact g1 (ho' ▸ (step_arr zero hr).2)
        · rw [List.getElem?_set_ne huu] at hu'
          obtain ⟨g1, g2⟩ := h5 u' c' pc' hut' hu' ho' hact'
          refine ⟨?_, g2⟩
          by_cases hb : pcu = .begin ∧ cu.obj = c.obj
          · obtain ⟨rfl, hb⟩ := hb
            simp only [stepCall, hb, if_true]
            intro hr
            have := getElem?_lt h2
            cases hr
            omega
          · rw [step_attr zero (by tauto)]; exact g1
    | _ => simp [Pc.active] at hact

/-- Another call is stopped. -/
theorem mine_stop {s : State V W} {t u : Nat} {c cu : Call V W} {pc pcu : Pc V W} (hu : s.threads[u]? = some (cu, pcu))
    (h : Mine zero s t c pc) : Mine zero (exec zero s (.stop u)) t c pc := by
  rw [exec_stop_some zero hu]
  by_cases hact : pc.active = true
  · exact mine_congr zero h hact rfl (fun r a _ h2 => h2)
  · cases pc with
    | begin => trivial
    | stopped => trivial
    | done res =>
      cases res with
      | error e => exact h
      | ok x =>
        obtain ⟨m, r⟩ := x
        obtain ⟨a, h2, h3, h4, h5⟩ := h
        refine ⟨a, h2, h3, h4, ?_⟩
        intro u' c' pc' hut' hu' ho' hact'
        dsimp only at hu' ⊢
        by_cases huu : u = u'
        · subst huu
          rw [set_self hu] at hu'
          cases hu'
          cases pcu <;> simp [stopCall, Pc.active] at hact'
        · rw [List.getElem?_set_ne huu] at hu'
          exact h5 u' c' pc' hut' hu' ho' hact'
    | _ => simp [Pc.active] at hact

end
end Verif.Metrics.Threads
