/-
Lemmas about `Verif/Model/NdcgThreads.lean`.
-/
import Verif.Model.NdcgThreads

namespace Verif.Metrics.NdcgThreads
variable {D X V W : Type}

/-- The scores of the queries from number `i` on, written one after another. -/
def fill (ratio : X → X → V) (arr : List X) : Nat → List (Except PyErr X) → List V → Except PyErr (List V)
  | _, [], a => .ok a
  | i, x :: rest, a =>
    match x with
    | .error e => .error e
    | .ok x =>
      match arr[i]? with
      | none => .error .indexError
      | some y =>
        match pySet a (i : Int) (ratio x y) with
        | .error e => .error e
        | .ok a' => fill ratio arr (i + 1) rest a'

/-- A call past its first step and not ended. -/
def Pc.active : Pc X V W → Bool
  | .begin | .done _ | .doneQuery _ | .stopped => false
  | _ => true

/-- A call that has ended. -/
def Pc.ended : Pc X V W → Bool
  | .done _ | .doneQuery _ | .stopped => true
  | _ => false

/-- A call of `eval` that has made its array. -/
def Pc.filling : Pc X V W → Bool
  | .begin | .setCursor | .test | .ideal | .put _ | .alloc | .done _ | .doneQuery _ | .stopped => false
  | _ => true

section
variable {env : Env D X V W}

theorem exec_step_none {s : State D X V W} {t : Nat} (h : s.calls[t]? = none) : exec env s (.step t) = s := by simp only [exec, h]

theorem exec_step_some {s : State D X V W} {t : Nat} {c : Call D X} {pc : Pc X V W} (h : s.calls[t]? = some (c, pc)) :
    exec env s (.step t) = ⟨(stepCall env s.obj c pc).2, s.calls.set t (c, (stepCall env s.obj c pc).1)⟩ := by simp only [exec, h]

theorem exec_stop_none {s : State D X V W} {t : Nat} (h : s.calls[t]? = none) : exec env s (.stop t) = s := by simp only [exec, h]

theorem exec_stop_some {s : State D X V W} {t : Nat} {c : Call D X} {pc : Pc X V W} (h : s.calls[t]? = some (c, pc)) :
    exec env s (.stop t) = { s with calls := s.calls.set t (c, stopCall pc) } := by simp only [exec, h]

theorem run_snoc (s : State D X V W) (events : List Event) (e : Event) : run env s (events ++ [e]) = exec env (run env s events) e := by
  simp [run]

theorem getElem?_lt {α : Type} {l : List α} {i : Nat} {x : α} (h : l[i]? = some x) : i < l.length := (List.getElem?_eq_some_iff.1 h).1

theorem set_self {α : Type} {l : List α} {i : Nat} {x : α} (h : l[i]? = some x) (y : α) : (l.set i y)[i]? = some y := by
  rw [List.getElem?_set_self]; exact getElem?_lt h

theorem set_same {α : Type} {l : List α} {i : Nat} {x : α} (h : l[i]? = some x) : l.set i x = l := by
  obtain ⟨hi, rfl⟩ := List.getElem?_eq_some_iff.1 h
  exact List.set_getElem_self hi

theorem exec_ended {s : State D X V W} {t : Nat} {c : Call D X} {pc : Pc X V W} (h : s.calls[t]? = some (c, pc)) (he : pc.ended = true) :
    exec env s (.step t) = s := by
  rw [exec_step_some h]
  have : stepCall env s.obj c pc = (pc, s.obj) := by
    cases pc <;> first | (simp [Pc.ended] at he; done) | (cases c <;> rfl)
  rw [this]
  simp only [set_same h]

/-- Every entry of the dictionary has the ideal scores of its key; the keys are among the datasets in question. -/
def CacheOk (env : Env D X V W) (P : D → Prop) (cache : List (D × Option (List X))) : Prop :=
  ∀ e ∈ cache, P e.1 ∧ ∃ arr, e.2 = some arr ∧ env.ideal e.1 = .ok arr

theorem cacheGet_ok {cache : List (D × Option (List X))} {P : D → Prop} (h : CacheOk env P cache) (hsame : ∀ a b, P a → P b → env.same a b = true → env.ideal a = env.ideal b)
    {d : D} (hP : P d)
    {v : Option (List X)} (hv : cacheGet env.same cache d = some v) : ∃ arr, v = some arr ∧ env.ideal d = .ok arr := by
  simp only [cacheGet, Option.map_eq_some_iff] at hv
  obtain ⟨e, he, rfl⟩ := hv
  obtain ⟨hPe, arr, h1, h2⟩ := h e (List.mem_of_find?_eq_some he)
  have := List.find?_some he
  exact ⟨arr, h1, by rw [← hsame _ _ hPe hP this]; exact h2⟩

theorem cacheSet_ok {cache : List (D × Option (List X))} {P : D → Prop} (h : CacheOk env P cache) (hsame : ∀ a b, P a → P b → env.same a b = true → env.ideal a = env.ideal b)
    {d : D} (hP : P d)
    {arr : List X} (hd : env.ideal d = .ok arr) : CacheOk env P (cacheSet env.same cache d (some arr)) := by
  induction cache with
  | nil => intro e he; simp only [cacheSet, List.mem_singleton] at he; subst he; exact ⟨hP, arr, rfl, hd⟩
  | cons e cache ih =>
    have h' : CacheOk env P cache := fun x hx => h x (List.mem_cons_of_mem _ hx)
    intro x hx
    simp only [cacheSet] at hx
    split at hx
    · rename_i hs
      rcases List.mem_cons.1 hx with rfl | hx
      · have hPe := (h e (by simp)).1
        exact ⟨hPe, arr, rfl, by rw [hsame _ _ hPe hP hs]; exact hd⟩
      · exact h' x hx
    · rcases List.mem_cons.1 hx with rfl | hx
      · exact h x (by simp)
      · exact ih h' x hx

theorem cacheGet_set (hrefl : ∀ a, env.same a a = true) (cache : List (D × Option (List X))) (d : D) (v : Option (List X)) :
    cacheGet env.same (cacheSet env.same cache d v) d = some v := by
  induction cache with
  | nil => simp [cacheSet, cacheGet, hrefl]
  | cons e cache ih =>
    simp only [cacheSet]
    split
    · rename_i hs; simp [cacheGet, hs]
    · rename_i hs
      simp only [cacheGet, List.find?_cons, hs] at ih ⊢
      exact ih

/-- What the call has stored, if nobody interferes. -/
def Mine (env : Env D X V W) (s : State D X V W) (t : Nat) (d : D) (dcgs : List (Except PyErr X)) : Pc X V W → Prop
  | .begin | .stopped | .doneQuery _ => True
  | .setCursor => s.obj.cur = some d
  | .test => s.obj.cur = some d ∧ s.obj.cursor = some 0
  | .ideal => s.obj.cur = some d ∧ s.obj.cursor = some 0
  | .put arr => s.obj.cur = some d ∧ s.obj.cursor = some 0 ∧ env.ideal d = .ok arr
  | .alloc => s.obj.cur = some d ∧ s.obj.cursor = some 0 ∧ ∃ arr, cacheGet env.same s.obj.cache d = some (some arr) ∧ env.ideal d = .ok arr
  | .dcg i => s.obj.cur = some d ∧ s.obj.cursor = some i ∧ ∃ arr, cacheGet env.same s.obj.cache d = some (some arr) ∧ env.ideal d = .ok arr ∧
      ∃ r a, s.obj.attr = some r ∧ s.obj.heap[r]? = some a ∧
        fill env.ratio arr 0 dcgs (List.replicate (env.nQueries d) env.zero) = fill env.ratio arr i (dcgs.drop i) a
  | .cursor i x | .entry i x => s.obj.cur = some d ∧ s.obj.cursor = some i ∧ dcgs[i]? = some (.ok x) ∧
      ∃ arr, cacheGet env.same s.obj.cache d = some (some arr) ∧ env.ideal d = .ok arr ∧
      ∃ r a, s.obj.attr = some r ∧ s.obj.heap[r]? = some a ∧
        fill env.ratio arr 0 dcgs (List.replicate (env.nQueries d) env.zero) = fill env.ratio arr i (dcgs.drop i) a
  | .index i x arr => s.obj.cur = some d ∧ s.obj.cursor = some i ∧ dcgs[i]? = some (.ok x) ∧
      cacheGet env.same s.obj.cache d = some (some arr) ∧ env.ideal d = .ok arr ∧
      ∃ r a, s.obj.attr = some r ∧ s.obj.heap[r]? = some a ∧
        fill env.ratio arr 0 dcgs (List.replicate (env.nQueries d) env.zero) = fill env.ratio arr i (dcgs.drop i) a
  | .incr i x y => s.obj.cur = some d ∧ s.obj.cursor = some i ∧ dcgs[i]? = some (.ok x) ∧
      ∃ arr, arr[i]? = some y ∧ cacheGet env.same s.obj.cache d = some (some arr) ∧ env.ideal d = .ok arr ∧
      ∃ r a, s.obj.attr = some r ∧ s.obj.heap[r]? = some a ∧
        fill env.ratio arr 0 dcgs (List.replicate (env.nQueries d) env.zero) = fill env.ratio arr i (dcgs.drop i) a
  | .incrStore i x y k => k = i ∧ s.obj.cur = some d ∧ s.obj.cursor = some i ∧ dcgs[i]? = some (.ok x) ∧
      ∃ arr, arr[i]? = some y ∧ cacheGet env.same s.obj.cache d = some (some arr) ∧ env.ideal d = .ok arr ∧
      ∃ r a, s.obj.attr = some r ∧ s.obj.heap[r]? = some a ∧
        fill env.ratio arr 0 dcgs (List.replicate (env.nQueries d) env.zero) = fill env.ratio arr i (dcgs.drop i) a
  | .load i v => s.obj.cur = some d ∧ s.obj.cursor = some (i + 1) ∧ ∃ x y, dcgs[i]? = some (.ok x) ∧ v = env.ratio x y ∧
      ∃ arr, arr[i]? = some y ∧ cacheGet env.same s.obj.cache d = some (some arr) ∧ env.ideal d = .ok arr ∧
      ∃ r a, s.obj.attr = some r ∧ s.obj.heap[r]? = some a ∧
        fill env.ratio arr 0 dcgs (List.replicate (env.nQueries d) env.zero) = fill env.ratio arr i (dcgs.drop i) a
  | .store i v r => s.obj.cur = some d ∧ s.obj.cursor = some (i + 1) ∧ ∃ x y, dcgs[i]? = some (.ok x) ∧ v = env.ratio x y ∧
      ∃ arr, arr[i]? = some y ∧ cacheGet env.same s.obj.cache d = some (some arr) ∧ env.ideal d = .ok arr ∧
      ∃ a, s.obj.attr = some r ∧ s.obj.heap[r]? = some a ∧
        fill env.ratio arr 0 dcgs (List.replicate (env.nQueries d) env.zero) = fill env.ratio arr i (dcgs.drop i) a
  | .mean => ∃ r a arr, s.obj.attr = some r ∧ s.obj.heap[r]? = some a ∧ env.ideal d = .ok arr ∧
      fill env.ratio arr 0 dcgs (List.replicate (env.nQueries d) env.zero) = .ok a
  | .fin r => ∃ a arr, s.obj.attr = some r ∧ s.obj.heap[r]? = some a ∧ env.ideal d = .ok arr ∧
      fill env.ratio arr 0 dcgs (List.replicate (env.nQueries d) env.zero) = .ok a
  | .ret m => ∃ r a arr, s.obj.attr = some r ∧ s.obj.heap[r]? = some a ∧ env.ideal d = .ok arr ∧
      fill env.ratio arr 0 dcgs (List.replicate (env.nQueries d) env.zero) = .ok a ∧ m = env.fin a
  | .done (.error e) => env.ideal d = .error e ∨ ∃ arr, env.ideal d = .ok arr ∧
      fill env.ratio arr 0 dcgs (List.replicate (env.nQueries d) env.zero) = .error e
  | .done (.ok (m, r)) => ∃ a arr, s.obj.heap[r]? = some a ∧ env.ideal d = .ok arr ∧
      fill env.ratio arr 0 dcgs (List.replicate (env.nQueries d) env.zero) = .ok a ∧ m = env.fin a ∧
      ∀ (u : Nat) (d' : D) (dcgs' : List (Except PyErr X)) (pc' : Pc X V W), u ≠ t → s.calls[u]? = some (.eval d' dcgs', pc') → pc'.filling = true →
        s.obj.attr ≠ some r ∧ ∀ i v r', pc' = .store i v r' → r' ≠ r

theorem fill_drop {ratio : X → X → V} {arr : List X} {dcgs : List (Except PyErr X)} {i : Nat} {x : Except PyErr X} (h : dcgs[i]? = some x) (a : List V) :
    fill ratio arr i (dcgs.drop i) a = fill ratio arr i (x :: dcgs.drop (i + 1)) a := by
  obtain ⟨hi, h⟩ := List.getElem?_eq_some_iff.1 h
  rw [List.drop_eq_getElem_cons hi, h]

/-- The step of the call itself, and the dictionary after it. -/
theorem mine_self (hrefl : ∀ a, env.same a a = true) {P : D → Prop}
    (hsame : ∀ a b, P a → P b → env.same a b = true → env.ideal a = env.ideal b)
    {s : State D X V W} (hc : CacheOk env P s.obj.cache) {t : Nat} {d : D} (hP : P d) {dcgs : List (Except PyErr X)} {pc : Pc X V W}
    (ht : s.calls[t]? = some (.eval d dcgs, pc)) (h : Mine env s t d dcgs pc)
    (hapart : pc.active = true → ∀ (u : Nat) (c' : Call D X) (pc' : Pc X V W), u ≠ t → s.calls[u]? = some (c', pc') → pc'.active = false) :
    Mine env (exec env s (.step t)) t d dcgs (stepCall env s.obj (.eval d dcgs) pc).1 ∧ CacheOk env P (exec env s (.step t)).obj.cache := by
  rw [exec_step_some ht]
  cases pc with
  | begin => exact ⟨rfl, hc⟩
  | stopped => exact ⟨trivial, hc⟩
  | doneQuery res => exact ⟨trivial, hc⟩
  | setCursor => exact ⟨⟨h, rfl⟩, hc⟩
  | test =>
    obtain ⟨h1, h2⟩ := h
    simp only [stepCall, h1, Option.bind_some]
    cases hg : cacheGet env.same s.obj.cache d with
    | none => exact ⟨⟨h1, h2⟩, hc⟩
    | some v =>
      obtain ⟨arr, rfl, ha⟩ := cacheGet_ok hc hsame hP hg
      exact ⟨⟨h1, h2, arr, hg, ha⟩, hc⟩
  | ideal =>
    obtain ⟨h1, h2⟩ := h
    simp only [stepCall]
    cases hi : env.ideal d with
    | error e => exact ⟨.inl hi, hc⟩
    | ok arr => exact ⟨⟨h1, h2, hi⟩, hc⟩
  | put arr =>
    obtain ⟨h1, h2, h3⟩ := h
    simp only [stepCall, h1]
    exact ⟨⟨rfl, h2, arr, cacheGet_set hrefl _ _ _, h3⟩, cacheSet_ok hc hsame hP h3⟩
  | alloc =>
    obtain ⟨h1, h2, arr, h3, h4⟩ := h
    exact ⟨⟨h1, h2, arr, h3, h4, s.obj.heap.length, List.replicate (env.nQueries d) env.zero, rfl, by simp [stepCall], by simp⟩, hc⟩
  | dcg i =>
    obtain ⟨h1, h2, arr, h3, h4, r, a, h5, h6, h7⟩ := h
    simp only [stepCall]
    cases hi : dcgs[i]? with
    | none =>
      refine ⟨⟨r, a, arr, h5, h6, h4, ?_⟩, hc⟩
      rw [h7, List.drop_eq_nil_of_le (by simpa using hi)]
      rfl
    | some x =>
      cases x with
      | error e =>
        refine ⟨.inr ⟨arr, h4, ?_⟩, hc⟩
        rw [h7, fill_drop hi]
        rfl
      | ok x => exact ⟨⟨h1, h2, hi, arr, h3, h4, r, a, h5, h6, h7⟩, hc⟩
  | cursor i x =>
    have h2 := h.2.1
    simp only [stepCall, h2, Option.isSome_some, if_true]
    exact ⟨h, hc⟩
  | entry i x =>
    obtain ⟨h1, h2, hi, arr, h3, h4, h5⟩ := h
    simp only [stepCall, h1, h3]
    exact ⟨⟨h1, h2, hi, h3, h4, h5⟩, hc⟩
  | index i x arr =>
    obtain ⟨h1, h2, hi, h3, h4, r, a, h5, h6, h7⟩ := h
    simp only [stepCall, h2, Option.bind_some]
    cases hk : arr[i]? with
    | none =>
      refine ⟨.inr ⟨arr, h4, ?_⟩, hc⟩
      rw [h7, fill_drop hi, fill]
      simp only [hk]
    | some y => exact ⟨⟨h1, h2, hi, arr, hk, h3, h4, r, a, h5, h6, h7⟩, hc⟩
  | incr i x y =>
    have h2 := h.2.1
    simp only [stepCall, h2]
    exact ⟨⟨rfl, h⟩, hc⟩
  | incrStore i x y k =>
    obtain ⟨rfl, h1, h2, hi, arr, hk, h3, h4, h5⟩ := h
    exact ⟨⟨h1, rfl, x, y, hi, rfl, arr, hk, h3, h4, h5⟩, hc⟩
  | load i v =>
    obtain ⟨h1, h2, x, y, hi, hv, arr, hk, h3, h4, r, a, h5, h6, h7⟩ := h
    simp only [stepCall, h5]
    exact ⟨⟨h1, h2, x, y, hi, hv, arr, hk, h3, h4, a, h5, h6, h7⟩, hc⟩
  | store i v r =>
    obtain ⟨h1, h2, x, y, hi, rfl, arr, hk, h3, h4, a, h5, h6, h7⟩ := h
    rw [fill_drop hi, fill] at h7
    simp only [hk] at h7
    simp only [stepCall, h6]
    cases hp : pySet a (i : Int) (env.ratio x y) with
    | error e => rw [hp] at h7; exact ⟨.inr ⟨arr, h4, h7⟩, hc⟩
    | ok a' => rw [hp] at h7; exact ⟨⟨h1, h2, arr, h3, h4, r, a', h5, set_self h6 _, h7⟩, hc⟩
  | mean =>
    obtain ⟨r, a, arr, h5, h6, h4, h7⟩ := h
    simp only [stepCall, h5]
    exact ⟨⟨a, arr, h5, h6, h4, h7⟩, hc⟩
  | fin r =>
    obtain ⟨a, arr, h5, h6, h4, h7⟩ := h
    simp only [stepCall, h6]
    exact ⟨⟨r, a, arr, h5, h6, h4, h7, rfl⟩, hc⟩
  | ret m =>
    obtain ⟨r, a, arr, h5, h6, h4, h7, h8⟩ := h
    simp only [stepCall, h5]
    refine ⟨⟨a, arr, h6, h4, h7, h8, ?_⟩, hc⟩
    intro u d' dcgs' pc' hut hu hf
    dsimp only at hu
    rw [List.getElem?_set_ne (Ne.symm hut)] at hu
    have := hapart rfl u _ pc' hut hu
    cases pc' <;> simp [Pc.filling, Pc.active] at hf this
  | done res =>
    have hs := set_same ht
    refine ⟨?_, hc⟩
    cases res with
    | error e => exact h
    | ok x =>
      obtain ⟨m, r⟩ := x
      show ∃ a arr, _
      simp only [stepCall, hs]
      exact h

theorem step_heap {o : Obj D X V} {c : Call D X} {pc : Pc X V W} {r : Nat} {a : List V} (h : o.heap[r]? = some a)
    (hn : ∀ i v r', pc = .store i v r' → r' ≠ r) : (stepCall env o c pc).2.heap[r]? = some a := by
  cases c <;> cases pc <;> simp only [stepCall] <;> (repeat' split) <;> first
    | exact h
    | (rw [List.getElem?_append_left (getElem?_lt h)]; exact h)
    | (rw [List.getElem?_set_ne]; exact h; exact hn _ _ _ rfl)

theorem step_attr {o : Obj D X V} {c : Call D X} {pc : Pc X V W} :
    (stepCall env o c pc).2.attr = o.attr ∨ (pc = .alloc ∧ (stepCall env o c pc).2.attr = some o.heap.length) := by
  cases c <;> cases pc <;> simp only [stepCall] <;> (repeat' split) <;> first
    | exact .inl rfl
    | exact .inr ⟨rfl, rfl⟩
    | simp

theorem step_store {o : Obj D X V} {c : Call D X} {pc : Pc X V W} {i r : Nat} {v : V} (h : (stepCall env o c pc).1 = .store i v r) :
    pc = .load i v ∧ o.attr = some r := by
  cases c <;> cases pc <;> simp only [stepCall] at h <;> (repeat' split at h) <;> simp_all

theorem step_filling {o : Obj D X V} {d : D} {dcgs : List (Except PyErr X)} {pc : Pc X V W} (h : (stepCall env o (.eval d dcgs) pc).1.filling = true) :
    pc.filling = true ∨ pc = .alloc := by
  cases pc <;> simp only [stepCall] at h <;> (repeat' split at h) <;> simp_all [Pc.filling]

/-- A step of another call while this one is not running. -/
theorem mine_other {s : State D X V W} {t u : Nat} {d : D} {dcgs : List (Except PyErr X)} {pc : Pc X V W} {du : D}
    {dcgsu : List (Except PyErr X)} {pcu : Pc X V W} (hut : u ≠ t) (hu : s.calls[u]? = some (.eval du dcgsu, pcu)) (h : Mine env s t d dcgs pc)
    (hact : pc.active = false) : Mine env (exec env s (.step u)) t d dcgs pc := by
  rw [exec_step_some hu]
  cases pc with
  | begin => trivial
  | stopped => trivial
  | doneQuery res => trivial
  | done res =>
    cases res with
    | error e => exact h
    | ok x =>
      obtain ⟨m, r⟩ := x
      obtain ⟨a, arr, h1, h2, h3, h4, h5⟩ := h
      have hlt := getElem?_lt h1
      refine ⟨a, arr, step_heap h1 ?_, h2, h3, h4, ?_⟩
      · intro i v r' hp
        subst hp
        exact (h5 u du dcgsu _ hut hu rfl).2 i v r' rfl
      · intro u' d' dcgs' pc' hut' hu' hf
        dsimp only at hu' ⊢
        have hattr : s.obj.attr ≠ some r → (stepCall env s.obj (.eval du dcgsu) pcu).2.attr ≠ some r := by
          intro hne hr
          rcases step_attr (env := env) (o := s.obj) (c := .eval du dcgsu) (pc := pcu) with h | ⟨-, h⟩
          · rw [h] at hr; exact hne hr
          · rw [h] at hr; cases hr; omega
        by_cases huu : u = u'
        · subst huu
          rw [set_self hu] at hu'
          cases hu'
          rcases step_filling hf with hff | rfl
          · obtain ⟨g1, g2⟩ := h5 u du dcgsu pcu hut hu hff
            refine ⟨hattr g1, ?_⟩
            rintro i v r' hr' rfl
            exact g1 (step_store hr').2
          · refine ⟨?_, fun i v r' hr' => by simp [stepCall] at hr'⟩
            intro hr
            simp only [stepCall] at hr
            cases hr
            omega
        · rw [List.getElem?_set_ne huu] at hu'
          obtain ⟨g1, g2⟩ := h5 u' d' dcgs' pc' hut' hu' hf
          exact ⟨hattr g1, g2⟩
  | _ => cases hact

/-- Another call is stopped. -/
theorem mine_stop {s : State D X V W} {t u : Nat} {d : D} {dcgs : List (Except PyErr X)} {pc : Pc X V W} {cu : Call D X}
    {pcu : Pc X V W} (hu : s.calls[u]? = some (cu, pcu)) (h : Mine env s t d dcgs pc) : Mine env (exec env s (.stop u)) t d dcgs pc := by
  rw [exec_stop_some hu]
  cases pc with
  | done res =>
    cases res with
    | error e => exact h
    | ok x =>
      obtain ⟨m, r⟩ := x
      obtain ⟨a, arr, h1, h2, h3, h4, h5⟩ := h
      refine ⟨a, arr, h1, h2, h3, h4, ?_⟩
      intro u' d' dcgs' pc' hut' hu' hf
      dsimp only at hu' ⊢
      by_cases huu : u = u'
      · subst huu
        rw [set_self hu] at hu'
        cases hu'
        cases pcu <;> simp [stopCall, Pc.filling] at hf
      · rw [List.getElem?_set_ne huu] at hu'
        exact h5 u' d' dcgs' pc' hut' hu' hf
  | _ => exact h

end
end Verif.Metrics.NdcgThreads
