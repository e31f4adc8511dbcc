/-
Lemmas about `Verif/Model/ScoreThreads.lean`: what holds of the scorers, the dictionary and the threads after every schedule.
-/
import Verif.Model.ScoreThreads
import Verif.Props.ScoreCache

namespace Verif.Ensemble.Threads
open Spec Verif.Props
variable {F D : Type}

/-- The scorer that a call is computing. -/
def Pc.builds : Pc F → Option Nat
  | .put r | .run r | .storePartial r _ | .sum r | .mulY r | .mulP r | .addY r | .addP r => some r
  | _ => none

/-- The number of steps that a call still needs at most. -/
def Pc.rank : Pc F → Nat
  | .check => 15
  | .lookup => 14
  | .test => 13
  | .create => 12
  | .put _ => 11
  | .run _ => 10
  | .storePartial _ _ => 9
  | .sum _ => 8
  | .mulY _ => 7
  | .mulP _ => 6
  | .addY _ => 5
  | .addP _ => 4
  | .fetch => 4
  | .retY _ => 3
  | .retP _ _ => 2
  | .retL _ _ _ => 1
  | .done _ => 0

/-- A call past the check of the features and not finished. -/
def Pc.active : Pc F → Bool
  | .check | .done _ => false
  | _ => true

section
variable (ops : FloatOps F) (ds : Rows F D) (b : Fixed F)

theorem update_self {heap : List (D × Scorer F)} {r : Nat} {d : D} {v : Scorer F} (h : heap[r]? = some (d, v)) (f : Scorer F → Scorer F) :
    (update heap r f)[r]? = some (d, f v) := by
  simp [update, h]

theorem update_other {heap : List (D × Scorer F)} {r r' : Nat} (h : r ≠ r') (f : Scorer F → Scorer F) :
    (update heap r f)[r']? = heap[r']? := by
  simp [update, h]

theorem update_length {heap : List (D × Scorer F)} {r : Nat} (f : Scorer F → Scorer F) : (update heap r f).length = heap.length := by
  simp [update]

theorem step_builds {c : Call D} {heap : List (D × Scorer F)} {cache : List (D × Nat)} {pc : Pc F} {r : Nat}
    (h : (stepCall ops ds b c heap cache pc).1.builds = some r) : pc.builds = some r ∨ (pc = .create ∧ r = heap.length) := by
  cases pc <;> simp only [stepCall, runKernel] at h <;> (repeat' split at h) <;> simp_all [Pc.builds]

theorem step_other {c : Call D} {heap : List (D × Scorer F)} {cache : List (D × Nat)} {pc : Pc F} {r : Nat} {cell : D × Scorer F}
    (hb : pc.builds ≠ some r) (h : heap[r]? = some cell) : (stepCall ops ds b c heap cache pc).2.1[r]? = some cell := by
  have happ : (heap ++ [(c.d, (⟨none, none, none⟩ : Scorer F))])[r]? = some cell := by
    rw [List.getElem?_append_left (by by_contra h2; rw [List.getElem?_eq_none (by omega)] at h; cases h)]; exact h
  cases pc <;> simp only [stepCall, runKernel] <;> (repeat' split) <;>
    first
    | exact h
    | exact happ
    | (rw [update_other]; exact h; simpa [Pc.builds] using hb)

theorem step_cell {c : Call D} {heap : List (D × Scorer F)} {cache : List (D × Nat)} {pc : Pc F} {r : Nat} {cell : D × Scorer F}
    (h : heap[r]? = some cell) : ∃ v, (stepCall ops ds b c heap cache pc).2.1[r]? = some (cell.1, v) := by
  by_cases hb : pc.builds = some r
  · cases pc <;> simp only [Pc.builds, Option.some.injEq, reduceCtorEq] at hb <;> subst hb <;> simp only [stepCall, runKernel] <;>
      (repeat' split) <;> first | exact ⟨_, h⟩ | exact ⟨_, update_self h _⟩ | (dsimp only; exact ⟨_, update_self h _⟩)
  · exact ⟨cell.2, step_other ops ds b hb h⟩

theorem step_rank {c : Call D} {heap : List (D × Scorer F)} {cache : List (D × Nat)} {pc : Pc F} :
    (stepCall ops ds b c heap cache pc).1.rank ≤ pc.rank - 1 := by
  cases pc <;> simp only [stepCall, runKernel] <;> (repeat' split) <;> simp [Pc.rank]

/-- What the theorems assume of the model and of the datasets: the arrays represent a forest, equality of datasets is an equivalence
and equal datasets have the same rows, and each row has `n_features` entries. -/
structure Setting : Prop where
  forest : ∃ fo, Represents b.arrays fo
  refl : ∀ d, ds.same d d = true
  symm : ∀ d e, ds.same d e = true → ds.same e d = true
  trans : ∀ d e f, ds.same d e = true → ds.same e f = true → ds.same d f = true
  rows : ∀ d e, ds.same d e = true → ds.X d = ds.X e
  width : ∀ d, ∀ row ∈ ds.X d, row.length = ds.nFeatures d

/-- `v` is the state of a scorer that has scored `X` in the given mode and is adjusted. -/
def Full (X : List (List F)) (full : Bool) (v : Scorer F) : Prop :=
  ∃ sc, rawScore ops b.arrays full X = .ok sc ∧ v = (adjust ops b.learningRate b.baseScore sc).toScorer

/-- `v` is what a scorer may contain at the end of call `c`. -/
def Right (c : Call D) (v : Scorer F) : Prop := ∃ full, (full = c.detailed ∨ full = true) ∧ Full ops b (ds.X c.d) full v

/-- What the scorer that a call is computing contains. -/
def Stage (c : Call D) : Pc F → Scorer F → Prop
  | .put _, v => c.cache = true ∧ v = ⟨none, none, none⟩
  | .run _, v => v = ⟨none, none, none⟩
  | .storePartial _ p, v => c.detailed = true ∧ ∃ l, detailedScoring ops b.arrays (ds.X c.d) = .ok (l, p) ∧ v = ⟨none, none, some l⟩
  | .sum _, v => c.detailed = true ∧ ∃ l p, detailedScoring ops b.arrays (ds.X c.d) = .ok (l, p) ∧ v = ⟨none, some p, some l⟩
  | .mulY _, v => ∃ sc, rawScore ops b.arrays c.detailed (ds.X c.d) = .ok sc ∧ v = sc.toScorer
  | .mulP _, v => c.detailed = true ∧ ops.isOne b.learningRate = false ∧ ∃ sc, rawScore ops b.arrays c.detailed (ds.X c.d) = .ok sc ∧
      v = ⟨some (sc.yPred.map (fun v => ops.mul v b.learningRate)), sc.partialY, sc.leaves⟩
  | .addY _, v => ∃ sc, rawScore ops b.arrays c.detailed (ds.X c.d) = .ok sc ∧ v = (adjust ops b.learningRate none sc).toScorer
  | .addP _, v => c.detailed = true ∧ ∃ x, b.baseScore = some x ∧ ops.isZero x = false ∧
      ∃ sc, rawScore ops b.arrays c.detailed (ds.X c.d) = .ok sc ∧
        v = ⟨some ((adjust ops b.learningRate none sc).yPred.map (fun v => ops.add v x)), (adjust ops b.learningRate none sc).partialY,
              (adjust ops b.learningRate none sc).leaves⟩
  | _, _ => False

/-- No call is computing scorer `r`. -/
def Idle (ts : List (Call D × Pc F)) (r : Nat) : Prop := ∀ (t : Nat) (c : Call D) (pc : Pc F), ts[t]? = some (c, pc) → pc.builds ≠ some r

/-- What holds after every schedule. -/
structure Inv (s : State F D) : Prop where
  /-- A scorer that no call is computing is finished. -/
  cells : ∀ (r : Nat) (d : D) (v : Scorer F), s.heap[r]? = some (d, v) → Idle s.threads r → ∃ full, Full ops b (ds.X d) full v
  /-- A scorer that a call is computing contains what the call has stored. -/
  builders : ∀ (t : Nat) (c : Call D) (pc : Pc F) (r : Nat), s.threads[t]? = some (c, pc) → pc.builds = some r → ∃ v, s.heap[r]? = some (c.d, v) ∧ Stage ops ds b c pc v
  /-- No two calls compute one scorer. -/
  distinct : ∀ (t t' : Nat) (c c' : Call D) (pc pc' : Pc F) (r : Nat), s.threads[t]? = some (c, pc) → s.threads[t']? = some (c', pc') → pc.builds = some r →
    pc'.builds = some r → t = t'
  /-- The dictionary refers to scorers of its keys. -/
  cache : ∀ e ∈ s.cache, ∃ d v, s.heap[e.2]? = some (d, v) ∧ ds.same e.1 d = true
  /-- Only calls with `cache=True` compute scorers that are in the dictionary. -/
  cached : ∀ e ∈ s.cache, ∀ (t : Nat) (c : Call D) (pc : Pc F), s.threads[t]? = some (c, pc) → pc.builds = some e.2 → c.cache = true
  /-- Calls past the check passed it. -/
  checked : ∀ (t : Nat) (c : Call D) (pc : Pc F), s.threads[t]? = some (c, pc) → pc.active = true → featureCheck b.arrays (ds.nFeatures c.d) = .ok ()

theorem raw_false {m : Ensemble F} {X : List (List F)} {sc : Scored F} (h : rawScore ops m false X = .ok sc) : sc.partialY = none ∧ sc.leaves = none := by
  simp only [rawScore, Bool.false_eq_true, ↓reduceIte] at h
  cases hbs : basicScoring ops m X with
  | error e => rw [hbs] at h; cases h
  | ok y => rw [hbs] at h; cases h; exact ⟨rfl, rfl⟩

theorem raw_true {m : Ensemble F} {X : List (List F)} {sc : Scored F} (h : rawScore ops m true X = .ok sc) : sc.partialY.isSome = true := by
  simp only [rawScore, ↓reduceIte] at h
  cases hbs : detailedScoring ops m X with
  | error e => rw [hbs] at h; cases h
  | ok y => rw [hbs] at h; cases h; rfl

theorem full_isSome {X : List (List F)} {full : Bool} {v : Scorer F} (h : Full ops b X full v) : v.partialY.isSome = full := by
  obtain ⟨sc, h1, rfl⟩ := h
  show (adjust ops b.learningRate b.baseScore sc).partialY.isSome = full
  rw [adjust_isSome]
  cases full with
  | true => exact raw_true ops h1
  | false => rw [(raw_false ops h1).1]; rfl

theorem dictGet_mem {same : D → D → Bool} {c : List (D × Nat)} {d : D} {r : Nat} (h : dictGet same c d = some r) :
    ∃ e ∈ c, e.2 = r ∧ same e.1 d = true := by
  obtain ⟨e, he, rfl⟩ := Option.map_eq_some_iff.1 h
  exact ⟨e, List.mem_of_find?_eq_some he, rfl, by simpa using List.find?_some he⟩

theorem dictSet_mem {same : D → D → Bool} {d : D} {r : Nat} :
    ∀ {c : List (D × Nat)} {e}, e ∈ dictSet same c d r → e ∈ c ∨ (e.2 = r ∧ (e.1 = d ∨ same e.1 d = true)) := by
  intro c
  induction c with
  | nil => intro e h; simp only [dictSet, List.mem_singleton] at h; subst h; exact Or.inr ⟨rfl, Or.inl rfl⟩
  | cons x c ih =>
    intro e h
    unfold dictSet at h
    split at h
    · next hs =>
      rcases List.mem_cons.1 h with rfl | h
      · exact Or.inr ⟨rfl, Or.inr hs⟩
      · exact Or.inl (List.mem_cons_of_mem _ h)
    · rcases List.mem_cons.1 h with rfl | h
      · exact Or.inl (List.mem_cons_self ..)
      · rcases ih h with h | h
        · exact Or.inl (List.mem_cons_of_mem _ h)
        · exact Or.inr h

variable {ops ds b}

theorem dictGet_set (S : Setting ds b) {d d' : D} (h : ds.same d' d = false) (r : Nat) :
    ∀ c, dictGet ds.same (dictSet ds.same c d' r) d = dictGet ds.same c d := by
  intro c
  induction c with
  | nil => simp [dictSet, dictGet, h]
  | cons e c ih =>
    have hne : ds.same e.1 d' = true → ds.same e.1 d = false := by
      intro h1
      by_contra h2
      rw [Bool.not_eq_false] at h2
      rw [S.trans _ _ _ (S.symm _ _ h1) h2] at h
      cases h
    unfold dictSet
    split
    · next h1 => simp [dictGet, hne h1]
    · next h1 =>
      cases h2 : ds.same e.1 d with
      | true => simp [dictGet, h2]
      | false => simpa [dictGet, h2] using ih

theorem set_threads {α : Type} {ts : List α} {t t' : Nat} {x y : α} (h : (ts.set t x)[t']? = some y) :
    (t' = t ∧ y = x) ∨ (t' ≠ t ∧ ts[t']? = some y) := by
  rw [List.getElem?_set] at h
  split at h
  · next h1 =>
    split at h
    · exact Or.inl ⟨h1.symm, (Option.some.inj h).symm⟩
    · cases h
  · next h1 => exact Or.inr ⟨fun h2 => h1 h2.symm, h⟩

/-- A step of a call that computes a scorer: what the scorer contains afterwards, and that only this scorer changes. -/
theorem build_step (S : Setting ds b) {c : Call D} {heap : List (D × Scorer F)} {cache : List (D × Nat)} {pc : Pc F} {r : Nat} {v : Scorer F}
    (hb : pc.builds = some r) (hv : heap[r]? = some (c.d, v)) (hs : Stage ops ds b c pc v)
    (hc : featureCheck b.arrays (ds.nFeatures c.d) = .ok ()) :
    ∃ v', (stepCall ops ds b c heap cache pc).2.1[r]? = some (c.d, v') ∧
      (((stepCall ops ds b c heap cache pc).1.builds = some r ∧ Stage ops ds b c (stepCall ops ds b c heap cache pc).1 v') ∨
        ((stepCall ops ds b c heap cache pc).1 = .retY r ∧ Full ops b (ds.X c.d) c.detailed v')) := by
  obtain ⟨fo, hfo⟩ := S.forest
  have hraw := rawScore_ok ops hfo (S.width c.d) hc
  cases pc <;> simp only [Pc.builds, Option.some.injEq, reduceCtorEq] at hb <;> subst hb
  case put r => exact ⟨v, hv, Or.inl ⟨rfl, hs.2⟩⟩
  case run r =>
    obtain ⟨sc, h1, -⟩ := hraw c.detailed
    simp only [stepCall, runKernel]
    have hs' : v = ⟨none, none, none⟩ := hs
    subst hs'
    cases hd : c.detailed with
    | true =>
      rw [hd] at h1
      simp only [↓reduceIte]
      simp only [rawScore, ↓reduceIte] at h1
      cases hk : detailedScoring ops b.arrays (ds.X c.d) with
      | error e => rw [hk] at h1; cases h1
      | ok x =>
        obtain ⟨l, p⟩ := x
        dsimp only
        exact ⟨_, update_self hv _, Or.inl ⟨rfl, hd, l, hk, rfl⟩⟩
    | false =>
      rw [hd] at h1
      simp only [Bool.false_eq_true, ↓reduceIte]
      have h1' := h1
      simp only [rawScore, Bool.false_eq_true, ↓reduceIte] at h1
      cases hk : basicScoring ops b.arrays (ds.X c.d) with
      | error e => rw [hk] at h1; cases h1
      | ok y =>
        rw [hk] at h1
        have := Except.ok.inj h1
        subst this
        dsimp only
        exact ⟨_, update_self hv _, Or.inl ⟨rfl, _, hd ▸ h1', rfl⟩⟩
  case storePartial r p =>
    obtain ⟨h1, l, h2, rfl⟩ := hs
    simp only [stepCall]
    exact ⟨_, update_self hv _, Or.inl ⟨rfl, h1, l, p, h2, rfl⟩⟩
  case sum r =>
    obtain ⟨h1, l, p, h2, rfl⟩ := hs
    simp only [stepCall]
    refine ⟨_, update_self hv _, Or.inl ⟨rfl, ⟨p.map ops.sum, some p, some l⟩, ?_, rfl⟩⟩
    simp only [rawScore, h1, h2, ↓reduceIte, bind, Except.bind]
    rfl
  case mulY r =>
    obtain ⟨sc, h1, rfl⟩ := hs
    simp only [stepCall]
    cases h2 : ops.isOne b.learningRate with
    | true =>
      refine ⟨_, hv, Or.inl ⟨rfl, sc, h1, ?_⟩⟩
      simp [adjust, h2]
    | false =>
      simp only [Bool.false_eq_true, ↓reduceIte]
      refine ⟨_, update_self hv _, Or.inl ?_⟩
      cases hd : c.detailed with
      | true => exact ⟨rfl, hd, h2, sc, h1, rfl⟩
      | false =>
        refine ⟨rfl, sc, h1, ?_⟩
        rw [hd] at h1
        obtain ⟨h3, h4⟩ := raw_false ops h1
        simp [adjust, h2, h3, h4, Scored.toScorer]
  case mulP r =>
    obtain ⟨h1, h2, sc, h3, rfl⟩ := hs
    simp only [stepCall]
    refine ⟨_, update_self hv _, Or.inl ⟨rfl, sc, h3, ?_⟩⟩
    simp [adjust, h2, Scored.toScorer]
  case addY r =>
    obtain ⟨sc, h1, rfl⟩ := hs
    simp only [stepCall]
    cases h2 : b.baseScore with
    | none => exact ⟨_, hv, Or.inr ⟨by simp, sc, h1, by rw [h2]⟩⟩
    | some x =>
      cases h3 : ops.isZero x with
      | true =>
        simp only [h3, ↓reduceIte]
        refine ⟨_, hv, Or.inr ⟨trivial, sc, h1, ?_⟩⟩
        simp [adjust, h2, h3]
      | false =>
        simp only [h3, Bool.false_eq_true, ↓reduceIte]
        refine ⟨_, update_self hv _, ?_⟩
        cases hd : c.detailed with
        | true => exact Or.inl ⟨by simp [Pc.builds], hd, x, h2, h3, sc, h1, rfl⟩
        | false =>
          refine Or.inr ⟨rfl, sc, hd ▸ h1, ?_⟩
          rw [hd] at h1
          obtain ⟨h4, h5⟩ := raw_false ops h1
          cases h6 : ops.isOne b.learningRate <;> simp [adjust, h2, h3, h4, h5, h6, Scored.toScorer]
  case addP r =>
    obtain ⟨h1, x, h2, h3, sc, h4, rfl⟩ := hs
    simp only [stepCall, h2]
    refine ⟨_, update_self hv _, Or.inr ⟨trivial, sc, h4, ?_⟩⟩
    simp [adjust, h2, h3, Scored.toScorer]

theorem step_active {c : Call D} {heap : List (D × Scorer F)} {cache : List (D × Nat)} {pc : Pc F}
    (h : (stepCall ops ds b c heap cache pc).1.active = true) : pc.active = true ∨ (pc = .check ∧ featureCheck b.arrays (ds.nFeatures c.d) = .ok ()) := by
  cases pc <;> simp only [Pc.active] <;> simp only [stepCall] at h <;> (try split at h) <;> simp_all [Pc.active]

theorem step_cache {c : Call D} {heap : List (D × Scorer F)} {cache : List (D × Nat)} {pc : Pc F} :
    (stepCall ops ds b c heap cache pc).2.2 = cache ∨
      ∃ r, pc = .put r ∧ (stepCall ops ds b c heap cache pc).2.2 = dictSet ds.same cache c.d r := by
  cases pc
  case put r => exact Or.inr ⟨r, rfl, rfl⟩
  all_goals left; simp only [stepCall] <;> (repeat' split) <;> rfl

theorem heap_lt {heap : List (D × Scorer F)} {r : Nat} {x : D × Scorer F} (h : heap[r]? = some x) : r < heap.length := by
  by_contra h2
  rw [List.getElem?_eq_none (by omega)] at h
  cases h

theorem create_cell {heap : List (D × Scorer F)} {x : D × Scorer F} : (heap ++ [x])[heap.length]? = some x := by simp

theorem exec_none {s : State F D} {t : Nat} (h : s.threads[t]? = none) : exec ops ds b s (.step t) = s := by simp only [exec, h]

theorem exec_some {s : State F D} {t : Nat} {c : Call D} {pc : Pc F} (h : s.threads[t]? = some (c, pc)) :
    exec ops ds b s (.step t) = ⟨(stepCall ops ds b c s.heap s.cache pc).2.1, (stepCall ops ds b c s.heap s.cache pc).2.2,
      s.threads.set t (c, (stepCall ops ds b c s.heap s.cache pc).1)⟩ := by simp only [exec, h]

theorem inv_exec (S : Setting ds b) {s : State F D} (h : Inv ops ds b s) (e : Event) : Inv ops ds b (exec ops ds b s e) := by
  cases e with
  | clear => exact ⟨h.cells, h.builders, h.distinct, (by intro e he; cases he), (by intro e he; cases he), h.checked⟩
  | step t =>
    cases ht : s.threads[t]? with
    | none => rw [exec_none ht]; exact h
    | some x =>
      obtain ⟨c, pc⟩ := x
      rw [exec_some ht]
      have htl : t < s.threads.length := by
        by_contra h2
        rw [List.getElem?_eq_none (by omega)] at ht
        cases ht
      have hself : (s.threads.set t (c, (stepCall ops ds b c s.heap s.cache pc).1))[t]? = some (c, (stepCall ops ds b c s.heap s.cache pc).1) := by
        simp [htl]
      -- other builders do not build what this call builds, before and after
      have hnew : ∀ t' c' pc' r, t' ≠ t → s.threads[t']? = some (c', pc') → pc'.builds = some r →
          (stepCall ops ds b c s.heap s.cache pc).1.builds ≠ some r := by
        intro t' c' pc' r hne h1 h2 h3
        rcases step_builds ops ds b h3 with h4 | ⟨-, h4⟩
        · exact hne (h.distinct _ _ _ _ _ _ _ h1 ht h2 h4)
        · obtain ⟨v, hv, -⟩ := h.builders _ _ _ _ h1 h2
          have := heap_lt hv
          omega
      refine ⟨?_, ?_, ?_, ?_, ?_, ?_⟩
      · intro r d v hr hidle
        have hothers : ∀ t' c' pc', t' ≠ t → s.threads[t']? = some (c', pc') → pc'.builds ≠ some r := by
          intro t' c' pc' hne h1
          exact hidle t' c' pc' (by rw [List.getElem?_set]; simp [hne.symm, h1])
        by_cases hb : pc.builds = some r
        · obtain ⟨v0, hv0, hst⟩ := h.builders t c pc r ht hb
          have hact : pc.active = true := by cases pc <;> simp [Pc.builds] at hb <;> rfl
          obtain ⟨v', h1, h2⟩ := build_step S (cache := s.cache) hb hv0 hst (h.checked t c pc ht hact)
          rw [h1] at hr
          obtain ⟨rfl, rfl⟩ := Prod.mk.inj (Option.some.inj hr)
          rcases h2 with ⟨h2, -⟩ | ⟨-, h2⟩
          · exact absurd h2 (hidle t c _ hself)
          · exact ⟨_, h2⟩
        · have hidle0 : Idle s.threads r := by
            intro t' c' pc' h1
            by_cases hne : t' = t
            · subst hne
              rw [ht] at h1
              obtain ⟨rfl, rfl⟩ := Prod.mk.inj (Option.some.inj h1)
              exact hb
            · exact hothers t' c' pc' hne h1
          cases hold : s.heap[r]? with
          | some cell =>
            rw [step_other ops ds b hb hold] at hr
            rw [Option.some.inj hr] at hold
            exact h.cells r d v hold hidle0
          | none =>
            -- a new scorer: it is being computed
            exfalso
            cases hpc : pc with
            | create =>
              subst hpc
              simp only [stepCall] at hr
              have h1 := heap_lt hr
              have h2 : s.heap.length ≤ r := by
                by_contra h3
                rw [List.getElem?_eq_getElem (by omega)] at hold
                cases hold
              have h3 : r = s.heap.length := by simp at h1; omega
              refine hidle t c _ hself ?_
              simp only [stepCall]
              split <;> simp [Pc.builds, h3]
            | _ =>
              subst hpc
              have h2 : s.heap.length ≤ r := by
                by_contra h3
                rw [List.getElem?_eq_getElem (by omega)] at hold
                cases hold
              have h1 := heap_lt hr
              simp only [stepCall, runKernel] at h1
              (repeat' split at h1) <;> (try simp only [update_length] at h1) <;> omega
      · intro t' c' pc' r h1 h2
        rcases set_threads h1 with ⟨rfl, h3⟩ | ⟨hne, h3⟩
        · obtain ⟨rfl, rfl⟩ := Prod.mk.inj h3
          rcases step_builds ops ds b h2 with h4 | ⟨h4, h5⟩
          · obtain ⟨v0, hv0, hst⟩ := h.builders t' c' pc r ht h4
            have hact : pc.active = true := by cases pc <;> simp [Pc.builds] at h4 <;> rfl
            obtain ⟨v', h5, h6⟩ := build_step S (cache := s.cache) h4 hv0 hst (h.checked t' c' pc ht hact)
            rcases h6 with ⟨-, h6⟩ | ⟨h6, -⟩
            · exact ⟨v', h5, h6⟩
            · rw [h6] at h2; cases h2
          · subst h4 h5
            refine ⟨⟨none, none, none⟩, create_cell, ?_⟩
            simp only [stepCall]
            split
            · next h6 => exact ⟨h6, rfl⟩
            · exact rfl
        · obtain ⟨v, hv, hst⟩ := h.builders t' c' pc' r h3 h2
          refine ⟨v, step_other ops ds b ?_ hv, hst⟩
          intro h4
          exact hne (h.distinct _ _ _ _ _ _ _ h3 ht h2 h4)
      · intro t1 t2 c1 c2 pc1 pc2 r h1 h2 h3 h4
        rcases set_threads h1 with ⟨e1, h5⟩ | ⟨e1, h5⟩ <;> rcases set_threads h2 with ⟨e2, h6⟩ | ⟨e2, h6⟩
        · rw [e1, e2]
        · obtain ⟨rfl, rfl⟩ := Prod.mk.inj h5
          exact absurd h3 (hnew t2 c2 pc2 r e2 h6 h4)
        · obtain ⟨rfl, rfl⟩ := Prod.mk.inj h6
          exact absurd h4 (hnew t1 c1 pc1 r e1 h5 h3)
        · exact h.distinct _ _ _ _ _ _ _ h5 h6 h3 h4
      · intro e he
        have keep : ∀ e ∈ s.cache, ∃ d v, (stepCall ops ds b c s.heap s.cache pc).2.1[e.2]? = some (d, v) ∧ ds.same e.1 d = true := by
          intro e he
          obtain ⟨d, v, h1, h2⟩ := h.cache e he
          obtain ⟨v', h3⟩ := step_cell ops ds b (c := c) (cache := s.cache) (pc := pc) h1
          exact ⟨d, v', h3, h2⟩
        rcases step_cache (ops := ops) (ds := ds) (b := b) (c := c) (heap := s.heap) (cache := s.cache) (pc := pc) with h1 | ⟨r, rfl, h1⟩
        · dsimp only at he; rw [h1] at he; exact keep e he
        · dsimp only at he
          rw [h1] at he
          rcases dictSet_mem he with he | ⟨he, hd⟩
          · exact keep e he
          · obtain ⟨v, hv, -⟩ := h.builders t c _ r ht rfl
            refine ⟨c.d, v, by rw [he]; exact hv, ?_⟩
            rcases hd with hd | hd
            · rw [hd]; exact S.refl _
            · exact hd
      · intro e he t' c' pc' h1 h2
        have keep : ∀ e ∈ s.cache, pc'.builds = some e.2 → c'.cache = true := by
          intro e0 he0 h2
          rcases set_threads h1 with ⟨rfl, h3⟩ | ⟨hne, h3⟩
          · obtain ⟨rfl, rfl⟩ := Prod.mk.inj h3
            rcases step_builds ops ds b h2 with h4 | ⟨h4, h5⟩
            · exact h.cached e0 he0 t' c' pc ht h4
            · obtain ⟨d, v, h6, -⟩ := h.cache e0 he0
              have := heap_lt h6
              omega
          · exact h.cached e0 he0 t' c' pc' h3 h2
        rcases step_cache (ops := ops) (ds := ds) (b := b) (c := c) (heap := s.heap) (cache := s.cache) (pc := pc) with h3 | ⟨r, rfl, h3⟩
        · dsimp only at he; rw [h3] at he; exact keep e he h2
        · dsimp only at he
          rw [h3] at he
          rcases dictSet_mem he with he | ⟨he, -⟩
          · exact keep e he h2
          · obtain ⟨v, -, hst⟩ := h.builders t c _ r ht rfl
            rw [he] at h2
            rcases set_threads h1 with ⟨rfl, h4⟩ | ⟨hne, h4⟩
            · obtain ⟨rfl, rfl⟩ := Prod.mk.inj h4
              exact hst.1
            · exact absurd (h.distinct _ _ _ _ _ _ _ h4 ht h2 rfl) hne
      · intro t' c' pc' h1 h2
        rcases set_threads h1 with ⟨rfl, h3⟩ | ⟨hne, h3⟩
        · obtain ⟨rfl, rfl⟩ := Prod.mk.inj h3
          rcases step_active h2 with h4 | ⟨-, h4⟩
          · exact h.checked t' c' pc ht h4
          · exact h4
        · exact h.checked t' c' pc' h3 h2

theorem inv_run (S : Setting ds b) {s : State F D} (h : Inv ops ds b s) (events : List Event) : Inv ops ds b (run ops ds b s events) := by
  induction events generalizing s with
  | nil => exact h
  | cons e es ih => exact ih (inv_exec S h e)

/-- Scorer `r` is finished, contains `v`, and this is right for call `c`. -/
def Settled (ops : FloatOps F) (ds : Rows F D) (b : Fixed F) (s : State F D) (c : Call D) (r : Nat) (v : Scorer F) : Prop :=
  (∃ d, s.heap[r]? = some (d, v)) ∧ Idle s.threads r ∧ Right ops ds b c v

/-- A call that computes its scorer, or reads a finished one, or has returned what is right. -/
def Good (ops : FloatOps F) (ds : Rows F D) (b : Fixed F) (s : State F D) (c : Call D) : Pc F → Prop
  | .check | .lookup | .test | .fetch => False
  | .retY r => ∃ v, Settled ops ds b s c r v
  | .retP r y => c.detailed = true ∧ ∃ v, Settled ops ds b s c r v ∧ y = v.yPred
  | .retL r y p => c.detailed = true ∧ ∃ v, Settled ops ds b s c r v ∧ y = v.yPred ∧ p = v.partialY
  | .done res => ∃ v, Right ops ds b c v ∧ res = .ok (result c.detailed v)
  | _ => True

theorem idle_exec {s : State F D} {r : Nat} {cell : D × Scorer F} (h : s.heap[r]? = some cell) (hi : Idle s.threads r) (e : Event) :
    (exec ops ds b s e).heap[r]? = some cell ∧ Idle (exec ops ds b s e).threads r := by
  cases e with
  | clear => exact ⟨h, hi⟩
  | step t =>
    cases ht : s.threads[t]? with
    | none => rw [exec_none ht]; exact ⟨h, hi⟩
    | some x =>
      obtain ⟨c, pc⟩ := x
      rw [exec_some ht]
      refine ⟨step_other ops ds b (hi t c pc ht) h, ?_⟩
      intro t' c' pc' h1 h2
      rcases set_threads h1 with ⟨rfl, h3⟩ | ⟨hne, h3⟩
      · obtain ⟨rfl, rfl⟩ := Prod.mk.inj h3
        rcases step_builds ops ds b h2 with h4 | ⟨-, h4⟩
        · exact hi t' c' pc ht h4
        · have := heap_lt h; omega
      · exact hi t' c' pc' h3 h2

theorem settled_exec {s : State F D} {c : Call D} {r : Nat} {v : Scorer F} (h : Settled ops ds b s c r v) (e : Event) :
    Settled ops ds b (exec ops ds b s e) c r v := by
  obtain ⟨⟨d, h1⟩, h2, h3⟩ := h
  obtain ⟨h4, h5⟩ := idle_exec (ops := ops) (ds := ds) (b := b) h1 h2 e
  exact ⟨⟨d, h4⟩, h5, h3⟩

theorem good_mono {s : State F D} {c : Call D} {pc : Pc F} (h : Good ops ds b s c pc) (e : Event) : Good ops ds b (exec ops ds b s e) c pc := by
  cases pc <;> simp only [Good] at h ⊢
  case retY r => obtain ⟨v, h1⟩ := h; exact ⟨v, settled_exec h1 e⟩
  case retP r y => obtain ⟨h0, v, h1, h2⟩ := h; exact ⟨h0, v, settled_exec h1 e, h2⟩
  case retL r y p => obtain ⟨h0, v, h1, h2⟩ := h; exact ⟨h0, v, settled_exec h1 e, h2⟩
  case done res => exact h

theorem threads_len {s : State F D} {t : Nat} {x : Call D × Pc F} (h : s.threads[t]? = some x) : t < s.threads.length := by
  by_contra h2
  rw [List.getElem?_eq_none (by omega)] at h
  cases h

theorem thread_step {s : State F D} {t : Nat} {c : Call D} {pc : Pc F} (h : s.threads[t]? = some (c, pc)) :
    (exec ops ds b s (.step t)).threads[t]? = some (c, (stepCall ops ds b c s.heap s.cache pc).1) := by
  rw [exec_some h]
  simp [threads_len h]

theorem thread_other {s : State F D} {t : Nat} {x : Call D × Pc F} (h : s.threads[t]? = some x) {e : Event} (he : e ≠ .step t) :
    (exec ops ds b s e).threads[t]? = some x := by
  cases e with
  | clear => exact h
  | step t' =>
    have hne : t' ≠ t := fun h2 => he (by rw [h2])
    cases ht : s.threads[t']? with
    | none => rw [exec_none ht]; exact h
    | some y =>
      obtain ⟨c', pc'⟩ := y
      rw [exec_some ht]
      simp [hne, h]

/-- A finished scorer and its state after a step, seen from a call that has just finished it. -/
theorem good_step (S : Setting ds b) {s : State F D} (h : Inv ops ds b s) {t : Nat} {c : Call D} {pc : Pc F} (ht : s.threads[t]? = some (c, pc))
    (hg : Good ops ds b s c pc) :
    Good ops ds b (exec ops ds b s (.step t)) c (stepCall ops ds b c s.heap s.cache pc).1 := by
  have h' := inv_exec S h (.step t)
  have ht' := thread_step (ops := ops) (ds := ds) (b := b) ht
  by_cases hb : ∃ r, pc.builds = some r
  · obtain ⟨r, hb⟩ := hb
    obtain ⟨v0, hv0, hst⟩ := h.builders t c pc r ht hb
    have hact : pc.active = true := by cases pc <;> simp [Pc.builds] at hb <;> rfl
    obtain ⟨v', h1, h2⟩ := build_step S (cache := s.cache) hb hv0 hst (h.checked t c pc ht hact)
    rcases h2 with ⟨h2, -⟩ | ⟨h2, h3⟩
    · generalize (stepCall ops ds b c s.heap s.cache pc).1 = pc' at h2 ⊢
      cases pc' <;> simp [Pc.builds] at h2 <;> trivial
    · rw [h2]
      refine ⟨v', ⟨c.d, by rw [exec_some ht]; exact h1⟩, ?_, c.detailed, Or.inl rfl, h3⟩
      intro t' c' pc' h4 h5
      by_cases hne : t' = t
      · subst hne
        rw [ht', h2] at h4
        obtain ⟨rfl, rfl⟩ := Prod.mk.inj (Option.some.inj h4)
        cases h5
      · rw [exec_some ht] at h4
        rcases set_threads h4 with ⟨h6, -⟩ | ⟨-, h6⟩
        · exact hne h6
        · exact hne (h.distinct _ _ _ _ _ _ _ h6 ht h5 hb)
  · cases pc <;> simp only [Good] at hg <;> simp only [Pc.builds, Option.some.injEq, exists_eq', not_true_eq_false] at hb
    case create =>
      simp only [stepCall]
      split <;> trivial
    case retY r =>
      obtain ⟨v, hs⟩ := hg
      have hs' := settled_exec hs (.step t)
      obtain ⟨⟨d, h1⟩, h2, h3⟩ := hs
      simp only [stepCall, h1, Option.bind_some]
      split
      · next hd => exact ⟨hd, v, hs', rfl⟩
      · next hd =>
        rw [Bool.not_eq_true] at hd
        exact ⟨v, h3, by simp [result, hd]⟩
    case retP r y =>
      obtain ⟨h0, v, hs, rfl⟩ := hg
      have hs' := settled_exec hs (.step t)
      obtain ⟨⟨d, h1⟩, h2, h3⟩ := hs
      simp only [stepCall, h1, Option.bind_some]
      exact ⟨h0, v, hs', rfl, rfl⟩
    case retL r y p =>
      obtain ⟨h0, v, ⟨⟨d, h1⟩, h2, h3⟩, rfl, rfl⟩ := hg
      simp only [stepCall, h1, Option.bind_some]
      exact ⟨v, h3, by simp [result, h0]⟩
    case done res => exact hg

/-- Once good, a call stays good under every schedule. -/
theorem good_run (S : Setting ds b) {s : State F D} (h : Inv ops ds b s) {t : Nat} {c : Call D} {pc : Pc F} (ht : s.threads[t]? = some (c, pc))
    (hg : Good ops ds b s c pc) (events : List Event) :
    ∃ pc', (run ops ds b s events).threads[t]? = some (c, pc') ∧ Good ops ds b (run ops ds b s events) c pc' := by
  induction events generalizing s pc with
  | nil => exact ⟨pc, ht, hg⟩
  | cons e es ih =>
    by_cases he : e = .step t
    · subst he
      exact ih (inv_exec S h _) (thread_step ht) (good_step S h ht hg)
    · exact ih (inv_exec S h _) (thread_other ht he) (good_mono hg e)

/-- The call has passed the check and has not computed yet; it finds finished scorers only. -/
def Careful (ops : FloatOps F) (ds : Rows F D) (b : Fixed F) (s : State F D) (c : Call D) : Pc F → Prop
  | .check | .lookup => True
  | .test => ∃ r, dictGet ds.same s.cache c.d = some r
  | .fetch => ∃ r v, dictGet ds.same s.cache c.d = some r ∧ Settled ops ds b s c r v
  | .done (.error e) => featureCheck b.arrays (ds.nFeatures c.d) = .error e
  | _ => False

/-- No other call with `cache=True` is on an equal dataset. -/
def Alone (ds : Rows F D) (s : State F D) (t : Nat) (c : Call D) : Prop :=
  ∀ t' c' pc', s.threads[t']? = some (c', pc') → t' ≠ t → c'.cache = true → ds.same c'.d c.d = false

theorem alone_exec {s : State F D} {t : Nat} {c : Call D} (h : Alone ds s t c) (e : Event) : Alone ds (exec ops ds b s e) t c := by
  cases e with
  | clear => exact h
  | step u =>
    cases hu : s.threads[u]? with
    | none => rw [exec_none hu]; exact h
    | some x =>
      obtain ⟨c1, pc1⟩ := x
      rw [exec_some hu]
      intro t' c' pc' h1 h2 h3
      rcases set_threads h1 with ⟨rfl, h4⟩ | ⟨-, h4⟩
      · obtain ⟨rfl, rfl⟩ := Prod.mk.inj h4
        exact h t' c' pc1 hu h2 h3
      · exact h t' c' pc' h4 h2 h3

/-- A scorer found for the dataset of a call that is alone and not computing is finished. -/
theorem found_settled (S : Setting ds b) {s : State F D} (h : Inv ops ds b s) {t : Nat} {c : Call D} {pc : Pc F} (ht : s.threads[t]? = some (c, pc))
    (hpc : pc.builds = none) (ha : Alone ds s t c) {r : Nat} (hr : dictGet ds.same s.cache c.d = some r) :
    ∃ d v full, s.heap[r]? = some (d, v) ∧ Idle s.threads r ∧ Full ops b (ds.X c.d) full v := by
  obtain ⟨e, he, rfl, hs⟩ := dictGet_mem hr
  obtain ⟨d, v, hd, hsd⟩ := h.cache e he
  have hi : Idle s.threads e.2 := by
    intro t' c' pc' h1 h2
    obtain ⟨v', h3, -⟩ := h.builders t' c' pc' _ h1 h2
    rw [hd] at h3
    obtain ⟨rfl, rfl⟩ := Prod.mk.inj (Option.some.inj h3)
    by_cases hne : t' = t
    · subst hne
      rw [ht] at h1
      obtain ⟨rfl, rfl⟩ := Prod.mk.inj (Option.some.inj h1)
      rw [hpc] at h2
      cases h2
    · have h4 := ha t' c' pc' h1 hne (h.cached e he t' c' pc' h1 h2)
      rw [S.trans _ _ _ (S.symm _ _ hsd) hs] at h4
      cases h4
  obtain ⟨full, hf⟩ := h.cells _ _ _ hd hi
  rw [← S.rows _ _ (S.trans _ _ _ (S.symm _ _ hs) hsd)] at hf
  exact ⟨d, v, full, hd, hi, hf⟩

theorem careful_step (S : Setting ds b) {s : State F D} (h : Inv ops ds b s) {t : Nat} {c : Call D} {pc : Pc F} (ht : s.threads[t]? = some (c, pc))
    (ha : Alone ds s t c) (hg : Careful ops ds b s c pc) :
    Careful ops ds b (exec ops ds b s (.step t)) c (stepCall ops ds b c s.heap s.cache pc).1 ∨
      Good ops ds b (exec ops ds b s (.step t)) c (stepCall ops ds b c s.heap s.cache pc).1 := by
  cases pc <;> simp only [Careful] at hg
  case check =>
    left
    simp only [stepCall]
    cases hc : featureCheck b.arrays (ds.nFeatures c.d) with
    | error e => exact hc
    | ok u => trivial
  case lookup =>
    have hcache : (exec ops ds b s (.step t)).cache = s.cache := by
      rw [exec_some ht]; simp only [stepCall]; split <;> rfl
    simp only [stepCall]
    cases hr : dictGet ds.same s.cache c.d with
    | none => exact Or.inr trivial
    | some r =>
      left
      dsimp only
      split
      · exact ⟨r, by rw [hcache]; exact hr⟩
      · next hd =>
        rw [Bool.not_eq_true] at hd
        obtain ⟨d, v, full, h1, h2, h3⟩ := found_settled S h ht rfl ha hr
        refine ⟨r, v, by rw [hcache]; exact hr, settled_exec ⟨⟨d, h1⟩, h2, full, ?_, h3⟩ _⟩
        rw [hd]
        cases full <;> simp
  case test =>
    obtain ⟨r, hr⟩ := hg
    obtain ⟨d, v, full, h1, h2, h3⟩ := found_settled S h ht rfl ha hr
    have hcache : (exec ops ds b s (.step t)).cache = s.cache := by
      rw [exec_some ht]; simp only [stepCall, hr, h1]
    simp only [stepCall, hr, h1]
    cases hp : v.partialY with
    | none => exact Or.inr trivial
    | some p =>
      left
      have hfull : full = true := by rw [← full_isSome ops b h3, hp]; rfl
      exact ⟨r, v, by rw [hcache]; exact hr, settled_exec ⟨⟨d, h1⟩, h2, full, Or.inr hfull, h3⟩ _⟩
  case fetch =>
    obtain ⟨r, v, hr, hs⟩ := hg
    right
    simp only [stepCall, hr]
    exact ⟨v, settled_exec hs _⟩
  case done res =>
    left
    cases res with
    | error e => exact hg
    | ok v => exact hg.elim

theorem careful_mono (S : Setting ds b) {s : State F D} (h : Inv ops ds b s) {t : Nat} {c : Call D} {pc : Pc F} (ha : Alone ds s t c)
    (hg : Careful ops ds b s c pc) {e : Event} (he : e ≠ .step t) (hc : e ≠ .clear) : Careful ops ds b (exec ops ds b s e) c pc := by
  have key : ∀ r, dictGet ds.same s.cache c.d = some r → dictGet ds.same (exec ops ds b s e).cache c.d = some r := by
    intro r hr
    cases e with
    | clear => exact absurd rfl hc
    | step u =>
      cases hu : s.threads[u]? with
      | none => rw [exec_none hu]; exact hr
      | some x =>
        obtain ⟨c1, pc1⟩ := x
        rw [exec_some hu]
        rcases step_cache (ops := ops) (ds := ds) (b := b) (c := c1) (heap := s.heap) (cache := s.cache) (pc := pc1) with h1 | ⟨q, rfl, h1⟩
        · rw [h1]; exact hr
        · obtain ⟨v, -, hst⟩ := h.builders u c1 _ q hu rfl
          dsimp only
          rw [h1, dictGet_set S (ha u c1 _ hu (fun h2 => he (by rw [h2])) hst.1)]
          exact hr
  cases pc <;> simp only [Careful] at hg ⊢
  case test => obtain ⟨r, hr⟩ := hg; exact ⟨r, key r hr⟩
  case fetch => obtain ⟨r, v, hr, hs⟩ := hg; exact ⟨r, v, key r hr, settled_exec hs e⟩
  case done res => cases res <;> exact hg

theorem alone_run (S : Setting ds b) {s : State F D} (h : Inv ops ds b s) {t : Nat} {c : Call D} {pc : Pc F} (ht : s.threads[t]? = some (c, pc))
    (ha : Alone ds s t c) (hg : Careful ops ds b s c pc) {events : List Event} (hclear : Event.clear ∉ events) :
    ∃ pc', (run ops ds b s events).threads[t]? = some (c, pc') ∧
      (Careful ops ds b (run ops ds b s events) c pc' ∨ Good ops ds b (run ops ds b s events) c pc') := by
  induction events generalizing s pc with
  | nil => exact ⟨pc, ht, Or.inl hg⟩
  | cons e es ih =>
    have hc : Event.clear ∉ es := fun h2 => hclear (List.mem_cons_of_mem _ h2)
    by_cases he : e = .step t
    · subst he
      rcases careful_step S h ht ha hg with hg' | hg'
      · exact ih (inv_exec S h _) (thread_step ht) (alone_exec ha _) hg' hc
      · obtain ⟨pc', h1, h2⟩ := good_run S (inv_exec S h _) (thread_step ht) hg' es
        exact ⟨pc', h1, Or.inr h2⟩
    · refine ih (inv_exec S h _) (thread_other ht he) (alone_exec ha _) (careful_mono S h ha hg he ?_) hc
      intro h2
      exact hclear (by rw [h2]; exact List.mem_cons_self ..)

theorem steps_rank {s : State F D} {t : Nat} {c : Call D} {pc : Pc F} (ht : s.threads[t]? = some (c, pc)) (events : List Event) :
    ∃ pc', (run ops ds b s events).threads[t]? = some (c, pc') ∧ pc'.rank ≤ pc.rank - events.count (.step t) := by
  induction events generalizing s pc with
  | nil => exact ⟨pc, ht, by simp⟩
  | cons e es ih =>
    by_cases he : e = .step t
    · subst he
      obtain ⟨pc', h1, h2⟩ := ih (thread_step (ops := ops) (ds := ds) (b := b) ht)
      refine ⟨pc', h1, ?_⟩
      have h3 := step_rank ops ds b (c := c) (heap := s.heap) (cache := s.cache) (pc := pc)
      simp only [List.count_cons_self]
      omega
    · obtain ⟨pc', h1, h2⟩ := ih (thread_other (ops := ops) (ds := ds) (b := b) ht he)
      refine ⟨pc', h1, ?_⟩
      rw [List.count_cons_of_ne he]
      exact h2

/-- The predictions that may be in a scorer at any time. -/
def SeenY (ops : FloatOps F) (b : Fixed F) (X : List (List F)) (y : Option (List F)) : Prop :=
  y = none ∨ ∃ full sc, rawScore ops b.arrays full X = .ok sc ∧
    (y = some sc.yPred ∨ y = some (adjust ops b.learningRate none sc).yPred ∨ y = some (adjust ops b.learningRate b.baseScore sc).yPred)

/-- The partial scores that may be in a scorer at any time. -/
def SeenP (ops : FloatOps F) (b : Fixed F) (X : List (List F)) (p : Option (List (List F))) : Prop :=
  p = none ∨ ∃ sc, rawScore ops b.arrays true X = .ok sc ∧
    (p = sc.partialY ∨ p = (adjust ops b.learningRate none sc).partialY ∨ p = (adjust ops b.learningRate b.baseScore sc).partialY)

/-- The leaves that may be in a scorer at any time. -/
def SeenL (ops : FloatOps F) (b : Fixed F) (X : List (List F)) (l : Option (List (List Int))) : Prop :=
  l = none ∨ ∃ sc, rawScore ops b.arrays true X = .ok sc ∧ l = sc.leaves

theorem adjust_leaves (lr : F) (bs : Option F) (sc : Scored F) : (adjust ops lr bs sc).leaves = sc.leaves := by
  unfold adjust
  split <;> (split <;> [rfl; (split <;> rfl)])

theorem adjust_none {lr : F} {bs : Option F} {sc : Scored F} (h : sc.partialY = none) : (adjust ops lr bs sc).partialY = none := by
  unfold adjust
  split <;> (split <;> [simp [h]; (split <;> simp [h])])

theorem seen_raw {X : List (List F)} {det : Bool} {sc : Scored F} (h : rawScore ops b.arrays det X = .ok sc) :
    SeenP ops b X sc.partialY ∧ SeenP ops b X (adjust ops b.learningRate none sc).partialY ∧
    SeenP ops b X (adjust ops b.learningRate b.baseScore sc).partialY ∧ SeenL ops b X sc.leaves := by
  cases det with
  | true =>
    exact ⟨Or.inr ⟨sc, h, Or.inl rfl⟩, Or.inr ⟨sc, h, Or.inr (Or.inl rfl)⟩, Or.inr ⟨sc, h, Or.inr (Or.inr rfl)⟩, Or.inr ⟨sc, h, rfl⟩⟩
  | false =>
    obtain ⟨h1, h2⟩ := raw_false ops h
    exact ⟨Or.inl h1, Or.inl (adjust_none h1), Or.inl (adjust_none h1), Or.inl h2⟩

theorem seen_stage {c : Call D} {pc : Pc F} {v : Scorer F} (h : Stage ops ds b c pc v) :
    SeenY ops b (ds.X c.d) v.yPred ∧ SeenP ops b (ds.X c.d) v.partialY ∧ SeenL ops b (ds.X c.d) v.leaves := by
  have hdet : ∀ l p, c.detailed = true → detailedScoring ops b.arrays (ds.X c.d) = .ok (l, p) →
      rawScore ops b.arrays true (ds.X c.d) = .ok ⟨p.map ops.sum, some p, some l⟩ := by
    intro l p h1 h2
    simp only [rawScore, h2, ↓reduceIte, bind, Except.bind]
    rfl
  cases pc <;> simp only [Stage] at h
  case put r => obtain ⟨-, rfl⟩ := h; exact ⟨Or.inl rfl, Or.inl rfl, Or.inl rfl⟩
  case run r => subst h; exact ⟨Or.inl rfl, Or.inl rfl, Or.inl rfl⟩
  case storePartial r p =>
    obtain ⟨h1, l, h2, rfl⟩ := h
    exact ⟨Or.inl rfl, Or.inl rfl, Or.inr ⟨_, hdet l p h1 h2, rfl⟩⟩
  case sum r =>
    obtain ⟨h1, l, p, h2, rfl⟩ := h
    exact ⟨Or.inl rfl, Or.inr ⟨_, hdet l p h1 h2, Or.inl rfl⟩, Or.inr ⟨_, hdet l p h1 h2, rfl⟩⟩
  case mulY r =>
    obtain ⟨sc, h1, rfl⟩ := h
    obtain ⟨h2, -, -, h3⟩ := seen_raw h1
    exact ⟨Or.inr ⟨_, sc, h1, Or.inl rfl⟩, h2, h3⟩
  case mulP r =>
    obtain ⟨-, h0, sc, h1, rfl⟩ := h
    obtain ⟨h2, -, -, h3⟩ := seen_raw h1
    exact ⟨Or.inr ⟨_, sc, h1, Or.inr (Or.inl (by simp [adjust, h0]))⟩, h2, h3⟩
  case addY r =>
    obtain ⟨sc, h1, rfl⟩ := h
    obtain ⟨-, h2, -, h3⟩ := seen_raw h1
    refine ⟨Or.inr ⟨_, sc, h1, Or.inr (Or.inl rfl)⟩, h2, ?_⟩
    rw [Scored.toScorer, adjust_leaves]
    exact h3
  case addP r =>
    obtain ⟨-, x, h0, h4, sc, h1, rfl⟩ := h
    obtain ⟨-, h2, -, h3⟩ := seen_raw h1
    refine ⟨Or.inr ⟨_, sc, h1, Or.inr (Or.inr ?_)⟩, h2, ?_⟩
    · simp [adjust, h0, h4]
    · rw [adjust_leaves]; exact h3

theorem seen_cell {s : State F D} (h : Inv ops ds b s) {r : Nat} {d : D} {v : Scorer F} (hr : s.heap[r]? = some (d, v)) :
    SeenY ops b (ds.X d) v.yPred ∧ SeenP ops b (ds.X d) v.partialY ∧ SeenL ops b (ds.X d) v.leaves := by
  by_cases hi : Idle s.threads r
  · obtain ⟨full, sc, h1, rfl⟩ := h.cells r d v hr hi
    obtain ⟨-, -, h2, h3⟩ := seen_raw h1
    refine ⟨Or.inr ⟨full, sc, h1, Or.inr (Or.inr rfl)⟩, h2, ?_⟩
    rw [Scored.toScorer, adjust_leaves]
    exact h3
  · unfold Idle at hi
    push Not at hi
    obtain ⟨t, c, pc, h1, h2⟩ := hi
    obtain ⟨v', h3, h4⟩ := h.builders t c pc r h1 h2
    rw [hr] at h3
    obtain ⟨rfl, rfl⟩ := Prod.mk.inj (Option.some.inj h3)
    exact seen_stage h4

/-- What a call that is returning holds, or has returned. -/
def Held (ops : FloatOps F) (ds : Rows F D) (b : Fixed F) (s : State F D) (c : Call D) : Pc F → Prop
  | .retY r => ∃ d v, s.heap[r]? = some (d, v) ∧ ds.X d = ds.X c.d
  | .retP r y => (∃ d v, s.heap[r]? = some (d, v) ∧ ds.X d = ds.X c.d) ∧ SeenY ops b (ds.X c.d) y
  | .retL r y p => (∃ d v, s.heap[r]? = some (d, v) ∧ ds.X d = ds.X c.d) ∧ SeenY ops b (ds.X c.d) y ∧ SeenP ops b (ds.X c.d) p
  | .done (.ok v) => SeenY ops b (ds.X c.d) v.yPred ∧ SeenP ops b (ds.X c.d) v.partialY ∧ SeenL ops b (ds.X c.d) v.leaves
  | .done (.error e) => featureCheck b.arrays (ds.nFeatures c.d) = .error e ∨ e = .keyError
  | _ => True

theorem held_mono {s : State F D} {c : Call D} {pc : Pc F} (h : Held ops ds b s c pc) (e : Event) : Held ops ds b (exec ops ds b s e) c pc := by
  have key : ∀ r : Nat, (∃ d v, s.heap[r]? = some (d, v) ∧ ds.X d = ds.X c.d) →
      ∃ d v, (exec ops ds b s e).heap[r]? = some (d, v) ∧ ds.X d = ds.X c.d := by
    intro r ⟨d, v, h1, h2⟩
    cases e with
    | clear => exact ⟨d, v, h1, h2⟩
    | step u =>
      cases hu : s.threads[u]? with
      | none => rw [exec_none hu]; exact ⟨d, v, h1, h2⟩
      | some x =>
        obtain ⟨c1, pc1⟩ := x
        rw [exec_some hu]
        obtain ⟨v', h3⟩ := step_cell ops ds b (c := c1) (cache := s.cache) (pc := pc1) h1
        exact ⟨d, v', h3, h2⟩
  cases pc <;> simp only [Held] at h ⊢
  case retY r => exact key r h
  case retP r y => exact ⟨key r h.1, h.2⟩
  case retL r y p => exact ⟨key r h.1, h.2⟩
  case done res => cases res <;> exact h

theorem held_step (S : Setting ds b) {s : State F D} (h : Inv ops ds b s) {t : Nat} {c : Call D} {pc : Pc F} (ht : s.threads[t]? = some (c, pc))
    (hh : Held ops ds b s c pc) : Held ops ds b (exec ops ds b s (.step t)) c (stepCall ops ds b c s.heap s.cache pc).1 := by
  have hm := held_mono hh (.step t)
  by_cases hb : ∃ r, pc.builds = some r
  · obtain ⟨r, hb⟩ := hb
    obtain ⟨v0, hv0, hst⟩ := h.builders t c pc r ht hb
    have hact : pc.active = true := by cases pc <;> simp [Pc.builds] at hb <;> rfl
    obtain ⟨v', h1, h2⟩ := build_step S (cache := s.cache) hb hv0 hst (h.checked t c pc ht hact)
    rcases h2 with ⟨h2, -⟩ | ⟨h2, h3⟩
    · generalize (stepCall ops ds b c s.heap s.cache pc).1 = pc' at h2 ⊢
      cases pc' <;> simp [Pc.builds] at h2 <;> trivial
    · rw [h2]
      exact ⟨c.d, v', by rw [exec_some ht]; exact h1, rfl⟩
  · cases pc <;> simp only [Pc.builds, Option.some.injEq, exists_eq', not_true_eq_false] at hb
    case check =>
      simp only [stepCall]
      cases hc : featureCheck b.arrays (ds.nFeatures c.d) with
      | error e => exact Or.inl hc
      | ok u => trivial
    case lookup =>
      simp only [stepCall]
      split
      · trivial
      · dsimp only; split <;> trivial
    case test =>
      simp only [stepCall]
      split
      · exact Or.inr rfl
      · split
        · exact Or.inr rfl
        · dsimp only; split <;> trivial
    case create => simp only [stepCall]; split <;> trivial
    case fetch =>
      cases hr : dictGet ds.same s.cache c.d with
      | none => simp only [stepCall, hr]; exact Or.inr rfl
      | some r =>
        have hheap : (exec ops ds b s (.step t)).heap = s.heap := by rw [exec_some ht]; simp only [stepCall, hr]
        simp only [stepCall, hr]
        obtain ⟨e, he, rfl, hs⟩ := dictGet_mem hr
        obtain ⟨d, v, hd, hsd⟩ := h.cache e he
        exact ⟨d, v, by rw [hheap]; exact hd, (S.rows _ _ hsd).symm.trans (S.rows _ _ hs)⟩
    case retY r =>
      obtain ⟨d, v, h1, h2⟩ := hh
      have h3 := seen_cell h h1
      rw [h2] at h3
      simp only [stepCall, h1, Option.bind_some]
      split
      · exact ⟨hm, h3.1⟩
      · exact ⟨h3.1, Or.inl rfl, Or.inl rfl⟩
    case retP r y =>
      obtain ⟨⟨d, v, h1, h2⟩, h4⟩ := hh
      have h3 := seen_cell h h1
      rw [h2] at h3
      simp only [stepCall, h1, Option.bind_some]
      exact ⟨hm.1, h4, h3.2.1⟩
    case retL r y p =>
      obtain ⟨⟨d, v, h1, h2⟩, h4, h5⟩ := hh
      have h3 := seen_cell h h1
      rw [h2] at h3
      simp only [stepCall, h1, Option.bind_some]
      exact ⟨h4, h5, h3.2.2⟩
    case done res => exact hm

theorem held_run (S : Setting ds b) {s : State F D} (h : Inv ops ds b s) {t : Nat} {c : Call D} {pc : Pc F} (ht : s.threads[t]? = some (c, pc))
    (hh : Held ops ds b s c pc) (events : List Event) :
    ∃ pc', (run ops ds b s events).threads[t]? = some (c, pc') ∧ Held ops ds b (run ops ds b s events) c pc' := by
  induction events generalizing s pc with
  | nil => exact ⟨pc, ht, hh⟩
  | cons e es ih =>
    by_cases he : e = .step t
    · subst he
      exact ih (inv_exec S h _) (thread_step ht) (held_step S h ht hh)
    · exact ih (inv_exec S h _) (thread_other ht he) (held_mono hh e)

end
end Verif.Ensemble.Threads
