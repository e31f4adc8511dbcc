/-
Lemmas about arrays in memory.
-/
import Verif.Spec.Heap
import Mathlib.Data.Set.Basic

namespace Verif.Heap
open Ensemble
variable {F H O : Type}

/-- Two worlds that differ in the contents of the arrays in `S` only. -/
structure Agree (S : Set Nat) (w w' : World F H O) : Prop where
  datasets : w.datasets = w'.datasets
  models : w.models = w'.models
  length : w.heap.length = w'.heap.length
  heap : ∀ a, a ∉ S → w.heap[a]? = w'.heap[a]?

/-- The library cannot get at the arrays in `S`. -/
def Apart (S : Set Nat) (w : World F H O) : Prop := ∀ a ∈ S, ¬ Reaches w a ∧ a < w.heap.length

theorem Agree.append {S : Set Nat} {w w' : World F H O} (h : Agree S w w') (cs : List (Cell F)) :
    Agree S { w with heap := w.heap ++ cs } { w' with heap := w'.heap ++ cs } := by
  refine ⟨h.datasets, h.models, by simp [h.length], fun a ha => ?_⟩
  simp only [List.getElem?_append, h.length, h.heap a ha]

theorem Agree.matrixAt {S : Set Nat} {w w' : World F H O} (h : Agree S w w') {a : Nat} (ha : a ∉ S) :
    matrixAt w.heap a = matrixAt w'.heap a := by
  unfold Heap.matrixAt
  rw [h.heap a ha]

theorem Apart.dataset {S : Set Nat} {w : World F H O} (h : Apart S w) {d : Data H O} (hd : d ∈ w.datasets) : d.x ∉ S :=
  fun hx => (h _ hx).1 (.inl ⟨d, hd, rfl⟩)

theorem mem_setItem {p : Entry H → Bool} {e y : Entry H} : ∀ {c : List (Entry H)}, y ∈ setItem p c e →
    y ∈ c ∨ y = e ∨ ∃ x ∈ c, p x = true ∧ y = { x with ref := e.ref }
  | [], h => by
    simp only [setItem, List.mem_singleton] at h
    exact .inr (.inl h)
  | x :: c, h => by
    unfold setItem at h
    split at h
    · rename_i hp
      rcases List.mem_cons.1 h with rfl | h
      · exact .inr (.inr ⟨x, List.mem_cons_self, hp, rfl⟩)
      · exact .inl (List.mem_cons_of_mem _ h)
    · rcases List.mem_cons.1 h with rfl | h
      · exact .inl List.mem_cons_self
      · rcases mem_setItem h with h | h | ⟨z, hz, h1, h2⟩
        · exact .inl (List.mem_cons_of_mem _ h)
        · exact .inr (.inl h)
        · exact .inr (.inr ⟨z, List.mem_cons_of_mem _ hz, h1, h2⟩)

theorem mem_modify {α : Type} {l : List α} {j : Nat} {f : α → α} {y : α} (h : y ∈ l.modify j f) : y ∈ l ∨ ∃ x, l[j]? = some x ∧ y = f x := by
  obtain ⟨i, hi⟩ := List.mem_iff_getElem?.1 h
  rw [List.getElem?_modify] at hi
  cases hl : l[i]? with
  | none => rw [hl] at hi; simp at hi
  | some x =>
    rw [hl] at hi
    simp only [Option.map_eq_map, Option.map_some, Option.some.injEq] at hi
    split at hi
    · rename_i hij
      subst hij
      exact .inr ⟨x, hl, hi.symm⟩
    · exact .inl (hi ▸ List.mem_of_getElem? hl)

/-- What can be reached after a scorer has been put into a dictionary. -/
theorem reaches_remember {w : World F H O} {j : Nat} {p : Entry H → Bool} {cache : Bool} {e : Entry H} {a : Nat}
    (h : Reaches (remember w j p cache e) a) : Reaches w a ∨ e.ref.Has a := by
  unfold remember at h
  split at h
  · rcases h with h | ⟨m, hm, x, hx, ha⟩
    · exact .inl (.inl h)
    · rcases mem_modify hm with hm | ⟨m', hm', rfl⟩
      · exact .inl (.inr ⟨m, hm, x, hx, ha⟩)
      · rcases mem_setItem hx with hx | rfl | ⟨z, hz, -, rfl⟩
        · exact .inl (.inr ⟨m', List.mem_of_getElem? hm', x, hx, ha⟩)
        · exact .inr ha
        · exact .inr ha
  · exact .inl h

theorem refOf_has {n : Nat} {s : Scored F} {a : Nat} (h : (refOf n s).Has a) : n ≤ a := by
  unfold refOf at h
  split at h <;> simp only [Ref.Has, Option.some.injEq, reduceCtorEq, or_false] at h <;> omega

theorem refOf_lt {n : Nat} {s : Scored F} {a : Nat} (h : (refOf n s).Has a) : a < n + (cellsOf s).length := by
  unfold refOf at h
  unfold cellsOf
  split at h <;> simp only [Ref.Has, Option.some.injEq, reduceCtorEq, or_false] at h
  · simp only [List.length_cons, List.length_nil]
    omega
  · simp only [List.length_cons]
    omega

theorem returned_has {detailed : Bool} {r : Ref} {a : Nat} (h : (returned detailed r).Has a) : r.Has a := by
  unfold returned at h
  split at h
  · exact h
  · simp only [Ref.Has, reduceCtorEq, or_false] at h
    exact .inl h

theorem remember_heap (w : World F H O) (j : Nat) (p : Entry H → Bool) (cache : Bool) (e : Entry H) : (remember w j p cache e).heap = w.heap := by
  unfold remember; split <;> rfl

theorem Agree.remember {S : Set Nat} {w w' : World F H O} (h : Agree S w w') (j : Nat) (p : Entry H → Bool) (cache : Bool) (e : Entry H) :
    Agree S (remember w j p cache e) (remember w' j p cache e) := by
  unfold Heap.remember
  split
  · exact ⟨h.datasets, by simp [h.models], h.length, h.heap⟩
  · exact h

section
variable (ops : FloatOps F)

/-- Scoring anew in two worlds that agree. -/
theorem scoreAnew_agree {S : Set Nat} {w w' : World F H O} (h : Agree S w w') (hS : Apart S w) (j : Nat) (m : Model F H) (i : Nat) (x : List (List F))
    (hh : H) (p : Entry H → Bool) (detailed cache : Bool) :
    Agree S (scoreAnew ops w j m i x hh p detailed cache).1 (scoreAnew ops w' j m i x hh p detailed cache).1 ∧
    Apart S (scoreAnew ops w j m i x hh p detailed cache).1 ∧
    (scoreAnew ops w j m i x hh p detailed cache).2 = (scoreAnew ops w' j m i x hh p detailed cache).2 ∧
    ∀ r, (scoreAnew ops w j m i x hh p detailed cache).2 = .ok r → ∀ a, r.Has a → a ∉ S := by
  unfold scoreAnew
  cases hraw : rawScore ops m.arrays detailed x with
  | error e =>
    refine ⟨h.remember _ _ _ _, fun a ha => ⟨fun hr => ?_, ?_⟩, rfl, fun r hr => by cases hr⟩
    · rcases reaches_remember hr with hr | hr
      · exact (hS a ha).1 hr
      · simp [Ref.Has] at hr
    · rw [remember_heap]
      exact (hS a ha).2
  | ok s =>
    simp only [← h.length]
    refine ⟨(h.append _).remember _ _ _ _, fun a ha => ⟨fun hr => ?_, ?_⟩, trivial, fun r hr a ha haS => ?_⟩
    · rcases reaches_remember hr with hr | hr
      · exact (hS a ha).1 hr
      · have := refOf_has hr
        have := (hS a ha).2
        omega
    · rw [remember_heap]
      have := (hS a ha).2
      simp only [List.length_append]
      omega
    · cases hr
      have := refOf_has (returned_has ha)
      have := (hS a haS).2
      omega

variable [DecidableEq H] [DecidableEq O] (digest : List (List F) → O → H) (eqX : List (List F) → List (List F) → Bool)

theorem isItem_agree {S : Set Nat} {w w' : World F H O} (h : Agree S w w') (hS : Apart S w) (i : Nat) {d : Data H O} (hd : d.x ∉ S) (hh : H) :
    isItem eqX w i d hh = isItem eqX w' i d hh := by
  funext e
  unfold isItem
  rw [← h.datasets]
  cases he : w.datasets[e.key]? with
  | none => rfl
  | some d' =>
    simp only
    unfold eqData
    rw [h.matrixAt hd, h.matrixAt (hS.dataset (List.mem_of_getElem? he))]

theorem score_agree {S : Set Nat} {w w' : World F H O} (h : Agree S w w') (hS : Apart S w) (j i : Nat) (detailed cache : Bool) :
    Agree S (score ops digest eqX w j i detailed cache).1 (score ops digest eqX w' j i detailed cache).1 ∧
    Apart S (score ops digest eqX w j i detailed cache).1 ∧
    (score ops digest eqX w j i detailed cache).2 = (score ops digest eqX w' j i detailed cache).2 ∧
    ∀ r, (score ops digest eqX w j i detailed cache).2 = .ok r → ∀ a, r.Has a → a ∉ S := by
  unfold score
  rw [← h.models, ← h.datasets]
  cases hm : w.models[j]? with
  | none => exact ⟨h, hS, rfl, fun r hr => by cases hr⟩
  | some m =>
    cases hd : w.datasets[i]? with
    | none => exact ⟨h, hS, rfl, fun r hr => by cases hr⟩
    | some d =>
      simp only
      cases hc : featureCheck m.arrays d.nFeatures with
      | error e => exact ⟨h, hS, rfl, fun r hr => by cases hr⟩
      | ok _ =>
        simp only
        have hdx := hS.dataset (List.mem_of_getElem? hd)
        have hhash : hashData digest w.heap d = hashData digest w'.heap d := by
          unfold hashData
          rw [h.matrixAt hdx]
        rw [← hhash, ← h.matrixAt hdx]
        cases hh : hashData digest w.heap d with
        | none => exact ⟨h, hS, rfl, fun r hr => by cases hr⟩
        | some k =>
          cases hx : matrixAt w.heap d.x with
          | none => exact ⟨h, hS, rfl, fun r hr => by cases hr⟩
          | some x =>
            simp only
            set w1 : World F H O := { w with datasets := w.datasets.modify i (fun d => { d with hashed := some k }) } with hw1
            have h1 : Agree S w1 { w' with datasets := w.datasets.modify i (fun d => { d with hashed := some k }) } :=
              ⟨rfl, h.models, h.length, h.heap⟩
            have hS1 : Apart S w1 := by
              refine fun a ha => ⟨fun hr => (hS a ha).1 ?_, (hS a ha).2⟩
              rcases hr with ⟨d', hd', rfl⟩ | hr
              · rcases mem_modify hd' with hd' | ⟨d'', hd'', rfl⟩
                · exact .inl ⟨d', hd', rfl⟩
                · exact .inl ⟨d'', List.mem_of_getElem? hd'', rfl⟩
              · exact .inr hr
            rw [← h.models] at h1
            have hit := isItem_agree eqX h1 hS1 i hdx k
            rw [← hit]
            cases hf : m.cache.find? (isItem eqX w1 i d k) with
            | none => exact scoreAnew_agree ops h1 hS1 j m i x k _ detailed cache
            | some e =>
              simp only
              split
              · exact scoreAnew_agree ops h1 hS1 j m i x k _ detailed cache
              · refine ⟨h1, hS1, rfl, fun r hr a ha haS => ?_⟩
                cases hr
                exact (hS1 a haS).1 (.inr ⟨m, List.mem_of_getElem? hm, e, List.mem_of_find?_eq_some hf, returned_has ha⟩)

/-- The operation does not make the library refer to an array in `S`. -/
def Op.Avoids (S : Set Nat) : Op F O → Prop
  | .dataset a _ _ => a ∉ S
  | _ => True

theorem step_agree {S : Set Nat} {w w' : World F H O} (h : Agree S w w') (hS : Apart S w) (op : Op F O) (hop : op.Avoids S) :
    Agree S (step ops digest eqX w op).1 (step ops digest eqX w' op).1 ∧ Apart S (step ops digest eqX w op).1 ∧
    (step ops digest eqX w op).2 = (step ops digest eqX w' op).2 ∧
    ∀ r, (step ops digest eqX w op).2 = some (.ok r) → ∀ a, r.Has a → a ∉ S := by
  cases op with
  | score j i detailed cache =>
    obtain ⟨h1, h2, h3, h4⟩ := score_agree ops digest eqX h hS j i detailed cache
    exact ⟨h1, h2, by simp only [step, h3], fun r hr => h4 r (by simpa [step] using hr)⟩
  | clear j =>
    refine ⟨⟨h.datasets, by simp [step, h.models], h.length, h.heap⟩, fun a ha => ⟨fun hr => (hS a ha).1 ?_, (hS a ha).2⟩, rfl, fun r hr => by cases hr⟩
    rcases hr with hr | ⟨m, hm, e, he, hr⟩
    · exact .inl hr
    · rcases mem_modify hm with hm | ⟨m', -, rfl⟩
      · exact .inr ⟨m, hm, e, he, hr⟩
      · cases he
  | dataset a nf o =>
    simp only [step, ← h.length]
    split
    · refine ⟨⟨by simp [h.datasets], h.models, h.length, h.heap⟩, fun b hb => ⟨fun hr => ?_, (hS b hb).2⟩, trivial, fun r hr => by cases hr⟩
      rcases hr with ⟨d, hd, rfl⟩ | hr
      · rcases List.mem_append.1 hd with hd | hd
        · exact (hS _ hb).1 (.inl ⟨d, hd, rfl⟩)
        · rw [List.mem_singleton] at hd
          subst hd
          exact hop hb
      · exact (hS b hb).1 (.inr hr)
    · exact ⟨h, hS, trivial, fun r hr => by cases hr⟩
  | array c =>
    refine ⟨h.append [c], fun a ha => ⟨(hS a ha).1, ?_⟩, rfl, fun r hr => by cases hr⟩
    have := (hS a ha).2
    simp only [step, List.length_append]
    omega
  | write a c =>
    refine ⟨⟨h.datasets, h.models, by simp [step, h.length], fun b hb => ?_⟩, fun b hb => ⟨(hS b hb).1, by simpa [step] using (hS b hb).2⟩, rfl,
      fun r hr => by cases hr⟩
    simp only [step, List.getElem?_modify, h.heap b hb]

theorem run_agree {S : Set Nat} : ∀ {os : List (Op F O)} {w w' : World F H O}, Agree S w w' → Apart S w → (∀ op ∈ os, op.Avoids S) →
    (run ops digest eqX w os).2 = (run ops digest eqX w' os).2
  | [], _, _, _, _, _ => rfl
  | op :: os, w, w', h, hS, hop => by
    obtain ⟨h1, h2, h3, h4⟩ := step_agree ops digest eqX h hS op (hop op List.mem_cons_self)
    have ih := run_agree h1 h2 (fun o ho => hop o (List.mem_cons_of_mem _ ho))
    simp only [run, ih, ← h3]
    congr 1
    cases hr : (step ops digest eqX w op).2 with
    | none => rfl
    | some res =>
      cases res with
      | error e => rfl
      | ok r =>
        simp only [Option.map_some, Except.map, Option.some.injEq, Except.ok.injEq, Prod.mk.injEq, true_and]
        have hb : ∀ o : Option Nat, (∀ a, o = some a → r.Has a) → o.bind ((step ops digest eqX w op).1.heap[·]?) = o.bind ((step ops digest eqX w' op).1.heap[·]?) := by
          intro o ho
          cases o with
          | none => rfl
          | some a => exact h1.heap a (h4 r hr a (ho a rfl))
        unfold seen
        rw [hb _ (fun a ha => .inl ha), hb _ (fun a ha => .inr (.inl ha)), hb _ (fun a ha => .inr (.inr ha))]

end
end Verif.Heap
