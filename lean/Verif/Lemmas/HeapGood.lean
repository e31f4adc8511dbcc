/-
The arrays of cached scorers hold what scoring gives, as long as nobody writes to them.
-/
import Verif.Lemmas.Heap
import Verif.Props.ScoreCache

namespace Verif.Heap
open Ensemble Spec Props
variable {F H O : Type}

/-- All arrays that can be reached exist. -/
def Closed (w : World F H O) : Prop := ∀ a, Reaches w a → a < w.heap.length

/-- A cached scorer refers to the outcome of scoring the matrix of its key. -/
def EntryGood (ops : FloatOps F) (digest : List (List F) → O → H) (w : World F H O) (m : Model F H) (e : Entry H) : Prop :=
  ∃ d X full s, w.datasets[e.key]? = some d ∧ matrixAt w.heap d.x = some X ∧ e.hash = digest X d.other ∧
    rawScore ops m.arrays full X = .ok s ∧ (s.partialY.isSome = full ∧ s.leaves.isSome = full) ∧
    seen w e.ref = contents (adjust ops m.learningRate m.baseScore s) ∧ e.ref.partialY.isSome = full

structure Good (ops : FloatOps F) (digest : List (List F) → O → H) (w : World F H O) : Prop where
  closed : Closed w
  data : ∀ d ∈ w.datasets, ∃ X, matrixAt w.heap d.x = some X ∧ (∀ row ∈ X, row.length = d.nFeatures) ∧ ∀ h, d.hashed = some h → h = digest X d.other
  models : ∀ m ∈ w.models, (∃ fo, Represents m.arrays fo) ∧ ∀ e ∈ m.cache, EntryGood ops digest w m e

theorem seen_congr {w w' : World F H O} {r : Ref} (h : ∀ a, r.Has a → w.heap[a]? = w'.heap[a]?) : seen w r = seen w' r := by
  have hb : ∀ o : Option Nat, (∀ a, o = some a → r.Has a) → o.bind (w.heap[·]?) = o.bind (w'.heap[·]?) := by
    intro o ho
    cases o with
    | none => rfl
    | some a => exact h a (ho a rfl)
  unfold seen
  rw [hb _ (fun a ha => .inl ha), hb _ (fun a ha => .inr (.inl ha)), hb _ (fun a ha => .inr (.inr ha))]

theorem matrixAt_congr {h h' : List (Cell F)} {a : Nat} (e : h[a]? = h'[a]?) : matrixAt h a = matrixAt h' a := by
  unfold matrixAt; rw [e]

/-- The reachable arrays are the same as before. -/
theorem Good.heap {ops : FloatOps F} {digest : List (List F) → O → H} {w : World F H O} (hw : Good ops digest w) {hp : List (Cell F)}
    (hlen : w.heap.length ≤ hp.length) (h : ∀ a, Reaches w a → w.heap[a]? = hp[a]?) : Good ops digest { w with heap := hp } where
  closed := fun a ha => lt_of_lt_of_le (hw.closed a ha) hlen
  data := fun d hd => by
    obtain ⟨X, h1, h2⟩ := hw.data d hd
    exact ⟨X, (matrixAt_congr (h d.x (.inl ⟨d, hd, rfl⟩))).symm.trans h1, h2⟩
  models := fun m hm => by
    obtain ⟨h1, h2⟩ := hw.models m hm
    refine ⟨h1, fun e he => ?_⟩
    obtain ⟨d, X, full, s, a1, a2, a3, a4, a5, a6, a7⟩ := h2 e he
    refine ⟨d, X, full, s, a1, (matrixAt_congr (h d.x (.inl ⟨d, List.mem_of_getElem? a1, rfl⟩))).symm.trans a2, a3, a4, a5, ?_, a7⟩
    rw [← a6]
    exact (seen_congr (fun a ha => h a (.inr ⟨m, hm, e, he, ha⟩))).symm

theorem adjust_leaves (ops : FloatOps F) (lr : F) (bs : Option F) (s : Scored F) : (adjust ops lr bs s).leaves = s.leaves := by
  unfold adjust
  split <;> (split <;> [simp; (split <;> simp)])

/-- The arrays just created. -/
theorem seen_refOf {w : World F H O} {s : Scored F} {full : Bool} (h1 : s.partialY.isSome = full) (h2 : s.leaves.isSome = full) :
    seen { w with heap := w.heap ++ cellsOf s } (refOf w.heap.length s) = contents s ∧ (refOf w.heap.length s).partialY.isSome = full := by
  obtain ⟨y, p, l⟩ := s
  cases full with
  | false =>
    cases p <;> cases l <;> simp only [Option.isSome, Bool.true_eq_false] at h1 h2
    simp [refOf, cellsOf, seen, contents]
  | true =>
    cases p <;> cases l <;> simp only [Option.isSome, Bool.false_eq_true] at h1 h2
    simp [refOf, cellsOf, seen, contents, List.getElem?_append]

theorem seen_returned (w : World F H O) (detailed : Bool) (r : Ref) : seen w (returned detailed r) = shown detailed (seen w r) := by
  unfold returned shown seen
  split <;> rfl

theorem seen_remember (w : World F H O) (j : Nat) (p : Entry H → Bool) (cache : Bool) (e : Entry H) (r : Ref) :
    seen (remember w j p cache e) r = seen w r := by
  unfold seen
  rw [remember_heap]

section
variable (ops : FloatOps F) (digest : List (List F) → O → H) (hdig : ∀ x o x' o', digest x o = digest x' o' → x = x')

theorem rawScore_shape {m : Ensemble F} {full : Bool} {X : List (List F)} {s : Scored F} (h : rawScore ops m full X = .ok s) :
    s.partialY.isSome = full ∧ s.leaves.isSome = full := by
  unfold rawScore at h
  cases full with
  | true =>
    simp only [↓reduceIte, bind, Except.bind] at h
    split at h
    · cases h
    · cases h
      exact ⟨rfl, rfl⟩
  | false =>
    simp only [Bool.false_eq_true, ↓reduceIte, bind, Except.bind] at h
    split at h
    · cases h
    · cases h
      exact ⟨rfl, rfl⟩

include hdig in
theorem scoreAnew_good {w : World F H O} (hw : Good ops digest w) {j : Nat} {m : Model F H} (hm : w.models[j]? = some m) {i : Nat} {d : Data H O}
    (hd : w.datasets[i]? = some d) {X : List (List F)} (hX : matrixAt w.heap d.x = some X) (hrows : ∀ row ∈ X, row.length = d.nFeatures)
    (hc : featureCheck m.arrays d.nFeatures = .ok ()) {p : Entry H → Bool} (hp : ∀ e, p e = true → e.hash = digest X d.other) (detailed cache : Bool) :
    Good ops digest (scoreAnew ops w j m i X (digest X d.other) p detailed cache).1 ∧
    ∃ s r, rawScore ops m.arrays detailed X = .ok s ∧ (scoreAnew ops w j m i X (digest X d.other) p detailed cache).2 = .ok r ∧
      seen (scoreAnew ops w j m i X (digest X d.other) p detailed cache).1 r = shown detailed (contents (adjust ops m.learningRate m.baseScore s)) := by
  have hmm := List.mem_of_getElem? hm
  obtain ⟨⟨fo, hfo⟩, hcache⟩ := hw.models m hmm
  obtain ⟨s, hs, -⟩ := rawScore_ok ops hfo hrows hc detailed
  have hshape := rawScore_shape ops hs
  have hshape' : (adjust ops m.learningRate m.baseScore s).partialY.isSome = detailed ∧ (adjust ops m.learningRate m.baseScore s).leaves.isSome = detailed := by
    rw [adjust_isSome, adjust_leaves]; exact hshape
  obtain ⟨hseen, hpart⟩ := seen_refOf (w := w) hshape'.1 hshape'.2
  have hw1 : Good ops digest { w with heap := w.heap ++ cellsOf (adjust ops m.learningRate m.baseScore s) } :=
    hw.heap (by simp) (fun a ha => (List.getElem?_append_left (hw.closed a ha)).symm)
  unfold scoreAnew
  rw [hs]
  simp only
  refine ⟨?_, s, _, rfl, rfl, ?_⟩
  · have hX1 : matrixAt (w.heap ++ cellsOf (adjust ops m.learningRate m.baseScore s)) d.x = some X := by
      rw [← hX]
      exact matrixAt_congr (List.getElem?_append_left (hw.closed _ (.inl ⟨d, List.mem_of_getElem? hd, rfl⟩)))
    refine ⟨fun a ha => ?_, ?_, ?_⟩
    · rw [remember_heap]
      rcases reaches_remember ha with ha | ha
      · exact hw1.closed a ha
      · have := refOf_lt ha
        simp only [List.length_append]
        exact this
    · unfold remember
      split <;> exact hw1.data
    · unfold remember
      split
      · intro m' hm'
        rcases mem_modify hm' with hm' | ⟨m'', hm'', rfl⟩
        · exact hw1.models m' hm'
        · have : m'' = m := by
            have := hm''.symm.trans hm
            exact Option.some.inj this
          subst this
          obtain ⟨g1, g2⟩ := hw1.models m'' hmm
          refine ⟨g1, fun e he => ?_⟩
          rcases mem_setItem he with he | rfl | ⟨z, hz, hz1, rfl⟩
          · exact g2 e he
          · exact ⟨d, X, detailed, s, hd, hX1, rfl, hs, hshape, hseen, hpart⟩
          · obtain ⟨dk, Xk, full', s', a1, a2, a3, -⟩ := g2 z hz
            have : Xk = X := hdig _ _ _ _ (a3.symm.trans (hp z hz1))
            subst this
            exact ⟨dk, Xk, detailed, s, a1, a2, a3, hs, hshape, hseen, hpart⟩
      · exact hw1.models
  · rw [seen_remember, seen_returned, hseen]

variable [DecidableEq H] [DecidableEq O] (eqX : List (List F) → List (List F) → Bool)

include hdig in
/-- A score call in a good world. -/
theorem score_good {w : World F H O} (hw : Good ops digest w) {j : Nat} {m : Model F H} (hm : w.models[j]? = some m) {i : Nat} {d : Data H O}
    (hd : w.datasets[i]? = some d) {X : List (List F)} (hX : matrixAt w.heap d.x = some X) (detailed cache : Bool) :
    Good ops digest (score ops digest eqX w j i detailed cache).1 ∧
    ∃ full, (full = detailed ∨ full = true) ∧
      (score ops digest eqX w j i detailed cache).2.map (seen (score ops digest eqX w j i detailed cache).1) =
        (scoreFresh ops m.arrays m.learningRate m.baseScore full X d.nFeatures).map (fun s => shown detailed (contents s)) := by
  have hdm := List.mem_of_getElem? hd
  obtain ⟨X', hX', hrows, hhash⟩ := hw.data d hdm
  rw [hX] at hX'
  cases hX'
  unfold score
  simp only [hm, hd]
  cases hc : featureCheck m.arrays d.nFeatures with
  | error e =>
    refine ⟨hw, detailed, .inl rfl, ?_⟩
    simp only [scoreFresh, hc, bind, Except.bind, Except.map]
  | ok _ =>
    simp only
    have hk : hashData digest w.heap d = some (digest X d.other) := by
      unfold hashData
      cases hh : d.hashed with
      | none => simp [hX]
      | some h => simp [hhash h hh]
    rw [hk, hX]
    simp only
    set w1 : World F H O := { w with datasets := w.datasets.modify i (fun d => { d with hashed := some (digest X d.other) }) } with hw1def
    have hw1e : ({ w with datasets := w.datasets.modify i (fun d' => { d' with hashed := some (digest X d.other) }) } : World F H O) = w1 := by
      rw [hw1def]
      congr 1
      apply List.ext_getElem?
      intro k
      rw [List.getElem?_modify, List.getElem?_modify]
      split
      · rename_i hik
        subst hik
        simp [hd]
      · rfl
    rw [hw1e]
    set d1 : Data H O := { d with hashed := some (digest X d.other) } with hd1def
    have hd1 : w1.datasets[i]? = some d1 := by
      simp only [w1, List.getElem?_modify, hd]
      simp [d1]
    have hget : ∀ (k : Nat) (d' : Data H O), w.datasets[k]? = some d' → ∃ d'' : Data H O, w1.datasets[k]? = some d'' ∧ d''.x = d'.x ∧ d''.other = d'.other := by
      intro k d' hk
      by_cases hik : i = k
      · subst hik
        rw [hd] at hk
        cases hk
        exact ⟨d1, hd1, rfl, rfl⟩
      · exact ⟨d', by simp [w1, List.getElem?_modify, hk, hik], rfl, rfl⟩
    have hgood1 : Good ops digest w1 := by
      refine ⟨fun a ha => hw.closed a ?_, fun d' hd' => ?_, fun m' hm' => ?_⟩
      · rcases ha with ⟨d', hd', rfl⟩ | ha
        · rcases mem_modify hd' with hd' | ⟨d'', hd'', rfl⟩
          · exact .inl ⟨d', hd', rfl⟩
          · exact .inl ⟨d'', List.mem_of_getElem? hd'', rfl⟩
        · exact .inr ha
      · rcases mem_modify hd' with hd' | ⟨d'', hd'', rfl⟩
        · exact hw.data d' hd'
        · rw [hd] at hd''
          cases hd''
          refine ⟨X, hX, hrows, fun h hh => ?_⟩
          simp only [Option.some.injEq] at hh
          exact hh.symm
      · obtain ⟨g1, g2⟩ := hw.models m' hm'
        refine ⟨g1, fun e he => ?_⟩
        obtain ⟨dk, Xk, full, s, a1, a2, a3, a4, a5, a6, a7⟩ := g2 e he
        obtain ⟨dk', b1, b2, b3⟩ := hget _ _ a1
        exact ⟨dk', Xk, full, s, b1, by rw [b2]; exact a2, by rw [b3]; exact a3, a4, a5, a6, a7⟩
    have hp : ∀ e, isItem eqX w1 i d (digest X d.other) e = true → e.hash = digest X d.other := by
      intro e he
      unfold isItem at he
      rw [Bool.and_eq_true] at he
      exact of_decide_eq_true he.1
    have anew := scoreAnew_good ops digest hdig hgood1 (j := j) (m := m) hm (i := i) hd1 (X := X) hX hrows hc (p := isItem eqX w1 i d (digest X d.other)) hp
      detailed cache
    have anew' : Good ops digest (scoreAnew ops w1 j m i X (digest X d.other) (isItem eqX w1 i d (digest X d.other)) detailed cache).1 ∧
        ∃ full, (full = detailed ∨ full = true) ∧
        (scoreAnew ops w1 j m i X (digest X d.other) (isItem eqX w1 i d (digest X d.other)) detailed cache).2.map
          (seen (scoreAnew ops w1 j m i X (digest X d.other) (isItem eqX w1 i d (digest X d.other)) detailed cache).1) =
        (scoreFresh ops m.arrays m.learningRate m.baseScore full X d.nFeatures).map (fun s => shown detailed (contents s)) := by
      obtain ⟨g1, s, r, g2, g3, g4⟩ := anew
      refine ⟨g1, detailed, .inl rfl, ?_⟩
      simp only [d1] at g3 g4
      rw [g3]
      simp only [scoreFresh, hc, g2, bind, Except.bind, pure, Except.pure, Except.map, g4]
    cases hf : m.cache.find? (isItem eqX w1 i d (digest X d.other)) with
    | none => exact anew'
    | some e =>
      simp only
      split
      · exact anew'
      · rename_i hcond
        refine ⟨hgood1, ?_⟩
        obtain ⟨dk, Xk, full, s, a1, a2, a3, a4, a5, a6, a7⟩ := (hgood1.models m (List.mem_of_getElem? hm)).2 e (List.mem_of_find?_eq_some hf)
        have hXk : Xk = X := hdig _ _ _ _ (a3.symm.trans (hp e (List.find?_some hf)))
        subst hXk
        refine ⟨full, ?_, ?_⟩
        · cases full with
          | true => exact .inr rfl
          | false =>
            left
            cases detailed with
            | false => rfl
            | true =>
              exfalso
              apply hcond
              cases hpy : e.ref.partialY with
              | none => rfl
              | some _ => rw [hpy] at a7; cases a7
        · simp only [scoreFresh, hc, a4, bind, Except.bind, pure, Except.pure, Except.map, seen_returned, a6]

include hdig in
theorem step_good {w : World F H O} (hw : Good ops digest w) (op : Op F O) (hop : op.Careful w) : Good ops digest (step ops digest eqX w op).1 := by
  cases op with
  | score j i detailed cache =>
    simp only [step]
    cases hm : w.models[j]? with
    | none => unfold score; rw [hm]; exact hw
    | some m =>
      cases hd : w.datasets[i]? with
      | none => unfold score; rw [hm, hd]; exact hw
      | some d =>
        obtain ⟨X, hX, -⟩ := hw.data d (List.mem_of_getElem? hd)
        exact (score_good ops digest hdig eqX hw hm hd hX detailed cache).1
  | clear j =>
    refine ⟨fun a ha => hw.closed a ?_, hw.data, fun m hm => ?_⟩
    · rcases ha with ha | ⟨m, hm, e, he, ha⟩
      · exact .inl ha
      · rcases mem_modify hm with hm | ⟨m', -, rfl⟩
        · exact .inr ⟨m, hm, e, he, ha⟩
        · cases he
    · rcases mem_modify hm with hm | ⟨m', hm', rfl⟩
      · exact hw.models m hm
      · exact ⟨(hw.models m' (List.mem_of_getElem? hm')).1, by intro e he; cases he⟩
  | dataset a nf o =>
    simp only [step]
    split
    · rename_i hlt
      obtain ⟨X, hX, hrows⟩ := hop
      refine ⟨fun b hb => ?_, fun d hd => ?_, fun m hm => ?_⟩
      · rcases hb with ⟨d, hd, rfl⟩ | hb
        · rcases List.mem_append.1 hd with hd | hd
          · exact hw.closed _ (.inl ⟨d, hd, rfl⟩)
          · rw [List.mem_singleton] at hd
            subst hd
            exact hlt
        · exact hw.closed _ (.inr hb)
      · rcases List.mem_append.1 hd with hd | hd
        · exact hw.data d hd
        · rw [List.mem_singleton] at hd
          subst hd
          exact ⟨X, hX, hrows, fun h hh => by cases hh⟩
      · obtain ⟨g1, g2⟩ := hw.models m hm
        refine ⟨g1, fun e he => ?_⟩
        obtain ⟨dk, Xk, full, s, a1, a2⟩ := g2 e he
        refine ⟨dk, Xk, full, s, ?_, a2⟩
        simp only
        rw [List.getElem?_append_left (List.getElem?_eq_some_iff.1 a1).1]
        exact a1
    · exact hw
  | array c => exact hw.heap (by simp) (fun a ha => (List.getElem?_append_left (hw.closed a ha)).symm)
  | write a c =>
    refine hw.heap (by simp) (fun b hb => ?_)
    rw [List.getElem?_modify]
    have : a ≠ b := fun h => hop (h ▸ hb)
    simp [this]

include hdig in
theorem run_good : ∀ {os : List (Op F O)} {w : World F H O}, Good ops digest w → Careful ops digest eqX w os → Good ops digest (run ops digest eqX w os).1
  | [], _, hw, _ => hw
  | op :: os, w, hw, hc => by
    have := run_good (step_good ops digest hdig eqX hw op hc.1) hc.2
    simpa only [run] using this

/-- All arrays that can be reached exist. -/
theorem step_closed {w : World F H O} (hw : Closed w) (op : Op F O) : Closed (step ops digest eqX w op).1 := by
  cases op with
  | score j i detailed cache =>
    have anew : ∀ (w : World F H O) (m : Model F H) (x : List (List F)) (h : H) (p : Entry H → Bool), Closed w →
        Closed (scoreAnew ops w j m i x h p detailed cache).1 := by
      intro w m x h p hw a ha
      unfold scoreAnew at ha ⊢
      cases hraw : rawScore ops m.arrays detailed x with
      | error e =>
        rw [hraw] at ha
        rw [remember_heap]
        rcases reaches_remember ha with ha | ha
        · exact hw a ha
        · simp [Ref.Has] at ha
      | ok s =>
        rw [hraw] at ha
        rw [remember_heap]
        simp only [List.length_append]
        rcases reaches_remember ha with ha | ha
        · have := hw a ha
          omega
        · exact refOf_lt ha
    simp only [step]
    unfold score
    split
    · split
      · exact hw
      · split
        · rename_i m d _ _ _ _ h x _ _
          have hw1 : Closed ({ w with datasets := w.datasets.modify i (fun d => { d with hashed := some h }) } : World F H O) := by
            intro a ha
            apply hw a
            rcases ha with ⟨d', hd', rfl⟩ | ha
            · rcases mem_modify hd' with hd' | ⟨d'', hd'', rfl⟩
              · exact .inl ⟨d', hd', rfl⟩
              · exact .inl ⟨d'', List.mem_of_getElem? hd'', rfl⟩
            · exact .inr ha
          simp only
          split
          · split
            · exact anew _ _ _ _ _ hw1
            · exact hw1
          · exact anew _ _ _ _ _ hw1
        · exact hw
    · exact hw
  | clear j =>
    intro a ha
    apply hw a
    rcases ha with ha | ⟨m, hm, e, he, ha⟩
    · exact .inl ha
    · rcases mem_modify hm with hm | ⟨m', -, rfl⟩
      · exact .inr ⟨m, hm, e, he, ha⟩
      · cases he
  | dataset a nf o =>
    simp only [step]
    split
    · rename_i hlt
      intro b hb
      rcases hb with ⟨d, hd, rfl⟩ | hb
      · rcases List.mem_append.1 hd with hd | hd
        · exact hw _ (.inl ⟨d, hd, rfl⟩)
        · rw [List.mem_singleton] at hd
          subst hd
          exact hlt
      · exact hw _ (.inr hb)
    · exact hw
  | array c =>
    intro a ha
    have := hw a ha
    simp only [step, List.length_append]
    omega
  | write a c =>
    intro b hb
    have := hw b hb
    simpa [step] using this

theorem run_closed : ∀ {os : List (Op F O)} {w : World F H O}, Closed w → Closed (run ops digest eqX w os).1
  | [], _, hw => hw
  | op :: os, w, hw => by
    have := run_closed (os := os) (step_closed ops digest eqX hw op)
    simpa only [run] using this

end
end Verif.Heap
