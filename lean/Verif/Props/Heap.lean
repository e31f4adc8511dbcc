/-
Property C82: arrays shared between the caller, the datasets and the caches of the models.
-/
import Verif.Lemmas.HeapGood

namespace Verif.Props
open Heap Ensemble Spec

section
variable {F H O : Type} [DecidableEq H] [DecidableEq O] (ops : FloatOps F) (digest : List (List F) → O → H) (eqX : List (List F) → List (List F) → Bool)

/-- C82: an array that is neither the matrix of a dataset nor cached by a model may be overwritten: nothing that is returned later changes, whatever
the caller does, unless they make a dataset of this array. -/
theorem C82_frame (w : World F H O) (a : Nat) (ha : ¬ Reaches w a) (c : Cell F) (os : List (Op F O)) (hos : ∀ nf o, Op.dataset a nf o ∉ os) :
    (run ops digest eqX (step ops digest eqX w (.write a c)).1 os).2 = (run ops digest eqX w os).2 := by
  by_cases hlt : a < w.heap.length
  · refine (run_agree ops digest eqX (S := {a}) (w := w) (w' := (step ops digest eqX w (.write a c)).1) ⟨rfl, rfl, by simp [step], fun b hb => ?_⟩ ?_ ?_).symm
    · have : a ≠ b := fun h => hb h.symm
      simp [step, List.getElem?_modify, this]
    · intro b hb
      rw [Set.mem_singleton_iff] at hb
      subst hb
      exact ⟨ha, hlt⟩
    · intro op hop
      cases op with
      | dataset b nf o =>
        simp only [Op.Avoids, Set.mem_singleton_iff]
        rintro rfl
        exact hos nf o hop
      | _ => trivial
  · have : (step ops digest eqX w (.write a c)).1 = w := by
      simp only [step]
      rw [List.modify_eq_self (by omega)]
    rw [this]

/-- C82: start with any models with empty caches. After every history, `score(…, cache=False)` on a model with an empty cache returns arrays that
did not exist before and that the library keeps no reference to. With `C82_frame`: the caller may do with them what they like. -/
theorem C82_private {models : List (Model F H)} (hempty : ∀ m ∈ models, m.cache = []) (heap : List (Cell F)) (os : List (Op F O)) {w : World F H O}
    (hw : w = (run ops digest eqX ⟨heap, [], models⟩ os).1) {j i : Nat} {m : Model F H} (hm : w.models[j]? = some m) (hc : m.cache = [])
    (detailed : Bool) {r : Ref} (hr : (score ops digest eqX w j i detailed false).2 = .ok r) :
    ∀ a, r.Has a → w.heap.length ≤ a ∧ a < (score ops digest eqX w j i detailed false).1.heap.length ∧
      ¬ Reaches (score ops digest eqX w j i detailed false).1 a := by
  have hclosed : Closed w := by
    rw [hw]
    apply run_closed
    rintro a (⟨d, hd, -⟩ | ⟨m, hm, e, he, -⟩)
    · cases hd
    · rw [hempty m hm] at he
      cases he
  intro a ha
  unfold score at hr ⊢
  rw [hm] at hr ⊢
  cases hd : w.datasets[i]? with
  | none => rw [hd] at hr; cases hr
  | some d =>
    rw [hd] at hr
    simp only at hr ⊢
    cases hf : featureCheck m.arrays d.nFeatures with
    | error e => rw [hf] at hr; cases hr
    | ok _ =>
      rw [hf] at hr
      simp only at hr ⊢
      cases hh : hashData digest w.heap d with
      | none => rw [hh] at hr; cases hr
      | some h =>
        cases hx : matrixAt w.heap d.x with
        | none => rw [hh, hx] at hr; cases hr
        | some x =>
          rw [hh, hx] at hr
          simp only [hc, List.find?_nil] at hr ⊢
          unfold Heap.scoreAnew at hr ⊢
          cases hs : rawScore ops m.arrays detailed x with
          | error e => rw [hs] at hr; cases hr
          | ok s =>
            rw [hs] at hr
            simp only [Except.ok.injEq] at hr
            subst hr
            have h1 := refOf_has (returned_has ha)
            have h2 := refOf_lt (returned_has ha)
            refine ⟨h1, ?_, ?_⟩
            · simpa only [remember, Bool.false_eq_true, ↓reduceIte, List.length_append] using h2
            · intro hr
              have : Reaches w a := by
                rcases hr with ⟨d', hd', rfl⟩ | hr
                · rcases mem_modify hd' with hd' | ⟨d'', hd'', rfl⟩
                  · exact .inl ⟨d', hd', rfl⟩
                  · exact .inl ⟨d'', List.mem_of_getElem? hd'', rfl⟩
                · exact .inr hr
              have := hclosed a this
              omega

/-- C82, proved part: start with any models that represent forests and have empty caches. As long as the caller writes only to arrays that are neither
matrices of datasets nor cached, every score call returns arrays that hold, at that time, what scoring the matrix of the dataset without
cache gives. (A basic call after a detailed one returns the predictions of the detailed scoring, see C33.) Missing: callers that write to
returned or dataset arrays, see `C82_violated_cached` and `C82_violated_hash`. `hdig`: no collisions. -/
theorem C82_scores_partial (hdig : ∀ x o x' o', digest x o = digest x' o' → x = x') {models : List (Model F H)}
    (hmodels : ∀ m ∈ models, (∃ fo, Represents m.arrays fo) ∧ m.cache = []) (heap : List (Cell F)) (os : List (Op F O))
    (hcare : Careful ops digest eqX ⟨heap, [], models⟩ os) {w : World F H O} (hw : w = (run ops digest eqX ⟨heap, [], models⟩ os).1)
    {j i : Nat} {m : Model F H} {d : Data H O} (hm : w.models[j]? = some m) (hd : w.datasets[i]? = some d) (detailed cache : Bool) :
    ∃ X, w.heap[d.x]? = some (.mat X) ∧ ∃ full, (full = detailed ∨ full = true) ∧
      (score ops digest eqX w j i detailed cache).2.map (seen (score ops digest eqX w j i detailed cache).1) =
        (scoreFresh ops m.arrays m.learningRate m.baseScore full X d.nFeatures).map (fun s => shown detailed (contents s)) := by
  have hgood : Good ops digest w := by
    rw [hw]
    refine run_good ops digest hdig eqX ⟨?_, ?_, fun m hm => ⟨(hmodels m hm).1, fun e he => ?_⟩⟩ hcare
    rotate_left
    · intro d hd
      cases hd
    · rw [(hmodels m hm).2] at he
      cases he
    rintro a (⟨d, hd, -⟩ | ⟨m, hm, e, he, -⟩)
    · cases hd
    · rw [(hmodels m hm).2] at he
      cases he
  obtain ⟨X, hX, -⟩ := hgood.data d (List.mem_of_getElem? hd)
  refine ⟨X, ?_, (score_good ops digest hdig eqX hgood hm hd hX detailed cache).2⟩
  unfold matrixAt at hX
  split at hX
  · rename_i h
    cases hX
    exact h
  · cases hX

end

/-! ### Concrete callers -/

/-- The model of `C33`, with an empty cache. -/
def heapModel : Heap.Model ℚ (List (List ℚ) × Nat) := ⟨ens0, 1, none, []⟩

/-- One matrix, one model. -/
def heapWorld : World ℚ (List (List ℚ) × Nat) Nat := ⟨[.mat [[0, 9], [1, 4]]], [], [heapModel]⟩

instance : DecidableEq (Except PyErr (Ref × Option (Cell ℚ) × Option (Cell ℚ) × Option (Cell ℚ))) :=
  @instDecidableEqExcept_batteries _ _ inferInstance inferInstance

/-- What the caller sees. -/
def heapSeen (os : List (Op ℚ Nat)) : List (Option (Except PyErr (Ref × Option (Cell ℚ) × Option (Cell ℚ) × Option (Cell ℚ)))) :=
  (run (exactOps ℚ) Prod.mk (fun x y => decide (x = y)) heapWorld os).2

/-- The hypotheses of `C82_scores_partial` are met by a caller who scores with and without cache, writes to an array of their own and to one
returned by an uncached call, and scores an equal second dataset: it gets the cached array of the first. -/
example : (∀ m ∈ [heapModel], (∃ fo, Represents m.arrays fo) ∧ m.cache = []) ∧
    Careful (exactOps ℚ) Prod.mk (fun x y => decide (x = y)) heapWorld
      [.dataset 0 2 7, .score 0 0 false false, .write 1 (.vec [0, 0]), .score 0 0 false true, .array (.mat [[0, 9], [1, 4]]), .dataset 3 2 7] ∧
    heapSeen [.dataset 0 2 7, .score 0 0 false false, .write 1 (.vec [0, 0]), .score 0 0 false true, .array (.mat [[0, 9], [1, 4]]), .dataset 3 2 7,
      .score 0 1 false true] =
      [none, some (.ok (⟨some 1, none, none⟩, some (.vec [9, 17]), none, none)), none,
        some (.ok (⟨some 2, none, none⟩, some (.vec [9, 17]), none, none)), none, none,
        some (.ok (⟨some 2, none, none⟩, some (.vec [9, 17]), none, none))] := by
  refine ⟨?_, ?_, by decide +kernel⟩
  · intro m hm
    rw [List.mem_singleton] at hm
    subst hm
    exact ⟨⟨_, ens0_represents⟩, rfl⟩
  · refine ⟨⟨[[0, 9], [1, 4]], by decide +kernel, by decide +kernel⟩, trivial, ?_, trivial, trivial, ⟨[[0, 9], [1, 4]], by decide +kernel, by decide +kernel⟩,
      trivial⟩
    show ¬ Reaches _ _
    decide +kernel

/-- The hypotheses of `C82_private` and `C82_frame` are met: a detailed call without cache returns three new arrays; the caller overwrites the first. -/
example : heapModel.cache = [] ∧
    (score (exactOps ℚ) Prod.mk (fun x y => decide (x = y)) (step (exactOps ℚ) Prod.mk (fun x y => decide (x = y)) heapWorld (.dataset 0 2 7)).1 0 0 true
      false).2 = .ok ⟨some 1, some 2, some 3⟩ ∧
    ¬ Reaches (score (exactOps ℚ) Prod.mk (fun x y => decide (x = y)) (step (exactOps ℚ) Prod.mk (fun x y => decide (x = y)) heapWorld (.dataset 0 2 7)).1
      0 0 true false).1 1 ∧
    ∀ nf o, Op.dataset 1 nf o ∉ ([.score 0 0 true true, .clear 0, .score 0 0 false true] : List (Op ℚ Nat)) := by
  refine ⟨rfl, by decide +kernel, by decide +kernel, fun nf o h => ?_⟩
  simp at h

/-- C82 is violated: a caller who changes the predictions they got (say, to sort them or to clip them in place) changes the predictions all later callers
get, whether they ask with cache or without. -/
theorem C82_violated_cached :
    heapSeen [.dataset 0 2 7, .score 0 0 false true, .write 1 (.vec [0, 0]), .score 0 0 false true, .score 0 0 false false] =
      [none, some (.ok (⟨some 1, none, none⟩, some (.vec [9, 17]), none, none)), none,
        some (.ok (⟨some 1, none, none⟩, some (.vec [0, 0]), none, none)), some (.ok (⟨some 1, none, none⟩, some (.vec [0, 0]), none, none))] := by
  decide +kernel

/-- C82 is violated: the hash of a dataset is computed once ("ASSUMPTION: the object is unmodifiable!"). After its matrix has been changed in
place, scoring returns the predictions of the old matrix. Without the cache, the predictions of the new one are returned. -/
theorem C82_violated_hash :
    heapSeen [.dataset 0 2 7, .score 0 0 false true, .write 0 (.mat [[1, 4], [0, 9]]), .score 0 0 false true, .clear 0, .score 0 0 false true] =
      [none, some (.ok (⟨some 1, none, none⟩, some (.vec [9, 17]), none, none)), none,
        some (.ok (⟨some 1, none, none⟩, some (.vec [9, 17]), none, none)), none,
        some (.ok (⟨some 2, none, none⟩, some (.vec [17, 9]), none, none))] := by
  decide +kernel

end Verif.Props
