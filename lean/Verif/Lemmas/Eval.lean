/-
Lemmas on the evaluation loops.
-/
import Verif.Model.Eval
import Verif.Lemmas.Dataset3

namespace Verif
open Spec Metrics

theorem slice_eq_ofQuery {α : Type} {ids : List Int} {a : List α} {q : Int} {s e : Nat} (h : a.length = ids.length)
    (hse : s ≤ e) (he : e ≤ ids.length) (hq : ∀ i : Nat, (s ≤ i ∧ i < e) ↔ ids[i]? = some q) :
    slice s e a = ofQuery q ids a := by
  have hsplit : ids.zip a = ((ids.zip a).take s) ++ (slice s e (ids.zip a)) ++ (ids.zip a).drop e := by
    have h1 : ((ids.zip a).take s) = ((ids.zip a).take e).take s := by rw [List.take_take, Nat.min_eq_left hse]
    rw [h1, slice, List.take_append_drop, List.take_append_drop]
  have hget : ∀ (i : Nat) p, (ids.zip a)[i]? = some p → ids[i]? = some p.1 := by
    intro i p hp
    rw [List.getElem?_zip_eq_some] at hp
    exact hp.1
  unfold ofQuery
  rw [hsplit, List.filter_append, List.filter_append]
  have h1 : ((ids.zip a).take s).filter (fun p => decide (p.1 = q)) = [] := by
    rw [List.filter_eq_nil_iff]
    intro p hp
    obtain ⟨i, hi⟩ := List.mem_iff_getElem?.1 hp
    rw [List.getElem?_take] at hi
    split at hi
    · rename_i his
      have := hget i p hi
      simp only [decide_eq_true_eq]
      intro hpq
      rw [hpq] at this
      have := (hq i).2 this
      omega
    · cases hi
  have h3 : ((ids.zip a).drop e).filter (fun p => decide (p.1 = q)) = [] := by
    rw [List.filter_eq_nil_iff]
    intro p hp
    obtain ⟨i, hi⟩ := List.mem_iff_getElem?.1 hp
    rw [List.getElem?_drop] at hi
    have := hget _ p hi
    simp only [decide_eq_true_eq]
    intro hpq
    rw [hpq] at this
    have := (hq _).2 this
    omega
  have h2 : (slice s e (ids.zip a)).filter (fun p => decide (p.1 = q)) = slice s e (ids.zip a) := by
    rw [List.filter_eq_self]
    intro p hp
    obtain ⟨i, hi⟩ := List.mem_iff_getElem?.1 hp
    rw [slice, List.getElem?_drop, List.getElem?_take] at hi
    split at hi
    · rename_i his
      have h1 := hget _ p hi
      have h2 := (hq (s + i)).1 (by omega)
      rw [h1] at h2
      simpa using h2
    · cases hi
  rw [h1, h2, h3]
  simp only [slice, List.nil_append, List.append_nil, List.map_drop, List.map_take]
  rw [List.map_snd_zip (by omega)]

/-- Blocks of a contiguous dataset are the rows of the query. -/
theorem queryIter_contiguous {R L S : Type} {X : List R} {nf : Nat} {y : List L} {ids : List Int}
    {d : Dataset R L} {yPred : List S} (h : mkDataset X nf y ids = .ok d) (hc : Contiguous ids)
    (hy : y.length = ids.length) (hp : yPred.length = ids.length) :
    queryIter d yPred = d.queryIds.map (fun q => (q, ofQuery q ids y, ofQuery q ids yPred)) := by
  have b := built_of_mk h
  have hdy : d.y = y := (mkDataset_spec h).2.2.1
  have hids : d.queryIds = d.queryIterator.map (·.1) := by
    unfold Dataset.queryIterator
    rw [List.map_fst_zip]
    rw [List.length_zip, List.length_tail, b.length_offs]
    omega
  rw [hids, List.map_map]
  unfold queryIter
  apply List.map_congr_left
  rintro ⟨q, s, e⟩ hm
  have hb := b.block_start hm
  have hq := fun i => b.block_id_of_contiguous hc (i := i) hm
  simp only [Function.comp]
  rw [hdy, slice_eq_ofQuery hy (by omega) (by omega) hq, slice_eq_ofQuery hp (by omega) (by omega) hq]

theorem pySet_ok {α : Type} {a : List α} {i : Nat} (x : α) (h : i < a.length) :
    pySet a (i : Int) x = .ok (a.set i x) := by
  simp [pySet, h]

theorem pySet_large {α : Type} {a : List α} {i : Int} (x : α) (h : (a.length : Int) ≤ i) :
    pySet a i x = .error .indexError := by
  have h0 : 0 ≤ i := le_trans (by omega) h
  simp only [pySet, if_pos h0]
  rw [if_neg (by omega)]

theorem length_pySet {α : Type} {a a' : List α} {i : Int} {x : α} (h : pySet a i x = .ok a') :
    a'.length = a.length := by
  simp only [pySet] at h
  generalize (if 0 ≤ i then i else i + (a.length : Int)) = j at h
  split at h
  · cases h; simp
  · cases h

theorem pySet_error {α : Type} {a : List α} {i : Int} {x : α} {e : PyErr} (h : pySet a i x = .error e) :
    e = .indexError := by
  simp only [pySet] at h
  generalize (if 0 ≤ i then i else i + (a.length : Int)) = j at h
  split at h
  · cases h
  · cases h; rfl

theorem evalLoop_ok {L S V : Type} (store : V → V) (evalQ : List L → List S → Except PyErr V) :
    ∀ (bs : List (Int × List L × List S)) (i : Nat) (a res : List V), a.length = i + bs.length →
      evalLoop store evalQ i bs a = .ok res →
      res.length = a.length ∧ (∀ j < i, res[j]? = a[j]?) ∧
        ∀ (j : Nat) b, bs[j]? = some b → ∃ v, evalQ b.2.1 b.2.2 = .ok v ∧ res[i + j]? = some (store v)
  | [], i, a, res, _, h => by
    simp only [evalLoop, Except.ok.injEq] at h
    subst h
    simp
  | (q, qy, qs) :: bs, i, a, res, hl, h => by
    simp only [evalLoop, bind, Except.bind] at h
    simp only [List.length_cons] at hl
    cases hv : evalQ qy qs with
    | error e => rw [hv] at h; cases h
    | ok v =>
      rw [hv] at h
      simp only [pySet_ok (store v) (by omega : i < a.length)] at h
      obtain ⟨h1, h2, h3⟩ := evalLoop_ok store evalQ bs (i + 1) (a.set i (store v)) res (by simp; omega) h
      refine ⟨by simpa using h1, ?_, ?_⟩
      · intro j hj
        rw [h2 j (by omega), List.getElem?_set_ne (by omega)]
      · intro j b hb
        cases j with
        | zero =>
          simp only [List.getElem?_cons_zero, Option.some.injEq] at hb
          subst hb
          refine ⟨v, hv, ?_⟩
          rw [Nat.add_zero, h2 i (by omega), List.getElem?_set_self (by omega)]
        | succ j =>
          obtain ⟨v', hv', hr⟩ := h3 j b (by simpa using hb)
          exact ⟨v', hv', by rw [← hr]; congr 1; omega⟩

theorem evalLoop_isOk {L S V : Type} (store : V → V) (evalQ : List L → List S → Except PyErr V) :
    ∀ (bs : List (Int × List L × List S)) (i : Nat) (a : List V), a.length = i + bs.length →
      (∀ b ∈ bs, ∃ v, evalQ b.2.1 b.2.2 = .ok v) → ∃ res, evalLoop store evalQ i bs a = .ok res
  | [], _, a, _, _ => ⟨a, rfl⟩
  | (q, qy, qs) :: bs, i, a, hl, h => by
    simp only [List.length_cons] at hl
    obtain ⟨v, hv⟩ := h (q, qy, qs) (by simp)
    obtain ⟨res, hr⟩ := evalLoop_isOk store evalQ bs (i + 1) (a.set i (store v)) (by simp; omega)
      (fun b hb => h b (by simp [hb]))
    refine ⟨res, ?_⟩
    simp only [evalLoop, bind, Except.bind]
    simp only at hv
    rw [hv]
    simp only [pySet_ok (store v) (by omega : i < a.length)]
    exact hr

/-- The first query whose evaluation raises makes the loop raise the same error. -/
theorem evalLoop_error {L S V : Type} (store : V → V) (evalQ : List L → List S → Except PyErr V) :
    ∀ (pre : List (Int × List L × List S)) (b : Int × List L × List S) (post : List (Int × List L × List S))
      (i : Nat) (a : List V) (e : PyErr), a.length = i + (pre ++ b :: post).length →
      (∀ b ∈ pre, ∃ v, evalQ b.2.1 b.2.2 = .ok v) → evalQ b.2.1 b.2.2 = .error e →
      evalLoop store evalQ i (pre ++ b :: post) a = .error e
  | [], (q, qy, qs), post, i, a, e, _, _, hb => by
    simp only at hb
    simp [evalLoop, bind, Except.bind, hb]
  | (q, qy, qs) :: pre, b, post, i, a, e, hl, h, hb => by
    simp only [List.cons_append, List.length_cons] at hl
    obtain ⟨v, hv⟩ := h (q, qy, qs) (by simp)
    have := evalLoop_error store evalQ pre b post (i + 1) (a.set i (store v)) e (by simp at hl ⊢; omega)
      (fun b hb => h b (by simp [hb])) hb
    simp only [List.cons_append, evalLoop, bind, Except.bind]
    simp only at hv
    rw [hv]
    simp only [pySet_ok (store v) (by omega : i < a.length)]
    exact this

theorem length_queryIter {R L S : Type} {X : List R} {nf : Nat} {y : List L} {ids : List Int}
    {d : Dataset R L} {yPred : List S} (h : mkDataset X nf y ids = .ok d) :
    (queryIter d yPred).length = d.queryIds.length := by
  have b := built_of_mk h
  simp only [queryIter, List.length_map, Dataset.queryIterator, List.length_zip, List.length_tail, b.length_offs]
  omega

end Verif
