/-
From argsort to rankings.
-/
import Verif.Model.Metrics
import Verif.Spec.Metrics
import Verif.Lemmas.Dataset3

namespace Verif
open Spec Metrics

theorem gather_fst_zip {α β : Type} {y : List α} {s : List β} (h : y.length = s.length) (idx : List Nat) :
    (gather (y.zip s) idx).map (·.1) = gather y idx := by
  rw [← gather_map, List.map_fst_zip (by omega)]

theorem gather_snd_zip {α β : Type} {y : List α} {s : List β} (h : y.length = s.length) (idx : List Nat) :
    (gather (y.zip s) idx).map (·.2) = gather s idx := by
  rw [← gather_map, List.map_snd_zip (by omega)]

theorem gather_pairwise' {α : Type} {v : List α} {R : α → α → Prop} : ∀ {idx : List Nat},
    (idx.Pairwise (fun i j => ∀ a ∈ v[i]?, ∀ b ∈ v[j]?, R a b)) → (gather v idx).Pairwise R
  | [], _ => by simp [gather]
  | i :: idx, h => by
    rw [List.pairwise_cons] at h
    have ih := gather_pairwise' h.2
    unfold gather at *
    rw [List.filterMap_cons]
    cases hv : v[i]? with
    | none => exact ih
    | some a =>
      rw [List.pairwise_cons]
      refine ⟨?_, ih⟩
      intro b hb
      obtain ⟨j, hj, hb⟩ := List.mem_filterMap.1 hb
      exact h.1 j hj a hv b hb

/-- The documents in the order in which the metrics visit them. -/
def rankedDocs {L S : Type} (sort : List S → List Nat) (y : List L) (s : List S) : List (L × S) :=
  gather (y.zip s) (sort s).reverse

theorem rankedDocs_isRanking {L S : Type} [LE S] {sort : List S → List Nat} {y : List L} {s : List S}
    (hs : IsArgsort s (sort s)) (h : y.length = s.length) : IsRanking (y.zip s) (rankedDocs sort y s) := by
  constructor
  · have hp : (sort s).reverse.Perm (List.range (y.zip s).length) := by
      rw [List.length_zip, h, Nat.min_self]
      exact (List.reverse_perm _).trans hs.1
    have := gather_perm (y.zip s) hp
    rwa [gather_range] at this
  · apply gather_pairwise'
    rw [List.pairwise_reverse]
    refine hs.2.imp ?_
    intro i j hij a ha b hb
    simp only [Option.mem_def] at ha hb
    rw [List.getElem?_zip_eq_some] at ha hb
    exact hij _ hb.2 _ ha.2

theorem topIdx_lt {S : Type} [LE S] {sort : List S → List Nat} {s : List S}
    (hs : IsArgsort s (sort s)) (c : Option Int) : ∀ i ∈ topIdx sort c s, i < s.length := by
  intro i hi
  have : i ∈ (sort s).reverse := by
    unfold topIdx at hi
    cases c with
    | none => exact hi
    | some k =>
      obtain ⟨m, hm, _⟩ := pyTake_eq_take k (sort s).reverse
      simp only [hm] at hi
      exact List.mem_of_mem_take hi
  exact (mem_range_of_isArgsort hs).1 (List.mem_reverse.1 this)

theorem gather_topIdx {L S : Type} [LE S] {sort : List S → List Nat} {y : List L} {s : List S}
    (hs : IsArgsort s (sort s)) (h : y.length = s.length) (c : Option Nat) :
    gather y (topIdx sort (c.map Int.ofNat) s) = retrieved c (rankedDocs sort y s) := by
  have hlt : ∀ i ∈ (sort s).reverse, i < y.length := fun i hi => by
    rw [h]; exact (mem_range_of_isArgsort hs).1 (List.mem_reverse.1 hi)
  cases c with
  | none => exact (gather_fst_zip h _).symm
  | some k =>
    simp only [topIdx, Option.map_some, retrieved, top, Int.ofNat_eq_natCast, pyTake_of_nonneg, List.map_take]
    rw [gather_take _ _ _ hlt, rankedDocs, gather_fst_zip h]

theorem length_topIdx {L S : Type} [LE S] {sort : List S → List Nat} {y : List L} {s : List S}
    (hs : IsArgsort s (sort s)) (h : y.length = s.length) (c : Option Nat) :
    (topIdx sort (c.map Int.ofNat) s).length = (retrieved c (rankedDocs sort y s)).length := by
  rw [← gather_topIdx hs h, length_gather]
  intro i hi
  rw [h]
  exact topIdx_lt hs _ i hi

theorem length_retrieved {L S : Type} [LE S] {y : List L} {s : List S} {r : List (L × S)}
    (h : y.length = s.length) (hr : IsRanking (y.zip s) r) (c : Option Nat) :
    (retrieved c r).length = nRetrieved c y.length := by
  have := hr.perm.length_eq
  rw [List.length_zip] at this
  cases c <;> simp [retrieved, top, nRetrieved] <;> omega

/-- The labels of a whole ranking are a permutation of the labels of the query. -/
theorem labels_perm {L S : Type} [LE S] {y : List L} {s : List S} {r : List (L × S)}
    (h : y.length = s.length) (hr : IsRanking (y.zip s) r) : (r.map (·.1)).Perm y := by
  have := hr.perm.map (·.1)
  rwa [List.map_fst_zip (by omega)] at this

theorem retrieved_sublist_labels {L S : Type} {r : List (L × S)} (c : Option Nat) :
    (retrieved c r).Sublist (r.map (·.1)) := by
  unfold retrieved top
  cases c with
  | none => exact List.Sublist.refl _
  | some k => exact (List.take_sublist k r).map _

/-- A concrete (stable) argsort, used in examples. -/
def argsort {α : Type} [LinearOrder α] (v : List α) : List Nat :=
  (v.zipIdx.insertionSort (fun a b => a.1 ≤ b.1)).map (·.2)

theorem argsort_isArgsort {α : Type} [LinearOrder α] (v : List α) : IsArgsort v (argsort v) := by
  unfold argsort
  have hp := List.perm_insertionSort (fun a b : α × Nat => a.1 ≤ b.1) v.zipIdx
  constructor
  · have := hp.map (·.2)
    simpa [List.range_eq_range'] using this
  · rw [List.pairwise_map]
    haveI : Std.Total (fun a b : α × Nat => a.1 ≤ b.1) := ⟨fun a b => le_total a.1 b.1⟩
    haveI : IsTrans (α × Nat) (fun a b : α × Nat => a.1 ≤ b.1) := ⟨fun a b c h h' => le_trans h h'⟩
    have hs := List.pairwise_insertionSort (fun a b : α × Nat => a.1 ≤ b.1) v.zipIdx
    refine hs.imp_of_mem ?_
    intro a b ha hb hab x hx z hz
    rw [hp.mem_iff] at ha hb
    have h1 := List.mem_zipIdx_iff_getElem?.1 ha
    have h2 := List.mem_zipIdx_iff_getElem?.1 hb
    simp only [Option.mem_def, h1, h2, Option.some.injEq] at hx hz
    subst hx hz
    exact hab

end Verif
