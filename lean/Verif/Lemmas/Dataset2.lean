/-
More lemmas about datasets: contiguity, sizes, subsets, splits, folds.
-/
import Verif.Lemmas.Dataset
import Mathlib.Data.List.NodupEquivFin
import Mathlib.Algebra.BigOperators.Group.List.Basic
import Mathlib.Tactic.Ring

namespace Verif
open Spec

theorem contiguous_iff_sublist (ids : List Int) :
    Contiguous ids ↔ ∀ a b, [a, b, a].Sublist ids → b = a := by
  constructor
  · intro hc a b hs
    rw [List.sublist_iff_exists_orderEmbedding_getElem?_eq] at hs
    obtain ⟨f, hf⟩ := hs
    have h0 := hf 0; have h1 := hf 1; have h2 := hf 2
    simp at h0 h1 h2
    have l01 : f 0 < f 1 := f.lt_iff_lt.2 (by decide)
    have l12 : f 1 < f 2 := f.lt_iff_lt.2 (by decide)
    have := hc (f 0) (f 1) (f 2) a l01 l12 h0.symm h2.symm
    rw [← h1] at this; simpa using this
  · intro h i j k a hij hjk hi hk
    obtain ⟨hi', hi⟩ := List.getElem?_eq_some_iff.1 hi
    obtain ⟨hk', hk⟩ := List.getElem?_eq_some_iff.1 hk
    have hj' : j < ids.length := by omega
    have hs : [ids[i], ids[j], ids[k]].Sublist ids := by
      have : [ids[i], ids[j], ids[k]] = List.map ids.get [⟨i, hi'⟩, ⟨j, hj'⟩, ⟨k, hk'⟩] := by simp
      rw [this]
      refine List.map_getElem_sublist (is := [⟨i, hi'⟩, ⟨j, hj'⟩, ⟨k, hk'⟩]) ?_
      simp; omega
    rw [hi, hk] at hs
    rw [List.getElem?_eq_getElem hj', h a _ hs]

theorem contiguous_sublist {a b : List Int} (h : Contiguous b) (hs : a.Sublist b) : Contiguous a := by
  rw [contiguous_iff_sublist] at h ⊢
  intro x y hxy
  exact h x y (hxy.trans hs)

instance (ids : List Int) : Decidable (Contiguous ids) :=
  decidable_of_iff (∀ k < ids.length, ∀ j < k, ∀ i < j, ids[i]? = ids[k]? → ids[j]? = ids[i]?) (by
    constructor
    · intro h i j k a hij hjk hi hk
      have hk' := (List.getElem?_eq_some_iff.1 hk).1
      rw [h k hk' j hjk i hij (hi.trans hk.symm), hi]
    · intro h k hk j hj i hi he
      have hi' : i < ids.length := by omega
      have := h i j k ids[i] hi hj (by simp) (by rw [← he]; simp)
      rw [this]; simp)

/-! ### Sizes -/

theorem sum_diffs : ∀ (o : Nat) (os : List Nat), (o :: os).Pairwise (· < ·) →
    (((o :: os).zip os).map (fun p => p.2 - p.1)).sum = (o :: os).getLast (by simp) - o := by
  intro o os
  induction os generalizing o with
  | nil => simp
  | cons b os ih =>
    intro h
    rw [List.pairwise_cons] at h
    have h2 := ih b h.2
    have hb : o < b := h.1 b (by simp)
    simp only [List.zip_cons_cons, List.map_cons, List.sum_cons, h2]
    rw [List.getLast_cons (List.cons_ne_nil b os)]
    have : b ≤ (b :: os).getLast (by simp) := by
      have hm := List.getLast_mem (l := b :: os) (by simp)
      rcases List.mem_cons.1 hm with h3 | h3
      · omega
      · have := (List.pairwise_cons.1 h.2).1 _ h3; omega
    omega

theorem Built.sum_sizes {R L : Type} {d : Dataset R L} {ids : List Int} (b : Built d ids) :
    d.getQuerySizes.sum = ids.length := by
  unfold Dataset.getQuerySizes
  have hh := b.head
  have hl := b.getLast
  have hs := b.strict
  cases ho : d.queryOffsets with
  | nil => simp [ho] at hh
  | cons o os =>
    rw [ho] at hh hl hs
    rw [List.tail_cons, sum_diffs o os hs]
    rw [List.getLast?_eq_some_getLast (by simp)] at hl
    simp at hh hl
    omega

theorem count_eq_countP_range (ids : List Int) (q : Int) :
    ids.count q = (List.range ids.length).countP (fun i => decide (ids[i]? = some q)) := by
  induction ids using List.reverseRecOn with
  | nil => rfl
  | append_singleton ids a ih =>
    rw [List.count_append, ih, List.length_append, List.length_singleton, List.range_succ,
      List.countP_append]
    congr 1
    · apply List.countP_congr
      intro i hi
      rw [List.getElem?_append_left (List.mem_range.1 hi)]
    · simp [List.count_singleton]

theorem countP_interval (n s e : Nat) (hse : s ≤ e) (hen : e ≤ n) :
    (List.range n).countP (fun i => decide (s ≤ i ∧ i < e)) = e - s := by
  have h : List.range n = List.range' 0 s ++ (List.range' s (e - s) ++ List.range' e (n - e)) := by
    rw [List.range_eq_range']
    have h2 : List.range' s (e - s) ++ List.range' e (n - e) = List.range' s (n - s) := by
      have := List.range'_append_1 (s := s) (m := e - s) (n := n - e)
      rw [show s + (e - s) = e by omega] at this
      rw [this]; congr 1; omega
    rw [h2]
    have := List.range'_append_1 (s := 0) (m := s) (n := n - s)
    rw [Nat.zero_add] at this
    rw [this]; congr 1; omega
  rw [h, List.countP_append, List.countP_append]
  rw [List.countP_eq_zero.2, List.countP_eq_length.2, List.countP_eq_zero.2]
  · simp
  · intro i hi; rw [List.mem_range'_1] at hi; simp; omega
  · intro i hi; rw [List.mem_range'_1] at hi; simp; omega
  · intro i hi; rw [List.mem_range'_1] at hi; simp; omega

theorem Built.size_of_contiguous {R L : Type} {d : Dataset R L} {ids : List Int} (b : Built d ids)
    (hc : Contiguous ids) {q : Int} {s e : Nat} (h : (q, s, e) ∈ d.queryIterator) :
    ids.count q = e - s := by
  obtain ⟨_, _, h1, h2⟩ := b.block_start h
  rw [count_eq_countP_range, ← countP_interval ids.length s e (by omega) h2]
  apply List.countP_congr
  intro i _
  have := b.block_id_of_contiguous hc h (i := i)
  simp [this]

/-! ### Rebuilding -/

theorem Built.length_getQids {R L : Type} {d : Dataset R L} (init : List Int) :
    (d.getQidsFrom init).length = init.length := by
  unfold Dataset.getQidsFrom; rw [Dataset.length_foldl_fillSlice]

theorem Built.getQids_of_contiguous {R L : Type} {d : Dataset R L} {ids : List Int} (b : Built d ids)
    (hc : Contiguous ids) (h32 : ∀ q ∈ ids, IsInt32 q) (hy : d.y.length = ids.length) :
    d.getQids = ids :=
  b.getQidsFrom_of_contiguous hc h32 (by simp [Dataset.nInstances, hy])

theorem idxOf_eq_of {l : List Int} {q : Int} {s : Nat} (h : l[s]? = some q)
    (hlt : ∀ i < s, l[i]? ≠ some q) : l.idxOf q = s := by
  have hs := (List.getElem?_eq_some_iff.1 h).1
  have hmem : q ∈ l := List.mem_of_getElem? h
  have hget : l[l.idxOf q]? = some q := List.getElem?_idxOf hmem
  rcases Nat.lt_trichotomy (l.idxOf q) s with h1 | h1 | h1
  · exact absurd hget (hlt _ h1)
  · exact h1
  · exfalso
    have := List.not_of_lt_findIdx (xs := l) (p := (· == q)) (i := s) (by simpa [List.idxOf] using h1)
    have h9 := (List.getElem?_eq_some_iff.1 h).2
    simp [h9] at this

/-- Two id arrays with the same first occurrences give the same query structure. -/
theorem Built.ext {R L R' L' : Type} {d : Dataset R L} {d' : Dataset R' L'} {ids ids' : List Int} (b : Built d ids)
    (b' : Built d' ids') (hmem : ∀ q, q ∈ ids ↔ q ∈ ids') (hlen : ids.length = ids'.length)
    (hidx : ∀ q ∈ ids, ids.idxOf q = ids'.idxOf q) :
    d.queryIds = d'.queryIds ∧ d.queryOffsets = d'.queryOffsets := by
  have hq : d.queryIds = d'.queryIds := by
    have hp : d.queryIds.Perm d'.queryIds := by
      rw [List.perm_ext_iff_of_nodup b.nodup b'.nodup]
      intro q; rw [b.mem_iff, b'.mem_iff, hmem]
    have ho' : d'.queryIds.Pairwise (fun a c => ids.idxOf a < ids.idxOf c) := by
      refine b'.order.imp_of_mem ?_
      intro x z hx hz hxz
      rw [hidx x ((hmem x).2 (b'.mem_iff.1 hx)), hidx z ((hmem z).2 (b'.mem_iff.1 hz))]
      exact hxz
    refine List.Perm.eq_of_pairwise ?_ b.order ho' hp
    intro x z _ _ h1 h2; omega
  refine ⟨hq, ?_⟩
  rw [b.offs, b'.offs, hq, hlen]
  congr 1
  apply List.map_congr_left
  intro q hq'
  exact hidx q ((hmem q).2 (b'.mem_iff.1 hq'))

/-- The per-row ids always regenerate the query structure, contiguous or not. -/
theorem Built.rebuild {R L : Type} {d : Dataset R L} {ids : List Int} (b : Built d ids)
    (h32 : ∀ q ∈ ids, IsInt32 q) (hy : d.y.length = ids.length) :
    (∀ q, q ∈ ids ↔ q ∈ d.getQids) ∧ d.getQids.length = ids.length ∧
      (∀ q ∈ ids, ids.idxOf q = d.getQids.idxOf q) := by
  have hcell : ∀ {q s e i}, (q, s, e) ∈ d.queryIterator → s ≤ i → i < e →
      d.getQids[i]? = some q := by
    intro q s e i h h1 h2
    have hb := b.block_start h
    unfold Dataset.getQids Dataset.getQidsFrom
    rw [b.fill_get Dataset.castInt32 (by simp [Dataset.nInstances, hy]; omega) h h1 h2,
      Built.castInt32_of (h32 q hb.2.1)]
  have hblock : ∀ q ∈ ids, ∃ e, (q, ids.idxOf q, e) ∈ d.queryIterator := by
    intro q hq
    obtain ⟨k, hk⟩ := List.mem_iff_getElem?.1 (b.mem_iff.2 hq)
    have ho := b.offs_get hk
    have hk1 : k + 1 < d.queryOffsets.length := by
      have := (List.getElem?_eq_some_iff.1 hk).1
      rw [b.length_offs]; omega
    exact ⟨d.queryOffsets[k+1], Dataset.mem_queryIterator.2 ⟨k, hk, ho, by simp⟩⟩
  have hlen : d.getQids.length = ids.length := by
    unfold Dataset.getQids
    rw [Built.length_getQids]; simp [Dataset.nInstances, hy]
  refine ⟨?_, hlen, ?_⟩
  · intro q
    constructor
    · intro hq
      obtain ⟨e, he⟩ := hblock q hq
      have := b.block_start he
      exact List.mem_of_getElem? (hcell he (Nat.le_refl _) this.2.2.1)
    · intro hq
      obtain ⟨i, hi⟩ := List.mem_iff_getElem?.1 hq
      have hi' : i < ids.length := by rw [← hlen]; exact (List.getElem?_eq_some_iff.1 hi).1
      obtain ⟨q', s, e, h, h1, h2⟩ := b.enclosing hi'
      rw [hcell h h1 h2] at hi
      injection hi with hi
      rw [← hi]; exact (b.block_start h).2.1
  · intro q hq
    obtain ⟨e, he⟩ := hblock q hq
    have hb := b.block_start he
    symm
    refine idxOf_eq_of (hcell he (Nat.le_refl _) hb.2.2.1) ?_
    intro i hi hcon
    obtain ⟨q', s, e', h, h1, h2⟩ := b.enclosing (i := i) (by omega)
    rw [hcell h h1 h2] at hcon
    injection hcon with hcon
    subst hcon
    have := (b.block_start h).1
    omega

/-! ### Selecting rows -/

theorem maskSelect_zip {α β : Type} (p : β → Bool) :
    ∀ (a : List α) (b : List β), a.length = b.length →
      maskSelect a (b.map p) = ((a.zip b).filter (fun t => p t.2)).map (·.1) := by
  intro a
  induction a with
  | nil => intro b _; simp [maskSelect]
  | cons x a ih =>
    intro b hl
    cases b with
    | nil => simp at hl
    | cons z b =>
      have h := ih b (by simpa using hl)
      unfold maskSelect at h ⊢
      by_cases hp : p z <;> simp [hp, h]

theorem filter_zip_fst {α β γ : Type} (p : γ → Bool) : ∀ (a : List α) (b : List β) (c : List γ),
    a.length = c.length → b.length = c.length →
    ((a.zip c).filter (fun t => p t.2)).map (·.1) =
      ((a.zip (b.zip c)).filter (fun t => p t.2.2)).map (·.1) := by
  intro a
  induction a with
  | nil => intros; rfl
  | cons x a ih =>
    intro b c h1 h2
    cases c with
    | nil => simp at h1
    | cons z c =>
      cases b with
      | nil => simp at h2
      | cons w b =>
        have h := ih b c (by simpa using h1) (by simpa using h2)
        by_cases hp : p z <;> simp [hp, h]

theorem filter_zip_snd {α β γ : Type} (p : γ → Bool) : ∀ (a : List α) (b : List β) (c : List γ),
    a.length = c.length → b.length = c.length →
    ((b.zip c).filter (fun t => p t.2)).map (·.1) =
      ((a.zip (b.zip c)).filter (fun t => p t.2.2)).map (·.2.1) := by
  intro a
  induction a with
  | nil =>
    intro b c h1 h2
    have hc : c = [] := by simpa using h1.symm
    subst hc; simp
  | cons x a ih =>
    intro b c h1 h2
    cases c with
    | nil => simp at h1
    | cons z c =>
      cases b with
      | nil => simp at h2
      | cons w b =>
        have h := ih b c (by simpa using h1) (by simpa using h2)
        by_cases hp : p z <;> simp [hp, h]

theorem filter_zip_third {α β γ : Type} (p : γ → Bool) : ∀ (a : List α) (b : List β) (c : List γ),
    a.length = c.length → b.length = c.length →
    c.filter p = ((a.zip (b.zip c)).filter (fun t => p t.2.2)).map (·.2.2) := by
  intro a
  induction a with
  | nil =>
    intro b c h1 h2
    have hc : c = [] := by simpa using h1.symm
    subst hc; simp
  | cons x a ih =>
    intro b c h1 h2
    cases c with
    | nil => simp at h1
    | cons z c =>
      cases b with
      | nil => simp at h2
      | cons w b =>
        have h := ih b c (by simpa using h1) (by simpa using h2)
        by_cases hp : p z <;> simp [hp, h]

theorem zip3_of_filter {α β γ : Type} (l : List (α × β × γ)) :
    (l.map (·.1)).zip ((l.map (·.2.1)).zip (l.map (·.2.2))) = l := by
  induction l with
  | nil => rfl
  | cons t l ih => simp [ih]

end Verif
