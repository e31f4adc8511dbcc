/-
Lemmas on the rank confusion matrix.
-/
import Verif.Model.Effectiveness
import Verif.Spec.Effectiveness
import Verif.Lemmas.Eval
import Mathlib.Data.List.ProdSigma
import Mathlib.Data.List.Perm.Basic
import Mathlib.Tactic.Ring
import Mathlib.Algebra.BigOperators.Group.List.Basic

namespace Verif
open Eff Spec

/-! ### Matrices as functions -/

/-- The matrix with entries `f a b`. -/
def matOf (n : Nat) (f : Nat → Nat → Nat) : List (List Nat) := (List.range n).map (fun a => (List.range n).map (f a))

theorem set_map_range {α : Type} {n i : Nat} (f : Nat → α) (x : α) : ((List.range n).map f).set i x = (List.range n).map (fun a => if a = i then x else f a) := by
  apply List.ext_getElem
  · simp
  · intro k h1 h2
    simp only [List.getElem_set, List.getElem_map, List.getElem_range]
    by_cases hk : i = k
    · simp [hk]
    · rw [if_neg hk, if_neg (fun h => hk h.symm)]

theorem pyGet_map_range {α : Type} {n i : Nat} (f : Nat → α) (h : i < n) : pyGet ((List.range n).map f) (i : Int) = .ok (f i) := by
  unfold pyGet
  simp [h]

theorem addOne_matOf {n i j : Nat} (f : Nat → Nat → Nat) (hi : i < n) (hj : j < n) :
    addOne (matOf n f) (i : Int) (j : Int) = .ok (matOf n (fun a b => f a b + if (i, j) = (a, b) then 1 else 0)) := by
  unfold addOne matOf
  rw [pyGet_map_range _ hi]
  show (Bind.bind (m := Except PyErr) (pyGet ((List.range n).map (f i)) (j : Int)) _) = _
  rw [pyGet_map_range _ hj]
  show (Bind.bind (m := Except PyErr) (pySet ((List.range n).map (f i)) (j : Int) (f i j + 1)) _) = _
  rw [pySet_ok _ (by simpa using hj)]
  show pySet _ (i : Int) _ = _
  rw [pySet_ok _ (by simpa using hi), set_map_range, set_map_range]
  congr 1
  apply List.map_congr_left
  intro a _
  by_cases ha : a = i
  · subst ha
    rw [if_pos rfl]
    apply List.map_congr_left
    intro b _
    by_cases hb : b = j
    · subst hb; simp
    · rw [if_neg hb]
      show f a b = f a b + if (a, j) = (a, b) then 1 else 0
      rw [if_neg]
      · rfl
      · rintro h
        exact hb (Prod.mk.inj h).2.symm
  · rw [if_neg ha]
    apply List.map_congr_left
    intro b _
    show f a b = f a b + if (i, j) = (a, b) then 1 else 0
    rw [if_neg]
    · rfl
    · rintro h
      exact ha (Prod.mk.inj h).1.symm

/-! ### The cell of a pair -/

section
variable {L S : Type} [LinearOrder L] [LinearOrder S]

/-- The cell that is increased for a pair of documents, the first stored before the second. -/
def cellOf (lab : L → Nat) (skip : Bool) (p : (L × S) × (L × S)) : Option (Nat × Nat) :=
  if skip = true ∧ p.1.1 = p.2.1 then none
  else if p.1.2 < p.2.2 then some (lab p.1.1, lab p.2.1) else some (lab p.2.1, lab p.1.1)

theorem confusionPair_spec {toI : L → Int} {lab : L → Nat} (hlab : ∀ l, toI l = (lab l : Int)) (skip : Bool) {y : List L} {yPred : List S} {n : Nat}
    (f : Nat → Nat → Nat) {i j : Nat} {p1 p2 : L × S} (h1 : (y.zip yPred)[i]? = some p1) (h2 : (y.zip yPred)[j]? = some p2)
    (l1 : lab p1.1 < n) (l2 : lab p2.1 < n) :
    confusionPair toI skip y yPred (matOf n f) (i, j) =
      .ok (matOf n (fun a b => f a b + if cellOf lab skip (p1, p2) = some (a, b) then 1 else 0)) := by
  rw [List.getElem?_zip_eq_some] at h1 h2
  have gy1 : pyGet y (i : Int) = .ok p1.1 := by unfold pyGet; simp [h1.1]
  have gy2 : pyGet y (j : Int) = .ok p2.1 := by unfold pyGet; simp [h2.1]
  have gs1 : pyGet yPred (i : Int) = .ok p1.2 := by unfold pyGet; simp [h1.2]
  have gs2 : pyGet yPred (j : Int) = .ok p2.2 := by unfold pyGet; simp [h2.2]
  unfold confusionPair cellOf
  simp only [gy1, gy2, gs1, gs2]
  by_cases hs : skip = true ∧ p1.1 = p2.1
  · simp only [if_pos hs]
    show (if skip = true ∧ p1.1 = p2.1 then pure (matOf n f) else _ : Except PyErr _) = _
    rw [if_pos hs]
    simp
    rfl
  · simp only [if_neg hs]
    show (if skip = true ∧ p1.1 = p2.1 then pure (matOf n f) else _ : Except PyErr _) = _
    rw [if_neg hs]
    show (if p1.2 < p2.2 then addOne (matOf n f) (toI p1.1) (toI p2.1) else addOne (matOf n f) (toI p2.1) (toI p1.1)) = _
    by_cases hlt : p1.2 < p2.2
    · simp only [if_pos hlt, hlab, Option.some.injEq]
      exact addOne_matOf f l1 l2
    · simp only [if_neg hlt, hlab, Option.some.injEq]
      exact addOne_matOf f l2 l1

theorem confusionFold_spec {toI : L → Int} {lab : L → Nat} (hlab : ∀ l, toI l = (lab l : Int)) (skip : Bool) {y : List L} {yPred : List S} {n : Nat}
    (hn : ∀ l ∈ y, lab l < n) (hl : yPred.length = y.length) : ∀ (ps : List (Nat × Nat)) (f : Nat → Nat → Nat),
    (∀ p ∈ ps, p.1 < y.length ∧ p.2 < y.length) →
    ps.foldlM (confusionPair toI skip y yPred) (matOf n f) = .ok (matOf n (fun a b => f a b +
      (ps.filterMap (fun p => do let u ← (y.zip yPred)[p.1]?; let v ← (y.zip yPred)[p.2]?; pure (u, v))).countP
        (fun q => decide (cellOf lab skip q = some (a, b)))))
  | [], f, _ => by simp; rfl
  | (i, j) :: ps, f, h => by
    obtain ⟨hi, hj⟩ := h (i, j) List.mem_cons_self
    have hi' : i < (y.zip yPred).length := by rw [List.length_zip, hl]; simpa using hi
    have hj' : j < (y.zip yPred).length := by rw [List.length_zip, hl]; simpa using hj
    have e1 := List.getElem?_eq_getElem hi'
    have e2 := List.getElem?_eq_getElem hj'
    rw [List.foldlM_cons, confusionPair_spec hlab skip f e1 e2 (by simpa using hn _ (List.getElem_mem hi)) (by simpa using hn _ (List.getElem_mem hj))]
    show List.foldlM _ _ _ = _
    rw [confusionFold_spec hlab skip hn hl ps _ (fun p hp => h p (List.mem_cons_of_mem _ hp))]
    congr 2
    funext a b
    rw [List.filterMap_cons]
    simp only [e1, e2]
    show _ = f a b + List.countP _ (((y.zip yPred)[i], (y.zip yPred)[j]) :: _)
    rw [List.countP_cons]
    simp only [decide_eq_true_eq]
    omega

end

/-! ### The pairs of a query -/

/-- Every document of a list with itself and with the documents after it. -/
def upPairs {α : Type} : List α → List (α × α)
  | [] => []
  | d :: ds => (d, d) :: ds.map (fun d' => (d, d')) ++ upPairs ds

theorem filterMap_range'_get {α : Type} (docs : List α) : ∀ (n s : Nat), s + n ≤ docs.length →
    (List.range' s n).filterMap (fun i => docs[i]?) = (docs.drop s).take n
  | 0, s, _ => by simp
  | n + 1, s, h => by
    rw [List.range'_succ, List.filterMap_cons, List.getElem?_eq_getElem (by omega), filterMap_range'_get docs n (s + 1) (by omega)]
    rw [List.drop_eq_getElem_cons (show s < docs.length by omega), List.take_succ_cons]

theorem blockPairs_docs {α : Type} (docs : List α) : ∀ (n s e : Nat), e = s + n → e ≤ docs.length →
    (blockPairs s e).filterMap (fun p => do let u ← docs[p.1]?; let v ← docs[p.2]?; pure (u, v)) = upPairs (slice s e docs)
  | 0, s, e, he, hl => by
    subst he
    simp [blockPairs, slice, upPairs]
  | n + 1, s, e, he, hl => by
    have ih := blockPairs_docs docs n (s + 1) e (by omega) hl
    have hs : s < docs.length := by omega
    have e1 : slice s e docs = docs[s] :: slice (s + 1) e docs := by
      unfold slice
      rw [List.drop_eq_getElem_cons (by simp; omega)]
      simp
    have e2 : blockPairs s e = ((List.range' s (e - s)).map (fun j => (s, j))) ++ blockPairs (s + 1) e := by
      unfold blockPairs
      rw [show e - s = (e - (s + 1)) + 1 by omega]
      conv_lhs => rw [List.range'_succ, List.flatMap_cons]
      rw [show e - s = (e - (s + 1)) + 1 by omega]
    have e3 : ((List.range' s (e - s)).map (fun j => (s, j))).filterMap (fun p => do let u ← docs[p.1]?; let v ← docs[p.2]?; pure (u, v)) =
        ((List.range' s (e - s)).filterMap (fun i => docs[i]?)).map (fun d' => (docs[s], d')) := by
      rw [List.filterMap_map, List.map_filterMap]
      congr 1
      funext j
      simp only [Function.comp_apply, List.getElem?_eq_getElem hs]
      cases docs[j]? <;> rfl
    rw [e2, List.filterMap_append, ih, e3, filterMap_range'_get docs _ _ (by omega), e1, upPairs]
    congr 1
    have : (docs.drop s).take (e - s) = docs[s] :: slice (s + 1) e docs := by
      rw [← e1]
      unfold slice
      rw [List.drop_take]
    rw [this]
    rfl

theorem blockPairs_lt {s e n : Nat} (he : e ≤ n) {p : Nat × Nat} (h : p ∈ blockPairs s e) : p.1 < n ∧ p.2 < n := by
  unfold blockPairs at h
  obtain ⟨i, hi, h⟩ := List.mem_flatMap.1 h
  obtain ⟨j, hj, rfl⟩ := List.mem_map.1 h
  rw [List.mem_range'_1] at hi hj
  simp only
  omega

/-! ### Counting -/

section
variable {L S : Type} [LinearOrder L] [LinearOrder S]

theorem countP_product_cons {α : Type} (P : α × α → Bool) (d : α) (ds : List α) :
    ((d :: ds) ×ˢ (d :: ds)).countP P = (if P (d, d) then 1 else 0) + ds.countP (fun d' => P (d, d')) + ds.countP (fun d' => P (d', d)) +
      (ds ×ˢ ds).countP P := by
  have key : ∀ l : List α, (l ×ˢ (d :: ds)).countP P = l.countP (fun d' => P (d', d)) + (l ×ˢ ds).countP P := by
    intro l
    induction l with
    | nil => simp
    | cons x l ih =>
      rw [List.product_cons, List.product_cons, List.countP_append, List.countP_append, ih, List.map_cons, List.countP_cons, List.countP_cons]
      omega
  rw [List.product_cons, List.countP_append, key, List.countP_map, List.countP_cons]
  simp only [Function.comp_def]
  omega

theorem countP_add_or {α : Type} (p q r : α → Bool) : ∀ (l : List α), (∀ x ∈ l, r x = (p x || q x) ∧ (p x && q x) = false) → l.countP r = l.countP p + l.countP q
  | [], _ => rfl
  | x :: l, h => by
    have ih := countP_add_or p q r l (fun u hu => h u (List.mem_cons_of_mem _ hu))
    obtain ⟨h1, h2⟩ := h x List.mem_cons_self
    rw [List.countP_cons, List.countP_cons, List.countP_cons, ih, h1]
    cases hp : p x <;> cases hq : q x <;> simp_all <;> omega

/-- Different labels, no ties between them: the cell counts the pairs with the lower score for the first label. -/
theorem upPairs_offdiag {lab : L → Nat} {skip : Bool} {la lb : L} (hab : la ≠ lb) : ∀ (docs : List (L × S)),
    (∀ u ∈ docs, ∀ v ∈ docs, (lab u.1 = lab v.1 → u.1 = v.1)) → (∀ u ∈ docs, (lab u.1 = lab la → u.1 = la) ∧ (lab u.1 = lab lb → u.1 = lb)) →
    (∀ u ∈ docs, ∀ v ∈ docs, u.1 ≠ v.1 → u.2 ≠ v.2) →
    (upPairs docs).countP (fun q => decide (cellOf lab skip q = some (lab la, lab lb))) = lowerPairs docs la lb
  | [], _, _, _ => by simp [upPairs, lowerPairs]
  | d :: ds, hinj, hlab, hties => by
    have ih := upPairs_offdiag (skip := skip) hab ds (fun u hu v hv => hinj u (List.mem_cons_of_mem _ hu) v (List.mem_cons_of_mem _ hv))
      (fun u hu => hlab u (List.mem_cons_of_mem _ hu)) (fun u hu v hv => hties u (List.mem_cons_of_mem _ hu) v (List.mem_cons_of_mem _ hv))
    unfold lowerPairs at ih ⊢
    rw [upPairs, List.cons_append, List.countP_cons, List.countP_append, ih, List.countP_map, countP_product_cons]
    have hself : cellOf lab skip (d, d) ≠ some (lab la, lab lb) := by
      unfold cellOf
      have hd := hlab d List.mem_cons_self
      split
      · simp
      · split <;>
        · simp only [ne_eq, Option.some.injEq, Prod.mk.injEq]
          rintro ⟨h1, h2⟩
          exact hab ((hd.1 h1).symm.trans (hd.2 h2))
    rw [if_neg (by simpa using hself), if_neg (by simp)]
    have hsplit := countP_add_or (fun d' => decide ((d, d').1.1 = la ∧ (d, d').2.1 = lb ∧ (d, d').1.2 < (d, d').2.2))
      (fun d' => decide ((d', d).1.1 = la ∧ (d', d).2.1 = lb ∧ (d', d).1.2 < (d', d).2.2))
      ((fun q => decide (cellOf lab skip q = some (lab la, lab lb))) ∘ fun d' => (d, d')) ds (by
        intro d' hd'
        have h1 := hlab d List.mem_cons_self
        have h2 := hlab d' (List.mem_cons_of_mem _ hd')
        have h3 := hties d List.mem_cons_self d' (List.mem_cons_of_mem _ hd')
        constructor
        · rw [Bool.eq_iff_iff]
          simp only [Function.comp_apply, decide_eq_true_eq, Bool.or_eq_true]
          unfold cellOf
          simp only
          by_cases hs : skip = true ∧ d.1 = d'.1
          · rw [if_pos hs]
            constructor
            · intro h; cases h
            · rintro (⟨h4, h5, -⟩ | ⟨h4, h5, -⟩)
              · exact absurd (h4.symm.trans (hs.2.trans h5)) hab
              · exact absurd (h4.symm.trans (hs.2.symm.trans h5)) hab
          · rw [if_neg hs]
            by_cases hlt : d.2 < d'.2
            · rw [if_pos hlt, Option.some.injEq, Prod.mk.injEq]
              constructor
              · rintro ⟨h4, h5⟩
                exact Or.inl ⟨h1.1 h4, h2.2 h5, hlt⟩
              · rintro (⟨h4, h5, -⟩ | ⟨-, -, h6⟩)
                · rw [h4, h5]; exact ⟨rfl, rfl⟩
                · exact absurd h6 (not_lt.2 hlt.le)
            · rw [if_neg hlt, Option.some.injEq, Prod.mk.injEq]
              constructor
              · rintro ⟨h4, h5⟩
                have e4 := h2.1 h4
                have e5 := h1.2 h5
                refine Or.inr ⟨e4, e5, lt_of_le_of_ne (not_lt.1 hlt) ?_⟩
                exact (h3 (by rw [e4, e5]; exact hab.symm)).symm
              · rintro (⟨-, -, h6⟩ | ⟨h4, h5, -⟩)
                · exact absurd h6 hlt
                · rw [h4, h5]; exact ⟨rfl, rfl⟩
        · rw [Bool.eq_false_iff]
          simp only [ne_eq, Bool.and_eq_true, decide_eq_true_eq]
          rintro ⟨⟨-, -, h5⟩, ⟨-, -, h6⟩⟩
          exact absurd h5 (not_lt.2 h6.le))
    rw [hsplit]
    omega

/-- Twice the number of pairs with the same label: without skipping each document is also paired with itself. -/
theorem upPairs_diag {lab : L → Nat} {la : L} : ∀ (docs : List (L × S)), (∀ u ∈ docs, lab u.1 = lab la → u.1 = la) →
    2 * (upPairs docs).countP (fun q => decide (cellOf lab false q = some (lab la, lab la))) =
      docs.countP (fun d => decide (d.1 = la)) * (docs.countP (fun d => decide (d.1 = la)) + 1)
  | [], _ => by simp [upPairs]
  | d :: ds, hlab => by
    have ih := upPairs_diag ds (fun u hu => hlab u (List.mem_cons_of_mem _ hu))
    rw [upPairs, List.cons_append, List.countP_cons, List.countP_append, List.countP_map, List.countP_cons]
    have hc : ∀ d', cellOf lab false (d, d') = some (lab la, lab la) ↔ lab d.1 = lab la ∧ lab d'.1 = lab la := by
      intro d'
      unfold cellOf
      rw [if_neg (by simp)]
      simp only
      split <;> simp [and_comm]
    by_cases hd : d.1 = la
    · rw [if_pos (by rw [decide_eq_true_eq, hc, hd]; exact ⟨rfl, rfl⟩), if_pos (by simpa using hd)]
      have e : ds.countP ((fun q => decide (cellOf lab false q = some (lab la, lab la))) ∘ fun d' => (d, d')) = ds.countP (fun d => decide (d.1 = la)) := by
        apply List.countP_congr
        intro d' hd'
        simp only [Function.comp_apply, decide_eq_true_eq]
        rw [hc, hd]
        exact ⟨fun h => hlab d' (List.mem_cons_of_mem _ hd') h.2, fun h => ⟨rfl, by rw [h]⟩⟩
      rw [e]
      nlinarith
    · have hd' : lab d.1 ≠ lab la := fun h => hd (hlab d List.mem_cons_self h)
      rw [if_neg (by rw [decide_eq_true_eq, hc]; exact fun h => hd' h.1), if_neg (by simpa using hd)]
      have e : ds.countP ((fun q => decide (cellOf lab false q = some (lab la, lab la))) ∘ fun d' => (d, d')) = 0 := by
        rw [List.countP_eq_zero]
        intro d'' _
        simp only [Function.comp_apply, decide_eq_true_eq]
        rw [hc]
        exact fun h => hd' h.1
      rw [e]
      simpa using ih

/-- With skipping nothing is counted for the same label. -/
theorem upPairs_skip {lab : L → Nat} {la : L} : ∀ (docs : List (L × S)), (∀ u ∈ docs, lab u.1 = lab la → u.1 = la) →
    (upPairs docs).countP (fun q => decide (cellOf lab true q = some (lab la, lab la))) = 0
  | [], _ => by simp [upPairs]
  | d :: ds, hlab => by
    have ih := upPairs_skip ds (fun u hu => hlab u (List.mem_cons_of_mem _ hu))
    have hc : ∀ d' ∈ d :: ds, cellOf lab true (d, d') ≠ some (lab la, lab la) := by
      intro d' hd'
      unfold cellOf
      split
      · simp
      · rename_i hs
        have hne : d.1 ≠ d'.1 := fun h => hs ⟨rfl, h⟩
        split <;>
        · simp only [ne_eq, Option.some.injEq, Prod.mk.injEq]
          rintro ⟨h1, h2⟩
          first
            | exact hne ((hlab d List.mem_cons_self h1).trans (hlab d' hd' h2).symm)
            | exact hne ((hlab d List.mem_cons_self h2).trans (hlab d' hd' h1).symm)
    rw [upPairs, List.cons_append, List.countP_cons, List.countP_append, ih, List.countP_map, if_neg (by simpa using hc d List.mem_cons_self)]
    rw [List.countP_eq_zero.2]
    intro d' hd'
    simpa using hc d' (List.mem_cons_of_mem _ hd')

theorem upPairs_length {α : Type} : ∀ (docs : List α), 2 * (upPairs docs).length = docs.length * (docs.length + 1)
  | [] => rfl
  | d :: ds => by
    have ih := upPairs_length ds
    rw [upPairs, List.cons_append, List.length_cons, List.length_append, List.length_map, List.length_cons]
    nlinarith

/-! ### The matrix of a dataset -/

theorem confusion_spec {R : Type} {X : List R} {nf : Nat} {y : List L} {ids : List Int} {d : Dataset R L} {yPred : List S} (h : mkDataset X nf y ids = .ok d)
    (hc : Contiguous ids) (hy : y.length = ids.length) (hp : yPred.length = ids.length) {toI : L → Int} {lab : L → Nat}
    (hlab : ∀ l, toI l = (lab l : Int)) (skip : Bool) {n : Nat} (hn : ∀ l ∈ y, lab l < n) :
    confusion toI skip n d yPred = .ok (matOf n (fun a b => (d.queryIds.map (fun q =>
      (upPairs (docsOf q ids y yPred)).countP (fun p => decide (cellOf lab skip p = some (a, b))))).sum)) := by
  have b := built_of_mk h
  have hdy : d.y = y := (mkDataset_spec h).2.2.1
  have hids : d.queryIds = d.queryIterator.map (·.1) := by
    unfold Dataset.queryIterator
    rw [List.map_fst_zip]
    rw [List.length_zip, List.length_tail, b.length_offs]
    omega
  have hz : (y.zip yPred).length = ids.length := by rw [List.length_zip]; omega
  unfold confusion
  rw [hdy, show List.replicate n (List.replicate n 0) = matOf n (fun _ _ => 0) by simp [matOf]]
  rw [confusionFold_spec hlab skip hn (by omega)]
  · congr 2
    funext a' b'
    rw [Nat.zero_add, List.filterMap_flatMap, List.countP_flatMap, hids, List.map_map]
    congr 1
    apply List.map_congr_left
    rintro ⟨q, s, e⟩ hm
    have hb := b.block_start hm
    have hq := fun i => b.block_id_of_contiguous hc (i := i) hm
    simp only [Function.comp] at hb ⊢
    rw [blockPairs_docs (y.zip yPred) (e - s) s e (by omega) (by omega), slice_eq_ofQuery hz (by omega) (by omega) hq]
  · intro p hpm
    obtain ⟨⟨q, s, e⟩, hm, hpm⟩ := List.mem_flatMap.1 hpm
    have hb := b.block_start hm
    have he : e ≤ y.length := by omega
    exact blockPairs_lt he hpm

theorem matOf_get {n : Nat} (f : Nat → Nat → Nat) {a b : Nat} (ha : a < n) (hb : b < n) : (matOf n f)[a]?.bind (fun r => r[b]?) = some (f a b) := by
  unfold matOf
  rw [List.getElem?_map, List.getElem?_range ha]
  show ((List.range n).map (f a))[b]? = _
  rw [List.getElem?_map, List.getElem?_range hb]
  rfl

theorem sum_range_ind {n c : Nat} (h : c < n) : ((List.range n).map (fun b => if c = b then 1 else 0)).sum = 1 := by
  induction n with
  | zero => omega
  | succ n ih =>
    rw [List.range_succ, List.map_append, List.sum_append]
    by_cases hc : c = n
    · subst hc
      have : (List.range c).map (fun b => if c = b then 1 else 0) = (List.range c).map (fun _ => 0) := by
        apply List.map_congr_left
        intro b hb
        have := List.mem_range.1 hb
        rw [if_neg (by omega)]
      rw [this]
      simp
    · rw [ih (by omega)]
      simp [hc]

theorem matOf_sum_add {n : Nat} (f g : Nat → Nat → Nat) :
    ((matOf n (fun a b => f a b + g a b)).map List.sum).sum = ((matOf n f).map List.sum).sum + ((matOf n g).map List.sum).sum := by
  unfold matOf
  simp only [List.map_map, Function.comp_def, List.sum_map_add]

theorem matOf_sum_ind {n a b : Nat} (ha : a < n) (hb : b < n) : ((matOf n (fun a' b' => if (a, b) = (a', b') then 1 else 0)).map List.sum).sum = 1 := by
  unfold matOf
  rw [List.map_map]
  have : ∀ a', (List.sum ∘ fun a' => (List.range n).map (fun b' => if (a, b) = (a', b') then 1 else 0)) a' = if a = a' then 1 else 0 := by
    intro a'
    simp only [Function.comp_apply]
    by_cases h : a = a'
    · subst h
      rw [if_pos rfl]
      refine Eq.trans ?_ (sum_range_ind hb)
      congr 1
      apply List.map_congr_left
      intro b' _
      simp
    · rw [if_neg h]
      have : (List.range n).map (fun b' => if (a, b) = (a', b') then 1 else 0) = (List.range n).map (fun _ => 0) := by
        apply List.map_congr_left
        intro b' _
        rw [if_neg (fun e => h (Prod.mk.inj e).1)]
      rw [this]
      simp
  rw [List.map_congr_left (fun a' _ => this a'), sum_range_ind ha]

theorem matOf_zero (n : Nat) : ((matOf n (fun _ _ => 0)).map List.sum).sum = 0 := by
  unfold matOf
  simp [Function.comp_def]

/-- Every element counted in some cell: the cells add up to the number of elements. -/
theorem matOf_sum_count {α : Type} {n : Nat} (cell : α → Option (Nat × Nat)) : ∀ (l : List α), (∀ x ∈ l, ∃ a b, a < n ∧ b < n ∧ cell x = some (a, b)) →
    ((matOf n (fun a b => l.countP (fun x => decide (cell x = some (a, b))))).map List.sum).sum = l.length
  | [], _ => by simpa using matOf_zero n
  | x :: l, h => by
    have ih := matOf_sum_count cell l (fun u hu => h u (List.mem_cons_of_mem _ hu))
    obtain ⟨a, b, ha, hb, e⟩ := h x List.mem_cons_self
    have e2 : (fun a' b' => (x :: l).countP (fun x => decide (cell x = some (a', b')))) =
        fun a' b' => l.countP (fun x => decide (cell x = some (a', b'))) + if (a, b) = (a', b') then 1 else 0 := by
      funext a' b'
      rw [List.countP_cons, e]
      simp
    rw [e2, matOf_sum_add, ih, matOf_sum_ind ha hb, List.length_cons]

theorem matOf_sum_queries {α β : Type} {n : Nat} (cell : α → Option (Nat × Nat)) (g : β → List α) : ∀ (qs : List β),
    (∀ q ∈ qs, ∀ x ∈ g q, ∃ a b, a < n ∧ b < n ∧ cell x = some (a, b)) →
    ((matOf n (fun a b => (qs.map (fun q => (g q).countP (fun x => decide (cell x = some (a, b))))).sum)).map List.sum).sum = (qs.map (fun q => (g q).length)).sum
  | [], _ => by simpa using matOf_zero n
  | q :: qs, h => by
    simp only [List.map_cons, List.sum_cons]
    rw [matOf_sum_add, matOf_sum_count cell (g q) (h q List.mem_cons_self), matOf_sum_queries cell g qs (fun u hu => h u (List.mem_cons_of_mem _ hu))]

theorem upPairs_mem {α : Type} {p : α × α} : ∀ {docs : List α}, p ∈ upPairs docs → p.1 ∈ docs ∧ p.2 ∈ docs
  | d :: ds, h => by
    rw [upPairs, List.cons_append, List.mem_cons, List.mem_append] at h
    rcases h with rfl | h | h
    · simp
    · obtain ⟨d', hd', rfl⟩ := List.mem_map.1 h
      exact ⟨List.mem_cons_self, List.mem_cons_of_mem _ hd'⟩
    · obtain ⟨h1, h2⟩ := upPairs_mem h
      exact ⟨List.mem_cons_of_mem _ h1, List.mem_cons_of_mem _ h2⟩

theorem docsOf_mem {q : Int} {ids : List Int} {y : List L} {yPred : List S} {u : L × S} (h : u ∈ docsOf q ids y yPred) : u.1 ∈ y := by
  unfold docsOf ofQuery at h
  obtain ⟨p, hp, rfl⟩ := List.mem_map.1 h
  have := (List.of_mem_zip (List.mem_filter.1 hp).1).2
  exact (List.of_mem_zip this).1

end

end Verif
