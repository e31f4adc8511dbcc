/-
Lemmas about `_kfold_scoring`.
-/
import Verif.Lemmas.Statistical
import Verif.Lemmas.QuickRank
import Verif.Props.Dataset
import Verif.Lemmas.Kfold

namespace Verif
open Stat Spec Dataset
open Ensemble (foldlM_ok_append foldlM_ok_cons foldlM_ok_nil)
variable {R L S : Type}

theorem maskSelect_pick {α : Type} (p : Int → Bool) : ∀ (ids : List Int) (a : List α), a.length = ids.length →
    maskSelect a (ids.map p) = pick p ids a := by
  intro ids
  induction ids with
  | nil => intro a _; simp [maskSelect, pick]
  | cons q ids ih =>
    intro a h
    match a, h with
    | x :: a, h =>
      have := ih a (by simpa using h)
      simp only [maskSelect, pick] at this
      cases hp : p q <;> simp [maskSelect, pick, hp, this]

theorem count_mask (p : Int → Bool) (ids : List Int) : (ids.map p).count true = ids.countP p := by
  rw [List.count_eq_countP, List.countP_map]
  congr 1
  funext q
  simp

theorem pick_length {α : Type} (p : Int → Bool) : ∀ (ids : List Int) (a : List α), a.length = ids.length →
    (pick p ids a).length = ids.countP p := by
  intro ids
  induction ids with
  | nil => intro a _; simp [pick]
  | cons q ids ih =>
    intro a h
    match a, h with
    | x :: a, h =>
      have := ih a (by simpa using h)
      simp only [pick, List.length_map] at this
      cases hp : p q <;> simp [pick, hp, this]

theorem maskFill_length {α : Type} : ∀ (a : List α) (m : List Bool) (v : List α), (maskFill a m v).length = a.length := by
  intro a m v
  induction a, m, v using maskFill.induct with
  | case1 x a m y v ih => simp [maskFill, ih]
  | case2 x a m v ih => simp [maskFill, ih]
  | case3 a m v h1 h2 => rw [maskFill] <;> assumption

theorem pick_maskFill_self {α : Type} (p : Int → Bool) : ∀ (ids : List Int) (a v : List α), a.length = ids.length → v.length = ids.countP p →
    pick p ids (maskFill a (ids.map p) v) = v := by
  intro ids
  induction ids with
  | nil =>
    intro a v _ h
    have : v = [] := List.length_eq_zero_iff.1 (by simpa using h)
    simp [pick, this]
  | cons q ids ih =>
    intro a v h1 h2
    match a, h1 with
    | x :: a, h1 =>
      cases hp : p q with
      | true =>
        rw [List.countP_cons_of_pos hp] at h2
        match v, h2 with
        | z :: v, h2 =>
          have := ih a v (by simpa using h1) (by simpa using h2)
          simp only [pick] at this
          simp [pick, maskFill, hp, this]
      | false =>
        rw [List.countP_cons_of_neg (by simp [hp])] at h2
        have := ih a v (by simpa using h1) h2
        simp only [pick] at this
        simp [pick, maskFill, hp, this]

theorem pick_maskFill_other {α : Type} (p p' : Int → Bool) (hd : ∀ q, p q = true → p' q = false) : ∀ (ids : List Int) (a v : List α),
    a.length = ids.length → v.length = ids.countP p → pick p' ids (maskFill a (ids.map p) v) = pick p' ids a := by
  intro ids
  induction ids with
  | nil => intro a v _ _; simp [pick]
  | cons q ids ih =>
    intro a v h1 h2
    match a, h1 with
    | x :: a, h1 =>
      cases hp : p q with
      | true =>
        rw [List.countP_cons_of_pos hp] at h2
        match v, h2 with
        | z :: v, h2 =>
          have := ih a v (by simpa using h1) (by simpa using h2)
          simp only [pick] at this
          simp [pick, maskFill, hp, hd q hp, this]
      | false =>
        rw [List.countP_cons_of_neg (by simp [hp])] at h2
        have := ih a v (by simpa using h1) h2
        simp only [pick] at this
        cases hp' : p' q <;> simp [pick, maskFill, hp, hp', this]

/-- Marking the block of a query. -/
theorem fill_block {d : Dataset R L} {ids : List Int} (b : Built d ids) (hc : Contiguous ids) {q : Int} {s e : Nat}
    (h : (q, s, e) ∈ d.queryIterator) (Q : List Int) :
    fillSlice (ids.map (fun x => decide (x ∈ Q))) s e true = ids.map (fun x => decide (x ∈ Q ++ [q])) := by
  apply List.ext_getElem?
  intro i
  rw [getElem?_fillSlice, List.getElem?_map, List.getElem?_map]
  have hb := b.block_id_of_contiguous hc (i := i) h
  cases hi : ids[i]? with
  | none => rfl
  | some x =>
    rw [hi, Option.some.injEq] at hb
    simp only [Option.map_some, Option.some.injEq]
    by_cases hx : x = q
    · rw [if_pos (hb.2 hx)]; simp [hx]
    · rw [if_neg (fun h => hx (hb.1 h))]; simp [hx]

theorem pyGet_nat {α : Type} {a : List α} {i : Nat} {x : α} (h : a[i]? = some x) : pyGet a (i : Int) = .ok x := by
  unfold pyGet
  simp [h]

theorem testRows_spec {d : Dataset R L} {ids : List Int} (b : Built d ids) (hc : Contiguous ids) (hy : d.y.length = ids.length) :
    ∀ (qs : List Nat), (∀ q ∈ qs, q < d.queryIds.length) →
    testRows d qs = .ok (ids.map (fun x => decide (x ∈ gather d.queryIds qs))) := by
  intro qs
  unfold testRows
  induction qs using List.reverseRecOn with
  | nil =>
    intro _
    simp only [List.foldlM_nil, pure, Except.pure, gather_nil, List.not_mem_nil, decide_false, Except.ok.injEq, Dataset.nInstances, hy]
    rw [List.map_const']
  | append_singleton qs k ih =>
    intro h
    have hk : k < d.queryIds.length := h k (by simp)
    rw [foldlM_ok_append (ih (fun q hq => h q (by simp [hq])))]
    have hq : d.queryIds[k]? = some d.queryIds[k] := List.getElem?_eq_getElem hk
    have h1 : k < d.queryOffsets.length := by rw [b.length_offs]; omega
    have h2 : k + 1 < d.queryOffsets.length := by rw [b.length_offs]; omega
    have o1 : d.queryOffsets[k]? = some d.queryOffsets[k] := List.getElem?_eq_getElem h1
    have o2 : d.queryOffsets[k + 1]? = some d.queryOffsets[k + 1] := List.getElem?_eq_getElem h2
    have hm := Dataset.mem_queryIterator.2 ⟨k, hq, o1, o2⟩
    have hstep : (do
        let s ← pyGet d.queryOffsets (k : Int)
        let e ← pyGet d.queryOffsets (k + 1 : Nat)
        pure (Dataset.fillSlice (ids.map (fun x => decide (x ∈ gather d.queryIds qs))) s e true) : Except PyErr (List Bool)) =
        .ok (ids.map (fun x => decide (x ∈ gather d.queryIds (qs ++ [k])))) := by
      rw [pyGet_nat o1, pyGet_nat o2]
      simp only [bind, Except.bind, pure, Except.pure]
      rw [fill_block b hc hm, gather_append, gather_cons _ _ _ hk, gather_nil]
    rw [foldlM_ok_cons hstep, foldlM_ok_nil]

theorem trainQueries_spec {d : Dataset R L} (hnd : d.queryIds.Nodup) :
    ∀ (qs : List Nat), (∀ q ∈ qs, q < d.queryIds.length) →
    trainQueries d qs = .ok (d.queryIds.map (fun x => decide (x ∉ gather d.queryIds qs))) := by
  intro qs
  unfold trainQueries
  induction qs using List.reverseRecOn with
  | nil =>
    intro _
    simp only [List.foldlM_nil, pure, Except.pure, gather_nil, List.not_mem_nil, not_false_eq_true, decide_true, Except.ok.injEq, Dataset.nQueries]
    rw [List.map_const']
  | append_singleton qs k ih =>
    intro h
    have hk : k < d.queryIds.length := h k (by simp)
    rw [foldlM_ok_append (ih (fun q hq => h q (by simp [hq])))]
    have hstep : pySet (d.queryIds.map (fun x => decide (x ∉ gather d.queryIds qs))) (k : Int) false =
        .ok (d.queryIds.map (fun x => decide (x ∉ gather d.queryIds (qs ++ [k])))) := by
      unfold pySet
      simp only [Int.natCast_nonneg, if_true, Int.toNat_natCast, List.length_map, hk, and_self, Except.ok.injEq]
      apply List.ext_getElem?
      intro i
      rw [List.getElem?_set, List.getElem?_map, gather_append, gather_cons _ _ _ hk, gather_nil]
      by_cases hik : k = i
      · subst hik
        simp [hk]
      · rw [if_neg hik, List.getElem?_map]
        cases hi : d.queryIds[i]? with
        | none => rfl
        | some x =>
          have : x ≠ d.queryIds[k] := by
            intro hx
            obtain ⟨hil, hx'⟩ := List.getElem?_eq_some_iff.1 hi
            exact hik ((List.Nodup.getElem_inj_iff hnd).1 (by rw [hx', hx]))
          simp [this]
    rw [foldlM_ok_cons hstep, foldlM_ok_nil]

theorem maskSelect_map_map {α β : Type} (f : α → β) (p : α → Bool) (v : List α) : maskSelect (v.map f) (v.map p) = (v.filter p).map f := by
  induction v with
  | nil => rfl
  | cons a v ih =>
    simp only [maskSelect] at ih
    by_cases h : p a <;> simp [maskSelect, h, ih]

/-- The scores of a fold: from a model trained on the rows of all other queries. -/
def foldScores (algo : Algo R L S) (X : List R) (y : List L) (ids queryIds : List Int) (p : Nat) (Q : List Int) : List S :=
  algo p (pick (fun q => decide (q ∉ Q)) ids X) (pick (fun q => decide (q ∉ Q)) ids y)
    ((queryIds.filter (fun q => decide (q ∉ Q))).map (fun q => ids.count q)) (pick (fun q => decide (q ∈ Q)) ids X)

theorem kfoldFold_spec {X : List R} {nf : Nat} {y : List L} {ids : List Int} {d : Dataset R L} (h : mkDataset X nf y ids = .ok d)
    (hy : y.length = X.length) (hc : Contiguous ids) {algo : Algo R L S} (halgo : ∀ p tx ty tq sx, (algo p tx ty tq sx).length = sx.length)
    (c : Nat) {perm : List Nat} (hperm : ∀ q ∈ perm, q < d.queryIds.length) {scores : List S} (hs : scores.length = ids.length) (p : Nat) :
    kfoldFold d algo c perm scores p = .ok (maskFill scores (ids.map (fun q => decide (q ∈ gather d.queryIds (slice p (p + c) perm))))
      (foldScores algo X y ids d.queryIds p (gather d.queryIds (slice p (p + c) perm)))) := by
  have b := built_of_mk h
  obtain ⟨hX, hdX, hdy, -⟩ := mkDataset_spec h
  have hqs : ∀ q ∈ slice p (p + c) perm, q < d.queryIds.length := by
    intro q hq
    exact hperm q (List.mem_of_mem_take (List.mem_of_mem_drop hq))
  unfold kfoldFold
  simp only
  rw [testRows_spec b hc (by rw [hdy]; omega) _ hqs, trainQueries_spec b.nodup _ hqs]
  simp only [bind, Except.bind]
  generalize hQ : gather d.queryIds (slice p (p + c) perm) = Q
  have hnot : (ids.map (fun x => decide (x ∈ Q))).map (!·) = ids.map (fun x => decide (x ∉ Q)) := by
    simp [List.map_map, Function.comp_def]
  rw [hnot, hdX, hdy, maskSelect_pick _ ids X hX.symm, maskSelect_pick _ ids y (by omega), maskSelect_pick _ ids X hX.symm,
    Props.C03_sizes_count h hc, maskSelect_map_map]
  unfold maskAssign
  rw [if_pos (by rw [halgo, pick_length _ _ _ hX.symm, count_mask])]
  rfl

theorem slice_disjoint {c j j' : Nat} {perm : List Nat} (hnd : perm.Nodup) (hj : j ≠ j') {q : Nat}
    (h1 : q ∈ slice (j * c) (j * c + c) perm) (h2 : q ∈ slice (j' * c) (j' * c + c) perm) : False := by
  have key : ∀ {i : Nat}, q ∈ slice (i * c) (i * c + c) perm → ∃ k, i * c ≤ k ∧ k < i * c + c ∧ perm[k]? = some q := by
    intro i h
    unfold slice at h
    obtain ⟨k, hk⟩ := List.mem_iff_getElem?.1 h
    rw [List.getElem?_drop, List.getElem?_take] at hk
    split at hk
    · exact ⟨i * c + k, by omega, by assumption, hk⟩
    · cases hk
  obtain ⟨k, a1, a2, a3⟩ := key h1
  obtain ⟨k', b1, b2, b3⟩ := key h2
  obtain ⟨hk, e⟩ := List.getElem?_eq_some_iff.1 a3
  obtain ⟨hk', e'⟩ := List.getElem?_eq_some_iff.1 b3
  have hkk : k = k' := (List.Nodup.getElem_inj_iff hnd).1 (by rw [e, e'])
  subst hkk
  rcases Nat.lt_or_gt_of_ne hj with hlt | hlt
  · have : (j + 1) * c ≤ j' * c := Nat.mul_le_mul_right c hlt
    rw [Nat.succ_mul] at this
    omega
  · have : (j' + 1) * c ≤ j * c := Nat.mul_le_mul_right c hlt
    rw [Nat.succ_mul] at this
    omega

theorem gather_mem_inj {v : List Int} (hv : v.Nodup) {a b : List Nat} {q : Int} (h1 : q ∈ gather v a) (h2 : q ∈ gather v b) :
    ∃ i, i ∈ a ∧ i ∈ b := by
  unfold gather at h1 h2
  obtain ⟨i, hi, e1⟩ := List.mem_filterMap.1 h1
  obtain ⟨j, hj, e2⟩ := List.mem_filterMap.1 h2
  obtain ⟨hi', e1'⟩ := List.getElem?_eq_some_iff.1 e1
  obtain ⟨hj', e2'⟩ := List.getElem?_eq_some_iff.1 e2
  have : i = j := (List.Nodup.getElem_inj_iff hv).1 (by rw [e1', e2'])
  exact ⟨i, hi, this ▸ hj⟩

theorem kfoldLoop_spec {X : List R} {nf : Nat} {y : List L} {ids : List Int} {d : Dataset R L} (h : mkDataset X nf y ids = .ok d)
    (hy : y.length = X.length) (hc : Contiguous ids) {algo : Algo R L S} (halgo : ∀ p tx ty tq sx, (algo p tx ty tq sx).length = sx.length)
    (c : Nat) {perm : List Nat} (hperm : ∀ q ∈ perm, q < d.queryIds.length) (hnd : perm.Nodup) (zero : S) (m : Nat) :
    ∃ scores, ((List.range m).map (· * c)).foldlM (kfoldFold d algo c perm) (List.replicate d.nInstances zero) = .ok scores ∧
      scores.length = ids.length ∧
      ∀ j < m, pick (fun q => decide (q ∈ gather d.queryIds (slice (j * c) (j * c + c) perm))) ids scores =
        foldScores algo X y ids d.queryIds (j * c) (gather d.queryIds (slice (j * c) (j * c + c) perm)) := by
  have b := built_of_mk h
  obtain ⟨hX, hdX, hdy, -⟩ := mkDataset_spec h
  induction m with
  | zero => exact ⟨_, rfl, by simp [Dataset.nInstances, hdy]; omega, by omega⟩
  | succ m ih =>
    obtain ⟨scores, e, hl, hsc⟩ := ih
    refine ⟨maskFill scores (ids.map (fun q => decide (q ∈ gather d.queryIds (slice (m * c) (m * c + c) perm))))
        (foldScores algo X y ids d.queryIds (m * c) (gather d.queryIds (slice (m * c) (m * c + c) perm))), ?_, ?_, ?_⟩
    · rw [List.range_succ, List.map_append, foldlM_ok_append e, List.map_singleton,
        foldlM_ok_cons (kfoldFold_spec h hy hc halgo c hperm hl (m * c)), foldlM_ok_nil]
    · rw [maskFill_length, hl]
    · intro j hj
      have hlen : (foldScores algo X y ids d.queryIds (m * c) (gather d.queryIds (slice (m * c) (m * c + c) perm))).length =
          ids.countP (fun q => decide (q ∈ gather d.queryIds (slice (m * c) (m * c + c) perm))) := by
        unfold foldScores
        rw [halgo, pick_length _ _ _ hX.symm]
      by_cases hjm : j = m
      · subst hjm
        rw [pick_maskFill_self _ _ _ _ hl hlen]
      · rw [pick_maskFill_other _ _ _ _ _ _ hl hlen]
        · exact hsc j (by omega)
        · intro q hq
          simp only [decide_eq_true_eq] at hq
          simp only [decide_eq_false_iff_not]
          intro hq'
          obtain ⟨i, i1, i2⟩ := gather_mem_inj b.nodup hq hq'
          exact slice_disjoint hnd (Ne.symm hjm) i1 i2

theorem slices_flatten {α : Type} (c : Nat) (perm : List α) (m : Nat) (h : perm.length ≤ m * c) :
    ((List.range m).flatMap (fun j => slice (j * c) (j * c + c) perm)) = perm := by
  have key : ∀ k, ((List.range k).flatMap (fun j => slice (j * c) (j * c + c) perm)) = perm.take (k * c) := by
    intro k
    induction k with
    | zero => simp
    | succ k ih =>
      rw [List.range_succ, List.flatMap_append, ih, List.flatMap_singleton]
      unfold slice
      rw [Nat.succ_mul]
      exact seg_append perm (by omega)
  rw [key, List.take_of_length_le h]

/-! ### The shape of the score matrix -/

theorem maskAssign_length {α : Type} {a : List α} {m : List Bool} {v r : List α} (h : maskAssign a m v = .ok r) : r.length = a.length := by
  unfold maskAssign at h
  split at h
  · cases h
    exact maskFill_length _ _ _
  · split at h
    · cases h
      exact maskFill_length _ _ _
    · cases h

theorem kfoldFold_length {d : Dataset R L} {algo : Algo R L S} {c : Nat} {perm : List Nat} {scores r : List S} {p : Nat}
    (h : kfoldFold d algo c perm scores p = .ok r) : r.length = scores.length := by
  unfold kfoldFold at h
  obtain ⟨t, -, h⟩ := except_bind_ok h
  obtain ⟨q, -, h⟩ := except_bind_ok h
  exact maskAssign_length h

theorem kfoldFolds_length {d : Dataset R L} {algo : Algo R L S} {c : Nat} {perm : List Nat} : ∀ (ps : List Nat) (scores r : List S),
    ps.foldlM (kfoldFold d algo c perm) scores = .ok r → r.length = scores.length
  | [], scores, r, h => by cases h; rfl
  | p :: ps, scores, r, h => by
    rw [List.foldlM_cons] at h
    obtain ⟨s, e, h⟩ := except_bind_ok h
    rw [kfoldFolds_length ps s r h, kfoldFold_length e]

theorem kfoldScoring_length {w : Bool} {d : Dataset R L} {k : Nat} {algo : Algo R L S} {perm : List Nat} {zero : S} {r : List S}
    (h : kfoldScoring w d k algo perm zero = .ok r) : r.length = d.nInstances := by
  unfold kfoldScoring at h
  split at h
  · cases h
  · simp only at h
    split at h
    · cases h
    · obtain ⟨s, e, h⟩ := except_bind_ok h
      split at h
      · cases h
        rw [kfoldFolds_length _ _ _ e, List.length_replicate]
      · cases h

theorem mapM_ok_mem {α β : Type} {f : α → Except PyErr β} : ∀ {l : List α} {r : List β}, l.mapM f = .ok r →
    r.length = l.length ∧ ∀ z ∈ r, ∃ x ∈ l, f x = .ok z
  | [], r, h => by cases h; simp
  | x :: l, r, h => by
    rw [List.mapM_cons] at h
    obtain ⟨z, e, h⟩ := except_bind_ok h
    obtain ⟨zs, e2, h⟩ := except_bind_ok h
    cases h
    obtain ⟨h1, h2⟩ := mapM_ok_mem e2
    refine ⟨by simp [h1], ?_⟩
    intro u hu
    rcases List.mem_cons.1 hu with rfl | hu
    · exact ⟨x, List.mem_cons_self, e⟩
    · obtain ⟨x', hx, e'⟩ := h2 u hu
      exact ⟨x', List.mem_cons_of_mem _ hx, e'⟩

theorem rowsOf_rows {α : Type} {n : Nat} {cols : List (List α)} (h : ∀ c ∈ cols, c.length = n) : ∀ r ∈ rowsOf n cols, r.length = cols.length := by
  intro r hr
  obtain ⟨i, hi, rfl⟩ := List.mem_map.1 hr
  have hi := List.mem_range.1 hi
  induction cols with
  | nil => rfl
  | cons c cols ih =>
    have : i < c.length := by rw [h c List.mem_cons_self]; exact hi
    have ih := ih (fun c hc => h c (List.mem_cons_of_mem _ hc)) (List.mem_map.2 ⟨i, List.mem_range.2 hi, rfl⟩)
    rw [List.filterMap_cons, List.getElem?_eq_getElem this]
    simp only [List.length_cons, ih]

theorem rowsOf_length {α : Type} (n : Nat) (cols : List (List α)) : (rowsOf n cols).length = n := by
  simp [rowsOf]

end Verif
