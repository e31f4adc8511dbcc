/-
Lemmas about the dataset constructor and its accessors.
-/
import Verif.Model.Dataset
import Verif.Spec.Dataset

namespace Verif
open Spec

theorem argsortNat_isArgsort (v : List Nat) : IsArgsort v (argsortNat v) := by
  refine ⟨List.perm_insertionSort _ _, ?_⟩
  have : Std.Total (fun i j : Nat => v[i]?.getD 0 ≤ v[j]?.getD 0) := ⟨fun a b => by omega⟩
  have : IsTrans Nat (fun i j : Nat => v[i]?.getD 0 ≤ v[j]?.getD 0) := ⟨fun a b c => by omega⟩
  have h := List.pairwise_insertionSort (fun i j : Nat => v[i]?.getD 0 ≤ v[j]?.getD 0) (List.range v.length)
  refine h.imp ?_
  intro i j hij a ha b hb
  simp only [Option.mem_def] at ha hb
  simpa [ha, hb] using hij

theorem gather_pairwise {α : Type} {v : List α} {r : α → α → Prop} {idx : List Nat}
    (h : idx.Pairwise (fun i j => ∀ a ∈ v[i]?, ∀ b ∈ v[j]?, r a b)) :
    (gather v idx).Pairwise r := by
  unfold gather
  rw [List.pairwise_filterMap]
  exact h

theorem gather_perm_self {α : Type} {v : List α} {idx : List Nat}
    (h : idx.Perm (List.range v.length)) : (gather v idx).Perm v := by
  have := gather_perm v h
  rwa [gather_range] at this

/-- On pairwise different keys every argsort is the same list. -/
theorem argsort_unique {v : List Nat} (hv : v.Nodup) {a b : List Nat}
    (ha : IsArgsort v a) (hb : IsArgsort v b) : a = b := by
  have hperm : a.Perm b := ha.1.trans hb.1.symm
  have key : ∀ idx : List Nat, IsArgsort v idx →
      idx.Pairwise (fun i j => v[i]?.getD 0 < v[j]?.getD 0) := by
    intro idx h
    have hnd : idx.Nodup := h.1.nodup_iff.2 List.nodup_range
    have := h.2.and hnd
    refine this.imp_of_mem ?_
    intro i j hi hj hij
    have hi' := (mem_range_of_isArgsort h).1 hi
    have hj' := (mem_range_of_isArgsort h).1 hj
    have h1 := hij.1 v[i] (by simp) v[j] (by simp)
    have h2 : v[i] ≠ v[j] := fun e => hij.2 ((List.Nodup.getElem_inj_iff hv).1 e)
    simp only [List.getElem?_eq_getElem hi', List.getElem?_eq_getElem hj', Option.getD_some]
    omega
  refine List.Perm.eq_of_pairwise ?_ (key a ha) (key b hb) hperm
  intro i j _ _ h1 h2; omega

/-- What the constructor computes: the distinct ids by first occurrence, and the first occurrences. -/
theorem mkDataset_spec {R L : Type} {X : List R} {nf : Nat} {y : List L} {ids : List Int}
    {d : Dataset R L} (h : mkDataset X nf y ids = .ok d) :
    ids.length = X.length ∧ d.X = X ∧ d.y = y ∧ d.nFeatures = nf ∧
    d.queryIds.Perm ids.dedup ∧
    d.queryIds.Pairwise (fun a b => ids.idxOf a < ids.idxOf b) ∧
    d.queryOffsets = d.queryIds.map (fun q => ids.idxOf q) ++ [ids.length] := by
  unfold mkDataset at h
  split at h
  · cases h
  rename_i hlen
  simp only [npUnique] at h
  injection h with h
  subst h
  set u := ids.dedup.insertionSort (· ≤ ·) with hu
  set offs := u.map (fun q => ids.idxOf q) with hoffs
  have hsort := argsortNat_isArgsort offs
  have hl : offs.length = u.length := by simp [hoffs]
  have hperm : (gather u (argsortNat offs)).Perm u := gather_perm_self (hl ▸ hsort.1)
  have hup : u.Perm ids.dedup := List.perm_insertionSort _ _
  have hg : gather offs (argsortNat offs) = (gather u (argsortNat offs)).map (fun q => ids.idxOf q) := by
    rw [hoffs, gather_map]
  refine ⟨by simpa using hlen, rfl, rfl, rfl, hperm.trans hup, ?_, by simp only [hg]⟩
  have hpw : (gather offs (argsortNat offs)).Pairwise (· ≤ ·) := gather_pairwise hsort.2
  rw [hg, List.pairwise_map] at hpw
  have hnd : (gather u (argsortNat offs)).Nodup :=
    (hperm.trans hup).nodup_iff.2 (List.nodup_dedup _)
  refine (hpw.and hnd).imp_of_mem ?_
  intro a b ha hb hab
  have ha' : a ∈ ids := by
    have := (hperm.trans hup).mem_iff.1 ha
    simpa using this
  have hne : ids.idxOf a ≠ ids.idxOf b := fun e => hab.2 ((List.idxOf_inj ha').1 e)
  omega

theorem mkDataset_isOk {R L : Type} {X : List R} {nf : Nat} {y : List L} {ids : List Int}
    (h : ids.length = X.length) : ∃ d, mkDataset X nf y ids = .ok d := by
  simp [mkDataset, h]

/-- In a strictly increasing list of boundaries starting at or below `i` and ending above it, some
consecutive pair encloses `i`. -/
theorem exists_enclosing (i : Nat) : ∀ (o : Nat) (os : List Nat), o ≤ i → (∃ b ∈ os, i < b) →
    ∃ k s e, (o :: os)[k]? = some s ∧ (o :: os)[k + 1]? = some e ∧ s ≤ i ∧ i < e := by
  intro o os
  induction os generalizing o with
  | nil => rintro _ ⟨b, hb, _⟩; simp at hb
  | cons b os ih =>
    intro ho hex
    by_cases hb : i < b
    · exact ⟨0, o, b, by simp, by simp, ho, hb⟩
    · obtain ⟨c, hc, hic⟩ := hex
      have hc' : c ∈ os := by
        rcases List.mem_cons.1 hc with rfl | h
        · omega
        · exact h
      obtain ⟨k, s, e, h1, h2, h3, h4⟩ := ih b (by omega) ⟨c, hc', hic⟩
      exact ⟨k + 1, s, e, by simpa using h1, by simpa using h2, h3, h4⟩

theorem pairwise_lt_getElem? {l : List Nat} (h : l.Pairwise (· < ·)) {i j a b : Nat}
    (hij : i < j) (ha : l[i]? = some a) (hb : l[j]? = some b) : a < b := by
  obtain ⟨hi, rfl⟩ := List.getElem?_eq_some_iff.1 ha
  obtain ⟨hj, rfl⟩ := List.getElem?_eq_some_iff.1 hb
  exact (List.pairwise_iff_getElem.1 h) i j hi hj hij

theorem enclosing_unique {l : List Nat} (h : l.Pairwise (· < ·)) {i k k' s e s' e' : Nat}
    (hs : l[k]? = some s) (he : l[k + 1]? = some e) (hs' : l[k']? = some s')
    (he' : l[k' + 1]? = some e') (h1 : s ≤ i) (h2 : i < e) (h3 : s' ≤ i) (h4 : i < e') : k = k' := by
  rcases Nat.lt_trichotomy k k' with hlt | heq | hgt
  · exfalso
    rcases Nat.lt_or_ge (k + 1) k' with h5 | h5
    · have := pairwise_lt_getElem? h h5 he hs'; omega
    · have : k + 1 = k' := by omega
      subst this; rw [he] at hs'; injection hs' with h6; omega
  · exact heq
  · exfalso
    rcases Nat.lt_or_ge (k' + 1) k with h5 | h5
    · have := pairwise_lt_getElem? h h5 he' hs; omega
    · have : k' + 1 = k := by omega
      subst this; rw [he'] at hs; injection hs with h6; omega

namespace Dataset
variable {R L : Type}

theorem mem_queryIterator {d : Dataset R L} {q : Int} {s e : Nat} :
    (q, s, e) ∈ d.queryIterator ↔ ∃ k : Nat, d.queryIds[k]? = some q ∧
      d.queryOffsets[k]? = some s ∧ d.queryOffsets[k + 1]? = some e := by
  unfold queryIterator
  rw [List.mem_iff_getElem?]
  constructor
  · rintro ⟨k, hk⟩
    rw [List.getElem?_zip_eq_some] at hk
    obtain ⟨h1, h2⟩ := hk
    rw [List.getElem?_zip_eq_some] at h2
    refine ⟨k, h1, h2.1, ?_⟩
    simpa using h2.2
  · rintro ⟨k, h1, h2, h3⟩
    refine ⟨k, ?_⟩
    rw [List.getElem?_zip_eq_some, List.getElem?_zip_eq_some]
    exact ⟨h1, h2, by simpa using h3⟩

theorem length_fillSlice {α : Type} (a : List α) (s e : Nat) (v : α) :
    (fillSlice a s e v).length = a.length := by simp [fillSlice]

theorem getElem?_fillSlice {α : Type} (a : List α) (s e : Nat) (v : α) (i : Nat) :
    (fillSlice a s e v)[i]? = (a[i]?).map (fun x => if s ≤ i ∧ i < e then v else x) := by
  simp [fillSlice, List.getElem?_mapIdx]

theorem length_foldl_fillSlice {α : Type} (f : Int → α) (bs : List (Int × Nat × Nat)) (init : List α) :
    (bs.foldl (fun a b => fillSlice a b.2.1 b.2.2 (f b.1)) init).length = init.length := by
  induction bs generalizing init with
  | nil => rfl
  | cons b bs ih => rw [List.foldl_cons, ih, length_fillSlice]

/-- Value of a cell after a sequence of slice assignments that agree on the cell. -/
theorem getElem?_foldl_fillSlice {α : Type} (f : Int → α) (i : Nat) (v : α)
    (bs : List (Int × Nat × Nat)) (init : List α) (hi : i < init.length)
    (hag : ∀ b ∈ bs, b.2.1 ≤ i → i < b.2.2 → f b.1 = v)
    (hex : (∃ b ∈ bs, b.2.1 ≤ i ∧ i < b.2.2) ∨ init[i]? = some v) :
    (bs.foldl (fun a b => fillSlice a b.2.1 b.2.2 (f b.1)) init)[i]? = some v := by
  induction bs generalizing init with
  | nil => simpa using hex
  | cons b bs ih =>
    rw [List.foldl_cons]
    refine ih _ (by rwa [length_fillSlice]) (fun c hc => hag c (by simp [hc])) ?_
    by_cases hb : b.2.1 ≤ i ∧ i < b.2.2
    · right
      rw [getElem?_fillSlice, List.getElem?_eq_getElem hi]
      simp [hb, hag b (by simp) hb.1 hb.2]
    · rcases hex with ⟨c, hc, hc2⟩ | h
      · rcases List.mem_cons.1 hc with rfl | hc
        · exact absurd hc2 hb
        · exact Or.inl ⟨c, hc, hc2⟩
      · right
        rw [getElem?_fillSlice, h]
        simp [hb]

end Dataset

/-- The facts about a constructed dataset used everywhere below. -/
structure Built {R L : Type} (d : Dataset R L) (ids : List Int) : Prop where
  perm : d.queryIds.Perm ids.dedup
  order : d.queryIds.Pairwise (fun a b => ids.idxOf a < ids.idxOf b)
  offs : d.queryOffsets = d.queryIds.map (fun q => ids.idxOf q) ++ [ids.length]

theorem built_of_mk {R L : Type} {X : List R} {nf : Nat} {y : List L} {ids : List Int}
    {d : Dataset R L} (h : mkDataset X nf y ids = .ok d) : Built d ids := by
  obtain ⟨_, _, _, _, h1, h2, h3⟩ := mkDataset_spec h
  exact ⟨h1, h2, h3⟩

namespace Built
variable {R L : Type} {d : Dataset R L} {ids : List Int}

theorem mem_iff (b : Built d ids) {q : Int} : q ∈ d.queryIds ↔ q ∈ ids := by
  rw [b.perm.mem_iff]; simp

theorem nodup (b : Built d ids) : d.queryIds.Nodup := b.perm.nodup_iff.2 (List.nodup_dedup _)

theorem strict (b : Built d ids) : d.queryOffsets.Pairwise (· < ·) := by
  rw [b.offs, List.pairwise_append]
  refine ⟨?_, by simp, ?_⟩
  · rw [List.pairwise_map]; exact b.order
  · intro x hx z hz
    simp only [List.mem_singleton] at hz
    obtain ⟨q, hq, rfl⟩ := List.mem_map.1 hx
    rw [hz]
    exact List.idxOf_lt_length_of_mem (b.mem_iff.1 hq)

theorem length_offs (b : Built d ids) : d.queryOffsets.length = d.queryIds.length + 1 := by
  simp [b.offs]

theorem getLast (b : Built d ids) : d.queryOffsets.getLast? = some ids.length := by
  simp [b.offs]

theorem head (b : Built d ids) : d.queryOffsets.head? = some 0 := by
  cases hids : ids with
  | nil =>
    have : d.queryIds = [] := by
      have := b.perm; rw [hids] at this; simpa using this
    simp [b.offs, this, hids]
  | cons a t =>
    have ha : a ∈ d.queryIds := b.mem_iff.2 (by simp [hids])
    cases hq : d.queryIds with
    | nil => simp [hq] at ha
    | cons q qs =>
      have hord := b.order
      rw [hq, List.pairwise_cons] at hord
      have hq0 : ids.idxOf q = 0 := by
        rw [hq] at ha
        rcases List.mem_cons.1 ha with h | h
        · rw [← h, hids]; simp
        · have := hord.1 a h
          rw [hids] at this; simp at this
      simp [b.offs, hq, hq0]

theorem offs_get (b : Built d ids) {k : Nat} {q : Int} (h : d.queryIds[k]? = some q) :
    d.queryOffsets[k]? = some (ids.idxOf q) := by
  rw [b.offs, List.getElem?_append_left]
  · simp [h]
  · have := (List.getElem?_eq_some_iff.1 h).1
    simpa using this

theorem enclosing (b : Built d ids) {i : Nat} (hi : i < ids.length) :
    ∃ q s e, (q, s, e) ∈ d.queryIterator ∧ s ≤ i ∧ i < e := by
  have hh := b.head
  cases ho : d.queryOffsets with
  | nil => simp [ho] at hh
  | cons o os =>
    have : o = 0 := by simpa [ho] using hh
    have hlast : ids.length ∈ o :: os := by
      have := List.mem_of_getLast? b.getLast; rwa [ho] at this
    obtain ⟨k, s, e, h1, h2, h3, h4⟩ := exists_enclosing i o os (by omega)
      (by
        rcases List.mem_cons.1 hlast with h | h
        · omega
        · exact ⟨_, h, hi⟩)
    rw [← ho] at h1 h2
    have hk : k < d.queryIds.length := by
      have := (List.getElem?_eq_some_iff.1 h2).1
      rw [b.length_offs] at this; omega
    exact ⟨d.queryIds[k], s, e, Dataset.mem_queryIterator.2 ⟨k, by simp, h1, h2⟩, h3, h4⟩

theorem block_unique (b : Built d ids) {i : Nat} {q q' : Int} {s e s' e' : Nat}
    (h : (q, s, e) ∈ d.queryIterator) (h' : (q', s', e') ∈ d.queryIterator)
    (h1 : s ≤ i) (h2 : i < e) (h3 : s' ≤ i) (h4 : i < e') : q = q' ∧ s = s' ∧ e = e' := by
  obtain ⟨k, a1, a2, a3⟩ := Dataset.mem_queryIterator.1 h
  obtain ⟨k', b1, b2, b3⟩ := Dataset.mem_queryIterator.1 h'
  have := enclosing_unique b.strict a2 a3 b2 b3 h1 h2 h3 h4
  subst this
  rw [a1] at b1; rw [a2] at b2; rw [a3] at b3
  exact ⟨by injection b1, by injection b2, by injection b3⟩

theorem block_start (b : Built d ids) {q : Int} {s e : Nat} (h : (q, s, e) ∈ d.queryIterator) :
    s = ids.idxOf q ∧ q ∈ ids ∧ s < e ∧ e ≤ ids.length := by
  obtain ⟨k, a1, a2, a3⟩ := Dataset.mem_queryIterator.1 h
  have hs := b.offs_get a1
  rw [a2] at hs; injection hs with hs
  refine ⟨hs, b.mem_iff.1 (List.mem_of_getElem? a1), pairwise_lt_getElem? b.strict (by omega) a2 a3, ?_⟩
  have := List.mem_of_getElem? a3
  rw [b.offs] at this
  rcases List.mem_append.1 this with h | h
  · obtain ⟨r, _, rfl⟩ := List.mem_map.1 h
    exact List.idxOf_le_length
  · simp at h; omega

/-- The value stored for row `i` by the slice assignments over the blocks. -/
theorem fill_get {α : Type} (b : Built d ids) (f : Int → α) {i : Nat} {q : Int} {s e : Nat} {init : List α}
    (hi : i < init.length) (h : (q, s, e) ∈ d.queryIterator) (h1 : s ≤ i) (h2 : i < e) :
    (d.queryIterator.foldl (fun a b => Dataset.fillSlice a b.2.1 b.2.2 (f b.1)) init)[i]? = some (f q) := by
  refine Dataset.getElem?_foldl_fillSlice f i (f q) _ init hi ?_ (Or.inl ⟨_, h, h1, h2⟩)
  rintro ⟨q', s', e'⟩ hb h3 h4
  rw [(b.block_unique h hb h1 h2 h3 h4).1]

/-- With contiguous queries, the block around row `i` is the block of the id of row `i`. -/
theorem block_id_of_contiguous (b : Built d ids) (hc : Contiguous ids) {q : Int} {s e i : Nat}
    (h : (q, s, e) ∈ d.queryIterator) : (s ≤ i ∧ i < e) ↔ ids[i]? = some q := by
  obtain ⟨hs, hq, hlt, hle⟩ := b.block_start h
  have hsq : ids[s]? = some q := by
    rw [hs]; exact List.getElem?_idxOf hq
  constructor
  · rintro ⟨h1, h2⟩
    have hi : i < ids.length := by omega
    -- the id of row i first occurs at or before row i, and its block starts there
    have hmem : ids[i] ∈ d.queryIds := b.mem_iff.2 (List.getElem_mem _)
    obtain ⟨k', hk'⟩ := List.mem_iff_getElem?.1 hmem
    have ho' := b.offs_get hk'
    have hfirst : ids.idxOf ids[i] ≤ i := by
      by_contra hcon
      have := List.not_of_lt_findIdx (xs := ids) (p := (· == ids[i])) (i := i) (by
        simpa [List.idxOf] using hcon)
      simp at this
    obtain ⟨k, a1, a2, a3⟩ := Dataset.mem_queryIterator.1 h
    -- k' ≤ k
    have hkk : k' ≤ k := by
      by_contra hcon
      rcases Nat.lt_or_ge (k + 1) k' with h5 | h5
      · have := pairwise_lt_getElem? b.strict h5 a3 ho'; omega
      · have : k + 1 = k' := by omega
        subst this; rw [a3] at ho'; injection ho' with h6; omega
    have hss : ids.idxOf ids[i] ≤ s := by
      rcases Nat.lt_or_ge k' k with h5 | h5
      · have := pairwise_lt_getElem? b.strict h5 ho' a2; omega
      · have : k' = k := by omega
        subst this; rw [a2] at ho'; injection ho' with h6; omega
    have hget : ids[ids.idxOf ids[i]]? = some ids[i] := List.getElem?_idxOf (List.getElem_mem _)
    have : ids[s]? = some ids[i] := by
      rcases Nat.lt_or_ge (ids.idxOf ids[i]) s with h5 | h5
      · rcases Nat.lt_or_ge s i with h6 | h6
        · exact hc _ s i _ h5 h6 hget (by simp)
        · have : s = i := by omega
          subst this; simp
      · have : ids.idxOf ids[i] = s := by omega
        rwa [this] at hget
    rw [hsq] at this
    injection this with this
    rw [this]; simp
  · intro hiq
    have hi : i < ids.length := (List.getElem?_eq_some_iff.1 hiq).1
    obtain ⟨q', s', e', h', h3, h4⟩ := b.enclosing hi
    -- the enclosing block starts at the first occurrence of its own id; by contiguity both agree
    obtain ⟨hs', hq', hlt', hle'⟩ := b.block_start h'
    have hs'q' : ids[s']? = some q' := by
      rw [hs']; exact List.getElem?_idxOf hq'
    have hfirst : s ≤ i := by
      by_contra hcon
      rw [hs] at hcon
      have := List.not_of_lt_findIdx (xs := ids) (p := (· == q)) (i := i) (by
        simpa [List.idxOf] using hcon)
      have h9 := (List.getElem?_eq_some_iff.1 hiq).2
      simp [h9] at this
    -- s ≤ s' because q occurs first at s and blocks are ordered
    have hss : s ≤ s' := by
      obtain ⟨k, a1, a2, a3⟩ := Dataset.mem_queryIterator.1 h
      obtain ⟨k', b1, b2, b3⟩ := Dataset.mem_queryIterator.1 h'
      by_contra hcon
      have hkk : k' < k := by
        by_contra hk
        rcases Nat.lt_or_ge k k' with h5 | h5
        · have := pairwise_lt_getElem? b.strict h5 a2 b2; omega
        · have : k' = k := by omega
          subst this; rw [a2] at b2; injection b2; omega
      rcases Nat.lt_or_ge (k' + 1) k with h5 | h5
      · have := pairwise_lt_getElem? b.strict h5 b3 a2; omega
      · have : k' + 1 = k := by omega
        subst this; rw [b3] at a2; injection a2; omega
    have : ids[s']? = some q := by
      rcases Nat.lt_or_ge s s' with h5 | h5
      · rcases Nat.lt_or_ge s' i with h6 | h6
        · exact hc s s' i q h5 h6 hsq hiq
        · have : s' = i := by omega
          rw [this]; exact hiq
      · have : s' = s := by omega
        rw [this]; exact hsq
    rw [hs'q'] at this
    injection this with this
    subst this
    have heq : s' = s := by omega
    obtain ⟨k, a1, a2, a3⟩ := Dataset.mem_queryIterator.1 h
    obtain ⟨k', b1, b2, b3⟩ := Dataset.mem_queryIterator.1 h'
    have hkk : k = k' := by
      have hk := (List.getElem?_eq_some_iff.1 a1)
      have hk' := (List.getElem?_eq_some_iff.1 b1)
      exact (List.Nodup.getElem_inj_iff b.nodup).1 (hk.2.trans hk'.2.symm)
    subst hkk
    rw [a3] at b3; injection b3 with b3
    omega

theorem castInt32_of {q : Int} (h : IsInt32 q) : Dataset.castInt32 q = q := by
  unfold Dataset.castInt32
  unfold IsInt32 at h
  rw [Int.bmod_def]
  have := Int.emod_nonneg q (b := 2 ^ 32) (by norm_num)
  have := Int.emod_lt_of_pos q (b := 2 ^ 32) (by norm_num)
  rcases lt_or_ge q 0 with h0 | h0
  · have : q % 2 ^ 32 = q + 2 ^ 32 := by omega
    norm_num at *
    split <;> omega
  · have : q % 2 ^ 32 = q := Int.emod_eq_of_lt h0 (by omega)
    norm_num at *
    split <;> omega

theorem getQidsFrom_of_contiguous (b : Built d ids) (hc : Contiguous ids)
    (h32 : ∀ q ∈ ids, IsInt32 q) {init : List Int} (hinit : init.length = ids.length) :
    d.getQidsFrom init = ids := by
  apply List.ext_getElem?
  intro i
  rcases Nat.lt_or_ge i ids.length with hi | hi
  · obtain ⟨q, s, e, h, h1, h2⟩ := b.enclosing hi
    have hget := (b.block_id_of_contiguous hc h (i := i)).1 ⟨h1, h2⟩
    unfold Dataset.getQidsFrom
    rw [b.fill_get Dataset.castInt32 (by omega) h h1 h2, hget, castInt32_of]
    exact h32 q (b.block_start h).2.1
  · rw [List.getElem?_eq_none hi, List.getElem?_eq_none]
    unfold Dataset.getQidsFrom
    rw [Dataset.length_foldl_fillSlice]; omega

end Built
end Verif
