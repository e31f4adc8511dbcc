/-
The nodes for which `recursive_count` has an entry, for C104.
-/
import Verif.Lemmas.Graphviz

namespace Verif.Spec.IdTree
open Ensemble Dot
variable {F : Type}

/-- The keys of a dictionary. -/
def keys (d : Counts) : List Int := d.map (·.1)

theorem lookup_none {d : Counts} {k : Int} : d.lookup k = none ↔ k ∉ keys d := by
  induction d with
  | nil => simp [keys]
  | cons p d ih =>
    obtain ⟨a, b⟩ := p
    rw [List.lookup_cons]
    by_cases h : k = a
    · subst h; simp [keys]
    · have h' : (k == a) = false := by simpa using h
      rw [h']
      simp only [ih]
      simp [keys, h]

theorem lookup_of_mem {d : Counts} (h : (keys d).Nodup) {p : Int × Nat} (hp : p ∈ d) : d.lookup p.1 = some p.2 := by
  induction d with
  | nil => simp at hp
  | cons q d ih =>
    obtain ⟨a, b⟩ := q
    simp only [keys, List.map_cons, List.nodup_cons] at h
    rw [List.lookup_cons]
    rcases List.mem_cons.1 hp with rfl | hp'
    · simp
    · have hne : (p.1 == a) = false := by
        simp only [beq_eq_false_iff_ne]
        rintro rfl
        exact h.1 (List.mem_map.2 ⟨p, hp', rfl⟩)
      rw [hne]
      exact ih h.2 hp'

theorem keys_new {d : Counts} (h : (keys d).Nodup) {k : Int} (hk : d.lookup k = none) (v : Nat) :
    (keys (d ++ [(k, v)])).Nodup ∧ ∀ j, j ∈ keys (d ++ [(k, v)]) ↔ j ∈ keys d ∨ j = k := by
  have h1 : keys (d ++ [(k, v)]) = keys d ++ [k] := by simp [keys]
  rw [h1]
  refine ⟨List.nodup_append.2 ⟨h, by simp, ?_⟩, fun j => by simp⟩
  intro a ha b hb
  simp only [List.mem_singleton] at hb
  subst hb
  rintro rfl
  exact lookup_none.1 hk ha

theorem keys_getCount {d : Counts} (h : (keys d).Nodup) (k : Int) :
    (keys (getCount d k).2).Nodup ∧ ∀ j, j ∈ keys (getCount d k).2 ↔ j ∈ keys d ∨ j = k := by
  unfold getCount
  cases hl : d.lookup k with
  | none => exact keys_new h hl 0
  | some v =>
    refine ⟨h, fun j => ⟨Or.inl, ?_⟩⟩
    rintro (hj | rfl)
    · exact hj
    · by_contra h0
      rw [lookup_none.2 h0] at hl
      cases hl

theorem keys_setCount {d : Counts} (h : (keys d).Nodup) (k : Int) (v : Nat) :
    (keys (setCount d k v)).Nodup ∧ ∀ j, j ∈ keys (setCount d k v) ↔ j ∈ keys d ∨ j = k := by
  unfold setCount
  cases hl : d.lookup k with
  | none => exact keys_new h hl v
  | some w =>
    have h1 : keys (d.map (fun p => if p.1 = k then (k, v) else p)) = keys d := by
      unfold keys
      rw [List.map_map]
      apply List.map_congr_left
      intro p _
      simp only [Function.comp]
      split
      · rename_i h2; exact h2.symm
      · rfl
    simp only [h1]
    refine ⟨h, fun j => ⟨Or.inl, ?_⟩⟩
    rintro (hj | rfl)
    · exact hj
    · by_contra h0
      rw [lookup_none.2 h0] at hl
      cases hl

/-- The recursion has an entry for every node of the tree, once, and adds no others. -/
theorem recursiveCount_keys {m : Ensemble F} {it : IdTree F} (h : it.Holds m) :
    ∀ (fuel : Nat) (d : Counts) (n : Nat) (d' : Counts), recursiveCount m fuel d (it.id : Int) = .ok (n, d') → (keys d).Nodup →
      (keys d').Nodup ∧ ∀ j, j ∈ keys d' ↔ j ∈ keys d ∨ ∃ i ∈ it.ids, ((i : Nat) : Int) = j := by
  induction it with
  | leaf i v =>
    intro fuel d n d' hrun hd
    obtain ⟨hl, hr, hf, hv⟩ := h
    cases fuel with
    | zero => cases hrun
    | succ fuel =>
      unfold recursiveCount at hrun
      rw [show ((IdTree.leaf i v).id : Int) = (i : Int) from rfl, isLeafNode_leaf hl hr, exOk, if_pos rfl] at hrun
      have e : getCount d (i : Int) = (n, d') := Except.ok.inj hrun
      have h1 := keys_getCount hd (i : Int)
      rw [e] at h1
      refine ⟨h1.1, fun j => ?_⟩
      rw [h1.2 j]
      simp [ids_leaf, eq_comm]
  | node i f s l r ihl ihr =>
    intro fuel d n d' hrun hd
    obtain ⟨hl, hr, hf, hv, h5, h6⟩ := h
    cases fuel with
    | zero => cases hrun
    | succ fuel =>
      unfold recursiveCount at hrun
      rw [show ((IdTree.node i f s l r).id : Int) = (i : Int) from rfl, isLeafNode_node hl, exOk, if_neg (by simp), pyGet_ok hl, exOk] at hrun
      cases ha : recursiveCount m fuel d (l.id : Int) with
      | error e => rw [ha] at hrun; cases hrun
      | ok p =>
        obtain ⟨a, d1⟩ := p
        rw [ha, exOk] at hrun
        simp only at hrun
        rw [pyGet_ok hr, exOk] at hrun
        cases hb : recursiveCount m fuel d1 (r.id : Int) with
        | error e => rw [hb] at hrun; cases hrun
        | ok q =>
          obtain ⟨b, d2⟩ := q
          rw [hb, exOk] at hrun
          have e : (a + b, setCount d2 (i : Int) (a + b)) = (n, d') := Except.ok.inj hrun
          obtain ⟨k1, k2⟩ := ihl h5 fuel d a d1 ha hd
          obtain ⟨k3, k4⟩ := ihr h6 fuel d1 b d2 hb k1
          have k5 := keys_setCount k3 (i : Int) (a + b)
          rw [show setCount d2 (i : Int) (a + b) = d' from congrArg Prod.snd e] at k5
          refine ⟨k5.1, fun j => ?_⟩
          rw [k5.2 j, k4 j, k2 j, ids_node]
          constructor
          · rintro (((h | ⟨x, hx, rfl⟩) | ⟨x, hx, rfl⟩) | rfl)
            · exact .inl h
            · exact .inr ⟨x, by simp [hx], rfl⟩
            · exact .inr ⟨x, by simp [hx], rfl⟩
            · exact .inr ⟨i, by simp, rfl⟩
          · rintro (h | ⟨x, hx, rfl⟩)
            · exact .inl (.inl (.inl h))
            · rcases List.mem_cons.1 hx with rfl | hx
              · exact .inr rfl
              · rcases List.mem_append.1 hx with hx | hx
                · exact .inl (.inl (.inr ⟨x, hx, rfl⟩))
                · exact .inl (.inr ⟨x, hx, rfl⟩)

end Verif.Spec.IdTree
