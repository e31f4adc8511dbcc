/-
Lemmas about `kfold`.
-/
import Verif.Lemmas.Dataset3

namespace Verif
open Spec

theorem mapM_forall₂ {α β ε : Type} {P : α → β → Prop} {f : α → Except ε β} :
    ∀ (l : List α), (∀ x ∈ l, ∃ z, f x = .ok z ∧ P x z) →
      ∃ zs, l.mapM f = .ok zs ∧ List.Forall₂ P l zs := by
  intro l
  induction l with
  | nil => intro _; exact ⟨[], rfl, .nil⟩
  | cons x l ih =>
    intro h
    obtain ⟨z, hz, hp⟩ := h x (by simp)
    obtain ⟨zs, hzs, hps⟩ := ih (fun w hw => h w (by simp [hw]))
    refine ⟨z :: zs, ?_, .cons hp hps⟩
    rw [List.mapM_cons, hz]
    simp only [bind, Except.bind]
    rw [hzs]
    rfl

/-- The segment `l[a:b]`. -/
theorem seg_append {α : Type} (l : List α) {a b : Nat} (h : a ≤ b) :
    l.take a ++ (l.take b).drop a = l.take b := by
  have : l.take a = (l.take b).take a := by rw [List.take_take]; congr 1; omega
  rw [this, List.take_append_drop]

theorem flatMap_segs {α : Type} (l : List α) (s m : Nat) :
    (List.range m).flatMap (fun c => (l.take (s * (c + 1))).drop (s * c)) = l.take (s * m) := by
  induction m with
  | zero => simp
  | succ m ih =>
    rw [List.range_succ, List.flatMap_append, ih, List.flatMap_singleton]
    exact seg_append l (Nat.mul_le_mul_left s (Nat.le_succ m))

theorem range_succ_eq_cons (n : Nat) : List.range (n + 1) = 0 :: (List.range n).map (· + 1) := by
  rw [List.range_succ_eq_map]

/-- The three parts of fold `cur` as segments of the id list. -/
theorem kfold_parts {qids : List Int} {F : Nat} (hF : 3 ≤ F) (hn : F ≤ qids.length) :
    let s := qids.length / F
    Dataset.kfoldQids qids F = .ok ((List.range F).map (fun cur =>
      if cur = 0 then
        (qids.take (s * (F - 2)), (qids.take (s * (F - 1))).drop (s * (F - 2)), qids.drop (s * (F - 1)))
      else if cur = 1 then
        ((qids.take (s * (F - 1))).drop s, qids.drop (s * (F - 1)), qids.take s)
      else
        (qids.drop (s * cur) ++ qids.take (s * (cur - 2)),
          (qids.take (s * (cur - 1))).drop (s * (cur - 2)),
          (qids.take (s * cur)).drop (s * (cur - 1))))) := by
  intro s
  have hs : 1 ≤ s := Nat.div_pos hn (by omega)
  have hsF : s * F ≤ qids.length := Nat.div_mul_le_self _ _
  have lt_mul : ∀ {a b : Nat}, a < b → s * a < s * b := fun h => Nat.mul_lt_mul_of_pos_left h hs
  have le_n : ∀ {a : Nat}, a < F → s * a < qids.length := fun h => Nat.lt_of_lt_of_le (lt_mul h) hsF
  unfold Dataset.kfoldQids
  rw [if_neg (by omega)]
  simp only
  congr 1
  apply List.map_congr_left
  intro cur hcur
  rw [List.mem_range] at hcur
  by_cases h0 : cur = 0
  · subst h0
    have e2 : (((0 : Nat) : Int) - 2) % (F : Int) = (F - 2 : Nat) := by
      rw [show (((0 : Nat) : Int) - 2) = ((F - 2 : Nat) : Int) - F by omega, Int.sub_emod_right]
      exact Int.emod_eq_of_lt (by omega) (by omega)
    have e1 : (((0 : Nat) : Int) - 1) % (F : Int) = (F - 1 : Nat) := by
      rw [show (((0 : Nat) : Int) - 1) = ((F - 1 : Nat) : Int) - F by omega, Int.sub_emod_right]
      exact Int.emod_eq_of_lt (by omega) (by omega)
    rw [e2, e1]
    simp only [Int.toNat_natCast, Nat.mul_zero, if_true]
    have hp : 0 < s * (F - 1) := Nat.mul_pos hs (by omega)
    rw [cyclicSlice_le (Nat.zero_le _) (Or.inl (le_n (by omega))),
      cyclicSlice_le (Nat.le_of_lt (lt_mul (by omega))) (Or.inl (le_n (by omega))),
      cyclicSlice_gt hp (le_n (by omega))]
    simp [s]
  · by_cases h1 : cur = 1
    · subst h1
      have e2 : (((1 : Nat) : Int) - 2) % (F : Int) = (F - 1 : Nat) := by
        rw [show (((1 : Nat) : Int) - 2) = ((F - 1 : Nat) : Int) - F by omega, Int.sub_emod_right]
        exact Int.emod_eq_of_lt (by omega) (by omega)
      have e1 : (((1 : Nat) : Int) - 1) % (F : Int) = (0 : Nat) := by simp
      rw [e2, e1]
      simp only [Int.toNat_natCast, Nat.mul_zero, Nat.mul_one, if_true]
      have hp : 0 < s * (F - 1) := Nat.mul_pos hs (by omega)
      have hlt : s < s * (F - 1) := by
        have := lt_mul (a := 1) (b := F - 1) (by omega); omega
      have hsn : s < qids.length := by have := le_n (a := 1) (by omega); omega
      rw [cyclicSlice_le (Nat.le_of_lt hlt) (Or.inl (le_n (by omega))),
        cyclicSlice_gt hp (le_n (by omega)), cyclicSlice_le (Nat.zero_le _) (Or.inl hsn)]
      simp [s]
    · have e2 : ((cur : Int) - 2) % (F : Int) = (cur - 2 : Nat) := by
        rw [show ((cur : Int) - 2) = ((cur - 2 : Nat) : Int) by omega]
        exact Int.emod_eq_of_lt (by omega) (by omega)
      have e1 : ((cur : Int) - 1) % (F : Int) = (cur - 1 : Nat) := by
        rw [show ((cur : Int) - 1) = ((cur - 1 : Nat) : Int) by omega]
        exact Int.emod_eq_of_lt (by omega) (by omega)
      rw [e2, e1]
      simp only [Int.toNat_natCast, if_neg h0, if_neg h1]
      rw [cyclicSlice_gt (lt_mul (by omega)) (le_n hcur),
        cyclicSlice_le (Nat.le_of_lt (lt_mul (by omega))) (Or.inl (le_n (by omega))),
        cyclicSlice_le (Nat.le_of_lt (lt_mul (by omega))) (Or.inl (le_n (by omega)))]

theorem kfold_props {qids : List Int} {F : Nat} (hF : 3 ≤ F) (hn : F ≤ qids.length) :
    ∃ folds, Dataset.kfoldQids qids F = .ok folds ∧ folds.length = F ∧
      (∀ f ∈ folds, (f.1 ++ f.2.1 ++ f.2.2).Perm qids ∧ f.1 ≠ [] ∧ f.2.1 ≠ [] ∧ f.2.2 ≠ []) ∧
      (folds.flatMap (·.2.2)).Perm qids ∧ (folds.flatMap (·.2.1)).Perm qids := by
  have hparts := kfold_parts hF hn
  simp only at hparts
  set s := qids.length / F with hsdef
  have hs : 1 ≤ s := Nat.div_pos hn (by omega)
  have hsF : s * F ≤ qids.length := Nat.div_mul_le_self _ _
  have lt_mul : ∀ {a b : Nat}, a < b → s * a < s * b := fun h => Nat.mul_lt_mul_of_pos_left h hs
  have le_mul : ∀ {a b : Nat}, a ≤ b → s * a ≤ s * b := fun h => Nat.mul_le_mul_left s h
  have le_n : ∀ {a : Nat}, a < F → s * a < qids.length := fun h => Nat.lt_of_lt_of_le (lt_mul h) hsF
  have take_ne : ∀ {a : Nat}, 0 < a → qids.take a ≠ [] := by
    intro a ha h
    have := congrArg List.length h
    rw [List.length_take, List.length_nil] at this; omega
  have drop_ne : ∀ {a : Nat}, a < qids.length → qids.drop a ≠ [] := by
    intro a ha h
    have := congrArg List.length h
    simp at this; omega
  have seg_ne : ∀ {a b : Nat}, a < b → a < qids.length → (qids.take b).drop a ≠ [] := by
    intro a b hab ha h
    have := congrArg List.length h
    simp at this; omega
  refine ⟨_, hparts, by simp, ?_, ?_, ?_⟩
  · intro f hf
    obtain ⟨cur, hcur, rfl⟩ := List.mem_map.1 hf
    rw [List.mem_range] at hcur
    by_cases h0 : cur = 0
    · simp only [h0, if_true]
      refine ⟨?_, take_ne (Nat.mul_pos hs (by omega)), seg_ne (lt_mul (by omega)) (le_n (by omega)),
        drop_ne (le_n (by omega))⟩
      rw [seg_append _ (le_mul (by omega)), List.take_append_drop]
    · by_cases h1 : cur = 1
      · simp only [h1, if_true, one_ne_zero, if_false]
        have hs1 : s < s * (F - 1) := by have := lt_mul (a := 1) (b := F - 1) (by omega); omega
        have hsn : s < qids.length := by have := le_n (a := 1) (by omega); omega
        refine ⟨?_, seg_ne hs1 hsn, drop_ne (le_n (by omega)), take_ne hs⟩
        refine List.perm_append_comm.trans ?_
        rw [← List.append_assoc, seg_append _ (Nat.le_of_lt hs1), List.take_append_drop]
      · simp only [if_neg h0, if_neg h1]
        refine ⟨?_, ?_, seg_ne (lt_mul (by omega)) (le_n (by omega)),
          seg_ne (lt_mul (by omega)) (le_n (by omega))⟩
        · rw [List.append_assoc, List.append_assoc]
          refine List.perm_append_comm.trans ?_
          rw [← List.append_assoc, seg_append _ (le_mul (by omega)), seg_append _ (le_mul (by omega)),
            List.take_append_drop]
        · intro h
          exact drop_ne (le_n hcur) (List.append_eq_nil_iff.1 h).1
  · obtain ⟨F', rfl⟩ : ∃ F', F = F' + 1 := ⟨F - 1, by omega⟩
    rw [range_succ_eq_cons, List.flatMap_map, List.flatMap_cons]
    simp only [if_true, List.flatMap_map]
    have : (List.range F').flatMap (fun a => (if a + 1 = 0 then
        (qids.take (s * (F' + 1 - 2)), (qids.take (s * (F' + 1 - 1))).drop (s * (F' + 1 - 2)),
          qids.drop (s * (F' + 1 - 1)))
      else if a + 1 = 1 then
        ((qids.take (s * (F' + 1 - 1))).drop s, qids.drop (s * (F' + 1 - 1)), qids.take s)
      else
        (qids.drop (s * (a + 1)) ++ qids.take (s * (a + 1 - 2)),
          (qids.take (s * (a + 1 - 1))).drop (s * (a + 1 - 2)),
          (qids.take (s * (a + 1))).drop (s * (a + 1 - 1)))).2.2) = qids.take (s * F') := by
      rw [← flatMap_segs qids s F']
      congr 1
      funext a
      rw [if_neg (by omega)]
      by_cases ha : a = 0
      · subst ha; simp
      · rw [if_neg (by omega)]; simp
    rw [this]
    refine List.perm_append_comm.trans ?_
    rw [show F' + 1 - 1 = F' by omega, List.take_append_drop]
  · obtain ⟨F', rfl⟩ : ∃ F', F = F' + 2 := ⟨F - 2, by omega⟩
    rw [show F' + 2 = (F' + 1) + 1 by omega, range_succ_eq_cons, range_succ_eq_cons, List.flatMap_map,
      List.flatMap_cons, List.map_cons, List.flatMap_cons]
    simp only [if_true, List.flatMap_map, List.map_map]
    have : (List.range F').flatMap (fun a => (if a + 1 + 1 = 0 then
        (qids.take (s * (F' + 1 + 1 - 2)), (qids.take (s * (F' + 1 + 1 - 1))).drop (s * (F' + 1 + 1 - 2)),
          qids.drop (s * (F' + 1 + 1 - 1)))
      else if a + 1 + 1 = 1 then
        ((qids.take (s * (F' + 1 + 1 - 1))).drop s, qids.drop (s * (F' + 1 + 1 - 1)), qids.take s)
      else
        (qids.drop (s * (a + 1 + 1)) ++ qids.take (s * (a + 1 + 1 - 2)),
          (qids.take (s * (a + 1 + 1 - 1))).drop (s * (a + 1 + 1 - 2)),
          (qids.take (s * (a + 1 + 1))).drop (s * (a + 1 + 1 - 1)))).2.1) = qids.take (s * F') := by
      rw [← flatMap_segs qids s F']
      congr 1
    have e : F' + 1 + 1 - 2 = F' := by omega
    have e' : F' + 1 + 1 - 1 = F' + 1 := by omega
    simp only [Function.comp_def, Nat.zero_add, one_ne_zero, if_false] at this ⊢
    rw [this, e, e']
    refine List.perm_append_comm.trans ?_
    rw [List.append_assoc]
    refine List.perm_append_comm.trans ?_
    rw [seg_append _ (le_mul (by omega)), List.take_append_drop]

end Verif
