/-
Lemmas on feature importance: the loops over the documents of a node.
-/
import Verif.Model.Feature
import Verif.Spec.Feature
import Verif.Lemmas.Topology
import Mathlib.Algebra.BigOperators.Group.List.Basic
import Mathlib.Algebra.Order.BigOperators.Group.List

namespace Verif
open Ensemble Spec
variable {K : Type} [Field K] [LinearOrder K]

theorem i32_eq {x : Nat} (h : x < 2 ^ 31) : i32 x = x := by
  unfold i32
  rw [Int.bmod_eq_of_le] <;> norm_num at h ⊢ <;> omega

theorem u32_eq {x : Int} (h0 : 0 ≤ x) (h : x < 2 ^ 32) : u32 x = x.toNat := by
  unfold u32
  rw [Int.emod_eq_of_lt h0 h]

theorem u32_nat {x : Nat} (h : x < 2 ^ 32) : u32 (x : Int) = x := by
  rw [u32_eq (by omega) (by exact_mod_cast h)]
  simp

/-- A read at the place of the middle element. -/
theorem rd_mid {α : Type} (A B : List α) (x : α) : rd (A ++ x :: B) (A.length : Int) = .ok x := rd_ok (by simp)

theorem rd_range {α : Type} {n d : Nat} (g : Nat → α) (h : d < n) : rd ((List.range n).map g) (d : Int) = .ok (g d) := rd_ok (by simp [h])

theorem wr_range {α : Type} {n d : Nat} (g : Nat → α) (v : α) (h : d < n) :
    wr ((List.range n).map g) (d : Int) v = .ok ((List.range n).map (fun i => if i = d then v else g i)) := by
  rw [wr_ok v (by simpa using h)]
  congr 1
  apply List.ext_getElem?
  intro i
  rw [List.getElem?_set]
  by_cases hi : d = i
  · subst hi
    simp [h]
  · rw [if_neg hi]
    simp only [List.getElem?_map]
    by_cases hn : i < n
    · simp [hn, Ne.symm hi]
    · simp [hn]

theorem addAt_range {α : Type} [Add α] {n d : Nat} (g : Nat → α) (v : α) (h : d < n) :
    addAt ((List.range n).map g) (d : Int) v = .ok ((List.range n).map (fun i => if i = d then g d + v else g i)) := by
  unfold addAt
  rw [rd_range g h]
  simp only [bind, Except.bind]
  rw [wr_range g _ h]

theorem incAt_range {n d : Nat} (c : Nat → Nat) (h : d < n) :
    incAt ((List.range n).map (fun i => c i % 2 ^ 16)) (d : Int) =
      .ok ((List.range n).map (fun i => (if i = d then c d + 1 else c i) % 2 ^ 16)) := by
  unfold incAt
  rw [rd_range (fun i => c i % 2 ^ 16) h]
  simp only [bind, Except.bind]
  rw [wr_range (fun i => c i % 2 ^ 16) _ h]
  congr 1
  apply List.map_congr_left
  intro i _
  split <;> simp [Nat.add_mod]

theorem set_mid {α : Type} (A B : List α) (x y : α) : (A ++ x :: B).set A.length y = A ++ y :: B := by
  rw [List.set_append_right _ _ le_rfl]
  simp

/-- Swapping two places of a list. -/
theorem swapAt_mid {α : Type} (A M B : List α) (x z : α) :
    swapAt (A ++ x :: (M ++ z :: B)) (A.length : Int) ((A.length + M.length + 1 : Nat) : Int) = .ok (A ++ z :: (M ++ x :: B)) := by
  have e1 : A ++ x :: (M ++ z :: B) = (A ++ x :: M) ++ z :: B := by simp
  have e2 : A ++ z :: (M ++ z :: B) = (A ++ z :: M) ++ z :: B := by simp
  have h1 : rd (A ++ x :: (M ++ z :: B)) ((A.length + M.length + 1 : Nat) : Int) = .ok z := by
    rw [e1, ← show (A ++ x :: M).length = A.length + M.length + 1 by simp; omega]
    exact rd_mid _ _ _
  unfold swapAt
  rw [rd_mid]
  simp only [bind, Except.bind]
  rw [h1]
  simp only
  rw [wr_ok _ (by simp), set_mid]
  simp only
  rw [wr_ok _ (by simp; omega), e2, ← show (A ++ z :: M).length = A.length + M.length + 1 by simp; omega, set_mid]
  simp

/-- Swapping a place with itself. -/
theorem swapAt_self {α : Type} (A B : List α) (x : α) : swapAt (A ++ x :: B) (A.length : Int) (A.length : Int) = .ok (A ++ x :: B) := by
  unfold swapAt
  rw [rd_mid]
  simp only [bind, Except.bind]
  rw [wr_ok _ (by simp), set_mid]
  simp only
  rw [wr_ok _ (by simp), set_mid]

/-- The rows of the dataset: `X` holds them one after the other, and `left f t d` tells whether document `d` goes left. -/
structure Docs (X : List K) (nf n : Nat) (left : Nat → K → Nat → Bool) : Prop where
  small : n * nf < 2 ^ 32
  nSmall : n < 2 ^ 31
  get : ∀ d f t, d < n → f < nf → ∃ x, X[d * nf + f]? = some x ∧ (left f t d = true ↔ x ≤ t)

theorem Docs.index {X : List K} {nf n : Nat} {left : Nat → K → Nat → Bool} (h : Docs X nf n left) {d f : Nat} (hd : d < n) (hf : f < nf) :
    u32 ((d : Int) * (nf : Int) + (f : Int)) = d * nf + f := by
  have h1 : d * nf + f < n * nf := by
    calc d * nf + f < d * nf + nf := by omega
      _ = (d + 1) * nf := by ring
      _ ≤ n * nf := Nat.mul_le_mul_right _ hd
  have := h.small
  rw [show (d : Int) * (nf : Int) + (f : Int) = ((d * nf + f : Nat) : Int) by push_cast; ring]
  exact u32_nat (by omega)

/-- The partition loop. -/
theorem fiPartition_spec {X : List K} {nf n : Nat} {left : Nat → K → Nat → Bool} (h : Docs X nf n left) {f : Nat} (hf : f < nf) (t : K)
    (yf : Nat → K) : ∀ (k : Nat) (M A B : List Nat) (a b : K), M.length = k → (∀ d ∈ M, d < n) →
    ∃ L R, fiPartition X nf (f : Int) t ((List.range n).map yf) k (A ++ (M ++ B)) (A.length : Int) ((A.length : Int) + M.length - 1) a b =
      .ok (A ++ (L ++ R) ++ B, (A.length : Int) + L.length - 1, a + (L.map yf).sum, b + (R.map yf).sum) ∧ (L ++ R).Perm M ∧
      (∀ d ∈ L, left f t d = true) ∧ (∀ d ∈ R, left f t d = false)
  | 0, M, A, B, a, b, hk, _ => by
    have : M = [] := List.length_eq_zero_iff.1 hk
    subst this
    exact ⟨[], [], by simp [fiPartition, pure, Except.pure], by simp, by simp, by simp⟩
  | k + 1, [], A, B, a, b, hk, _ => by simp at hk
  | k + 1, x :: M, A, B, a, b, hk, hM => by
    have hx : x < n := hM x (by simp)
    obtain ⟨v, hv, hl⟩ := h.get x f t hx hf
    rw [fiPartition, if_pos (by simp only [List.length_cons]; push_cast; omega)]
    rw [List.cons_append, rd_mid]
    simp only [bind, Except.bind]
    rw [h.index hx hf, rd_ok hv]
    simp only
    rw [rd_range yf hx]
    simp only
    by_cases hc : v ≤ t
    · rw [if_pos hc]
      have hlen : M.length = k := by simpa using hk
      obtain ⟨L, R, e, hp, hL, hR⟩ := fiPartition_spec h hf t yf k M (A ++ [x]) B (a + yf x) b hlen (fun d hd => hM d (by simp [hd]))
      refine ⟨x :: L, R, ?_, ?_, ?_, hR⟩
      · have e1 : A ++ x :: (M ++ B) = A ++ [x] ++ (M ++ B) := by simp
        have e2 : (A.length : Int) + 1 = ((A ++ [x]).length : Int) := by simp
        have e3 : (A.length : Int) + ((x :: M).length : Nat) - 1 = ((A ++ [x]).length : Int) + M.length - 1 := by simp; omega
        rw [e1, e2, e3, e]
        simp only [Except.ok.injEq, Prod.mk.injEq]
        refine ⟨by simp, by simp; omega, by simp [add_assoc], trivial⟩
      · simpa using hp.cons x
      · intro d hd
        rcases List.mem_cons.1 hd with rfl | hd
        · exact hl.2 hc
        · exact hL d hd
    · rw [if_neg hc]
      have hlx : left f t x = false := by
        cases hb : left f t x with
        | false => rfl
        | true => exact absurd (hl.1 hb) hc
      rcases List.eq_nil_or_concat M with rfl | ⟨M', z, rfl⟩
      · -- the last document is swapped with itself
        have hk0 : k = 0 := by simpa using hk.symm
        subst hk0
        refine ⟨[], [x], ?_, by simp, by simp, by simpa using hlx⟩
        have e0 : (A.length : Int) + (([x] : List Nat).length : Nat) - 1 = (A.length : Int) := by simp
        rw [e0, List.nil_append, swapAt_self]
        simp [fiPartition, pure, Except.pure]
      · have hlen : (z :: M').length = k := by simpa using hk
        obtain ⟨L, R, e, hp, hL, hR⟩ := fiPartition_spec h hf t yf k (z :: M') A (x :: B) a (b + yf x) hlen (fun d hd => hM d (by
          simp only [List.mem_cons, List.concat_eq_append, List.mem_append, List.mem_singleton] at hd ⊢
          tauto))
        refine ⟨L, R ++ [x], ?_, ?_, hL, ?_⟩
        · have e1 : A ++ x :: (M'.concat z ++ B) = A ++ x :: (M' ++ z :: B) := by simp
          have e2 : (A.length : Int) + ((x :: M'.concat z).length : Nat) - 1 = ((A.length + M'.length + 1 : Nat) : Int) := by
            simp; omega
          rw [e1, e2, swapAt_mid]
          simp only
          have e3 : ((A.length + M'.length + 1 : Nat) : Int) - 1 = (A.length : Int) + ((z :: M').length : Nat) - 1 := by simp; omega
          have e4 : A ++ z :: (M' ++ x :: B) = A ++ (z :: M' ++ x :: B) := by simp
          rw [e3, e4, e]
          simp only [Except.ok.injEq, Prod.mk.injEq]
          refine ⟨by simp, trivial, trivial, ?_⟩
          simp only [List.map_append, List.sum_append, List.map_cons, List.map_nil, List.sum_cons, List.sum_nil]
          ring
        · have h1 : (L ++ (R ++ [x])).Perm (x :: (L ++ R)) := by
            rw [← List.append_assoc]
            exact List.perm_append_singleton _ _
          refine h1.trans ((hp.trans ?_).cons x)
          rw [List.concat_eq_append]
          exact (List.perm_append_singleton _ _).symm
        · intro d hd
          rcases List.mem_append.1 hd with hd | hd
          · exact hR d hd
          · rw [List.mem_singleton.1 hd]; exact hlx

/-- The loop computing the gain, over documents that all get the prediction `q`. -/
theorem fiGain_segment {n : Nat} (yf : Nat → K) {endId : Int} {mL mR q : K} (sp : List Nat) (rest : Nat) : ∀ (M A B : List Nat) (pf : Nat → K) (delta : K),
    sp = A ++ (M ++ B) → (∀ d ∈ M, d < n) → M.Nodup →
    (∀ i, A.length ≤ i → i < A.length + M.length → (if i ≤ u32 endId then mL else mR) = q) →
    fiGain ((List.range n).map yf) sp endId mL mR (M.length + rest) A.length ((List.range n).map pf) delta =
      fiGain ((List.range n).map yf) sp endId mL mR rest (A.length + M.length) ((List.range n).map (fun d => if d ∈ M then q else pf d))
        (delta + (M.map (fun d => (yf d - pf d) ^ 2 - (yf d - q) ^ 2)).sum)
  | [], A, B, pf, delta, hsp, _, _, _ => by simp
  | x :: M, A, B, pf, delta, hsp, hM, hnd, hq => by
    have hx : x < n := hM x (by simp)
    rw [List.nodup_cons] at hnd
    rw [List.length_cons, show M.length + 1 + rest = (M.length + rest) + 1 by omega, fiGain]
    have hrd : rd sp (A.length : Int) = .ok x := by rw [hsp]; exact rd_mid _ _ _
    rw [hrd]
    simp only [bind, Except.bind]
    rw [rd_range yf hx]
    simp only
    rw [rd_range pf hx]
    simp only
    rw [hq A.length le_rfl (by simp), wr_range pf q hx]
    simp only
    have ih := fiGain_segment yf sp rest M (A ++ [x]) B (fun i => if i = x then q else pf i)
      (delta + ((yf x - pf x) ^ 2 - (yf x - q) ^ 2)) (by rw [hsp]; simp) (fun d hd => hM d (by simp [hd])) hnd.2 (by
        intro i h1 h2
        apply hq i
        · simp at h1; omega
        · simp at h2 ⊢; omega)
    have elen : (A ++ [x]).length = A.length + 1 := by simp
    rw [elen] at ih
    rw [ih, show A.length + 1 + M.length = A.length + (M.length + 1) by omega]
    congr 1
    · apply List.map_congr_left
      intro d _
      by_cases hdM : d ∈ M
      · simp [hdM]
      · by_cases hdx : d = x
        · simp [hdx]
        · simp [hdM, hdx]
    · rw [List.map_cons, List.sum_cons, add_assoc]
      congr 2
      congr 1
      apply List.map_congr_left
      intro d hd
      have : d ≠ x := fun he => hnd.1 (he ▸ hd)
      simp [this]

end Verif
