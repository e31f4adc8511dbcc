/-
Rounding errors of sums of squares of differences.
-/
import Verif.Model.SquaresFloat
import Verif.Lemmas.Rounding
import Verif.Lemmas.Pairwise
import Verif.Lemmas.Binary32
import Verif.Props.Eval
import Mathlib.Tactic.NormNum

namespace Verif.Metrics
open Spec Ensemble
variable {F R : Type} {ops : FloatOps F} {finite : F → Prop} {num : F → ℝ} {u η : ℝ} {sub : F → F → F}

/-- The exact sum of squares. -/
def exactSquares (num : F → ℝ) (l : List (F × F)) : ℝ := (l.map (fun p => (num p.1 - num p.2) ^ 2)).sum

theorem exactSquares_nonneg (num : F → ℝ) (l : List (F × F)) : 0 ≤ exactSquares num l := by
  unfold exactSquares
  apply List.sum_nonneg
  intro x hx
  obtain ⟨p, -, rfl⟩ := List.mem_map.1 hx
  exact sq_nonneg _

theorem sq_sub_error {d d' : ℝ} (hu : 0 ≤ u) (h : |d' - d| ≤ u * |d|) : |d' * d' - d ^ 2| ≤ ((1 + u) ^ 2 - 1) * d ^ 2 := by
  have e : d' * d' - d ^ 2 = (d' - d) * (d' - d) + 2 * (d * (d' - d)) := by ring
  have h1 : |(d' - d) * (d' - d)| ≤ u ^ 2 * d ^ 2 := by
    rw [abs_mul]
    calc |d' - d| * |d' - d| ≤ (u * |d|) * (u * |d|) := mul_le_mul h h (abs_nonneg _) (mul_nonneg hu (abs_nonneg _))
      _ = u ^ 2 * |d| ^ 2 := by ring
      _ = _ := by rw [sq_abs]
  have h2 : |2 * (d * (d' - d))| ≤ 2 * u * d ^ 2 := by
    rw [abs_mul, abs_mul, abs_of_pos (by norm_num : (0 : ℝ) < 2)]
    calc 2 * (|d| * |d' - d|) ≤ 2 * (|d| * (u * |d|)) := by
          have := mul_le_mul_of_nonneg_left h (abs_nonneg d)
          linarith
      _ = 2 * u * |d| ^ 2 := by ring
      _ = _ := by rw [sq_abs]
  rw [e]
  refine (abs_add_le _ _).trans ?_
  have e2 : ((1 + u) ^ 2 - 1) * d ^ 2 = u ^ 2 * d ^ 2 + 2 * u * d ^ 2 := by ring
  linarith

/-- The sum of the squares of the rounded differences. -/
theorem rounded_differences (hu : 0 ≤ u) (l : List (F × F)) (h : ∀ p ∈ l, |num (sub p.1 p.2) - (num p.1 - num p.2)| ≤ u * |num p.1 - num p.2|) :
    |(l.map (fun p => num (sub p.1 p.2) * num (sub p.1 p.2))).sum - exactSquares num l| ≤ ((1 + u) ^ 2 - 1) * exactSquares num l := by
  induction l with
  | nil => simp [exactSquares]
  | cons p l ih =>
    have h1 := ih (fun q hq => h q (List.mem_cons_of_mem _ hq))
    have h2 := sq_sub_error hu (h p List.mem_cons_self)
    unfold exactSquares at h1 ⊢
    simp only [List.map_cons, List.sum_cons]
    generalize (l.map (fun p => (num p.1 - num p.2) ^ 2)).sum = A at h1 ⊢
    generalize (l.map (fun p => num (sub p.1 p.2) * num (sub p.1 p.2))).sum = B at h1 ⊢
    have e : num (sub p.1 p.2) * num (sub p.1 p.2) + B - ((num p.1 - num p.2) ^ 2 + A) =
        (num (sub p.1 p.2) * num (sub p.1 p.2) - (num p.1 - num p.2) ^ 2) + (B - A) := by ring
    rw [e, mul_add]
    exact (abs_add_le _ _).trans (by linarith)

/-- The computed sum of the squares. -/
theorem squares_error (hr : Rounded ops finite num u η)
    (hsub : ∀ a b, finite (sub a b) → finite a ∧ finite b ∧ |num (sub a b) - (num a - num b)| ≤ u * |num a - num b|) (l : List (F × F)) {d : Nat} {s : F}
    (hs : SumTree ops d (l.map (fun p => squareFloat ops sub p.1 p.2)) s) (hf : finite s) :
    (∀ p ∈ l, finite p.1 ∧ finite p.2) ∧
      |num s - exactSquares num l| ≤ ((1 + u) ^ (d + 3) - 1) * exactSquares num l + (1 + u) ^ d * (l.length * η) := by
  have hu := hr.u_nonneg
  have hfin := (sumTree_error hr hs hf).1
  have hdf : ∀ p ∈ l, finite (sub p.1 p.2) := fun p hp => (hr.mul _ _ (hfin _ (List.mem_map_of_mem hp))).1
  refine ⟨fun p hp => ⟨(hsub _ _ (hdf p hp)).1, (hsub _ _ (hdf p hp)).2.1⟩, ?_⟩
  have h1 := rounded_differences hu l (fun p hp => (hsub _ _ (hdf p hp)).2.2)
  have h2 := dot_error hr (l.map (fun p => (sub p.1 p.2, sub p.1 p.2))) (d := d) (s := s) (by rw [List.map_map]; exact hs) hf
  rw [List.map_map, List.map_map, List.length_map] at h2
  have e1 : ((fun p : F × F => num p.1 * num p.2) ∘ fun p : F × F => (sub p.1 p.2, sub p.1 p.2)) = fun p => num (sub p.1 p.2) * num (sub p.1 p.2) := rfl
  have e2 : ((fun p : F × F => |num p.1 * num p.2|) ∘ fun p : F × F => (sub p.1 p.2, sub p.1 p.2)) = fun p => num (sub p.1 p.2) * num (sub p.1 p.2) := by
    funext p
    exact abs_of_nonneg (mul_self_nonneg _)
  rw [e1, e2] at h2
  have hA := exactSquares_nonneg num l
  have hP : 0 ≤ (1 + u) ^ (d + 1) - 1 := by linarith [Ensemble.one_le_pow hu (d + 1)]
  generalize (l.map (fun p => num (sub p.1 p.2) * num (sub p.1 p.2))).sum = B at h1 h2
  generalize exactSquares num l = A at hA h1 ⊢
  have hB := (abs_le.1 h1).2
  have h3 : ((1 + u) ^ (d + 1) - 1) * B ≤ ((1 + u) ^ (d + 1) - 1) * ((1 + u) ^ 2 * A) := mul_le_mul_of_nonneg_left (by linarith) hP
  have e : num s - A = (num s - B) + (B - A) := by ring
  rw [e]
  refine (abs_add_le _ _).trans ?_
  have e3 : (1 + u) ^ (d + 3) = (1 + u) ^ (d + 1) * (1 + u) ^ 2 := by rw [← pow_add]
  have e4 : ((1 + u) ^ (d + 1) * (1 + u) ^ 2 - 1) * A = ((1 + u) ^ (d + 1) - 1) * ((1 + u) ^ 2 * A) + ((1 + u) ^ 2 - 1) * A := by ring
  rw [e3, e4]
  linarith

/-- The pairs over which MSE is taken. -/
def msePairs (sort : List F → List Nat) (cutoff : Option Int) (y s : List F) : List (F × F) :=
  match cutoff with
  | some _ => (gather y (topIdx sort cutoff s)).zip (gather s (topIdx sort cutoff s))
  | none => y.zip s

theorem mseFloat_pairs (sort : List F → List Nat) (cutoff : Option Int) (y s : List F) :
    mseFloat ops sub sort cutoff y s = pairwiseSum ops ((msePairs sort cutoff y s).map (fun p => squareFloat ops sub p.1 p.2)) := by
  unfold mseFloat msePairs
  cases cutoff <;> simp only [List.zip, List.map_zipWith]

theorem mseFloat_error (hr : Rounded ops finite num u η)
    (hsub : ∀ a b, finite (sub a b) → finite a ∧ finite b ∧ |num (sub a b) - (num a - num b)| ≤ u * |num a - num b|) {sort : List F → List Nat}
    {cutoff : Option Int} {y s : List F} {e : Nat} (hn : (msePairs sort cutoff y s).length ≤ 112 * 2 ^ e + 16) (hf : finite (mseFloat ops sub sort cutoff y s)) :
    |num (mseFloat ops sub sort cutoff y s) - exactSquares num (msePairs sort cutoff y s)| ≤
      ((1 + u) ^ (e + 28) - 1) * exactSquares num (msePairs sort cutoff y s) + (1 + u) ^ (e + 25) * ((msePairs sort cutoff y s).length * η) := by
  rw [mseFloat_pairs] at hf ⊢
  have h := (squares_error hr hsub _ (pairwiseSum_sum e (by simpa using hn)) hf).2
  rwa [show 25 + e + 3 = e + 28 by omega, show 25 + e = e + 25 by omega] at h

/-- The loop of `MSE.eval`. -/
theorem mseLoopFloat_ok (share : List F → List F → F) :
    ∀ (bs : List (Int × List F × List F)) (a : List F), (bs.map (·.1)).Nodup → (∀ b ∈ bs, 0 ≤ b.1 ∧ b.1 < a.length) →
      ∃ res, mseLoopFloat share bs a = .ok res ∧ res.length = a.length ∧ (∀ b ∈ bs, res[b.1.toNat]? = some (share b.2.1 b.2.2)) ∧
        (∀ j : Nat, (∀ b ∈ bs, b.1 ≠ j) → res[j]? = a[j]?)
  | [], a, _, _ => ⟨a, rfl, rfl, by simp, by simp⟩
  | (q, qy, qs) :: bs, a, hnd, hb => by
    rw [List.map_cons, List.nodup_cons] at hnd
    have hq := hb (q, qy, qs) (by simp)
    simp only at hq
    obtain ⟨k, rfl⟩ : ∃ k : Nat, q = k := ⟨q.toNat, by omega⟩
    have hka : k < a.length := by omega
    obtain ⟨res, h1, h2, h3, h4⟩ := mseLoopFloat_ok share bs (a.set k (share qy qs)) hnd.2 (by
      intro b hbm
      rw [List.length_set]
      exact hb b (by simp [hbm]))
    refine ⟨res, ?_, by simpa using h2, ?_, ?_⟩
    · simp only [mseLoopFloat, bind, Except.bind, pySet_ok _ hka]
      exact h1
    · intro b hbm
      rcases List.mem_cons.1 hbm with rfl | hbm
      · simp only [Int.toNat_natCast]
        rw [h4 k (by
          intro b hbm e
          exact hnd.1 (List.mem_map.2 ⟨b, hbm, e⟩)), List.getElem?_set_self hka]
      · exact h3 b hbm
    · intro j hj
      have hjk : (k : Int) ≠ j := hj (k, qy, qs) (by simp)
      rw [h4 j (fun b hbm => hj b (by simp [hbm])), List.getElem?_set_ne (by omega)]

theorem subSingle_error (a b : Option Int) (h : (subSingle a b).isSome = true) : a.isSome = true ∧ b.isSome = true ∧
    |Binary32.num (subSingle a b) - (Binary32.num a - Binary32.num b)| ≤ 1 / 2 ^ 24 * |Binary32.num a - Binary32.num b| := by
  cases a with
  | none => cases b <;> simp [subSingle] at h
  | some a =>
    cases b with
    | none => simp [subSingle] at h
    | some b =>
      have e : subSingle (some a) (some b) = Binary32.ops.add (some a) (some (-b)) := by
        show Binary32.round _ = Binary32.round _
        rw [sub_eq_add_neg]
      rw [e] at h ⊢
      obtain ⟨-, -, h3⟩ := Binary32.rounded.add _ _ h
      have e2 : Binary32.num (some (-b)) = -Binary32.num (some b) := by
        simp only [Binary32.num]
        push_cast
        ring
      rw [e2, ← sub_eq_add_neg] at h3
      exact ⟨rfl, rfl, h3⟩

end Verif.Metrics
