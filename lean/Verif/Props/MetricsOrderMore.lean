/-
Properties C27 and C28, continued: what happens below the cutoff for all ten metrics, and moving relevant
documents upwards for MAP.
-/
import Verif.Props.MetricsOrder

namespace Verif.Props
open Spec Metrics

variable {S : Type} [LinearOrder S] {sort : List S → List Nat} {sortY : List ℝ → List Nat} {y y' : List ℝ} {s : List S}

/-! ### C27 -/

/-- C27 for all ten metrics: rearranging the labels of documents that are beaten by at least `k` others changes
no metric with cutoff `k`. (Recall, MAP, NDCG, ERR and Pfound also use the multiset of all labels of the query,
which a rearrangement keeps.) -/
theorem C27_below_cutoff_order (hs : IsArgsort s (sort s)) (h : y.length = s.length)
    (hsY : ∀ v, IsArgsort v (sortY v)) (hp : y.Perm y') {k : Nat}
    (hchg : ∀ (i : Nat) (hi : i < s.length), y[i]? ≠ y'[i]? → k ≤ s.countP (fun x => decide (s[i] < x)))
    (m : RankMetric) :
    evalMetric sort sortY (cut (some k)) m y s = evalMetric sort sortY (cut (some k)) m y' s := by
  have h' : y'.length = s.length := hp.length_eq ▸ h
  refine evalMetric_congr hs h hs h' hsY ?_ hp m
  rw [← gather_topIdx hs h, ← gather_topIdx hs h']
  unfold gather
  apply List.filterMap_congr
  intro i hi
  have hil := topIdx_lt hs _ i hi
  by_contra hne
  have := hchg i hil hne
  have hlt := beaten_lt hs (k := k) (by simpa [topIdx, pyTake_of_nonneg] using hi) hil
  omega

example : ([0, 2, 1, 3] : List ℚ).Perm [1, 2, 0, 3] ∧
    ∀ (i : Nat) (hi : i < ([3, 7, 1, 5] : List ℚ).length),
    ([0, 2, 1, 3] : List ℚ)[i]? ≠ ([1, 2, 0, 3] : List ℚ)[i]? →
      2 ≤ ([3, 7, 1, 5] : List ℚ).countP (fun x => decide (([3, 7, 1, 5] : List ℚ)[i] < x)) := by
  decide +kernel

/-- C27: for recall the documents below the cutoff do matter through their number of relevant ones: with cutoff
1 the value drops from 1 to 1/2 when the last document becomes relevant. -/
theorem C27_recall_below_cutoff :
    Metrics.recall argsort (cut (some 1)) (1 : ℚ) 0 [1, 0] [5, 3] = 1 ∧
    Metrics.recall argsort (cut (some 1)) (1 : ℚ) 0 [1, 1] [5, 3] = 1 / 2 := by
  constructor <;> decide +kernel

/-! ### C28 for MAP -/

/-- The sum of precisions of a list that follows `n` documents of which `c` are relevant. -/
noncomputable def precSum : Nat → Nat → List ℝ → ℝ
  | _, _, [] => 0
  | n, c, v :: l =>
    if 0 < v then ((c : ℝ) + 1) / ((n : ℝ) + 1) + precSum (n + 1) (c + 1) l else precSum (n + 1) c l

theorem precSum_append : ∀ (l l' : List ℝ) (n c : Nat), precSum n c (l ++ l') =
    precSum n c l + precSum (n + l.length) (c + l.countP (fun v => decide (0 < v))) l'
  | [], l', n, c => by simp [precSum]
  | v :: l, l', n, c => by
    by_cases hv : 0 < v
    · simp only [List.cons_append, precSum, hv, if_true, precSum_append l l', List.length_cons, List.countP_cons,
        decide_true]
      rw [show n + 1 + l.length = n + (l.length + 1) by omega,
        show c + 1 + l.countP (fun v => decide (0 < v)) = c + (l.countP (fun v => decide (0 < v)) + 1) by omega]
      ring
    · simp only [List.cons_append, precSum, hv, if_false, precSum_append l l', List.length_cons, List.countP_cons,
        decide_false]
      rw [show n + 1 + l.length = n + (l.length + 1) by omega]
      simp

theorem sumPrecisions_eq_precSum (l : List ℝ) : sumPrecisions l = precSum 0 0 l := by
  induction l using List.reverseRecOn with
  | nil => simp [sumPrecisions, precSum]
  | append_singleton l v ih =>
    rw [sumPrecisions_append, precSum_append, ih]
    by_cases hv : 0 < v <;> simp [precSum, hv]

theorem precSum_nonneg : ∀ (l : List ℝ) (n c : Nat), 0 ≤ precSum n c l
  | [], _, _ => le_refl _
  | v :: l, n, c => by
    unfold precSum
    split
    · have := precSum_nonneg l (n + 1) (c + 1)
      positivity
    · exact precSum_nonneg l _ _

/-- One relevant document more before the list outweighs a relevant document in it. -/
theorem precSum_drop_take {a b : ℝ} (ha : ¬0 < a) (hb : 0 < b) (t : List ℝ) :
    ∀ (m : List ℝ) (k n c : Nat) (x : ℝ), ((c : ℝ) + 1) / ((n : ℝ) + 1) ≤ x →
      precSum n c ((m ++ b :: t).take k) ≤ x + precSum n (c + 1) ((m ++ a :: t).take k)
  | m, 0, n, c, x, hx => by
    have : (0 : ℝ) ≤ ((c : ℝ) + 1) / ((n : ℝ) + 1) := by positivity
    simp only [List.take_zero, precSum]
    linarith
  | [], k + 1, n, c, x, hx => by
    simp only [List.nil_append, List.take_succ_cons, precSum, ha, hb, if_true, if_false]
    linarith
  | v :: m, k + 1, n, c, x, hx => by
    have hmono : ∀ z : ℝ, 0 ≤ z → z / ((n : ℝ) + 1 + 1) ≤ z / ((n : ℝ) + 1) := fun z hz =>
      div_le_div_of_nonneg_left hz (by positivity) (by linarith)
    by_cases hv : 0 < v
    · have ih := precSum_drop_take ha hb t m k (n + 1) (c + 1) (x + 1 / ((n : ℝ) + 1)) (by
        push_cast
        refine (hmono _ (by positivity)).trans ?_
        rw [add_div ((c : ℝ) + 1)]
        linarith)
      simp only [List.cons_append, List.take_succ_cons, precSum, hv, if_true]
      push_cast
      have e : ((c : ℝ) + 1 + 1) / ((n : ℝ) + 1) = ((c : ℝ) + 1) / ((n : ℝ) + 1) + 1 / ((n : ℝ) + 1) := by
        rw [add_div]
      rw [e]
      linarith
    · have ih := precSum_drop_take ha hb t m k (n + 1) c x (by
        push_cast
        exact (hmono _ (by positivity)).trans hx)
      simp only [List.cons_append, List.take_succ_cons, precSum, hv, if_false]
      exact ih

/-- Moving a relevant document upwards does not lower the sum of precisions at any cutoff. -/
theorem precSum_swap {a b : ℝ} (ha : ¬0 < a) (hb : 0 < b) (m t : List ℝ) : ∀ (l : List ℝ) (k n c : Nat),
    precSum n c ((l ++ a :: m ++ b :: t).take k) ≤ precSum n c ((l ++ b :: m ++ a :: t).take k)
  | _, 0, _, _ => by simp
  | [], k + 1, n, c => by
    simp only [List.nil_append, List.cons_append, List.take_succ_cons, precSum, ha, hb, if_true, if_false]
    refine precSum_drop_take ha hb t m k (n + 1) c _ ?_
    push_cast
    exact div_le_div_of_nonneg_left (by positivity) (by positivity) (by linarith)
  | v :: l, k + 1, n, c => by
    simp only [List.cons_append, List.take_succ_cons, precSum]
    split
    · have := precSum_swap ha hb m t l k (n + 1) (c + 1)
      linarith
    · exact precSum_swap ha hb m t l k (n + 1) c

/-- The sum of precisions depends only on which labels are positive. -/
theorem precSum_congr : ∀ {l l' : List ℝ} (n c : Nat), List.Forall₂ (fun a b => (0 < a ↔ 0 < b)) l l' →
    precSum n c l = precSum n c l'
  | _, _, _, _, .nil => rfl
  | a :: l, b :: l', n, c, .cons h hl => by
    unfold precSum
    by_cases ha : 0 < a
    · rw [if_pos ha, if_pos (h.1 ha), precSum_congr _ _ hl]
    · rw [if_neg ha, if_neg (fun hb => ha (h.2 hb)), precSum_congr _ _ hl]

theorem sumPrecisions_top_swap (l1 m l2 : List ℝ) {a b : ℝ} (hab : a ≤ b) (c : Option Nat) :
    sumPrecisions (top c (l1 ++ a :: m ++ b :: l2)) ≤ sumPrecisions (top c (l1 ++ b :: m ++ a :: l2)) := by
  obtain ⟨k, hk⟩ := top_eq_take c (l1 ++ a :: m ++ b :: l2)
  rw [hk _ rfl, hk (l1 ++ b :: m ++ a :: l2) (by simp), sumPrecisions_eq_precSum, sumPrecisions_eq_precSum]
  by_cases ha : 0 < a ↔ 0 < b
  · have hr : ∀ l : List ℝ, List.Forall₂ (fun a b => (0 < a ↔ 0 < b)) l l := fun l =>
      List.forall₂_same.2 (fun _ _ => Iff.rfl)
    refine le_of_eq (precSum_congr 0 0 (List.forall₂_take k ?_))
    rw [List.append_assoc, List.append_assoc]
    exact List.rel_append (hr l1) (.cons ha (List.rel_append (hr m) (.cons ha.symm (hr l2))))
  · have hb : 0 < b := by
      by_contra hb
      exact ha ⟨fun h => h.trans_le hab, fun h => absurd h hb⟩
    exact precSum_swap (fun h => ha ⟨fun _ => hb, fun _ => h⟩) hb m l2 l1 k 0 0

/-- C28 for MAP: document `i` is ranked above document `j` and has the smaller label. Exchanging the two does not
lower the average precision, provided a relevant document was retrieved before the exchange or the value for
queries without relevant results is at most 0 (`C28_map_excluded` shows that one of them is needed). -/
theorem C28_map_swap_upwards (hs : IsArgsort s (sort s)) (h : y.length = s.length) {i j : Nat} (hi : i < y.length)
    (hj : j < y.length) (hij : s[j] < s[i]) (hlab : y[i] ≤ y[j]) (c : Option Nat) (d : ℝ)
    (hd : d ≤ 0 ∨ ∀ r, IsRanking (y.zip s) r → ∃ v ∈ retrieved c r, 0 < v) :
    Metrics.map sort (cut c) d y s ≤ Metrics.map sort (cut c) d (exchange y i j hi hj) s := by
  obtain ⟨l1, mid, l2, e1, e2⟩ := exchange_ranked hs h hi hj hij
  have hp := exchange_perm hi hj
  have h' : (exchange y i j hi hj).length = s.length := by rw [hp.length_eq]; exact h
  generalize hY : exchange y i j hi hj = y' at *
  have hr := rankedDocs_isRanking hs h
  have hlen : (retrieved c (rankedDocs sort y' s)).length = (retrieved c (rankedDocs sort y s)).length := by
    rw [length_retrieved h' (rankedDocs_isRanking hs h'), length_retrieved h hr, h, h']
  have hsum : sumPrecisions (retrieved c (rankedDocs sort y s)) ≤ sumPrecisions (retrieved c (rankedDocs sort y' s)) := by
    rw [retrieved_eq_top, retrieved_eq_top, e1, e2]
    exact sumPrecisions_top_swap l1 mid l2 hlab c
  have hf : (y'.filter (fun v => decide (v ≠ 0))).length = (y.filter (fun v => decide (v ≠ 0))).length :=
    (hp.filter _).length_eq
  simp only [Metrics.map, cut, gather_topIdx hs h, gather_topIdx hs h', length_topIdx hs h,
    hf, mapLoop_sum, mapLoop_count]
  have hnn : ∀ N : Nat, 0 ≤ sumPrecisions (retrieved c (rankedDocs sort y' s)) / (N : ℝ) := fun N =>
    div_nonneg (sumPrecisions_nonneg _) (by positivity)
  by_cases hrel : ∃ v ∈ retrieved c (rankedDocs sort y s), 0 < v
  · have h1 : 0 < (retrieved c (rankedDocs sort y s)).countP (fun v => decide (0 < v)) := by
      rw [List.countP_pos_iff]
      simpa using hrel
    have h2 : 0 < (retrieved c (rankedDocs sort y' s)).countP (fun v => decide (0 < v)) := by
      by_contra h0
      have h0 : (retrieved c (rankedDocs sort y' s)).countP (fun v => decide (0 < v)) = 0 := by omega
      have h3 := sumPrecisions_le (retrieved c (rankedDocs sort y' s))
      rw [h0] at h3
      have h4 : ∀ l : List ℝ, 0 < l.countP (fun v => decide (0 < v)) → 0 < sumPrecisions l := by
        intro l
        induction l using List.reverseRecOn with
        | nil => simp
        | append_singleton l v ih =>
          intro hl
          rw [sumPrecisions_append]
          by_cases hv : 0 < v
          · rw [if_pos hv]
            have := sumPrecisions_nonneg l
            have h5 : (0 : ℝ) < ((l.countP (fun v => decide (0 < v)) : ℕ) + 1 : ℝ) / ((l.length : ℝ) + 1) := by
              positivity
            linarith
          · rw [if_neg hv, add_zero]
            apply ih
            simpa [List.countP_append, hv] using hl
      have := h4 _ h1
      push_cast at h3
      linarith
    rw [if_pos h1, if_pos h2]
    exact div_le_div_of_nonneg_right hsum (by positivity)
  · have h1 : ¬0 < (retrieved c (rankedDocs sort y s)).countP (fun v => decide (0 < v)) := by
      rw [List.countP_pos_iff]
      simpa using hrel
    have hd0 : d ≤ 0 := by
      rcases hd with hd | hd
      · exact hd
      · exact absurd (hd _ hr) hrel
    rw [if_neg h1]
    split
    · exact hd0.trans (hnn _)
    · exact le_refl _

/-- The hypotheses of `C28_map_swap_upwards` hold where the value really grows: from 5/6 to 1. -/
example : Metrics.map argsort none (1 : ℚ) [1, 0, 1] [9, 8, 7] = 5 / 6 ∧
    Metrics.map argsort none (1 : ℚ) [1, 1, 0] [9, 8, 7] = 1 := by
  constructor <;> decide +kernel

example : ∃ (y s : List ℝ) (i j : Nat) (hi : i < y.length) (hj : j < y.length) (hi' : i < s.length)
    (hj' : j < s.length), y.length = s.length ∧ IsArgsort s (argsort s) ∧ s[j] < s[i] ∧ y[i] < y[j] ∧
      ∀ r, IsRanking (y.zip s) r → ∃ v ∈ retrieved none r, 0 < v := by
  refine ⟨[1, 0, 1], [9, 8, 7], 1, 2, by simp, by simp, by simp, by simp, rfl, argsort_isArgsort _, ?_, ?_, ?_⟩
  · simp; norm_num
  · simp
  · intro r hr
    refine ⟨1, ?_, by norm_num⟩
    have : (1, 9) ∈ r := hr.perm.mem_iff.2 (by simp)
    simp only [retrieved]
    exact List.mem_map.2 ⟨_, this, rfl⟩

end Verif.Props
