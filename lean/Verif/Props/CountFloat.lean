/-
Property C97: metrics that are quotients of counts, in floating point.

The stored values are natural numbers `m` that stand for `m / 2^149`; 1 is `2^149`.
-/
import Verif.Lemmas.CountFloat
import Verif.Props.MetricsCount

namespace Verif.Props
open Spec Metrics Decimal

variable {S : Type} [LinearOrder S] {sort : List S → List Nat} {y : List ℚ} {s : List S}

theorem precision_counts (t : ℚ) (l : List ℚ) : nRelevant t l ≤ l.length ∧ (nRelevant t l = l.length ↔ ∀ v ∈ l, t ≤ v) ∧ (nRelevant t l = 0 ↔ ∀ v ∈ l, v < t) := by
  refine ⟨List.countP_le_length, ?_, ?_⟩
  · unfold nRelevant
    rw [List.countP_eq_length]
    simp
  · unfold nRelevant
    rw [List.countP_eq_zero]
    simp

/-- C97: the stored precision of a query with less than 2^24 retrieved documents is the single precision number nearest to the exact precision, although it is
rounded twice; it is 1 only if all retrieved documents are relevant, and 0 only if none is. -/
theorem C97_precision (hs : IsArgsort s (sort s)) (h : y.length = s.length) :
    ∃ r, IsRanking (y.zip s) r ∧ ∀ (c : Option Nat) (t : ℚ),
      (retrieved c r = [] → precisionFloat sort (cut c) t y s = .error .zeroDivisionError) ∧
      (retrieved c r ≠ [] → (retrieved c r).length < 2 ^ 24 → ∃ m : Nat,
        (precisionFloat sort (cut c) t y s).map toSingle = .ok (some (m : Int)) ∧ NearestSingle (Spec.precision t (retrieved c r)) m ∧
        m ≤ 2 ^ 149 ∧ (m = 2 ^ 149 ↔ ∀ v ∈ retrieved c r, t ≤ v) ∧ (m = 0 ↔ ∀ v ∈ retrieved c r, v < t)) := by
  refine ⟨_, rankedDocs_isRanking hs h, fun c t => ?_⟩
  unfold precisionFloat
  simp only [gather_topIdx hs h, length_topIdx hs h, nRelevant_eq_filter]
  constructor
  · intro he
    rw [if_pos (by simp [he])]
  · intro hne hlen
    have hpos := List.length_pos_iff.2 hne
    obtain ⟨h1, h2, h3⟩ := precision_counts t (retrieved c (rankedDocs sort y s))
    obtain ⟨m, hm1, hm2⟩ := quotient_nearest h1 hpos hlen
    obtain ⟨k1, k2⟩ := nearest_one hpos hlen h1 hm2
    rw [if_neg hpos.ne']
    exact ⟨m, by rw [Except.map, hm1], hm2, k1, k2.trans h2, (nearest_zero hpos hlen hm2).trans h3⟩

omit [LinearOrder S] in
/-- C97: the same for PrecisionMax, whose threshold is the largest label. -/
theorem C97_precision_max {t : ℚ} (ht : t ∈ y) (hmax : ∀ v ∈ y, v ≤ t) (c : Option Int) :
    precisionMaxFloat sort c y s = precisionFloat sort c t y s := by
  obtain ⟨m, hm⟩ := npMax_ok (List.ne_nil_of_mem ht)
  have e : m = t := le_antisymm (hmax m (npMax_spec hm).1) ((npMax_spec hm).2 t ht)
  unfold precisionMaxFloat precisionFloat
  simp only [hm, e, bind, Except.bind]

/-- C97: the stored recall of a query with less than 2^24 relevant documents is the single precision number nearest to the exact recall; it is 1 only if all
relevant documents are retrieved. -/
theorem C97_recall (hs : IsArgsort s (sort s)) (h : y.length = s.length) :
    ∃ r, IsRanking (y.zip s) r ∧ ∀ (c : Option Nat) (t d : ℚ),
      (nRelevant t y = 0 → recallFloat sort (cut c) t d y s = d) ∧
      (nRelevant t y ≠ 0 → nRelevant t y < 2 ^ 24 → ∃ m : Nat,
        toSingle (recallFloat sort (cut c) t d y s) = some (m : Int) ∧ NearestSingle (Spec.recall t y (retrieved c r)) m ∧
        m ≤ 2 ^ 149 ∧ (m = 2 ^ 149 ↔ nRelevant t (retrieved c r) = nRelevant t y) ∧ (m = 0 ↔ ∀ v ∈ retrieved c r, v < t)) := by
  refine ⟨_, rankedDocs_isRanking hs h, fun c t d => ?_⟩
  unfold recallFloat
  simp only [gather_topIdx hs h, nRelevant_eq_filter]
  constructor
  · intro h0
    rw [if_neg (by simpa using h0)]
  · intro hne hlen
    have hpos := Nat.pos_of_ne_zero hne
    have h1 : nRelevant t (retrieved c (rankedDocs sort y s)) ≤ nRelevant t y := by
      have hr := rankedDocs_isRanking hs h
      unfold nRelevant
      rw [← (labels_perm h hr).countP_eq]
      exact (retrieved_sublist_labels c).countP_le
    obtain ⟨m, hm1, hm2⟩ := quotient_nearest h1 hpos hlen
    obtain ⟨k1, k2⟩ := nearest_one hpos hlen h1 hm2
    rw [if_pos hne]
    exact ⟨m, hm1, hm2, k1, k2, (nearest_zero hpos hlen hm2).trans (precision_counts t _).2.2⟩

/-- C97: the stored MRR of a query whose first relevant document has a rank below 2^24 is the single precision number nearest to the reciprocal of the rank. -/
theorem C97_mrr (hs : IsArgsort s (sort s)) (h : y.length = s.length) :
    ∃ r, IsRanking (y.zip s) r ∧ ∀ (c : Option Nat) (t : ℚ),
      ((∀ v ∈ retrieved c r, v < t) → toSingle (mrrFloat sort (cut c) t y s) = some 0) ∧
      ∀ i, IsFirstRelevant t (retrieved c r) i → i + 1 < 2 ^ 24 → ∃ m : Nat,
        toSingle (mrrFloat sort (cut c) t y s) = some (m : Int) ∧ NearestSingle (1 / ((i : ℚ) + 1)) m ∧ m ≠ 0 ∧ m ≤ 2 ^ 149 ∧ (m = 2 ^ 149 ↔ i = 0) := by
  refine ⟨_, rankedDocs_isRanking hs h, fun c t => ?_⟩
  have hspec := mrrRank_spec t y (topIdx sort (cut c) s) 0 (fun i hi => by rw [h]; exact topIdx_lt hs _ i hi)
  rw [gather_topIdx hs h] at hspec
  unfold mrrFloat
  cases hm : mrrRank t y 0 (topIdx sort (cut c) s) with
  | none =>
    rw [hm] at hspec
    refine ⟨fun _ => by decide +kernel, fun i hi _ => ?_⟩
    obtain ⟨v, hv1, hv2⟩ := hi.1
    exact absurd hv2 (not_le.2 (hspec v (List.mem_of_getElem? hv1)))
  | some j =>
    rw [hm] at hspec
    have hj : IsFirstRelevant t (retrieved c (rankedDocs sort y s)) j := by simpa using hspec.2
    refine ⟨fun hall => ?_, fun i hi hlt => ?_⟩
    · obtain ⟨v, hv1, hv2⟩ := hj.1
      exact absurd hv2 (not_le.2 (hall v (List.mem_of_getElem? hv1)))
    · have hij : i = j := by
        obtain ⟨v, hv1, hv2⟩ := hi.1
        obtain ⟨w, hw1, hw2⟩ := hj.1
        rcases lt_trichotomy i j with hc | hc | hc
        · exact absurd hv2 (not_le.2 (hj.2 i hc v hv1))
        · exact hc
        · exact absurd hw2 (not_le.2 (hi.2 j hc w hw1))
      subst hij
      have e : (1 : ℚ) / ((i : ℚ) + 1) = ((1 : Nat) : ℚ) / ((i + 1 : Nat) : ℚ) := by push_cast; rfl
      obtain ⟨m, hm1, hm2⟩ := quotient_nearest (a := 1) (b := i + 1) (by omega) (by omega) hlt
      obtain ⟨k1, k2⟩ := nearest_one (by omega) hlt (by omega) hm2
      refine ⟨m, ?_, ?_, ?_, k1, k2.trans (by omega)⟩
      · show toSingle (double (1 / ((i : ℚ) + 1))) = _
        rw [e, hm1]
      · rw [e]
        exact hm2
      · intro h0
        exact absurd ((nearest_zero (by omega) hlt hm2).1 h0) one_ne_zero

variable {y' : List ℚ} {s' : List S}

/-- C97, proved part: a query with a smaller precision has a smaller stored precision, if the product of the numbers of retrieved documents is below 2^24.
Missing: more documents, see `C97_violated`. -/
theorem C97_order_partial (hs : IsArgsort s (sort s)) (h : y.length = s.length) (hs' : IsArgsort s' (sort s')) (h' : y'.length = s'.length) :
    ∃ r r', IsRanking (y.zip s) r ∧ IsRanking (y'.zip s') r' ∧ ∀ (c : Option Nat) (t : ℚ), retrieved c r ≠ [] → retrieved c r' ≠ [] →
      (retrieved c r).length * (retrieved c r').length < 2 ^ 24 → Spec.precision t (retrieved c r) < Spec.precision t (retrieved c r') →
      ∃ m m' : Nat, (precisionFloat sort (cut c) t y s).map toSingle = .ok (some (m : Int)) ∧
        (precisionFloat sort (cut c) t y' s').map toSingle = .ok (some (m' : Int)) ∧ m < m' := by
  obtain ⟨r, hr, hm⟩ := C97_precision hs h
  obtain ⟨r', hr', hm'⟩ := C97_precision hs' h'
  refine ⟨r, r', hr, hr', fun c t h0 h0' hlt hp => ?_⟩
  have p1 := List.length_pos_iff.2 h0
  have p2 := List.length_pos_iff.2 h0'
  have b1 : (retrieved c r).length < 2 ^ 24 := lt_of_le_of_lt (Nat.le_mul_of_pos_right _ p2) hlt
  have b2 : (retrieved c r').length < 2 ^ 24 := lt_of_le_of_lt (Nat.le_mul_of_pos_left _ p1) hlt
  obtain ⟨m, a1, a2, -⟩ := (hm c t).2 h0 b1
  obtain ⟨m', a1', a2', -⟩ := (hm' c t).2 h0' b2
  exact ⟨m, m', a1, a1', nearest_lt p1 p2 (precision_counts t _).1 (precision_counts t _).1 hlt hp a2 a2'⟩

/-- C97: of two queries the one with the better rank (below 2^23) of the first relevant document has the larger stored MRR. -/
theorem C97_mrr_order (hs : IsArgsort s (sort s)) (h : y.length = s.length) (hs' : IsArgsort s' (sort s')) (h' : y'.length = s'.length) :
    ∃ r r', IsRanking (y.zip s) r ∧ IsRanking (y'.zip s') r' ∧ ∀ (c : Option Nat) (t : ℚ) (i j : Nat), IsFirstRelevant t (retrieved c r) i →
      IsFirstRelevant t (retrieved c r') j → i < j → j + 1 < 2 ^ 23 →
      ∃ m m' : Nat, toSingle (mrrFloat sort (cut c) t y s) = some (m : Int) ∧ toSingle (mrrFloat sort (cut c) t y' s') = some (m' : Int) ∧ m' < m := by
  obtain ⟨r, hr, hm⟩ := C97_mrr hs h
  obtain ⟨r', hr', hm'⟩ := C97_mrr hs' h'
  refine ⟨r, r', hr, hr', fun c t i j hi hj hij hlt => ?_⟩
  obtain ⟨m, a1, a2, -⟩ := (hm c t).2 i hi (by omega)
  obtain ⟨m', a1', a2', -⟩ := (hm' c t).2 j hj (by omega)
  have e : ∀ n : Nat, (1 : ℚ) / ((n : ℚ) + 1) = 1 / ((n + 1 : Nat) : ℚ) := by intro n; push_cast; rfl
  rw [e] at a2 a2'
  exact ⟨m, m', a1, a1', nearest_rank (by omega) (by omega) hlt a2 a2'⟩

theorem retrieved_none_perm {r : List (ℚ × S)} (h : y.length = s.length) (hr : IsRanking (y.zip s) r) : (retrieved none r).Perm y := labels_perm h hr

/-- Labels of `n` relevant documents and one that is not relevant. -/
def oneWrong (n : Nat) : List ℚ := List.replicate n 1 ++ [0]

/-- C97 is violated for more documents: with 5000 relevant documents of 5001 the precision is larger than with 4999 of 5000, but the same number is stored. -/
theorem C97_violated (sort : List ℚ → List Nat) (s s' : List ℚ) (hs : IsArgsort s (sort s)) (hs' : IsArgsort s' (sort s')) (h : s.length = 5000)
    (h' : s'.length = 5001) : ∃ r r' m, IsRanking ((oneWrong 4999).zip s) r ∧ IsRanking ((oneWrong 5000).zip s') r' ∧
      Spec.precision 1 (retrieved none r) = 4999 / 5000 ∧ Spec.precision 1 (retrieved none r') = 5000 / 5001 ∧
      (precisionFloat sort none 1 (oneWrong 4999) s).map toSingle = .ok m ∧ (precisionFloat sort none 1 (oneWrong 5000) s').map toSingle = .ok m := by
  have hl : ∀ n, (oneWrong n).length = n + 1 := by intro n; simp [oneWrong]
  have hc : ∀ n, nRelevant 1 (oneWrong n) = n := by
    intro n
    unfold nRelevant oneWrong
    rw [List.countP_append, List.countP_replicate]
    simp
  have key : ∀ (n : Nat) (s : List ℚ), s.length = n + 1 → IsArgsort s (sort s) → ∃ r, IsRanking ((oneWrong n).zip s) r ∧
      Spec.precision 1 (retrieved none r) = (n : ℚ) / ((n + 1 : Nat) : ℚ) ∧
      precisionFloat sort none 1 (oneWrong n) s = .ok (double ((n : ℚ) / ((n + 1 : Nat) : ℚ))) := by
    intro n s hn hs
    have hlen : (oneWrong n).length = s.length := by rw [hl, hn]
    have hr := rankedDocs_isRanking hs hlen
    have hp := retrieved_none_perm hlen hr
    have e1 : nRelevant 1 (retrieved none (rankedDocs sort (oneWrong n) s)) = n := by
      unfold nRelevant
      rw [hp.countP_eq]
      exact hc n
    have e2 : (retrieved none (rankedDocs sort (oneWrong n) s)).length = n + 1 := by rw [hp.length_eq, hl]
    refine ⟨_, hr, ?_, ?_⟩
    · unfold Spec.precision
      rw [e1, e2]
    · have g1 := gather_topIdx hs hlen none
      have g2 := length_topIdx hs hlen none
      simp only [Option.map_none] at g1 g2
      unfold precisionFloat
      simp only [g1, g2, nRelevant_eq_filter, e1, e2]
      rw [if_neg (Nat.succ_ne_zero n)]
  obtain ⟨r, hr1, hr2, hr3⟩ := key 4999 s h hs
  obtain ⟨r', hr1', hr2', hr3'⟩ := key 5000 s' h' hs'
  refine ⟨r, r', toSingle (double (4999 / 5000)), hr1, hr1', ?_, ?_, ?_, ?_⟩
  · rw [hr2]; norm_num
  · rw [hr2']; norm_num
  · rw [hr3]; rfl
  · rw [hr3']
    show Except.ok (toSingle (double (((5000 : Nat) : ℚ) / ((5000 + 1 : Nat) : ℚ)))) = _
    congr 1
    decide +kernel

/-- The precisions of `C97_violated` are different. -/
example : (4999 / 5000 : ℚ) < 5000 / 5001 := by norm_num

/-! ### MAP -/

/-- C97, MAP: the stored average precision differs from the exact one by at most 2^-23 of it, for up to 2^20 documents. -/
theorem C97_map (hs : IsArgsort s (sort s)) (h : y.length = s.length) (hlen : y.length ≤ 2 ^ 20) :
    ∃ r, IsRanking (y.zip s) r ∧ ∀ (c : Option Nat) (d : ℚ),
      ((∀ v ∈ retrieved c r, ¬ 0 < v) → mapFloat sort (cut c) d y s = d) ∧
      ((∃ v ∈ retrieved c r, 0 < v) → ∃ m : Nat, toSingle (mapFloat sort (cut c) d y s) = some (m : Int) ∧
        |(m : ℚ) / 2 ^ 149 - sumPrecisions (retrieved c r) / ((min (retrieved c r).length (y.countP (fun v => decide (v ≠ 0))) : Nat) : ℚ)| ≤
          1 / 2 ^ 23 * (sumPrecisions (retrieved c r) / ((min (retrieved c r).length (y.countP (fun v => decide (v ≠ 0))) : Nat) : ℚ))) := by
  have hr := rankedDocs_isRanking hs h
  refine ⟨_, hr, fun c d => ?_⟩
  unfold mapFloat
  simp only [gather_topIdx hs h, length_topIdx hs h, (mapLoopFloat_counts _).2, ← List.countP_eq_length_filter]
  constructor
  · intro hall
    rw [if_neg]
    rw [gt_iff_lt, List.countP_pos_iff]
    rintro ⟨v, hv, hv0⟩
    exact hall v hv (by simpa using hv0)
  · intro hex
    have hpos : 0 < (retrieved c (rankedDocs sort y s)).countP (fun v => decide (0 < v)) := by
      obtain ⟨v, hv, hv0⟩ := hex
      exact List.countP_pos_iff.2 ⟨v, hv, by simpa using hv0⟩
    rw [if_pos hpos]
    have hl : (retrieved c (rankedDocs sort y s)).length ≤ 2 ^ 20 := by
      rw [length_retrieved h hr c]
      refine le_trans ?_ hlen
      cases c <;> simp [nRetrieved]
    refine map_error hl (le_min List.countP_le_length ?_) ((min_le_left _ _).trans hl) hex
    have h1 : (retrieved c (rankedDocs sort y s)).countP (fun v => decide (0 < v)) ≤ y.countP (fun v => decide (0 < v)) := by
      rw [← (labels_perm h hr).countP_eq]
      exact (retrieved_sublist_labels c).countP_le
    refine h1.trans (List.countP_mono_left ?_)
    intro v _ hv
    simp only [decide_eq_true_eq] at hv ⊢
    exact hv.ne'

/-- C97, MAP: when all relevant documents come before all others and one is retrieved, the stored value is exactly 1 (contrary to NDCG, `C96_violated`). -/
theorem C97_map_ideal (hs : IsArgsort s (sort s)) (h : y.length = s.length) (hy : ∀ v ∈ y, 0 ≤ v) (hlen : y.length < 2 ^ 53)
    (hideal : ∀ r, IsRanking (y.zip s) r → (r.map (·.1)).Pairwise (fun a b => 0 < b → 0 < a)) (hex : ∃ v ∈ y, 0 < v) {c : Option Nat} (hc : c ≠ some 0)
    (d : ℚ) : mapFloat sort (cut c) d y s = 1 ∧ toSingle (mapFloat sort (cut c) d y s) = some (2 ^ 149) := by
  have hr := rankedDocs_isRanking hs h
  have hone : mapFloat sort (cut c) d y s = 1 := by
    have h1 := C23_map_ideal (K := ℚ) hs h hy hideal hex hc d
    have hpw : (retrieved c (rankedDocs sort y s)).Pairwise (fun a b => 0 < b → 0 < a) := (hideal _ hr).sublist (retrieved_sublist_labels c)
    have hl : (retrieved c (rankedDocs sort y s)).length < 2 ^ 53 := by
      rw [length_retrieved h hr c]
      refine lt_of_le_of_lt ?_ hlen
      cases c <;> simp [nRetrieved]
    unfold Metrics.map at h1
    unfold mapFloat
    simp only [gather_topIdx hs h, length_topIdx hs h, mapLoop_count, mapLoop_sum, (sumPrecisions_ideal hpw).1] at h1
    simp only [gather_topIdx hs h, length_topIdx hs h, (mapLoopFloat_counts _).2, mapLoopFloat_ideal hl hpw]
    have e1 : double 1 = 1 := by
      have := double_nat (n := 1) (by norm_num)
      rwa [Nat.cast_one] at this
    split at h1
    · rename_i hpos
      rw [if_pos hpos, h1, e1]
    · rename_i hpos
      rw [if_neg hpos, h1]
  exact ⟨hone, by rw [hone]; decide +kernel⟩

/-- Four documents: two of the three retrieved ones are relevant (2/3 is stored as 11184811 / 2^24), the first relevant one has rank 2, and the average
precision is (1/2 + 2/3) / 2 (7/12 is stored as 9786709 / 2^24). -/
example : (precisionFloat argsort (cut (some 3)) 1 [0, 2, 1, 0] [3, 7, 5, 9]).map toSingle = .ok (some (11184811 * 2 ^ 125)) ∧
    toSingle (recallFloat argsort (cut (some 2)) 1 1 [0, 2, 1, 0] [3, 7, 5, 9]) = some (2 ^ 148) ∧
    toSingle (mrrFloat argsort (cut (some 3)) 1 [0, 2, 1, 0] [3, 7, 5, 9]) = some (2 ^ 148) ∧
    toSingle (mapFloat argsort (cut none) 1 [0, 2, 1, 0] [3, 7, 5, 9]) = some (9786709 * 2 ^ 125) := by decide +kernel

/-- The hypotheses of `C97_order_partial`: one of two and two of three documents are relevant. -/
example : ∃ sort : List ℚ → List Nat, IsArgsort [3, 7] (sort [3, 7]) ∧ IsArgsort [3, 7, 5] (sort [3, 7, 5]) ∧ Spec.precision (1 : ℚ) [0, 1] < Spec.precision 1 [1, 0, 1] ∧
    (2 * 3 < 2 ^ 24) := ⟨argsort, argsort_isArgsort _, argsort_isArgsort _, by decide +kernel, by norm_num⟩

/-- The hypotheses of `C97_map_ideal`: labels 2, 1, 0 with decreasing scores. -/
example : (∀ r, IsRanking (([2, 1, 0] : List ℚ).zip ([9, 7, 5] : List ℚ)) r → (r.map (·.1)).Pairwise (fun a b => 0 < b → 0 < a)) ∧
    mapFloat argsort (cut (some 2)) 1 [2, 1, 0] [9, 7, 5] = 1 := by
  refine ⟨fun r hr => ?_, by decide +kernel⟩
  rw [List.pairwise_map]
  refine hr.sorted.imp_of_mem ?_
  have key : ∀ p ∈ ([2, 1, 0] : List ℚ).zip ([9, 7, 5] : List ℚ), (0 < p.1 ↔ 7 ≤ p.2) := by decide +kernel
  intro a b ha hb hab h
  rw [key a (hr.perm.mem_iff.1 ha)]
  exact ((key b (hr.perm.mem_iff.1 hb)).1 h).trans hab

end Verif.Props
