/-
Properties C26 - C28: how the rank metrics depend on the scores. `evalMetric sort sortY cutoff m y s` is
`eval_per_query` of the metric `m`; `sort` and `sortY` are arbitrary argsorts for scores and labels.
-/
import Verif.Lemmas.Order

namespace Verif.Props
open Spec Metrics

variable {S S' : Type} [LinearOrder S] [LinearOrder S'] {sort : List S → List Nat} {sort' : List S' → List Nat}
  {sortY : List ℝ → List Nat} {y y' : List ℝ} {s : List S} {s' : List S'}

/-! ### C26 -/

/-- C26: with pairwise different scores no metric changes when a strictly increasing function is applied to
the scores, whatever sorting algorithms are used before and after. -/
theorem C26_monotone_transform (hs : IsArgsort s (sort s)) (h : y.length = s.length) (hd : s.Nodup)
    {f : S → S'} (hf : StrictMono f) (hs' : IsArgsort (s.map f) (sort' (s.map f)))
    (hsY : ∀ v, IsArgsort v (sortY v)) (c : Option Nat) (m : RankMetric) :
    evalMetric sort' sortY (cut c) m y (s.map f) = evalMetric sort sortY (cut c) m y s := by
  have h' : y.length = (s.map f).length := by simpa using h
  have hr := rankedDocs_isRanking hs h
  have hr' := rankedDocs_isRanking hs' h'
  refine evalMetric_congr hs' h' hs h hsY ?_ (List.Perm.refl _) m
  have hzip : y.zip (s.map f) = (y.zip s).map (Prod.map id f) := by
    rw [List.zip_map_right]
  have hmapped : IsRanking (y.zip (s.map f)) ((rankedDocs sort y s).map (Prod.map id f)) := by
    constructor
    · rw [hzip]; exact hr.perm.map _
    · rw [List.pairwise_map]
      exact hr.sorted.imp (fun {a b} hab => hf.monotone hab)
  have hnd : ((y.zip (s.map f)).map (·.2)).Nodup := by
    rw [List.map_snd_zip (by omega)]
    exact hd.map hf.injective
  rw [ranking_unique hnd hr' hmapped]
  simp [retrieved, ← top_map, List.map_map, Function.comp_def]

/-- C26 with ties: a strictly increasing function of the scores admits exactly the same sorting results, and
each gives the same value. -/
theorem C26_monotone_transform_ties {f : S → S'} (hf : StrictMono f) (idx : List Nat) :
    (IsArgsort (s.map f) idx ↔ IsArgsort s idx) ∧
    ∀ (c : Option Int) (m : RankMetric) (y : List ℝ),
      evalMetric (fun _ => idx) sortY c m y (s.map f) = evalMetric (fun _ => idx) sortY c m y s := by
  constructor
  · unfold IsArgsort
    rw [List.length_map]
    simp only [List.getElem?_map]
    constructor
    · rintro ⟨h1, h2⟩
      refine ⟨h1, h2.imp ?_⟩
      intro i j hij a ha b hb
      exact hf.le_iff_le.1 (hij (f a) (by simp at ha ⊢; exact ⟨a, ha, rfl⟩) (f b) (by simp at hb ⊢; exact ⟨b, hb, rfl⟩))
    · rintro ⟨h1, h2⟩
      refine ⟨h1, h2.imp ?_⟩
      intro i j hij a ha b hb
      simp at ha hb
      obtain ⟨a', ha', rfl⟩ := ha
      obtain ⟨b', hb', rfl⟩ := hb
      exact hf.monotone (hij a' ha' b' hb')
  · intro c m y
    cases m <;> rfl

/-- C26: with pairwise different scores the value depends neither on the sorting algorithm nor on the order in
which the documents are stored. -/
theorem C26_storage_order {sort sort' : List S → List Nat} {s s' : List S} (hs : IsArgsort s (sort s))
    (h : y.length = s.length) (hs' : IsArgsort s' (sort' s')) (h' : y'.length = s'.length) (hd : s.Nodup)
    (hperm : (y'.zip s').Perm (y.zip s)) (hsY : ∀ v, IsArgsort v (sortY v)) (c : Option Nat) (m : RankMetric) :
    evalMetric sort' sortY (cut c) m y' s' = evalMetric sort sortY (cut c) m y s := by
  have hr := rankedDocs_isRanking hs h
  have hr' := rankedDocs_isRanking hs' h'
  have hy : y'.Perm y := by
    have := hperm.map (·.1)
    rwa [List.map_fst_zip (by omega), List.map_fst_zip (by omega)] at this
  refine evalMetric_congr hs' h' hs h hsY ?_ hy m
  rw [ranking_unique (by rw [List.map_snd_zip (by omega)]; exact hd) ⟨hr'.perm.trans hperm, hr'.sorted⟩ hr]

example : ∃ (sort sort' sortY : List ℝ → List Nat) (y s y' s' : List ℝ), IsArgsort s (sort s) ∧
    IsArgsort s' (sort' s') ∧ (∀ v, IsArgsort v (sortY v)) ∧ y.length = s.length ∧ y'.length = s'.length ∧
    s.Nodup ∧ (y'.zip s').Perm (y.zip s) ∧ y ≠ y' := by
  refine ⟨argsort, argsort, argsort, [0, 2], [3, 1], [2, 0], [1, 3], argsort_isArgsort _, argsort_isArgsort _,
    fun v => argsort_isArgsort v, rfl, rfl, by simp, List.Perm.swap _ _ _, by simp⟩

/-! ### C27 -/

/-- C27: a cutoff not smaller than the number of documents is the same as no cutoff. -/
theorem C27_large_cutoff (hs : IsArgsort s (sort s)) (h : y.length = s.length) (hsY : ∀ v, IsArgsort v (sortY v))
    {k : Nat} (hk : y.length ≤ k) (m : RankMetric) :
    evalMetric sort sortY (cut (some k)) m y s = evalMetric sort sortY none m y s := by
  have e : ∀ {T : Type} [LinearOrder T] (srt : List T → List Nat) (v : List T), IsArgsort v (srt v) →
      v.length ≤ k → topIdx srt (some (k : Int)) v = topIdx srt none v := by
    intro T _ srt v hv hl
    simp only [topIdx, pyTake_of_nonneg]
    apply List.take_of_length_le
    rw [List.length_reverse, hv.1.length_eq, List.length_range]
    exact hl
  have e1 := e sort s hs (by omega)
  have e2 := e sortY y (hsY y) hk
  cases m <;> simp only [evalMetric, cut, Option.map_some, Int.ofNat_eq_natCast, Metrics.precision,
    Metrics.precisionMax, Metrics.recall, Metrics.dcg, Metrics.ndcg, Metrics.err, Metrics.pfound, Metrics.rbp,
    Metrics.mrr, Metrics.map, e1, e2]

/-- A document in the top `k` is beaten by less than `k` documents. -/
theorem beaten_lt (hs : IsArgsort s (sort s)) {k i : Nat} (hi : i ∈ (sort s).reverse.take k)
    (hil : i < s.length) : s.countP (fun x => decide (s[i] < x)) < k := by
  obtain ⟨A, B, hAB⟩ := List.append_of_mem hi
  have hA : A.length < k := by
    have : ((sort s).reverse.take k).length ≤ k := List.length_take_le _ _
    rw [hAB] at this
    simp at this; omega
  obtain ⟨C, hC⟩ : ∃ C, (sort s).reverse = A ++ i :: C := by
    refine ⟨B ++ (sort s).reverse.drop k, ?_⟩
    have := List.take_append_drop k (sort s).reverse
    rw [hAB] at this
    exact this.symm.trans (by simp)
  have hp : ((sort s).reverse).Perm (List.range s.length) := (List.reverse_perm _).trans hs.1
  have hg := gather_perm s hp
  rw [gather_range, hC, gather_append, gather_cons s i C hil] at hg
  rw [← hg.countP_eq, List.countP_append]
  have hsorted := hs.2
  rw [← List.pairwise_reverse, hC] at hsorted
  have h2 := (List.pairwise_append.1 hsorted).2.1
  have hzero : (s[i] :: gather s C).countP (fun x => decide (s[i] < x)) = 0 := by
    rw [List.countP_eq_zero]
    intro x hx
    rcases List.mem_cons.1 hx with rfl | hx
    · simp
    · obtain ⟨j, hj, hjx⟩ := List.mem_filterMap.1 hx
      have := (List.pairwise_cons.1 h2).1 j hj x hjx s[i] (by simp [hil])
      simpa using this
  rw [hzero]
  have h3 : (gather s A).length = A.length := length_gather s A (fun j hj => by
    have : j ∈ (sort s).reverse := by rw [hC]; simp [hj]
    exact List.mem_range.1 (hp.mem_iff.1 this))
  have h4 : (gather s A).countP (fun x => decide (s[i] < x)) ≤ (gather s A).length := List.countP_le_length
  omega

/-- C27: the labels of documents beaten by at least `k` others do not matter for Precision, DCG, RBP and MRR
with cutoff `k`. -/
theorem C27_only_top_matters (hs : IsArgsort s (sort s)) (h : y.length = s.length) (h' : y'.length = s.length)
    {k : Nat}
    (hchg : ∀ (i : Nat) (hi : i < s.length), y[i]? ≠ y'[i]? → k ≤ s.countP (fun x => decide (s[i] < x)))
    {m : RankMetric}
    (hm : (∃ t, m = .precision t) ∨ (∃ impl, m = .dcg impl) ∨ (∃ t p, m = .rbp t p) ∨ (∃ t, m = .mrr t)) :
    evalMetric sort sortY (cut (some k)) m y s = evalMetric sort sortY (cut (some k)) m y' s := by
  have hret : retrieved (some k) (rankedDocs sort y s) = retrieved (some k) (rankedDocs sort y' s) := by
    rw [← gather_topIdx hs h, ← gather_topIdx hs h']
    unfold gather
    apply List.filterMap_congr
    intro i hi
    have hil := topIdx_lt hs _ i hi
    by_contra hne
    have := hchg i hil hne
    have hlt := beaten_lt hs (k := k) (by simpa [topIdx, pyTake_of_nonneg] using hi) hil
    omega
  rcases hm with ⟨t, rfl⟩ | ⟨impl, rfl⟩ | ⟨t, p, rfl⟩ | ⟨t, rfl⟩
  · simp only [evalMetric, Metrics.precision, cut, gather_topIdx hs h, gather_topIdx hs h', hret]
  · simp only [evalMetric, Metrics.dcg, cut, gather_topIdx hs h, gather_topIdx hs h', hret]
  · simp only [evalMetric, Metrics.rbp, cut, gather_topIdx hs h, gather_topIdx hs h', hret]
  · simp only [evalMetric, Metrics.mrr, cut]
    rw [mrrRank_eq t y _ 0 (fun i hi => by rw [h]; exact topIdx_lt hs _ i hi),
      mrrRank_eq t y' _ 0 (fun i hi => by rw [h']; exact topIdx_lt hs _ i hi),
      gather_topIdx hs h, gather_topIdx hs h', hret]

example : ∀ (i : Nat) (hi : i < ([3, 7, 5] : List ℚ).length),
    ([0, 2, 1] : List ℚ)[i]? ≠ ([4, 2, 1] : List ℚ)[i]? →
      2 ≤ ([3, 7, 5] : List ℚ).countP (fun x => decide (([3, 7, 5] : List ℚ)[i] < x)) := by
  decide +kernel

/-! ### C28 -/

/-- `y` with the labels of documents `i` and `j` exchanged. -/
def exchange (y : List ℝ) (i j : Nat) (hi : i < y.length) (hj : j < y.length) : List ℝ :=
  (y.set i y[j]).set j y[i]

theorem gather_exchange {y : List ℝ} {i j : Nat} (hi : i < y.length) (hj : j < y.length) {idx : List Nat}
    (h1 : i ∉ idx) (h2 : j ∉ idx) : gather (exchange y i j hi hj) idx = gather y idx := by
  unfold gather
  apply List.filterMap_congr
  intro k hk
  have hki : i ≠ k := fun e => h1 (e ▸ hk)
  have hkj : j ≠ k := fun e => h2 (e ▸ hk)
  simp [exchange, List.getElem?_set_ne hki, List.getElem?_set_ne hkj]

theorem exchange_perm {y : List ℝ} {i j : Nat} (hi : i < y.length) (hj : j < y.length) :
    (exchange y i j hi hj).Perm y := by
  have := List.set_set_perm hi hj
  exact this

/-- Ranked labels before and after the exchange. -/
theorem exchange_ranked (hs : IsArgsort s (sort s)) (h : y.length = s.length) {i j : Nat} (hi : i < y.length)
    (hj : j < y.length) (hij : s[j] < s[i]) :
    ∃ l1 m l2, (rankedDocs sort y s).map (·.1) = l1 ++ y[i] :: m ++ y[j] :: l2 ∧
      (rankedDocs sort (exchange y i j hi hj) s).map (·.1) = l1 ++ y[j] :: m ++ y[i] :: l2 := by
  have hle : (exchange y i j hi hj).length = s.length := by simp [exchange, h]
  simp only [rankedDocs, gather_fst_zip h, gather_fst_zip hle]
  have hne : i ≠ j := by rintro rfl; exact lt_irrefl _ hij
  have hp : ((sort s).reverse).Perm (List.range s.length) := (List.reverse_perm _).trans hs.1
  have hnd : (sort s).reverse.Nodup := hp.nodup_iff.2 List.nodup_range
  have hsorted := hs.2
  rw [← List.pairwise_reverse] at hsorted
  have hmi : i ∈ (sort s).reverse := hp.mem_iff.2 (List.mem_range.2 (by omega))
  have hmj : j ∈ (sort s).reverse := hp.mem_iff.2 (List.mem_range.2 (by omega))
  generalize (sort s).reverse = idx at *
  obtain ⟨A, B, rfl⟩ := List.append_of_mem hmi
  have hjB : j ∈ B := by
    rcases List.mem_append.1 hmj with hA | hB
    · have := (List.pairwise_append.1 hsorted).2.2 j hA i (by simp) s[i] (by simp [← h, hi]) s[j] (by simp [← h, hj])
      exact absurd this (not_le.2 hij)
    · rcases List.mem_cons.1 hB with rfl | hB
      · exact absurd rfl hne
      · exact hB
  obtain ⟨B', C, rfl⟩ := List.append_of_mem hjB
  have hnd' := hnd
  simp only [List.nodup_append, List.nodup_cons, List.mem_append, List.mem_cons] at hnd
  obtain ⟨_, ⟨h3, _, ⟨h5, _⟩, h6⟩, h7⟩ := hnd
  have hiA : i ∉ A := fun hm => h7 i hm i (Or.inl rfl) rfl
  have hjA : j ∉ A := fun hm => h7 j hm j (Or.inr (Or.inr (Or.inl rfl))) rfl
  have hiB : i ∉ B' := fun hm => h3 (Or.inl hm)
  have hiC : i ∉ C := fun hm => h3 (Or.inr (Or.inr hm))
  have hjB : j ∉ B' := fun hm => h6 j hm j (Or.inl rfl) rfl
  refine ⟨gather y A, gather y B', gather y C, ?_, ?_⟩
  · rw [gather_append, gather_cons y i _ hi, gather_append, gather_cons y j _ hj]
    simp
  · have e1 : (exchange y i j hi hj)[i]'(by simp [exchange, hi]) = y[j] := by
      simp [exchange, List.getElem_set, Ne.symm hne]
    have e2 : (exchange y i j hi hj)[j]'(by simp [exchange, hj]) = y[i] := by
      simp [exchange]
    rw [gather_append, gather_cons _ i _ (by simp [exchange, hi]), gather_append,
      gather_cons _ j _ (by simp [exchange, hj]), gather_exchange hi hj hiA hjA, gather_exchange hi hj hiB hjB,
      gather_exchange hi hj hiC h5, e1, e2]
    simp

theorem weightedGain_top_swap {w : Nat → ℝ} {g : ℝ → ℝ} (hw : Antitone w) (h0 : ∀ i, 0 ≤ w i)
    (l1 m l2 : List ℝ) {a b : ℝ} (hg : g a ≤ g b) (c : Option Nat) :
    weightedGain w g (top c (l1 ++ a :: m ++ b :: l2)) ≤ weightedGain w g (top c (l1 ++ b :: m ++ a :: l2)) := by
  obtain ⟨k, hk⟩ := top_eq_take c (l1 ++ a :: m ++ b :: l2)
  rw [hk _ rfl, hk (l1 ++ b :: m ++ a :: l2) (by simp), weightedGain_take, weightedGain_take]
  exact weightedGain_swap (antitone_trunc hw h0 k) l1 m l2 hg

theorem casc_top_swap {w : Nat → ℝ} {u : ℝ → ℝ} (hw : Antitone w) (h0 : ∀ i, 0 ≤ w i)
    (l1 m l2 : List ℝ) {a b : ℝ} (h : ∀ v ∈ l1 ++ a :: m ++ b :: l2, 0 ≤ u v ∧ u v ≤ 1) (hg : u a ≤ u b)
    (c : Option Nat) : casc w u (top c (l1 ++ a :: m ++ b :: l2)) ≤ casc w u (top c (l1 ++ b :: m ++ a :: l2)) := by
  obtain ⟨k, hk⟩ := top_eq_take c (l1 ++ a :: m ++ b :: l2)
  rw [hk _ rfl, hk (l1 ++ b :: m ++ a :: l2) (by simp), casc_take, casc_take]
  exact casc_swap (antitone_trunc hw h0 k) l1 m l2 h hg

/-- Indicator of relevance. -/
noncomputable def ind (t v : ℝ) : ℝ := if t ≤ v then 1 else 0

theorem ind_mono {t a b : ℝ} (h : a ≤ b) : ind t a ≤ ind t b := by
  unfold ind
  split
  · rename_i h1; rw [if_pos (le_trans h1 h)]
  · split <;> norm_num

theorem nRelevant_eq_weightedGain (t : ℝ) (l : List ℝ) : (nRelevant t l : ℝ) = weightedGain (fun _ => 1) (ind t) l := by
  induction l with
  | nil => simp [nRelevant, weightedGain_nil]
  | cons a l ih =>
    rw [weightedGain_cons, ← ih]
    by_cases h : t ≤ a <;> simp [nRelevant, ind, h, add_comm]

theorem firstRel_casc (t : ℝ) : ∀ (l : List ℝ) (i : Nat),
    (match firstRel t i l with | some r => 1 / ((r : ℝ) + 1) | none => 0) =
      casc (fun j => 1 / (((j + i : Nat) : ℝ) + 1)) (ind t) l
  | [], i => by simp [firstRel, casc_nil]
  | v :: l, i => by
    have ih := firstRel_casc t l (i + 1)
    rw [casc_cons]
    by_cases h : t ≤ v
    · simp [firstRel, h, ind]
    · simp only [firstRel, ge_iff_le, h, ↓reduceIte, ind, ih]
      simp only [zero_mul, sub_zero, one_mul, zero_add]
      congr 1
      funext j
      congr 3
      omega

theorem mrr_eq_casc (hs : IsArgsort s (sort s)) (h : y.length = s.length) (c : Option Nat) (t : ℝ) :
    Metrics.mrr sort (cut c) t y s =
      casc (fun j => 1 / ((j : ℝ) + 1)) (ind t) (retrieved c (rankedDocs sort y s)) := by
  unfold Metrics.mrr
  rw [mrrRank_eq t y _ 0 (fun i hi => by rw [h]; exact topIdx_lt hs _ i hi), gather_topIdx hs h]
  have := firstRel_casc t (retrieved c (rankedDocs sort y s)) 0
  simp only [Nat.add_zero] at this
  rw [← this]
  cases firstRel t 0 (retrieved c (rankedDocs sort y s)) <;> rfl

/-- The parameters for which C28 is claimed: all metrics but MAP, RBP and Pfound with parameter in [0, 1]. -/
def UpwardMetric : RankMetric → Prop
  | .map _ => False
  | .rbp _ p => 0 ≤ p ∧ p ≤ 1
  | .pfound p => 0 ≤ p ∧ p ≤ 1
  | _ => True

/-- C28: document `i` is ranked above document `j` (higher score) and has the smaller label. After exchanging
the two (the label of `j` comes to the rank of `i`) the metric is not lower. -/
theorem C28_swap_upwards (hs : IsArgsort s (sort s)) (h : y.length = s.length) (hsY : ∀ v, IsArgsort v (sortY v))
    (hy : ∀ v ∈ y, 0 ≤ v) {i j : Nat} (hi : i < y.length) (hj : j < y.length) (hij : s[j] < s[i])
    (hlab : y[i] ≤ y[j]) (c : Option Nat) {m : RankMetric} (hm : UpwardMetric m) {v : ℝ}
    (hv : evalMetric sort sortY (cut c) m y s = .ok v) :
    ∃ v', evalMetric sort sortY (cut c) m (exchange y i j hi hj) s = .ok v' ∧ v ≤ v' := by
  obtain ⟨l1, mid, l2, e1, e2⟩ := exchange_ranked hs h hi hj hij
  have hp := exchange_perm hi hj
  have h' : (exchange y i j hi hj).length = s.length := by rw [hp.length_eq]; exact h
  generalize hY : exchange y i j hi hj = y' at *
  have hr := rankedDocs_isRanking hs h
  have hmem : ∀ w ∈ l1 ++ y[i] :: mid ++ y[j] :: l2, w ∈ y := by
    intro w hw
    rw [← e1] at hw
    exact (labels_perm h hr).mem_iff.1 hw
  have hlen : (retrieved c (rankedDocs sort y' s)).length = (retrieved c (rankedDocs sort y s)).length := by
    rw [length_retrieved h' (rankedDocs_isRanking hs h'), length_retrieved h hr, h, h']
  have hrel : ∀ t, (nRelevant t (retrieved c (rankedDocs sort y s)) : ℝ) ≤
      nRelevant t (retrieved c (rankedDocs sort y' s)) := by
    intro t
    rw [nRelevant_eq_weightedGain, nRelevant_eq_weightedGain, retrieved_eq_top, retrieved_eq_top, e1, e2]
    exact weightedGain_top_swap (fun _ _ _ => le_refl _) (fun _ => zero_le_one) l1 mid l2 (ind_mono hlab) c
  have hdcg : ∀ g, StrictMono g → Spec.dcg g (retrieved c (rankedDocs sort y s)) ≤
      Spec.dcg g (retrieved c (rankedDocs sort y' s)) := by
    intro g hg
    rw [dcg_eq_weightedGain, dcg_eq_weightedGain, retrieved_eq_top, retrieved_eq_top, e1, e2]
    exact weightedGain_top_swap disc_strictAnti.antitone (fun i => (disc_pos i).le) l1 mid l2 (hg.monotone hlab) c
  have hcasc : ∀ (w : Nat → ℝ) (u : ℝ → ℝ), Antitone w → (∀ i, 0 ≤ w i) → (∀ v ∈ y, 0 ≤ u v ∧ u v ≤ 1) →
      u y[i] ≤ u y[j] → casc w u (retrieved c (rankedDocs sort y s)) ≤
        casc w u (retrieved c (rankedDocs sort y' s)) := by
    intro w u hw hw0 hu huu
    rw [retrieved_eq_top, retrieved_eq_top, e1, e2]
    exact casc_top_swap hw hw0 l1 mid l2 (fun v hv => hu v (hmem v hv)) huu c
  cases m with
  | precision t =>
    simp only [evalMetric, Metrics.precision, cut, gather_topIdx hs h, gather_topIdx hs h', length_topIdx hs h,
      length_topIdx hs h', hlen, nRelevant_eq_filter] at hv ⊢
    split at hv
    · cases hv
    · rename_i hne
      cases hv
      exact ⟨_, if_neg hne, div_le_div_of_nonneg_right (hrel t) (by positivity)⟩
  | precisionMax =>
    simp only [evalMetric, Metrics.precisionMax, cut, gather_topIdx hs h, gather_topIdx hs h', length_topIdx hs h,
      length_topIdx hs h', hlen, nRelevant_eq_filter, npMax_perm hp] at hv ⊢
    cases hmx : npMax y with
    | error e => rw [hmx] at hv; cases hv
    | ok t =>
      rw [hmx] at hv
      simp only [bind, Except.bind] at hv ⊢
      split at hv
      · cases hv
      · rename_i hne
        cases hv
        exact ⟨_, if_neg hne, div_le_div_of_nonneg_right (hrel t) (by positivity)⟩
  | recall t d =>
    simp only [evalMetric, Metrics.recall, cut, gather_topIdx hs h, gather_topIdx hs h',
      nRelevant_eq_filter, Except.ok.injEq] at hv ⊢
    refine ⟨_, rfl, ?_⟩
    have hN : nRelevant t y' = nRelevant t y := hp.countP_eq _
    rw [← hv, hN]
    split
    · exact div_le_div_of_nonneg_right (hrel t) (by positivity)
    · exact le_refl _
  | dcg impl =>
    simp only [evalMetric] at hv ⊢
    cases hg : dcgGain impl with
    | error e => simp [Metrics.dcg, hg, bind, Except.bind] at hv
    | ok g =>
      rw [cut, dcg_model hs h c hg] at hv
      rw [cut, dcg_model hs h' c hg]
      cases hv
      exact ⟨_, rfl, hdcg g (dcgGain_spec hg).1⟩
  | ndcg impl d =>
    simp only [evalMetric, Metrics.ndcg, dcg_ideal_perm hsY hp] at hv ⊢
    cases hg : dcgGain impl with
    | error e => simp [Metrics.dcg, hg, bind, Except.bind] at hv
    | ok g =>
      simp only [cut, dcg_model hs h c hg, dcg_model hs h' c hg, dcg_model (hsY y) rfl c hg, bind, Except.bind,
        pure, Except.pure] at hv ⊢
      have hpos : 0 ≤ Spec.dcg g (retrieved c (rankedDocs sortY y y)) := by
        apply dcg_nonneg (dcgGain_spec hg).1 (dcgGain_spec hg).2
        intro v hv
        exact hy v ((labels_perm rfl (rankedDocs_isRanking (hsY y) rfl)).mem_iff.1
          ((retrieved_sublist_labels c).subset hv))
      split at hv
      · rename_i hne
        cases hv
        exact ⟨_, if_pos hne, div_le_div_of_nonneg_right (hdcg g (dcgGain_spec hg).1) hpos⟩
      · rename_i hne
        cases hv
        exact ⟨_, if_neg hne, le_refl _⟩
  | err =>
    simp only [evalMetric, Metrics.err, cut, gather_topIdx hs h, gather_topIdx hs h', npMax_perm hp] at hv ⊢
    cases hmx : npMax y with
    | error e => rw [hmx] at hv; cases hv
    | ok t =>
      rw [hmx] at hv
      simp only [bind, Except.bind, pure, Except.pure, errLoop_eq] at hv ⊢
      cases hv
      refine ⟨_, rfl, hcasc _ (utility t) antitone_recip (fun i => by positivity) ?_ (utility_mono hlab)⟩
      intro v hv
      have := utility_bounds (hy v hv) ((npMax_spec hmx).2 v hv)
      exact ⟨this.1, this.2.le⟩
  | pfound p =>
    simp only [evalMetric, Metrics.pfound, cut, gather_topIdx hs h, gather_topIdx hs h', npMax_perm hp] at hv ⊢
    cases hmx : npMax y with
    | error e => rw [hmx] at hv; cases hv
    | ok t =>
      rw [hmx] at hv
      simp only [bind, Except.bind, pure, Except.pure, pfoundLoop_eq] at hv ⊢
      cases hv
      refine ⟨_, rfl, hcasc _ (utility t) (antitone_pow hm.1 hm.2) (fun i => pow_nonneg hm.1 i) ?_
        (utility_mono hlab)⟩
      intro v hv
      have := utility_bounds (hy v hv) ((npMax_spec hmx).2 v hv)
      exact ⟨this.1, this.2.le⟩
  | rbp t p =>
    simp only [evalMetric, Metrics.rbp, cut, gather_topIdx hs h, length_topIdx hs h, sum_zipWith_mul,
      Except.ok.injEq] at hv
    simp only [evalMetric, Metrics.rbp, cut, gather_topIdx hs h', length_topIdx hs h', sum_zipWith_mul,
      Except.ok.injEq]
    refine ⟨_, rfl, ?_⟩
    rw [← hv]
    apply mul_le_mul_of_nonneg_left _ (by linarith [hm.2])
    rw [retrieved_eq_top, retrieved_eq_top, e1, e2]
    exact weightedGain_top_swap (antitone_pow hm.1 hm.2) (fun i => pow_nonneg hm.1 i) l1 mid l2 (ind_mono hlab) c
  | mrr t =>
    simp only [evalMetric, Except.ok.injEq] at hv ⊢
    refine ⟨_, rfl, ?_⟩
    rw [← hv, mrr_eq_casc hs h, mrr_eq_casc hs h']
    apply hcasc _ (ind t) antitone_recip (fun i => by positivity) _ (ind_mono hlab)
    intro v _
    unfold ind
    split <;> norm_num
  | map d => exact hm.elim

/-- MAP is not in C28: a default above 1 is returned when nothing relevant is retrieved, so raising the
relevant document can lower the value. -/
theorem C28_map_excluded : Metrics.map argsort (cut (some 1)) (2 : ℚ) [0, 1] [5, 3] = 2 ∧
    Metrics.map argsort (cut (some 1)) (2 : ℚ) [1, 0] [5, 3] = 1 := by
  constructor <;> decide +kernel

example : ∃ (y s : List ℝ) (i j : Nat) (hi : i < y.length) (hj : j < y.length) (hi' : i < s.length)
    (hj' : j < s.length), y.length = s.length ∧ IsArgsort s (argsort s) ∧ s[j] < s[i] ∧ y[i] < y[j] ∧
      ∀ v ∈ y, 0 ≤ v := by
  refine ⟨[0, 3, 1], [9, 7, 8], 0, 2, by simp, by simp, by simp, by simp, rfl, argsort_isArgsort _, ?_, ?_, ?_⟩ <;>
    simp <;> norm_num

end Verif.Props
