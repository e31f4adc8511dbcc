/-
The rank metrics are functions of the retrieved labels and of the multiset of labels.
-/
import Verif.Props.MetricsGain

namespace Verif
open Spec Metrics Props

/-- First relevant rank as a function of the labels. -/
noncomputable def firstRel (t : ℝ) : Nat → List ℝ → Option Nat
  | _, [] => none
  | i, v :: l => if v ≥ t then some i else firstRel t (i + 1) l

theorem mrrRank_eq (t : ℝ) (y : List ℝ) : ∀ (idx : List Nat) (i : Nat), (∀ j ∈ idx, j < y.length) →
    mrrRank t y i idx = firstRel t i (gather y idx)
  | [], _, _ => rfl
  | j :: idx, i, h => by
    have hj : j < y.length := h j (by simp)
    rw [gather_cons y j idx hj]
    simp only [mrrRank, List.getElem?_eq_getElem hj, firstRel,
      mrrRank_eq t y idx (i + 1) (fun k hk => h k (by simp [hk]))]

theorem npMax_perm {l l' : List ℝ} (h : l.Perm l') : npMax l = npMax l' := by
  cases l with
  | nil => rw [List.nil_perm] at h; subst h; rfl
  | cons a l =>
    obtain ⟨m, hm⟩ := npMax_ok (by simp : a :: l ≠ [])
    obtain ⟨m', hm'⟩ := npMax_ok (by rintro rfl; simp at h : l' ≠ [])
    have h1 := npMax_spec hm
    have h2 := npMax_spec hm'
    rw [hm, hm', le_antisymm (h2.2 m (h.mem_iff.1 h1.1)) (h1.2 m' (h.mem_iff.2 h2.1))]

variable {S S' : Type} [LinearOrder S] [LinearOrder S'] {sort : List S → List Nat} {sort' : List S' → List Nat}
  {sortY : List ℝ → List Nat} {y y' : List ℝ} {s : List S} {s' : List S'}

theorem dcg_ideal_perm (hsY : ∀ v, IsArgsort v (sortY v)) (hp : y.Perm y') (c : Option Nat) (impl : Impl) :
    Metrics.dcg sortY (cut c) impl y y = Metrics.dcg sortY (cut c) impl y' y' := by
  by_cases himpl : impl = .other
  · subst himpl; simp [Metrics.dcg, dcgGain, bind, Except.bind]
  · obtain ⟨g, hg⟩ : ∃ g, dcgGain impl = .ok g := by
      cases impl with
      | flat => exact ⟨_, rfl⟩
      | exp => exact ⟨_, rfl⟩
      | other => exact absurd rfl himpl
    have hr := rankedDocs_isRanking (hsY y) (rfl : y.length = y.length)
    have hr' := rankedDocs_isRanking (hsY y') (rfl : y'.length = y'.length)
    rw [cut, dcg_model (hsY y) rfl c hg, dcg_model (hsY y') rfl c hg, retrieved_eq_top, retrieved_eq_top]
    rw [sorted_unique (((labels_perm rfl hr).trans hp).trans (labels_perm rfl hr').symm)
      (ideal_labels_sorted hr self_order) (ideal_labels_sorted hr' self_order)]

theorem evalMetric_congr (hs : IsArgsort s (sort s)) (h : y.length = s.length) (hs' : IsArgsort s' (sort' s'))
    (h' : y'.length = s'.length) (hsY : ∀ v, IsArgsort v (sortY v)) {c : Option Nat}
    (hret : retrieved c (rankedDocs sort y s) = retrieved c (rankedDocs sort' y' s')) (hp : y.Perm y')
    (m : RankMetric) :
    evalMetric sort sortY (cut c) m y s = evalMetric sort' sortY (cut c) m y' s' := by
  have hf : ∀ p : ℝ → Bool, (y.filter p).length = (y'.filter p).length := fun p => (hp.filter p).length_eq
  cases m with
  | precision t => simp only [evalMetric, Metrics.precision, cut, gather_topIdx hs h, gather_topIdx hs' h',
      length_topIdx hs h, length_topIdx hs' h', hret]
  | precisionMax => simp only [evalMetric, Metrics.precisionMax, cut, gather_topIdx hs h, gather_topIdx hs' h',
      length_topIdx hs h, length_topIdx hs' h', hret, npMax_perm hp]
  | recall t d => simp only [evalMetric, Metrics.recall, cut, gather_topIdx hs h, gather_topIdx hs' h',
      hret, hf]
  | dcg impl => simp only [evalMetric, Metrics.dcg, cut, gather_topIdx hs h, gather_topIdx hs' h',
      length_topIdx hs h, length_topIdx hs' h', hret]
  | ndcg impl d =>
    have := dcg_ideal_perm hsY hp c impl
    simp only [evalMetric, Metrics.ndcg, this]
    simp only [Metrics.dcg, cut, gather_topIdx hs h, gather_topIdx hs' h',
      length_topIdx hs h, length_topIdx hs' h', hret]
  | err => simp only [evalMetric, Metrics.err, cut, gather_topIdx hs h, gather_topIdx hs' h', hret, npMax_perm hp]
  | pfound p => simp only [evalMetric, Metrics.pfound, cut, gather_topIdx hs h, gather_topIdx hs' h', hret,
      npMax_perm hp]
  | rbp t p => simp only [evalMetric, Metrics.rbp, cut, gather_topIdx hs h, gather_topIdx hs' h',
      length_topIdx hs h, length_topIdx hs' h', hret]
  | mrr t =>
    simp only [evalMetric, Metrics.mrr, cut]
    rw [mrrRank_eq t y _ 0 (fun i hi => by rw [h]; exact topIdx_lt hs _ i hi),
      mrrRank_eq t y' _ 0 (fun i hi => by rw [h']; exact topIdx_lt hs' _ i hi),
      gather_topIdx hs h, gather_topIdx hs' h', hret]
  | map d => simp only [evalMetric, Metrics.map, cut, gather_topIdx hs h, gather_topIdx hs' h',
      length_topIdx hs h, length_topIdx hs' h', hret, hf]

/-- With pairwise different scores there is only one ranking. -/
theorem ranking_unique {L S : Type} [LinearOrder S] {docs r r' : List (L × S)} (hd : (docs.map (·.2)).Nodup)
    (hr : IsRanking docs r) (hr' : IsRanking docs r') : r = r' := by
  have key : ∀ r, IsRanking docs r → r.Pairwise (fun a b => b.2 < a.2) := by
    intro r hr
    have hnd : (r.map (·.2)).Nodup := (hr.perm.map (·.2)).nodup_iff.2 hd
    rw [List.Nodup, List.pairwise_map] at hnd
    exact (hr.sorted.and hnd).imp (fun {a b} h => lt_of_le_of_ne h.1 (Ne.symm h.2))
  refine List.Perm.eq_of_pairwise ?_ (key r hr) (key r' hr') (hr.perm.trans hr'.perm.symm)
  intro a b _ _ h1 h2
  exact absurd h1 (lt_asymm h2)

end Verif
