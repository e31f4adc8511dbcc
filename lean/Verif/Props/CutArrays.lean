/-
Property C124: loading files of LightGBM that have been cut off.
-/
import Verif.Lemmas.CutScores
import Verif.Props.LightgbmText
import Verif.Props.Scoring

namespace Verif.Props
open Spec Ensemble CutArrays
variable {F : Type}

/-- C124: a model cut off after any line is loaded without an error. It has a tree for each line that begins one; those with a shrinkage have weight 1,
and a last one without has weight 0. -/
theorem C124_cut (zero one minusOne half : F) {lines : List (LgbLine F)} {as : List (ArrTree F)} {ts : List (Spec.Tree F)}
    (hlines : lines.filter lgbRelevant = lgbForest 0 as) (has : List.Forall₂ ArrTree.Is as ts) (hf : ∀ a ∈ as, ∀ f ∈ a.features, f < 2 ^ 15) (n : Nat)
    (lr : F) (bs : Option F) :
    ∃ m, rtEnsemble half .lightGBM (lightgbmLoad zero one minusOne (lines.take n)) lr bs none = .ok ⟨m, lr, bs⟩ ∧
      m.nTrees = begunTrees (lines.take n) ∧ begunTrees (lines.take n) ≤ endedTrees (lines.take n) + 1 ∧
      m.weight = List.replicate (endedTrees (lines.take n)) one ++ List.replicate (begunTrees (lines.take n) - endedTrees (lines.take n)) zero := by
  have hfits : ∀ a ∈ as, Fits a := by
    intro a ha
    obtain ⟨i, hi, rfl⟩ := List.getElem_of_mem ha
    have := (List.forall₂_iff_get.1 has).2 i hi (by rw [← has.length_eq]; exact hi)
    exact ⟨this.thresholds_len, this.left_len, this.right_len, hf _ ha⟩
  have hpre : (lines.take n).filter lgbRelevant <+: lgbForest 0 as := by
    rw [← hlines]
    exact (List.take_prefix n lines).filter _
  have hload : ∀ s, ((lines.take n).filter lgbRelevant).foldlM (lgbStep one)
      ⟨alloc zero minusOne (lgbCount ((lines.take n).filter lgbRelevant)).1 (lgbCount ((lines.take n).filter lgbRelevant)).2, 0, 0, 0, 0, none⟩ = .ok s →
      rtEnsemble half .lightGBM (lightgbmLoad zero one minusOne (lines.take n)) lr bs none = .ok ⟨s.m, lr, bs⟩ := by
    intro s hs
    unfold rtEnsemble lightgbmLoad
    rw [lgbCount_filter] at hs
    simp only [lgb_foldlM_filter one (lines.take n), hs]
    cases bs <;> rfl
  rw [← begun_filter, ← ended_filter]
  generalize (lines.take n).filter lgbRelevant = p at hpre hload
  obtain ⟨cs, hcs, hp⟩ := forest_prefix as 0 p hpre
  have hfit : ∀ a ∈ cs, Fits a := fun a ha => hfits a (hcs a ha)
  obtain ⟨c1, c2, c3⟩ := counts_forest cs 0
  have room : ∀ T N, Room (F := F) ⟨alloc zero minusOne T N, 0, 0, 0, 0, none⟩ N T := by
    intro T N
    refine ⟨⟨?_, ?_, ?_, ?_⟩, ?_, ?_, rfl⟩ <;> simp [alloc]
  have ow : ∀ c d, overwrite (List.replicate (c + d) zero) 0 (List.replicate c one) = List.replicate c one ++ List.replicate d zero := by
    intro c d
    simpa using overwrite_replicate one zero c d 0 [] rfl
  rcases hp with rfl | ⟨a, ha, j, hj, rfl⟩
  · obtain ⟨s, e, r, w, _⟩ := forest_ok one cs 0 _ (room cs.length (sizes cs)) hfit (by omega) (by simp)
    rw [c3] at hload
    refine ⟨s.m, hload s e, ?_, ?_, ?_⟩
    · rw [c1, r.trees]
    · omega
    · rw [w, c1, c2, Nat.sub_self, ← ow]
      simp [alloc]
  · obtain ⟨d1, d2, d3, d4⟩ := counts_begun a (0 + cs.length) hj
    rw [count_append, c3, d3] at hload
    obtain ⟨s, e, r, w, b⟩ := forest_ok one cs 0 _ (room (cs.length + 1) (sizes cs + (lgbCount (LgbLine.tree (0 + cs.length) :: a.lgbLines.take j)).2)) hfit
      (by omega) (by simp)
    obtain ⟨s', e', w', t'⟩ := begun_ok one (k := 0 + cs.length) r (hfits a ha) (by omega) hj (by
      intro h2
      rw [b, d4 h2]
      simp)
    refine ⟨s'.m, hload s' (by rw [List.foldlM_append, e]; exact e'), ?_, ?_, ?_⟩
    · rw [t', begun_append, c1, d1]
    · rw [begun_append, ended_append]; omega
    · rw [w', w, begun_append, ended_append, c1, c2, d1, d2, show cs.length + 1 - (cs.length + 0) = 1 by omega, Nat.add_zero, ← ow]
      simp [alloc]

/-- C124: the same for the text of the file. Missing: cuts inside a line, and what `C72_load_partial` leaves out. -/
theorem C124_text_partial {isZero : F → Bool} {float : List Char → Option F} (zero one minusOne half : F) {file : List Char} {ls : List (List Char)} {n : Nat}
    (hfile : IsLines (ls.take n) file) {ds : List (LgbLine F)} (h : List.Forall₂ (SpellsLgb isZero float) ls ds) {as : List (ArrTree F)}
    {ts : List (Spec.Tree F)} (hds : ds.filter lgbRelevant = lgbForest 0 as) (has : List.Forall₂ ArrTree.Is as ts)
    (hf : ∀ a ∈ as, ∀ f ∈ a.features, f < 2 ^ 15) (lr : F) (bs : Option F) :
    ∃ m, rtEnsemble half .lightGBM (lightgbmTextLoad zero one minusOne isZero float file) lr bs none = .ok ⟨m, lr, bs⟩ ∧
      m.nTrees = begunTrees (ds.take n) ∧
      m.weight = List.replicate (endedTrees (ds.take n)) one ++ List.replicate (begunTrees (ds.take n) - endedTrees (ds.take n)) zero := by
  rw [C72_text zero one minusOne hfile (List.forall₂_take n h)]
  obtain ⟨m, h1, h2, _, h3⟩ := C124_cut zero one minusOne half hds has hf n lr bs
  exact ⟨m, h1, h2, h3⟩

/-- C124: a model that lacks the last shrinkage is loaded as all its trees, the last one with weight 0. -/
theorem C124_unfinished (zero one minusOne half : F) {lines : List (LgbLine F)} {as : List (ArrTree F)} {a : ArrTree F} {ts : List (Spec.Tree F)}
    {t : Spec.Tree F} (hlines : (lines ++ [LgbLine.shrinkage]).filter lgbRelevant = lgbForest 0 (as ++ [a])) (has : List.Forall₂ ArrTree.Is as ts) (ha : a.Is t)
    (hf : ∀ b ∈ as ++ [a], ∀ f ∈ b.features, f < 2 ^ 15) (lr : F) (bs : Option F) :
    ∃ m, rtEnsemble half .lightGBM (lightgbmLoad zero one minusOne lines) lr bs none = .ok ⟨m, lr, bs⟩ ∧
      Represents m (ts.map (fun t => (t, one)) ++ [(t, zero)]) := by
  have hall : List.Forall₂ ArrTree.Is (as ++ [a]) (ts ++ [t]) := List.rel_append has (.cons ha .nil)
  obtain ⟨m, e, _, _, hw⟩ := C124_cut zero one minusOne half hlines hall hf lines.length lr bs
  rw [List.take_left] at e hw
  obtain ⟨m', e', hrep⟩ := C41_load zero one minusOne half hlines hall hf lr bs none
  obtain ⟨c1, c2, _⟩ := counts_forest (as ++ [a]) 0
  rw [← hlines, begun_filter, begun_append] at c1
  rw [← hlines, ended_filter, ended_append] at c2
  have b1 : begunTrees lines = as.length + 1 := by simpa [begunTrees] using c1
  have b2 : endedTrees lines = as.length := by simpa [endedTrees] using c2
  rw [b1, b2, show as.length + 1 - as.length = 1 by omega] at hw
  refine ⟨m, e, ?_⟩
  have hmm : ∃ w, m' = { m with weight := w } := by
    have hb : initialBase half .lightGBM bs = bs := by cases bs <;> rfl
    unfold rtEnsemble lightgbmLoad at e e'
    rw [hb] at e e'
    have hc : lgbCount (lines ++ [LgbLine.shrinkage]) = lgbCount lines := by simp [lgbCount]
    rw [hc] at e'
    simp only [List.foldlM_append, List.foldlM_cons, List.foldlM_nil] at e'
    obtain ⟨l, hl, hp⟩ := except_bind_ok e
    obtain ⟨s, hs, hq⟩ := except_bind_ok hl
    cases hq
    cases hp
    rw [show List.foldlM (lgbStep one) ⟨alloc zero minusOne (lgbCount lines).1 (lgbCount lines).2, 0, 0, 0, 0, none⟩ lines = .ok s from hs] at e'
    obtain ⟨l, hl, hp⟩ := except_bind_ok e'
    obtain ⟨s', hs', hq⟩ := except_bind_ok hl
    cases hq
    cases hp
    change (lgbStep one s .shrinkage).bind _ = _ at hs'
    obtain ⟨s1, h1, h2⟩ := except_bind_ok hs'
    cases h2
    unfold lgbStep at h1
    obtain ⟨m1, h3, h4⟩ := except_bind_ok h1
    cases h4
    unfold setWeight at h3
    obtain ⟨w, _, h5⟩ := except_bind_ok h3
    cases h5
    exact ⟨w, rfl⟩
  obtain ⟨w, rfl⟩ := hmm
  have hfo : (ts ++ [t]).map (fun t => (t, one)) = ts.map (fun t => (t, one)) ++ [(t, one)] := by simp
  simp only [Option.elim_none] at hrep
  rw [← List.length_map (as := ts ++ [t]) (fun t => (t, one)), List.take_length, hfo] at hrep
  have hn : ∀ k, treeStart (ts.map (fun t => (t, one)) ++ [(t, zero)]) k = treeStart (ts.map (fun t => (t, one)) ++ [(t, one)]) k := by
    intro k
    unfold treeStart Forest.numNodes
    rw [List.map_take, List.map_take, List.map_append, List.map_append]
    rfl
  have enc : ∀ {i u s}, Encodes { m with weight := w } i u s → Encodes m i u s := by
    intro i u s h
    induction h with
    | leaf hl hr hf hv => exact .leaf hl hr hf hv
    | node hl hr hf hv _ _ ih1 ih2 => exact .node hl hr hf hv ih1 ih2
  refine ⟨by simpa using hrep.nTrees, ?_, hrep.left_len, hrep.right_len, hrep.value_len, hrep.feature_len, ?_, ?_, ?_⟩
  · simpa [Forest.numNodes] using hrep.nNodes
  · rw [hw, has.length_eq]
    rw [List.map_append, List.map_map]
    refine congrArg (· ++ [zero]) (List.eq_replicate_iff.2 ⟨by simp, ?_⟩).symm
    simp
  · have := hrep.root
    simp only [hn]
    simpa using this
  · intro k u v hk
    rw [hn]
    have : ∃ v', (ts.map (fun t => (t, one)) ++ [(t, one)])[k]? = some (u, v') := by
      rcases Nat.lt_or_ge k ts.length with hlt | hge
      · rw [List.getElem?_append_left (by simpa using hlt)] at hk ⊢
        exact ⟨v, hk⟩
      · rw [List.getElem?_append_right (by simpa using hge)] at hk ⊢
        rw [List.length_map] at hk ⊢
        rcases Nat.eq_zero_or_pos (k - ts.length) with h0 | h0
        · rw [h0] at hk ⊢
          cases hk
          exact ⟨one, rfl⟩
        · rw [List.getElem?_eq_none (by simp only [List.length_singleton]; omega)] at hk
          cases hk
    obtain ⟨v', hk'⟩ := this
    obtain ⟨s, h1, h2⟩ := hrep.trees k u v' hk'
    exact ⟨s, enc h1, h2⟩

/-- C124: with exact numbers, a model that lacks the last shrinkage gives each document the score of the complete trees. Missing: cuts before the leaf
values of the last tree. -/
theorem C124_scores_partial {K : Type} [Field K] [LinearOrder K] (half : K) {lines : List (LgbLine K)} {as : List (ArrTree K)} {a : ArrTree K}
    {ts : List (Spec.Tree K)} {t : Spec.Tree K} (hlines : (lines ++ [LgbLine.shrinkage]).filter lgbRelevant = lgbForest 0 (as ++ [a]))
    (has : List.Forall₂ ArrTree.Is as ts) (ha : a.Is t) (hf : ∀ b ∈ as ++ [a], ∀ f ∈ b.features, f < 2 ^ 15) (lr : K) (bs : Option K) {X : List (List K)}
    {nf : Nat} (hX : ∀ row ∈ X, row.length = nf) (hnf : ∀ u ∈ ts ++ [t], ∀ f ∈ u.features, f < nf) (detailed : Bool) :
    ∃ m r, rtEnsemble half .lightGBM (lightgbmLoad 0 1 (-1) lines) lr bs none = .ok ⟨m, lr, bs⟩ ∧ scoreFresh (exactOps K) m lr bs detailed X nf = .ok r ∧
      r.yPred = X.map (fun row => bs.getD 0 + lr * (ts.map (fun u => u.value (goesLeft (fun x y => decide (x ≤ y)) row))).sum) := by
  obtain ⟨m, e, h⟩ := C124_unfinished 0 1 (-1) half hlines has ha hf lr bs
  obtain ⟨r, hr, hy⟩ := C34_score h (by simp) hX (by
    intro p hp
    rw [List.mem_append, List.mem_map] at hp
    rcases hp with ⟨u, hu, rfl⟩ | hp
    · exact hnf u (by simp [hu])
    · rw [List.mem_singleton] at hp
      subst hp
      exact hnf t (by simp)) lr bs detailed
  refine ⟨m, r, e, hr, ?_⟩
  rw [hy]
  refine List.map_congr_left (fun row _ => ?_)
  simp [baseOf, Function.comp_def]

/-- C124: the same if the last tree ends after its features, its thresholds or its left children (then its root is taken for a leaf). Missing: cuts
between its number and its features, and between its right children and its leaf values. -/
theorem C124_scores_early_partial {K : Type} [Field K] [LinearOrder K] (half : K) {lines : List (LgbLine K)} {as : List (ArrTree K)} {a : ArrTree K}
    {ts : List (Spec.Tree K)} {t : Spec.Tree K} {j : Nat} (hj : 2 ≤ j) (hj' : j < 5)
    (hlines : lines.filter lgbRelevant = lgbForest 0 as ++ .tree as.length :: a.lgbLines.take j)
    (has : List.Forall₂ ArrTree.Is as ts) (ha : a.Is t) (hf : ∀ b ∈ as ++ [a], ∀ f ∈ b.features, f < 2 ^ 15) (lr : K) (bs : Option K) {X : List (List K)}
    {nf : Nat} (hX : ∀ row ∈ X, row.length = nf) (hnf : ∀ b ∈ as ++ [a], ∀ f ∈ b.features, f < nf) :
    ∃ m r, rtEnsemble half .lightGBM (lightgbmLoad 0 1 (-1) lines) lr bs none = .ok ⟨m, lr, bs⟩ ∧ scoreFresh (exactOps K) m lr bs false X nf = .ok r ∧
      r.yPred = X.map (fun row => bs.getD 0 + lr * (ts.map (fun u => u.value (goesLeft (fun x y => decide (x ≤ y)) row))).sum) := by
  have hall : List.Forall₂ ArrTree.Is (as ++ [a]) (ts ++ [t]) := List.rel_append has (.cons ha .nil)
  have hlen := has.length_eq
  set fo : Forest K := (ts ++ [t]).map (fun t => (t, (1 : K))) with hfo
  have hfl : fo.length = as.length + 1 := by simp [hfo, hlen]
  have hcount : lgbCount lines = (fo.length, Forest.numNodes fo) := by
    have h1 := lgbCount_forest hall (1 : K) 0
    rw [(counts_forest (as ++ [a]) 0).2.2] at h1
    obtain ⟨_, _, d3, d4⟩ := counts_begun a as.length (j := j) (by omega)
    have h2 : sizes (as ++ [a]) = sizes as + size a := by simp [sizes]
    rw [← lgbCount_filter, hlines, count_append, (counts_forest as 0).2.2, d3, d4 hj, ← h2, hfl, show sizes (as ++ [a]) = Forest.numNodes fo from congrArg Prod.snd h1]
  have hk : fo[as.length]? = some (t, 1) := by rw [hfo, hlen]; simp
  obtain ⟨s, e, hl, hb, hfe⟩ := forest_loaded (1 : K) (fo := fo) has (fun b hb => hf b (by simp [hb])) 0
    ⟨alloc 0 (-1) fo.length (Forest.numNodes fo), 0, 0, 0, 0, none⟩ (by
      intro i u hu
      have := (List.getElem?_eq_some_iff.1 hu).1
      rw [hfo, Nat.zero_add, List.getElem?_map, List.getElem?_append_left this, hu]
      rfl) (loadedTrees_alloc _ 0 (-1) rfl rfl) (by simp [treeStart, Forest.numNodes])
  rw [Nat.zero_add] at hl hb
  obtain ⟨s', e', hr⟩ := begun_root (1 : K) hl hk ha (hf a (by simp)) hb hj hj'
  have hload : rtEnsemble half .lightGBM (lightgbmLoad 0 1 (-1) lines) lr bs none = .ok ⟨s'.m, lr, bs⟩ := by
    unfold rtEnsemble lightgbmLoad
    rw [hcount]
    simp only [lgb_foldlM_filter (1 : K) lines, hlines, List.foldlM_append, e]
    change ((List.foldlM (lgbStep (1 : K)) s (.tree as.length :: a.lgbLines.take j)).bind _).bind _ = _
    rw [e']
    cases bs <;> rfl
  have hw : s.m.weight[as.length]? = some 0 := by
    have hN : sizes as ≤ Forest.numNodes fo := by
      have h1 := congrArg Prod.snd (lgbCount_forest hall (1 : K) 0)
      rw [(counts_forest (as ++ [a]) 0).2.2] at h1
      have h2 : sizes (as ++ [a]) = sizes as + size a := by simp [sizes]
      simp only at h1
      rw [hfo, ← h1]
      omega
    obtain ⟨s2, e2, _, hw2, _⟩ := forest_ok (1 : K) as 0 ⟨alloc 0 (-1) fo.length (Forest.numNodes fo), 0, 0, 0, 0, none⟩
      (N := Forest.numNodes fo) (T := fo.length) ⟨⟨by simp [alloc], by simp [alloc], by simp [alloc], by simp [alloc]⟩, by simp [alloc], by simp [alloc], rfl⟩
      (fun b hb => by
        obtain ⟨i, hi, rfl⟩ := List.getElem_of_mem hb
        have := (List.forall₂_iff_get.1 has).2 i hi (by rw [← hlen]; exact hi)
        exact ⟨this.thresholds_len, this.left_len, this.right_len, hf _ (by simp)⟩) (by omega) (by simpa using hN)
    rw [e] at e2
    cases e2
    rw [hw2, overwrite_after _ _ _ (by simp)]
    simp [alloc, hfl]
  have hts : ∀ p ∈ fo, ∀ f ∈ p.1.features, f < nf := by
    intro p hp f hpf
    rw [hfo] at hp
    obtain ⟨u, hu, rfl⟩ := List.mem_map.1 hp
    obtain ⟨i, hi, rfl⟩ := List.getElem_of_mem hu
    have hi' : i < (as ++ [a]).length := by rw [hall.length_eq]; exact hi
    obtain ⟨_, hh, _⟩ := ((List.forall₂_iff_get.1 hall).2 i hi' hi).holds
    exact hnf _ (List.getElem_mem hi') f (holds_features hh f hpf)
  have hcheck : featureCheck s'.m nf = .ok () := by
    have hne : s'.m.feature ≠ [] := by
      intro h0
      have h1 := congrArg List.length hr.features
      rw [h0, length_overwrite, hl.len.feature] at h1
      have h2 := Tree.numNodes_pos t
      simp [hfo, Forest.numNodes] at h1
      omega
    rcases featureCheck_iff (m := s'.m) (nf := nf) hne with ⟨h1, _⟩ | ⟨_, f, hfm, hle⟩
    · exact h1
    · exfalso
      rw [hr.features] at hfm
      rcases mem_overwrite hfm with hfm | hfm
      · rcases hfe f hfm with hfm | ⟨b, hb, g, hg, rfl⟩
        · have : f = -1 := (List.mem_replicate.1 hfm).2
          omega
        · have := hnf b (by simp [hb]) g hg
          omega
      · obtain ⟨g, hg, rfl⟩ := List.mem_map.1 hfm
        have := hnf a (by simp) g hg
        omega
  have hscore : basicScoring (exactOps K) s'.m X =
      .ok (X.map (fun row => (ts.map (fun u => u.value (goesLeft (fun x y => decide (x ≤ y)) row))).sum)) := by
    apply mapM_ok
    intro row hrow
    obtain ⟨v, hv⟩ := basicRow_root (exactOps K) hl hr hfl.symm hw row (by rw [hX row hrow]; exact hts) as.length 0 0 (by omega)
    rw [hr.nTrees, hl.nTrees, hfl, List.range_eq_range']
    refine hv.trans ?_
    have htake : fo.take as.length = ts.map (fun t => (t, (1 : K))) := by simp [hfo, hlen]
    rw [htake, List.drop_zero]
    simp only [exactOps, mul_zero, add_zero, Forest.contributions, List.map_map, Function.comp_def, mul_one]
    rw [List.sum_eq_foldl]
  refine ⟨s'.m, _, hload, by simp only [scoreFresh, hcheck, rawScore, hscore, bind, Except.bind, Bool.false_eq_true, ↓reduceIte]; rfl, ?_⟩
  rw [adjust_yPred, List.map_map]
  rfl

/-- A model of two trees. -/
def twoArr : List (ArrTree ℚ) := [⟨[1, 0], [5 / 2, 4], [1, -1], [-2, -3], [10, 20, 30]⟩, ⟨[0], [3], [-1], [-2], [1, 2]⟩]

theorem twoArr_is : List.Forall₂ ArrTree.Is twoArr
    [.node 1 (5 / 2) (.node 0 4 (.leaf 10) (.leaf 30)) (.leaf 20), .node 0 3 (.leaf 1) (.leaf 2)] :=
  .cons ⟨rfl, rfl, rfl, [0, 1, 2, 4, 3], .node (p := 0) (l := 1) (r := -2) rfl rfl rfl rfl
      (.node (p := 1) (l := -1) (r := -3) rfl rfl rfl rfl (.leaf (p := 0) rfl) (.leaf (p := 2) rfl)) (.leaf (p := 1) rfl), by decide⟩
    (.cons ⟨rfl, rfl, rfl, [0, 1, 2], .node (p := 0) (l := -1) (r := -2) rfl rfl rfl rfl (.leaf (p := 0) rfl) (.leaf (p := 1) rfl), by decide⟩ .nil)

/-- The scores of three documents by the first `n` lines of the model. -/
def cutScores (n : Nat) : Except PyErr (List ℚ) :=
  (rtEnsemble (1 / 2) .lightGBM (lightgbmLoad 0 1 (-1) ((lgbForest 0 twoArr).take n)) 1 none none).bind
    (fun l => (scoreFresh (exactOps ℚ) l.arrays l.learningRate l.baseScore false [[4, 2], [5, 2], [0, 3]] 2).map (·.yPred))

/-- C124, hypotheses that are met, and what a cut inside the second tree leaves. -/
example : (lgbForest 0 twoArr).filter lgbRelevant = lgbForest 0 twoArr ∧ (∀ a ∈ twoArr, ∀ f ∈ a.features, f < 2 ^ 15) ∧
    begunTrees ((lgbForest 0 twoArr).take 13) = 2 ∧ endedTrees ((lgbForest 0 twoArr).take 13) = 1 ∧
    ((lgbForest 0 twoArr).take 15 ++ [LgbLine.shrinkage]).filter lgbRelevant = lgbForest 0 twoArr ∧
    ((lgbForest 0 twoArr).take 12).filter lgbRelevant =
      lgbForest 0 (twoArr.take 1) ++ .tree 1 :: ((⟨[0], [3], [-1], [-2], [1, 2]⟩ : ArrTree ℚ).lgbLines.take 3) ∧ cutScores 12 = .ok [10, 30, 20] ∧
    rtEnsemble (1 / 2) .lightGBM (lightgbmLoad 0 1 (-1) ((lgbForest 0 twoArr).take 13)) 1 none none =
      .ok ⟨⟨2, 8, [0, 5], [1, 0], [1, 2, -1, -1, -1, 6, -1, -1], [3, 4, -1, -1, -1, -1, -1, -1], [5 / 2, 4, 10, 20, 30, 3, -1, -1],
        [1, 0, -1, -1, -1, 0, -1, -1]⟩, 1, none⟩ := by
  refine ⟨?_, ?_, ?_, ?_, ?_, ?_, ?_, ?_⟩ <;> decide +kernel

/-- C124 is violated: a model cut off inside its second tree is loaded without an error, and documents get the scores of the first tree, also if only
the last line of the second tree is missing; cut off inside its first tree, it gives every document 0; and cut off right after the line that begins the
second tree, it is loaded with a root behind the last node, so that scoring reads outside the arrays. -/
theorem C124_violated : (lgbForest 0 twoArr).length = 16 ∧ cutScores 16 = .ok [12, 32, 21] ∧ cutScores 15 = .ok [10, 30, 20] ∧
    cutScores 11 = .ok [10, 30, 20] ∧ cutScores 7 = .ok [0, 0, 0] ∧ cutScores 9 = .error .undefinedBehaviour ∧ ∃ m,
      rtEnsemble (1 / 2) .lightGBM (lightgbmLoad 0 1 (-1) ((lgbForest 0 twoArr).take 9)) 1 none none = .ok ⟨m, 1, none⟩ ∧ m.root = [0, 5] ∧ m.nNodes = 5 := by
  refine ⟨rfl, ?_, ?_, ?_, ?_, ?_, ⟨2, 5, [0, 5], [1, 0], [1, 2, -1, -1, -1], [3, 4, -1, -1, -1], [5 / 2, 4, 10, 20, 30], [1, 0, -1, -1, -1]⟩,
    ?_, rfl, rfl⟩ <;> decide +kernel

end Verif.Props
