/-
Lemmas for the scores of files of LightGBM that have been cut off before the right children of the last tree.
-/
import Verif.Lemmas.CutArrays

namespace Verif.CutArrays
open Spec Ensemble
variable {F : Type}

theorem mem_overwrite {A : Type} {x : A} : ∀ {xs a : List A} {base : Nat}, x ∈ overwrite a base xs → x ∈ a ∨ x ∈ xs
  | [], _, _, h => .inl h
  | y :: ys, a, base, h => by
    rw [overwrite] at h
    rcases mem_overwrite h with h | h
    · rcases List.mem_or_eq_of_mem_set h with h | rfl
      · exact .inl h
      · exact .inr (by simp)
    · exact .inr (by simp [h])

theorem forest_loaded (one : F) {fo : Forest F} {as : List (ArrTree F)} {ts : List (Spec.Tree F)} (has : List.Forall₂ ArrTree.Is as ts)
    (hsmall : ∀ a ∈ as, SmallArr a) (k : Nat) (s : ArrState F) (hfo : ∀ i t, ts[i]? = some t → fo[k + i]? = some (t, one)) (h : LoadedTrees fo k s.m)
    (hroot : s.rootNode + (s.numLeaves + s.numSplits) = treeStart fo k) :
    ∃ s', List.foldlM (lgbStep one) s (lgbForest k as) = .ok s' ∧ LoadedTrees fo (k + as.length) s'.m ∧
      s'.rootNode + (s'.numLeaves + s'.numSplits) = treeStart fo (k + as.length) ∧
      ∀ f ∈ s'.m.feature, f ∈ s.m.feature ∨ ∃ b ∈ as, ∃ g ∈ b.features, f = (g : Int) := by
  induction has generalizing k s with
  | nil => exact ⟨s, rfl, h, hroot, fun f hf => .inl hf⟩
  | @cons a t as ts ha _ ih =>
    have hk : fo[k]? = some (t, one) := hfo 0 t rfl
    have hklt : k < fo.length := (List.getElem?_eq_some_iff.1 hk).1
    have hnum := ArrTree_numNodes ha
    have hstart := treeStart_succ hk
    have hle := treeStart_mono fo (a := k + 1) (b := fo.length) hklt
    have hall : treeStart fo fo.length = Forest.numNodes fo := by unfold treeStart; rw [List.take_length]
    obtain ⟨s1, e1, _, _, hr1, hm1⟩ := tree_ok one (s := s) (a := a) (k := k) ⟨h.len, h.root_len, h.weight_len, h.nTrees⟩
      ⟨ha.thresholds_len, ha.left_len, ha.right_len, hsmall a (by simp)⟩ hklt (by unfold size; omega)
    rw [hroot] at hm1 hr1
    have h1 : LoadedTrees fo (k + 1) s1.m := h.writeArr hk ha hm1
    replace hr1 : s1.rootNode + (s1.numLeaves + s1.numSplits) = treeStart fo (k + 1) := by unfold size at hr1; omega
    obtain ⟨s2, e2, h2, hr2, hf2⟩ := ih (fun a ha => hsmall a (by simp [ha])) (k + 1) s1
      (fun i u hu => by rw [show k + 1 + i = k + (i + 1) by omega]; exact hfo (i + 1) u hu) h1 hr1
    rw [show k + 1 + as.length = k + (a :: as).length by simp only [List.length_cons]; omega] at h2 hr2
    refine ⟨s2, ?_, h2, hr2, ?_⟩
    · rw [lgbForest, ← List.cons_append, List.foldlM_append, e1]
      exact e2
    · intro f hf
      rcases hf2 f hf with hf | ⟨b, hb, hg⟩
      · rw [hm1] at hf
        rcases mem_overwrite hf with hf | hf
        · exact .inl hf
        · obtain ⟨g, hg, rfl⟩ := List.mem_map.1 hf
          exact .inr ⟨a, by simp, g, hg, rfl⟩
      · exact .inr ⟨b, by simp [hb], hg⟩

/-- What the beginning of a tree leaves: nothing before it changes, and its root is taken for a leaf. -/
structure RootOnly (m m' : Ensemble F) (a : ArrTree F) (k base : Nat) : Prop where
  nTrees : m'.nTrees = m.nTrees
  root : m'.root = m.root.set k (base : Int)
  weight : m'.weight = m.weight
  leftLen : m'.left.length = m.left.length
  before : ∀ i < base, Agree m m' i
  left : ∃ l, m'.left[base]? = some l
  value : ∃ v, m'.value[base]? = some v
  features : m'.feature = overwrite m.feature base (a.features.map (fun (f : Nat) => (f : Int)))
  exit : m'.left[base]? = some (-1) ∨ m'.right[base]? = some (-1)

theorem begun_root (one : F) {fo : Forest F} {s : ArrState F} {a : ArrTree F} {t : Spec.Tree F} {k j : Nat} (h : LoadedTrees fo k s.m)
    (hk : fo[k]? = some (t, one)) (ha : a.Is t) (hs : SmallArr a) (hroot : s.rootNode + (s.numLeaves + s.numSplits) = treeStart fo k) (hj : 2 ≤ j) (hj' : j < 5) :
    ∃ s', List.foldlM (lgbStep one) s (.tree k :: a.lgbLines.take j) = .ok s' ∧ RootOnly s.m s'.m a k (treeStart fo k) := by
  have hnum := ArrTree_numNodes ha
  have hstart := treeStart_succ hk
  have hpos := Tree.numNodes_pos t
  have hklt : k < fo.length := (List.getElem?_eq_some_iff.1 hk).1
  have hle := treeStart_mono fo (a := k + 1) (b := fo.length) hklt
  have hall : treeStart fo fo.length = Forest.numNodes fo := by unfold treeStart; rw [List.take_length]
  have h1 := ha.thresholds_len
  have h2 := ha.left_len
  have hr := setRoot_ok (m := s.m) (i := k) (treeStart fo k : Int) (by rw [h.root_len]; exact hklt)
  have hb := h.blank (treeStart fo k) (le_refl _) (by omega)
  have hv : ∀ v : List F, v.length = Forest.numNodes fo → ∃ x, v[treeStart fo k]? = some x := fun v hv => ⟨_, List.getElem?_eq_getElem (by omega)⟩
  have hi : ∀ v : List Int, v.length = Forest.numNodes fo → ∃ x, v[treeStart fo k]? = some x := fun v hv => ⟨_, List.getElem?_eq_getElem (by omega)⟩
  match j, hj, hj' with
  | 2, _, _ =>
    simp only [List.foldlM_cons, List.foldlM_nil, ArrTree.lgbLines, List.take_succ_cons, List.take_zero, lgbStep, hroot, hr, bind, Except.bind, pure,
      Except.pure]
    rw [writeFrom_feature _ _ _ (by simp only [h.len.feature]; omega) hs]
    exact ⟨_, rfl, rfl, rfl, rfl, rfl, fun i hi => ⟨rfl, rfl, rfl, overwrite_before _ _ _ hi⟩, ⟨_, hb.left⟩, hv _ h.len.value, rfl, .inl hb.left⟩
  | 3, _, _ =>
    simp only [List.foldlM_cons, List.foldlM_nil, ArrTree.lgbLines, List.take_succ_cons, List.take_zero, lgbStep, hroot, hr, bind, Except.bind, pure,
      Except.pure]
    rw [writeFrom_feature _ _ _ (by simp only [h.len.feature]; omega) hs]
    simp only
    rw [writeFrom_value _ _ _ (by simp only [h.len.value]; omega)]
    exact ⟨_, rfl, rfl, rfl, rfl, rfl, fun i hi => ⟨rfl, rfl, overwrite_before _ _ _ hi, overwrite_before _ _ _ hi⟩, ⟨_, hb.left⟩,
      hv _ (by simp only [length_overwrite, h.len.value]), rfl, .inl hb.left⟩
  | 4, _, _ =>
    simp only [List.foldlM_cons, List.foldlM_nil, ArrTree.lgbLines, List.take_succ_cons, List.take_zero, lgbStep, hroot, hr, bind, Except.bind, pure,
      Except.pure]
    rw [writeFrom_feature _ _ _ (by simp only [h.len.feature]; omega) hs]
    simp only
    rw [writeFrom_value _ _ _ (by simp only [h.len.value]; omega)]
    simp only
    rw [writeFrom_left _ _ _ _ (by simp only [h.len.left]; omega)]
    exact ⟨_, rfl, rfl, rfl, rfl, by simp only [length_overwrite],
      fun i hi => ⟨overwrite_before _ _ _ hi, rfl, overwrite_before _ _ _ hi, overwrite_before _ _ _ hi⟩,
      hi _ (by simp only [length_overwrite, h.len.left]), hv _ (by simp only [length_overwrite, h.len.value]), rfl, .inr hb.right⟩

/-- The score of a row: the last tree adds its value times 0. -/
theorem basicRow_root (ops : FloatOps F) {fo : Forest F} {a : ArrTree F} {m m' : Ensemble F} {k : Nat} (h : LoadedTrees fo k m) (hr : RootOnly m m' a k (treeStart fo k))
    (hk : k + 1 = fo.length) {w : F} (hw : m.weight[k]? = some w) (row : List F) (hf : ∀ p ∈ fo, ∀ f ∈ p.1.features, f < row.length) :
    ∀ (n i : Nat) (acc : F), i + n = k → ∃ v, Ensemble.basicRow ops m' row (List.range' i (n + 1)) acc =
      .ok (ops.add ((Forest.contributions ops.mul (goesLeft ops.le row) ((fo.take k).drop i)).foldl ops.add acc) (ops.mul v w))
  | 0, i, acc, hi => by
    obtain rfl : i = k := by omega
    obtain ⟨v, hv⟩ := hr.value
    obtain ⟨l, hl⟩ := hr.left
    refine ⟨v, ?_⟩
    have hroot : m'.root[i]? = some (treeStart fo i : Int) := by
      rw [hr.root, List.getElem?_set_self (by rw [h.root_len]; omega)]
    have hexit : Ensemble.exitLeaf ops m' row i = .ok (treeStart fo i : Int) := by
      simp only [Ensemble.exitLeaf, rd_ok hroot, bind, Except.bind, Ensemble.traverse, rd_ok hl]
      rcases hr.exit with he | he
      · rw [hl] at he
        cases he
        rfl
      · simp only [rd_ok he]
        by_cases hl1 : l = -1 <;> simp [hl1, pure, Except.pure]
    have hc : Ensemble.contribution ops m' i (treeStart fo i : Int) = .ok (ops.mul v w) := by
      simp only [Ensemble.contribution, rd_ok hv, hr.weight, rd_ok hw, bind, Except.bind, pure, Except.pure]
    have : (fo.take i).drop i = [] := by rw [List.drop_eq_nil_iff, List.length_take]; omega
    simp [Ensemble.basicRow, hexit, hc, this, Forest.contributions, bind, Except.bind, pure, Except.pure]
  | n + 1, i, acc, hi => by
    have hlt : i < fo.length := by omega
    obtain ⟨⟨t, u⟩, hp⟩ : ∃ p, fo[i] = p := ⟨_, rfl⟩
    have hget : fo[i]? = some (t, u) := by rw [List.getElem?_eq_getElem hlt, hp]
    obtain ⟨s, hs, hperm⟩ := h.trees i (by omega) t u hget
    have hstart := treeStart_succ hget
    have hmono := treeStart_mono fo (a := i + 1) (b := k) (by omega)
    have hs' : Encodes m' (treeStart fo i) t s := encodes_agree hs (fun q hq => hr.before q (by
      have := hperm.mem_iff.1 hq
      rw [List.mem_range'_1] at this
      omega))
    obtain ⟨e, _, h2, _, _, h4⟩ := traverse_encodes ops row hs' (hf _ (List.mem_of_getElem? hget))
    have hroot : m'.root[i]? = some (treeStart fo i : Int) := by
      rw [hr.root, List.getElem?_set_ne (by omega), h.roots i (by omega)]
    have hweight : m'.weight[i]? = some u := by
      rw [hr.weight, h.weights i (by omega), hget]
      rfl
    have hfuel : t.height < m'.left.length + 1 := by
      have h5 := Tree.height_lt_numNodes t
      have h6 := treeStart_mono fo (a := k) (b := fo.length) (by omega)
      have hall : treeStart fo fo.length = Forest.numNodes fo := by unfold treeStart; rw [List.take_length]
      rw [hr.leftLen, h.len.left]
      omega
    have hexit : Ensemble.exitLeaf ops m' row i = .ok (e : Int) := by
      simp only [Ensemble.exitLeaf, rd_ok hroot, bind, Except.bind, h4 _ hfuel]
    have hc : Ensemble.contribution ops m' i (e : Int) = .ok (ops.mul (t.value (goesLeft ops.le row)) u) := by
      simp only [Ensemble.contribution, rd_ok h2, rd_ok hweight, bind, Except.bind, pure, Except.pure]
    obtain ⟨v, hv⟩ := basicRow_root ops h hr hk hw row hf n (i + 1) (ops.add acc (ops.mul (t.value (goesLeft ops.le row)) u)) (by omega)
    refine ⟨v, ?_⟩
    rw [List.range'_succ, Ensemble.basicRow]
    simp only [hexit, hc, bind, Except.bind]
    have hd : (fo.take k).drop i = (t, u) :: (fo.take k).drop (i + 1) := by
      have hl : i < (fo.take k).length := by rw [List.length_take]; omega
      rw [List.drop_eq_getElem_cons hl, List.getElem_take, hp]
    rw [hv, hd]
    simp [Forest.contributions]

theorem holds_features {a : ArrTree F} {c : Int} {t : Spec.Tree F} {s : List Nat} (h : a.Holds c t s) : ∀ f ∈ t.features, f ∈ a.features := by
  induction h with
  | leaf => intro f hf; cases hf
  | node hf _ _ _ _ _ ihl ihr =>
    intro g hg
    simp only [Spec.Tree.features, List.mem_cons, List.mem_append] at hg
    rcases hg with rfl | hg | hg
    · exact List.mem_of_getElem? hf
    · exact ihl g hg
    · exact ihr g hg

end Verif.CutArrays
