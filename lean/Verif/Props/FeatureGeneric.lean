/-
Property C61 (feature importance for metrics other than MSE and RMSE).
-/
import Verif.Lemmas.FeatureAgree
import Verif.Props.Feature
import Mathlib.Algebra.Order.Field.Rat

namespace Verif.Props
open Ensemble Spec
variable {K : Type} [Field K] [LinearOrder K] {m : Ensemble K} {fo : Forest K}

/-- C61: the importance of a feature is the sum, over all splits of all trees that test it, of the metric of the predictions of the
level of the split minus the metric after the split; its count is the number of these splits modulo 2^16. Missing: trees that are a
single leaf, where it is false (`C61_violated_single_leaf`). -/
theorem C61_importance_partial (hr : Represents m fo) {rows : List (List K)} {nf : Nat} (hrows : ∀ r ∈ rows, r.length = nf)
    (hin : ∀ p ∈ fo, p.1.isInner = true) (hfeat : ∀ p ∈ fo, ∀ f ∈ p.1.features, f < nf) (M : List K → K) (lab : Nat → K) :
    genImportance m rows nf ((List.range rows.length).map lab) M =
      .ok ((List.range nf).map (totalOf (forestMetricGains M (leftOf rows) rows.length lab fo (fun _ => 0))),
        (List.range nf).map (fun f => (fo.flatMap (·.1.features)).count f % 2 ^ 16)) := by
  have h := genImportance_spec hr hrows M lab (fun p hp => ⟨hin p hp, hfeat p hp⟩)
  unfold view at h
  rw [h]
  congr 2
  apply List.map_congr_left
  intro f _
  rw [(forestMetricGains_features M rows.length lab fo (fun _ => 0)).count_eq]

/-- A tree with three leaves. -/
def giForest : Forest ℚ := [(.node 0 1 (.node 1 0 (.leaf 0) (.leaf 0)) (.leaf 0), 1)]

def giEnsemble : Ensemble ℚ where
  nTrees := 1
  nNodes := 5
  root := [0]
  weight := [1]
  left := [1, 2, -1, -1, -1]
  right := [4, 3, -1, -1, -1]
  feature := [0, 1, -1, -1, -1]
  value := [1, 0, 0, 0, 0]

theorem gi_represents : Represents giEnsemble giForest := by
  refine ⟨rfl, rfl, rfl, rfl, rfl, rfl, rfl, rfl, ?_⟩
  intro k t w hk
  match k, hk with
  | 0, hk =>
    simp only [giForest, List.getElem?_cons_zero, Option.some.injEq, Prod.mk.injEq] at hk
    obtain ⟨rfl, rfl⟩ := hk
    exact ⟨[0, 1, 2, 3, 4], .node (l := 1) (r := 4) (f := 0) rfl rfl rfl rfl
      (.node (l := 2) (r := 3) (f := 1) rfl rfl rfl rfl (.leaf rfl rfl rfl rfl) (.leaf rfl rfl rfl rfl)) (.leaf rfl rfl rfl rfl), by decide⟩
  | k + 1, hk => simp [giForest] at hk

/-- Precision at 1 for labels 3, 2, 0 (the first best document is the answer): 1 if the document ranked first has label 3. -/
def topIsRight (s : List ℚ) : ℚ :=
  match s with
  | [a, b, c] => if b < a ∧ c < a then 1 else 0
  | _ => 0

/-- Three documents that reach three leaves; the first split puts the best document on top. -/
example : Represents giEnsemble giForest ∧ (∀ p ∈ giForest, p.1.isInner = true) ∧ (∀ p ∈ giForest, ∀ f ∈ p.1.features, f < 2) ∧
    genImportance giEnsemble [[2, 5], [1, 0], [0, 7]] 2 [3, 2, 0] topIsRight = .ok ([-1, 0], [1, 1]) :=
  ⟨gi_represents, by simp [giForest, Spec.Tree.isInner], by simp [giForest, Spec.Tree.features], by decide +kernel⟩

/-- C61 is violated: a split that improves a metric for which higher is better gets a negative importance, although importances are
documented as the sum of the improvements. -/
theorem C61_violated_sign : Represents giEnsemble giForest ∧
    -- the metric is 0 before the split at the root, 1 after it and 1 at the end
    topIsRight [5 / 3, 5 / 3, 5 / 3] = 0 ∧ topIsRight [3, 1, 1] = 1 ∧ topIsRight [3, 2, 0] = 1 ∧
    genImportance giEnsemble [[2, 5], [1, 0], [0, 7]] 2 [3, 2, 0] topIsRight = .ok ([-1, 0], [1, 1]) :=
  ⟨gi_represents, by decide +kernel, by decide +kernel, by decide +kernel, by decide +kernel⟩

/-- C61: for the mean squared error this would be the result of the efficient implementation (C46): the two ways to compute importances
agree. -/
theorem C61_agrees_with_mse_partial [IsStrictOrderedRing K] {rows : List (List K)} {nf : Nat} (h : FeatureOk fo m rows nf) (lab : Nat → K) :
    ∃ imp c1 c2, genImportance m rows nf ((List.range rows.length).map lab)
        (fun s => (List.zipWith (fun l x => (l - x) ^ 2) ((List.range rows.length).map lab) s).sum / rows.length) = .ok (imp, c1) ∧
      featureImportance m rows.flatten nf rows.length ((List.range rows.length).map lab) = .ok (imp, c2) := by
  refine ⟨_, (List.range nf).map (fun f => (fo.flatMap (·.1.features)).count f % 2 ^ 16), _, ?_, C46_importance_partial h lab⟩
  rw [C61_importance_partial h.represents h.rows_len h.inner h.features]
  congr 2
  apply List.map_congr_left
  intro f _
  exact totalOf_mse rows.length lab fo f

example : FeatureOk fiForest fiEnsemble fiRows 2 ∧
    genImportance fiEnsemble fiRows 2 [3, 2, 0] (fun s => (List.zipWith (fun l x => (l - x) ^ 2) [3, 2, 0] s).sum / 3) =
      .ok ([8 / 9, 2 / 3], [1, 1]) := ⟨fi_ok, by decide +kernel⟩

/-- C61, normalisation: if no feature has a positive importance, the normalised values are NaN (for a largest value of 0), or all of them
change their sign. -/
theorem C61_normalize_negative [IsStrictOrderedRing K] {imp : List K} {x : K} (hx : x ∈ imp) (hmax : ∀ v ∈ imp, v ≤ x) (hneg : x ≤ 0) :
    normalizeImp imp = .ok (imp.map (fun v => if x = 0 then none else some (v / x))) ∧ ∀ v ∈ imp, 0 ≤ v / x := by
  cases imp with
  | nil => simp at hx
  | cons a as =>
    have hle : ∀ (l : List K) (b : K), b ≤ l.foldl max b ∧ (∀ v ∈ l, v ≤ l.foldl max b) ∧ (l.foldl max b = b ∨ l.foldl max b ∈ l) := by
      intro l
      induction l with
      | nil => intro b; simp
      | cons c l ih =>
        intro b
        obtain ⟨h1, h2, h3⟩ := ih (max b c)
        rw [List.foldl_cons]
        refine ⟨le_trans (le_max_left _ _) h1, ?_, ?_⟩
        · intro v hv
          rcases List.mem_cons.1 hv with rfl | hv
          · exact le_trans (le_max_right _ _) h1
          · exact h2 v hv
        · rcases h3 with h3 | h3
          · rcases max_choice b c with hm | hm
            · exact Or.inl (h3.trans hm)
            · exact Or.inr (by rw [h3, hm]; simp)
          · exact Or.inr (by simp [h3])
    obtain ⟨h1, h2, h3⟩ := hle as a
    have htop : as.foldl max a = x := by
      apply le_antisymm
      · rcases h3 with h3 | h3
        · rw [h3]; exact hmax a (by simp)
        · exact hmax _ (by simp [h3])
      · rcases List.mem_cons.1 hx with rfl | hx
        · exact h1
        · exact h2 x hx
    constructor
    · unfold normalizeImp
      simp only [htop]
      rfl
    · intro v hv
      exact div_nonneg_of_nonpos (le_trans (hmax v hv) hneg) hneg

example : normalizeImp [(-1 : ℚ), 0] = .ok [none, none] ∧ normalizeImp [(-2 : ℚ), -1] = .ok [some 2, some 1] ∧
    normalizeImp [(4 : ℚ), 1] = .ok [some 1, some (1 / 4)] := by decide +kernel

/-- C61 is violated: a tree that is a single leaf counts as a use of the last feature, which no node tests, and can give it an importance. -/
theorem C61_violated_single_leaf : ∃ (m : Ensemble ℚ) (fo : Forest ℚ), Represents m fo ∧ fo.flatMap (·.1.features) = [] ∧
    genImportance m [[9, 2], [9, 0], [9, 0]] 2 [3, 0, 0] topIsRight = .ok ([0, -1], [0, 1]) := by
  refine ⟨⟨1, 1, [0], [1], [-1], [-1], [1], [-1]⟩, [(.leaf 1, 1)], ?_, by simp [Spec.Tree.features], by decide +kernel⟩
  refine ⟨rfl, rfl, rfl, rfl, rfl, rfl, rfl, rfl, ?_⟩
  intro k t w hk
  match k, hk with
  | 0, hk =>
    simp only [List.getElem?_cons_zero, Option.some.injEq, Prod.mk.injEq] at hk
    obtain ⟨rfl, rfl⟩ := hk
    exact ⟨[0], .leaf rfl rfl rfl rfl, by decide⟩
  | k + 1, hk => simp at hk

end Verif.Props
