/-
Properties C46, C47 and C48 (feature importance).
-/
import Verif.Lemmas.FeatureForest
import Mathlib.Algebra.Order.Field.Rat
import Mathlib.Analysis.SpecialFunctions.Pow.NNReal

namespace Verif.Props
open Ensemble Spec
variable {K : Type} [Field K] [LinearOrder K] [IsStrictOrderedRing K] {m : Ensemble K} {fo : Forest K}

/-- What the dataset and the ensemble must satisfy: rows of `nf` features, sizes that fit in 32 bits, trees that are not a single leaf,
features below `nf`, and no visited node at position 0 with all its documents going right. -/
structure FeatureOk (fo : Forest K) (m : Ensemble K) (rows : List (List K)) (nf : Nat) : Prop where
  represents : Represents m fo
  rows_len : ∀ r ∈ rows, r.length = nf
  rows_ne : rows ≠ []
  rows_small : rows.length < 2 ^ 31
  data_small : rows.length * nf < 2 ^ 32
  nodes_small : m.nNodes < 2 ^ 31
  inner : ∀ p ∈ fo, p.1.isInner = true
  features : ∀ p ∈ fo, ∀ f ∈ p.1.features, f < nf
  noEmptyLeft : ∀ p ∈ fo, NoEmptyLeft (leftOf rows) p.1 (List.range rows.length) 0

/-- C46: the importance of a feature is its total gain divided by the number of documents, and its count is the number of visited nodes
that test it, as a number of 16 bits. -/
theorem C46_importance_partial {rows : List (List K)} {nf : Nat} (h : FeatureOk fo m rows nf) (y : Nat → K) :
    featureImportance m rows.flatten nf rows.length ((List.range rows.length).map y) =
      .ok ((List.range nf).map (importance (forestGains (leftOf rows) (List.range rows.length) fo y) rows.length),
        (List.range nf).map (fun f => (forestVisited (leftOf rows) (List.range rows.length) fo).count f % 2 ^ 16)) :=
  featureImportance_spec h.represents (docs_of_rows h.rows_len h.data_small h.rows_small) (List.length_pos_iff.2 h.rows_ne) h.nodes_small
    (fun p hp => ⟨h.inner p hp, h.features p hp, h.noEmptyLeft p hp⟩) y

/-- C46: importances are not negative, and they sum to the reduction of the mean squared error. -/
theorem C46_sum_partial {rows : List (List K)} {nf : Nat} (h : FeatureOk fo m rows nf) (y : Nat → K) :
    ∃ imp count, featureImportance m rows.flatten nf rows.length ((List.range rows.length).map y) = .ok (imp, count) ∧ imp.length = nf ∧
      (∀ x ∈ imp, 0 ≤ x) ∧ imp.sum = forestReduction (leftOf rows) (List.range rows.length) fo y / rows.length := by
  refine ⟨_, _, C46_importance_partial h y, by simp, ?_, ?_⟩
  · intro x hx
    obtain ⟨f, _, rfl⟩ := List.mem_map.1 hx
    exact importance_nonneg (forestGains_nonneg fo y) _ _
  · rw [sum_importance _ (forestGains_features fo y h.features), forestGains_sum]

/-- A tree with three leaves. -/
def fiForest : Forest ℚ := [(.node 0 1 (.node 1 0 (.leaf 0) (.leaf 0)) (.leaf 0), 1)]

def fiEnsemble : Ensemble ℚ where
  nTrees := 1
  nNodes := 5
  root := [0]
  weight := [1]
  left := [1, 2, -1, -1, -1]
  right := [4, 3, -1, -1, -1]
  feature := [0, 1, -1, -1, -1]
  value := [1, 0, 0, 0, 0]

theorem fi_represents : Represents fiEnsemble fiForest := by
  refine ⟨rfl, rfl, rfl, rfl, rfl, rfl, rfl, rfl, ?_⟩
  intro k t w hk
  match k, hk with
  | 0, hk =>
    simp only [fiForest, List.getElem?_cons_zero, Option.some.injEq, Prod.mk.injEq] at hk
    obtain ⟨rfl, rfl⟩ := hk
    exact ⟨[0, 1, 2, 3, 4], .node (l := 1) (r := 4) (f := 0) rfl rfl rfl rfl
      (.node (l := 2) (r := 3) (f := 1) rfl rfl rfl rfl (.leaf rfl rfl rfl rfl) (.leaf rfl rfl rfl rfl)) (.leaf rfl rfl rfl rfl), by decide⟩
  | k + 1, hk => simp [fiForest] at hk

/-- Three documents that reach three leaves. -/
def fiRows : List (List ℚ) := [[2, 5], [1, 0], [0, 7]]

theorem fi_ok : FeatureOk fiForest fiEnsemble fiRows 2 where
  represents := fi_represents
  rows_len := by decide
  rows_ne := by decide
  rows_small := by decide
  data_small := by decide
  nodes_small := by decide
  inner := by simp [fiForest, Spec.Tree.isInner]
  features := by simp [fiForest, Spec.Tree.features]
  noEmptyLeft := by
    intro p hp
    simp only [fiForest, List.mem_singleton] at hp
    subst hp
    refine ⟨fun _ => by decide +kernel, fun _ => ⟨fun _ => by decide +kernel, fun _ => trivial, fun _ => trivial⟩, fun _ => trivial⟩

/-- With targets 3, 2 and 0 both features reduce the error. -/
example : FeatureOk fiForest fiEnsemble fiRows 2 ∧
    featureImportance fiEnsemble fiRows.flatten 2 3 ((List.range 3).map (fun d => if d = 0 then 3 else if d = 1 then 2 else 0)) =
      .ok ([8 / 9, 2 / 3], [1, 1]) := ⟨fi_ok, by decide +kernel⟩

/-- C46 is violated: both documents go right at the root, the code takes them for documents of the left child and predicts 0, and the
importance is negative. -/
theorem C46_violated : ∃ (m : Ensemble ℚ) (fo : Forest ℚ), Represents m fo ∧ (∀ p ∈ fo, p.1.isInner = true) ∧
    featureImportance m [1, 1] 1 2 [1, 1] = .ok ([-1], [1]) := by
  refine ⟨⟨1, 3, [0], [1], [1, -1, -1], [2, -1, -1], [0, 0, 0], [0, -1, -1]⟩, [(.node 0 0 (.leaf 0) (.leaf 0), 1)], ?_, ?_, by decide +kernel⟩
  · refine ⟨rfl, rfl, rfl, rfl, rfl, rfl, rfl, rfl, ?_⟩
    intro k t w hk
    match k, hk with
    | 0, hk =>
      simp only [List.getElem?_cons_zero, Option.some.injEq, Prod.mk.injEq] at hk
      obtain ⟨rfl, rfl⟩ := hk
      exact ⟨[0, 1, 2], .node (l := 1) (r := 2) (f := 0) rfl rfl rfl rfl (.leaf rfl rfl rfl rfl) (.leaf rfl rfl rfl rfl), by decide⟩
    | k + 1, hk => simp at hk
  · simp [Spec.Tree.isInner]

/-- C47: under the same conditions every access is inside its array (the model reports any other access as undefined behaviour). -/
theorem C47_bounds_partial {rows : List (List K)} {nf : Nat} (h : FeatureOk fo m rows nf) (y : Nat → K) :
    ∃ r, featureImportance m rows.flatten nf rows.length ((List.range rows.length).map y) = .ok r := ⟨_, C46_importance_partial h y⟩

example : FeatureOk fiForest fiEnsemble fiRows 2 := fi_ok

/-- C47 is violated: when all documents go right at the root and its left child is not a leaf, the left child is visited with a range that
ends at the largest unsigned number. -/
theorem C47_violated_empty_left : Represents fiEnsemble fiForest ∧ (∀ p ∈ fiForest, p.1.isInner = true) ∧
    featureImportance fiEnsemble [2, 0, 2, 0] 2 2 [1, 1] = .error .undefinedBehaviour :=
  ⟨fi_represents, by simp [fiForest, Spec.Tree.isInner], by decide +kernel⟩

/-- C47 is violated: a tree that is a single leaf increments the count of feature -1. -/
theorem C47_violated_single_leaf : ∃ (m : Ensemble ℚ) (fo : Forest ℚ), Represents m fo ∧
    featureImportance m [1, 1] 1 2 [1, 1] = .error .undefinedBehaviour := by
  refine ⟨⟨1, 1, [0], [1], [-1], [-1], [5], [-1]⟩, [(.leaf 5, 1)], ?_, by decide +kernel⟩
  refine ⟨rfl, rfl, rfl, rfl, rfl, rfl, rfl, rfl, ?_⟩
  intro k t w hk
  match k, hk with
  | 0, hk =>
    simp only [List.getElem?_cons_zero, Option.some.injEq, Prod.mk.injEq] at hk
    obtain ⟨rfl, rfl⟩ := hk
    exact ⟨[0], .leaf rfl rfl rfl rfl, by decide⟩
  | k + 1, hk => simp at hk

/-- C48: the result for RMSE is the square root of the one for MSE exactly if all features but the first have importance 0 or 1. -/
theorem C48_rmse_partial (x : ℝ) (xs : List ℝ) (h : ∀ z ∈ xs, 0 ≤ z) :
    rmseImportance Real.sqrt (x :: xs) = .ok ((x :: xs).map Real.sqrt) ↔ ∀ z ∈ xs, z = 0 ∨ z = 1 := by
  have key : ∀ zs : List ℝ, (∀ z ∈ zs, 0 ≤ z) → (zs = zs.map Real.sqrt ↔ ∀ z ∈ zs, z = 0 ∨ z = 1) := by
    intro zs
    induction zs with
    | nil => simp
    | cons z zs ih =>
      intro h
      have hz : z = Real.sqrt z ↔ z = 0 ∨ z = 1 := by
        rw [eq_comm, Real.sqrt_eq_iff_mul_self_eq (h z (by simp)) (h z (by simp))]
        constructor
        · intro hz
          have : z * (z - 1) = 0 := by linarith
          rcases mul_eq_zero.1 this with h0 | h0
          · exact Or.inl h0
          · exact Or.inr (by linarith)
        · rintro (rfl | rfl) <;> simp
      rw [List.map_cons, List.cons.injEq, hz, ih (fun z' hz' => h z' (by simp [hz'])), List.forall_mem_cons]
  rw [rmseImportance, exPure]
  simp only [Except.ok.injEq, List.map_cons, List.cons.injEq, true_and]
  exact key xs h

example : (∀ z ∈ ([1, 0] : List ℝ), 0 ≤ z) ∧ ∀ z ∈ ([1, 0] : List ℝ), z = 0 ∨ z = 1 := by
  constructor
  · intro z hz
    simp at hz
    rcases hz with rfl | rfl <;> norm_num
  · simp

/-- C48 is violated with two features. -/
theorem C48_violated : rmseImportance Real.sqrt [4, 4] ≠ .ok ([4, 4].map Real.sqrt) := by
  rw [Ne, C48_rmse_partial 4 [4] (by simp)]
  simp

/-- A node that is its own child. -/
def selfLoop : Ensemble ℚ := ⟨1, 1, [0], [1], [0], [0], [1], [0]⟩

/-- C47: without a tree the loop need not end: here both documents always go to the left child, which is the node itself. -/
theorem C47_violated_cycle : featureImportance selfLoop [0, 0] 1 2 [1, 2] = .error .diverges := by decide +kernel

end Verif.Props
