/-
Properties C63 (cells of the result tables) and C64 (significance for metrics that are undefined on some queries).
-/
import Verif.Lemmas.Tables
import Verif.Props.Statistical

namespace Verif.Props
open Stat

theorem mapM_cell {A B : Type} {f : A → Except PyErr B} : ∀ {l : List A} {r : List B}, l.mapM f = .ok r →
    r.length = l.length ∧ ∀ (i : Nat) x, l[i]? = some x → ∃ y, f x = .ok y ∧ r[i]? = some y
  | [], r, h => by
    cases h
    simp
  | x :: l, r, h => by
    rw [List.mapM_cons] at h
    cases hx : f x with
    | error e => rw [hx] at h; cases h
    | ok y =>
      rw [hx] at h
      cases hl : l.mapM f with
      | error e => rw [okBind', hl] at h; cases h
      | ok r' =>
        rw [okBind', hl] at h
        cases h
        obtain ⟨h1, h2⟩ := mapM_cell hl
        refine ⟨by simp [h1], ?_⟩
        intro i z hz
        cases i with
        | zero =>
          simp at hz
          subst hz
          exact ⟨y, hx, rfl⟩
        | succ i =>
          simp at hz
          obtain ⟨w, hw, hr⟩ := h2 i z hz
          exact ⟨w, hw, by simpa using hr⟩
where
  okBind' {A B : Type} {x : A} {f : A → Except PyErr B} : (Except.ok x >>= f) = f x := rfl

/-! ### C63 -/

section C63
variable {D M S V : Type}

/-- C63: each cell of `model_performance` is the value of its metric for the scores of its model on its dataset. -/
theorem C63_performance {store : V → V} {zero : V} {score : M → D → Except PyErr (List S)} {datasets : List D} {models : List M}
    {metrics : List (D → List S → Except PyErr V)} {data : List (List (List V))}
    (h : modelPerformance store zero score datasets models metrics = .ok data) :
    data.length = datasets.length ∧ ∀ (i : Nat) d, datasets[i]? = some d →
      ∃ block, data[i]? = some block ∧ block.length = models.length ∧ ∀ (j : Nat) m, models[j]? = some m →
        ∃ y row, score m d = .ok y ∧ block[j]? = some row ∧ row.length = metrics.length ∧ ∀ (k : Nat) f, metrics[k]? = some f →
          ∃ v, f d y = .ok v ∧ row[k]? = some (store v) := by
  rw [modelPerformance_eq] at h
  obtain ⟨h1, h2⟩ := mapM_cell h
  refine ⟨h1, fun i d hd => ?_⟩
  obtain ⟨block, hb, hb'⟩ := h2 i d hd
  obtain ⟨h3, h4⟩ := mapM_cell hb
  refine ⟨block, hb', h3, fun j m hm => ?_⟩
  obtain ⟨row, hr, hr'⟩ := h4 j m hm
  cases hy : score m d with
  | error e => rw [hy] at hr; cases hr
  | ok y =>
    rw [hy] at hr
    obtain ⟨h5, h6⟩ := mapM_cell (show metrics.mapM (fun f => (f d y).map store) = .ok row from hr)
    refine ⟨y, row, rfl, hr', h5, fun k f hf => ?_⟩
    obtain ⟨v, hv, hv'⟩ := h6 k f hf
    cases hfv : f d y with
    | error e => rw [hfv] at hv; cases hv
    | ok w =>
      rw [hfv] at hv
      cases hv
      exact ⟨w, rfl, hv'⟩

/-- C63: the analysis succeeds if every scoring and every evaluation does. -/
theorem C63_performance_succeeds (store : V → V) (zero : V) {score : M → D → Except PyErr (List S)} {datasets : List D} {models : List M}
    {metrics : List (D → List S → Except PyErr V)} {y : M → D → List S} {v : D → M → (D → List S → Except PyErr V) → V}
    (hs : ∀ d ∈ datasets, ∀ m ∈ models, score m d = .ok (y m d))
    (hm : ∀ d ∈ datasets, ∀ m ∈ models, ∀ f ∈ metrics, f d (y m d) = .ok (v d m f)) :
    modelPerformance store zero score datasets models metrics =
      .ok (datasets.map (fun d => models.map (fun m => metrics.map (fun f => store (v d m f))))) := by
  rw [modelPerformance_eq]
  apply mapM_ok_map
  intro d hd
  apply mapM_ok_map
  intro m hmm
  rw [hs d hd m hmm]
  show metrics.mapM _ = _
  apply mapM_ok_map
  intro f hf
  rw [hm d hd m hmm f hf]
  rfl

/-- Two datasets, two models, two metrics. -/
example : modelPerformance (D := Nat) (M := Nat) id 0 (fun m d => .ok [m, d]) [10, 20] [1, 2] [fun d y => .ok (d + y.sum), fun _ y => .ok y.length] =
    .ok [[[21, 2], [22, 2]], [[41, 2], [42, 2]]] := by
  decide +kernel

variable {K : Type} [Field K] [LinearOrder K]

/-- C63: each cell of `statistical_significance` has the p-values of the randomization test for the values that its metric gives to the
queries of its dataset under the two models, when these are numbers. -/
theorem C63_significance {score : M → D → Except PyErr (List S)} {datasets : List D} {modelA modelB : M}
    {metrics : List (D → List S → Except PyErr (List (Option K)))} {draws : Nat → Nat → List (List Bool)} {data : List (List (K × K))}
    (h : significance score datasets modelA modelB metrics draws = .ok data) :
    data.length = datasets.length ∧ ∀ (i : Nat) d, datasets[i]? = some d →
      ∃ yA yB row, score modelA d = .ok yA ∧ score modelB d = .ok yB ∧ data[i]? = some row ∧ row.length = metrics.length ∧
        ∀ (j : Nat) f, metrics[j]? = some f → ∃ a b p, f d yA = .ok a ∧ f d yB = .ok b ∧ row[j]? = some p ∧
          ∀ a' b' : List K, a = a'.map some → b = b'.map some → randomization a' b' (draws i j) = .ok p := by
  rw [significance_eq] at h
  obtain ⟨h1, h2⟩ := mapM_cell h
  refine ⟨by simpa using h1, fun i d hd => ?_⟩
  obtain ⟨row, hr, hr'⟩ := h2 i (d, i) (by simp [List.getElem?_zipIdx, hd])
  simp only at hr
  cases hA : score modelA d with
  | error e => rw [hA] at hr; cases hr
  | ok yA =>
    cases hB : score modelB d with
    | error e => rw [hA, hB] at hr; cases hr
    | ok yB =>
      rw [hA, hB] at hr
      have hr2 : metrics.zipIdx.mapM (fun fi => do
        let a ← fi.1 d yA
        let b ← fi.1 d yB
        randomizationNaN a b (draws i fi.2)) = .ok row := hr
      obtain ⟨h3, h4⟩ := mapM_cell hr2
      refine ⟨yA, yB, row, rfl, rfl, hr', by simpa using h3, fun j f hf => ?_⟩
      obtain ⟨p, hp, hp'⟩ := h4 j (f, j) (by simp [List.getElem?_zipIdx, hf])
      simp only at hp
      cases ha : f d yA with
      | error e => rw [ha] at hp; cases hp
      | ok a =>
        cases hb : f d yB with
        | error e => rw [ha, hb] at hp; cases hp
        | ok b =>
          rw [ha, hb] at hp
          have hp2 : randomizationNaN a b (draws i j) = .ok p := hp
          refine ⟨a, b, p, rfl, rfl, hp', ?_⟩
          rintro a' b' rfl rfl
          rw [← randomizationNaN_some]
          exact hp2

/-- Two datasets and two metrics; the second metric gives both models the same values. -/
example : significance (K := ℚ) (D := Nat) (M := Nat) (fun m d => .ok [m, d]) [3, 0] 1 2
    [fun _ y => .ok (y.map (fun x => some (x : ℚ))), fun d _ => .ok [some (d : ℚ), some 1]] (fun _ _ => [[true, false], [false, false]]) =
    .ok [[(1 / 2, 1), (1, 1)], [(1 / 2, 1), (1, 1)]] := by
  decide +kernel

variable {A F : Type}

/-- C63: each cell of `bias_variance` is the result for its dataset, metric and algorithm, although the loops run in another order than the
dimensions of the table. -/
theorem C63_bias_variance {zero : V} {cell : D → A → F → Except PyErr V} {g : D → A → F → V} {datasets : List D} {algos : List A} {metrics : List F}
    (hd : datasets ≠ []) (hm : metrics ≠ []) (hc : ∀ d ∈ datasets, ∀ a ∈ algos, ∀ f ∈ metrics, cell d a f = .ok (g d a f)) :
    ∃ data, biasVarianceTable zero cell datasets algos metrics = .ok data ∧ data.length = datasets.length ∧
      ∀ (i : Nat) d (k : Nat) f (j : Nat) a, datasets[i]? = some d → metrics[k]? = some f → algos[j]? = some a →
        ((data[i]?).bind (·[k]?)).bind (·[j]?) = some (g d a f) := by
  refine ⟨_, biasVarianceTable_eq zero hd hm hc, by simp, ?_⟩
  intro i d k f j a h1 h2 h3
  simp [h1, h2, h3]

/-- C63: without datasets or without metrics there is an assertion error. -/
theorem C63_bias_variance_empty (zero : V) (cell : D → A → F → Except PyErr V) (datasets : List D) (algos : List A) (metrics : List F)
    (h : datasets = [] ∨ metrics = []) : biasVarianceTable zero cell datasets algos metrics = .error .assertionError := by
  unfold biasVarianceTable
  rw [if_pos h]

example : biasVarianceTable (D := Nat) (A := Nat) (F := Nat) 0 (fun d a f => .ok (100 * d + 10 * f + a)) [1, 2] [3] [4, 5] =
    .ok [[[143], [153]], [[243], [253]]] := by
  decide +kernel

end C63

/-! ### C64 -/

section C64
variable {K : Type} [Field K] [LinearOrder K] [IsStrictOrderedRing K]

/-- C64: when the metric is a number for all queries, the p-values are those of the randomization test (C49, C50). -/
theorem C64_numbers_partial (a b : List K) (sels : List (List Bool)) :
    randomizationNaN (a.map some) (b.map some) sels = randomization a b sels :=
  randomizationNaN_some a b sels

/-- C64 is violated: if the metric is NaN for one query under one of the models, both p-values are 0, whatever the other values and the
random draws are. -/
theorem C64_violated_nan {a b : List (Option K)} (hl : a.length = b.length) (h : none ∈ a ∨ none ∈ b) {sels : List (List Bool)} (hs : sels ≠ []) :
    randomizationNaN a b sels = .ok (0, 0) :=
  randomizationNaN_nan hl h hs

/-- C64 is violated even for a model compared with itself, where both p-values should be 1 (C49_equal). -/
theorem C64_violated_same_model (v : List K) {sels : List (List Bool)} (hs : sels ≠ []) :
    randomizationNaN (none :: v.map some) (none :: v.map some) sels = .ok (0, 0) ∧
    (v ≠ [] → randomizationNaN (v.map some) (v.map some) sels = .ok (1, 1)) :=
  ⟨randomizationNaN_nan rfl (by simp) hs, fun hv => by rw [randomizationNaN_some]; exact C49_equal v sels hs hv⟩

example : randomizationNaN [some (1 : ℚ), none] [some 1, none] [[true, false], [false, true]] = .ok (0, 0) ∧
    randomizationNaN [some (1 : ℚ), some 2] [some 1, some 2] [[true, false], [false, true]] = .ok (1, 1) := by
  decide +kernel

end C64

end Verif.Props
