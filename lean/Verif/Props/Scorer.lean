/-
Property C68: the `Scorer` class and its accessors.
-/
import Verif.Model.Scorer
import Verif.Props.Scoring

namespace Verif.Props
open Spec Ensemble

section C68
variable {K : Type} [Field K] [LinearOrder K] {m : Ensemble K} {fo : Forest K} {X : List (List K)} {nf : Nat}

/-- The score of each row. -/
def rowScores (fo : Forest K) (X : List (List K)) : List K :=
  X.map (fun row => (fo.map (fun p => p.1.value (goesLeft (fun a b => decide (a ≤ b)) row) * p.2)).sum)

/-- The contribution of each tree to each row. -/
def rowParts (fo : Forest K) (X : List (List K)) : List (List K) :=
  X.map (fun row => fo.map (fun p => p.1.value (goesLeft (fun a b => decide (a ≤ b)) row) * p.2))

/-- What a call should return. The accessor of the leaves does not work. -/
def expectedResult (fo : Forest K) (X : List (List K)) : ScorerCall → Except PyErr (ScorerResult K)
  | .score _ => .ok (.scores (some (rowScores fo X)))
  | .predictedScores => .ok (.scores (some (rowScores fo X)))
  | .partialScores => .ok (.partials (some (rowParts fo X)))
  | .predictedLeaves => .error .attributeError

/-- The states of a scorer. -/
structure ScorerOk (fo : Forest K) (X : List (List K)) (leaves : List (List Int)) (s : ScorerObj K) : Prop where
  y : s.yPred = none ∨ s.yPred = some (rowScores fo X)
  detailed : (s.partialY = none ∧ s.leaves = none ∧ s.runs = (if s.yPred.isSome then 1 else 0)) ∨
    (s.partialY = some (rowParts fo X) ∧ s.leaves = some leaves ∧ s.yPred.isSome ∧ s.runs ≤ 2)

theorem scorer_score {leaves : List (List Int)} (hb : basicScoring (exactOps K) m X = .ok (rowScores fo X))
    (hd : detailedScoring (exactOps K) m X = .ok (leaves, rowParts fo X)) {s : ScorerObj K} (hs : ScorerOk fo X leaves s) (detailed : Bool) :
    ∃ s', s.score (exactOps K) m X detailed = .ok (some (rowScores fo X), s') ∧ ScorerOk fo X leaves s' ∧
      (detailed = true → s'.partialY = some (rowParts fo X)) ∧ s'.yPred = some (rowScores fo X) := by
  have hsum : (rowParts fo X).map List.sum = rowScores fo X := by
    unfold rowParts rowScores
    rw [List.map_map]
    rfl
  unfold ScorerObj.score
  cases detailed with
  | false =>
    rcases hs.y with hy | hy
    · rw [if_neg (by simp [hy])]
      simp only [Bool.false_eq_true, if_false, hb]
      refine ⟨_, rfl, ⟨Or.inr rfl, ?_⟩, by simp, rfl⟩
      rcases hs.detailed with ⟨h1, h2, h3⟩ | ⟨h1, h2, h3, h4⟩
      · exact Or.inl ⟨h1, h2, by simp [h3, hy]⟩
      · rw [hy] at h3; cases h3
    · rw [if_pos (by simp [hy]), hy]
      refine ⟨s, rfl, hs, by simp, hy⟩
  | true =>
    rcases hs.detailed with ⟨h1, h2, h3⟩ | ⟨h1, h2, h3, h4⟩
    · rw [if_neg (by simp [h2])]
      simp only [if_true, hd]
      refine ⟨⟨some (rowScores fo X), some (rowParts fo X), some leaves, s.runs + 1⟩, ?_, ⟨Or.inr rfl, Or.inr ⟨rfl, rfl, rfl, ?_⟩⟩, fun _ => rfl, rfl⟩
      · show Except.ok (some ((rowParts fo X).map List.sum), _) = _
        rw [hsum]
        show Except.ok (some _, ScorerObj.mk (some ((rowParts fo X).map List.sum)) _ _ _) = _
        rw [hsum]
      · show s.runs + 1 ≤ 2
        rw [h3]
        split <;> omega
    · rw [if_pos (by simp [h2])]
      have hy : s.yPred = some (rowScores fo X) := by
        rcases hs.y with hy | hy
        · rw [hy] at h3; cases h3
        · exact hy
      rw [hy]
      exact ⟨s, rfl, hs, fun _ => h1, hy⟩

theorem scorer_calls {leaves : List (List Int)} (hb : basicScoring (exactOps K) m X = .ok (rowScores fo X))
    (hd : detailedScoring (exactOps K) m X = .ok (leaves, rowParts fo X)) : ∀ (cs : List ScorerCall) {s : ScorerObj K}, ScorerOk fo X leaves s →
    (s.calls (exactOps K) m X cs).1 = cs.map (expectedResult fo X) ∧ ScorerOk fo X leaves (s.calls (exactOps K) m X cs).2
  | [], s, hs => ⟨rfl, hs⟩
  | c :: cs, s, hs => by
    have key : (∃ s', s.call (exactOps K) m X c = (expectedResult fo X c).map (fun x => (x, s')) ∧ ScorerOk fo X leaves s') := by
      cases c with
      | score detailed =>
        obtain ⟨s', h1, h2, -⟩ := scorer_score hb hd hs detailed
        refine ⟨s', ?_, h2⟩
        show (s.score (exactOps K) m X detailed >>= _) = _
        rw [h1]
        rfl
      | predictedScores =>
        cases hy : s.yPred with
        | some y =>
          refine ⟨s, ?_, hs⟩
          have : y = rowScores fo X := by
            rcases hs.y with h0 | h0
            · rw [h0] at hy; cases hy
            · rw [h0] at hy; cases hy; rfl
          unfold ScorerObj.call
          simp only [hy, this]
          rfl
        | none =>
          obtain ⟨s', h1, h2, -, h3⟩ := scorer_score hb hd hs false
          refine ⟨s', ?_, h2⟩
          unfold ScorerObj.call
          simp only [hy, h1, bind, Except.bind, h3]
          rfl
      | partialScores =>
        cases hp : s.partialY with
        | some p =>
          refine ⟨s, ?_, hs⟩
          have : p = rowParts fo X := by
            rcases hs.detailed with ⟨h0, -⟩ | ⟨h0, -⟩
            · rw [h0] at hp; cases hp
            · rw [h0] at hp; cases hp; rfl
          unfold ScorerObj.call
          simp only [hp, this]
          rfl
        | none =>
          obtain ⟨s', h1, h2, h3, -⟩ := scorer_score hb hd hs true
          refine ⟨s', ?_, h2⟩
          unfold ScorerObj.call
          simp only [hp, h1, bind, Except.bind, h3 rfl]
          rfl
      | predictedLeaves => exact ⟨s, rfl, hs⟩
    obtain ⟨s', h1, h2⟩ := key
    rw [List.map_cons]
    unfold ScorerObj.calls
    rw [h1]
    cases hx : expectedResult fo X c with
    | error e =>
      have := scorer_calls hb hd cs hs
      simp only [Except.map]
      exact ⟨by rw [this.1], this.2⟩
    | ok x =>
      have := scorer_calls hb hd cs h2
      simp only [Except.map]
      exact ⟨by rw [this.1], this.2⟩

/-- C68: in every sequence of calls on a scorer each call of `score`, basic or detailed, and of `get_predicted_scores` returns the scores of
the rows, and each call of `get_partial_predicted_scores` the contributions of the trees (weights included); the kernels run at most twice.
Missing: the accessor of the leaves. -/
theorem C68_accessors_partial (h : Represents m fo) (hX : ∀ row ∈ X, row.length = nf) (hc : featureCheck m nf = .ok ()) (cs : List ScorerCall) :
    ((ScorerObj.new : ScorerObj K).calls (exactOps K) m X cs).1 = cs.map (expectedResult fo X) ∧
    ((ScorerObj.new : ScorerObj K).calls (exactOps K) m X cs).2.runs ≤ 2 := by
  obtain ⟨leaves, hd, -⟩ := C30_detailed (exactOps K) h hX hc
  have hb := C29_score_exact h hX hc
  obtain ⟨h1, h2⟩ := scorer_calls (leaves := leaves) hb hd cs (s := ScorerObj.new) ⟨Or.inl rfl, Or.inl ⟨rfl, rfl, rfl⟩⟩
  refine ⟨h1, ?_⟩
  rcases h2.detailed with ⟨-, -, h3⟩ | ⟨-, -, -, h3⟩
  · rw [h3]; split <;> omega
  · exact h3

/-- C68: scores are not computed again. -/
theorem C68_cached (ops : FloatOps K) (m m' : Ensemble K) (X X' : List (List K)) {s s' : ScorerObj K} {detailed : Bool} {y : Option (List K)}
    (h : s.score ops m X detailed = .ok (y, s')) : s'.score ops m' X' detailed = .ok (y, s') := by
  unfold ScorerObj.score at h
  split at h
  · rename_i h0
    cases h
    unfold ScorerObj.score
    rw [if_pos h0]
    rfl
  · split at h
    · rename_i h1
      subst h1
      cases hd : detailedScoring ops m X with
      | error e => rw [hd] at h; cases h
      | ok p =>
        rw [hd] at h
        cases h
        rfl
    · rename_i h1
      rw [Bool.not_eq_true] at h1
      subst h1
      cases hb : basicScoring ops m X with
      | error e => rw [hb] at h; cases h
      | ok p =>
        rw [hb] at h
        cases h
        rfl

/-- C68 is violated: `get_predicted_leaves` raises in every state. -/
theorem C68_violated_leaves (ops : FloatOps K) (m : Ensemble K) (X : List (List K)) (s : ScorerObj K) :
    s.call ops m X .predictedLeaves = .error .attributeError := rfl

/-- C68 is violated: the documentation says that the partial scores must be multiplied by the weights of the trees to get the score. -/
theorem C68_violated_weights :
    (ScorerObj.new.call (exactOps ℚ) ens0 [[0, 9]] .partialScores).map (·.1) = .ok (.partials (some [[2, 7]])) ∧ ens0.weight = [2, 1] ∧
    (ScorerObj.new.call (exactOps ℚ) ens0 [[0, 9]] .predictedScores).map (·.1) = .ok (.scores (some [9])) ∧ (2 * 2 + 7 * 1 : ℚ) ≠ 9 := by
  decide +kernel

example : ((ScorerObj.new : ScorerObj ℚ).calls (exactOps ℚ) ens0 [[0, 9], [1, 4]] [.score false, .partialScores, .predictedLeaves, .score true, .predictedScores]) =
    ([.ok (.scores (some [9, 17])), .ok (.partials (some [[2, 7], [10, 7]])), .error .attributeError, .ok (.scores (some [9, 17])),
      .ok (.scores (some [9, 17]))], ⟨some [9, 17], some [[2, 7], [10, 7]], some [[1, 5], [4, 5]], 2⟩) := by
  decide +kernel

end C68
end Verif.Props
