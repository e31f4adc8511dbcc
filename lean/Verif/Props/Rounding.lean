/-
Property C79: rounding errors of predictions.
-/
import Verif.Lemmas.Binary32
import Verif.Props.Scoring

namespace Verif.Props
open Spec Ensemble
variable {F : Type} {ops : FloatOps F} {finite : F → Prop} {num : F → ℝ} {u η : ℝ} {m : Ensemble F} {fo : Forest F} {X : List (List F)} {nf : Nat}

/-- How far a computed score may be from the exact one. -/
noncomputable def errorBound (num : F → ℝ) (u η base lr : ℝ) (fo : Forest F) (row : List F) : ℝ :=
  ((1 + u) ^ (fo.length + 3) - 1) * scoreSize num base lr fo row + (1 + u) ^ (fo.length + 2) * ((fo.length * |lr| + 1) * η)

/-- The sum of the contributions of the trees, computed with any order of additions, and what is made of it with learning rate and base score. -/
theorem score_error (hr : Rounded ops finite num u η) {row : List F} (hrow : ∀ x ∈ row, finite x)
    (hth : ∀ p ∈ fo, ∀ t ∈ p.1.thresholds, finite t) (hfe : ∀ p ∈ fo, ∀ f ∈ p.1.features, f < row.length) {s : F}
    (hs : SumTree ops fo.length (Forest.contributions ops.mul (goesLeft ops.le row) fo) s) (lr : F) (bs : Option F)
    (hf : finite (adjustOne ops lr bs s)) :
    |num (adjustOne ops lr bs s) - exactScore num (bs.elim 0 num) (num lr) fo row| ≤ errorBound num u η (bs.elim 0 num) (num lr) fo row := by
  have hu := hr.u_nonneg
  have hη := hr.η_nonneg
  set ps : List (F × F) := fo.map (fun p => (p.1.value (goesLeft ops.le row), p.2)) with hps
  have hc : Forest.contributions ops.mul (goesLeft ops.le row) fo = ps.map (fun p => ops.mul p.1 p.2) := by
    rw [hps, List.map_map]
    rfl
  have hlen : ps.length = fo.length := by rw [hps, List.length_map]
  rw [hc] at hs
  have hexact : (fo.toReal num).map (fun p => p.1.value (goesLeft (fun a b => decide (a ≤ b)) (row.map num)) * p.2) = ps.map (fun p => num p.1 * num p.2) := by
    rw [hps, Forest.toReal, List.map_map, List.map_map]
    apply List.map_congr_left
    intro p hp
    simp only [Function.comp]
    rw [value_toReal hr hrow p.1 (hth p hp) (hfe p hp)]
  have hsize : (fo.toReal num).map (fun p => |p.1.value (goesLeft (fun a b => decide (a ≤ b)) (row.map num)) * p.2|) =
      ps.map (fun p => |num p.1 * num p.2|) := by
    have := congrArg (List.map (fun x : ℝ => |x|)) hexact
    rw [List.map_map, List.map_map] at this
    exact this
  have hSA : |(ps.map (fun p => num p.1 * num p.2)).sum| ≤ (ps.map (fun p => |num p.1 * num p.2|)).sum := by
    have h1 := abs_sum_le (ps.map (fun p => num p.1 * num p.2))
    have h2 : (ps.map (fun p => num p.1 * num p.2)).map (fun x => |x|) = ps.map (fun p => |num p.1 * num p.2|) := by
      rw [List.map_map]
      rfl
    rwa [h2] at h1
  have hB : 0 ≤ (1 + u) ^ fo.length * (ps.length * η) := by positivity
  have h := adjustOne_error hr lr bs hSA hB (fun hfs => dot_error hr ps hs hfs) hf
  unfold exactScore errorBound scoreSize
  rw [hexact, hsize]
  refine h.trans ?_
  rw [show fo.length + 1 + 2 = fo.length + 3 from rfl]
  have e : (1 + u) ^ 2 * (|num lr| * ((1 + u) ^ fo.length * (ps.length * η)) + η) ≤ (1 + u) ^ (fo.length + 2) * ((fo.length * |num lr| + 1) * η) := by
    have h1 := one_le_pow hu fo.length
    have h2 : 0 ≤ ((1 + u) ^ fo.length - 1) * ((1 + u) ^ 2 * η) := mul_nonneg (by linarith) (by positivity)
    rw [pow_add, hlen]
    nlinarith
  linarith

/-- C79: every finite prediction, whether computed by basic scoring or by detailed scoring with any order of summation, differs from the exact
score of the model by at most the bound. -/
theorem C79_prediction (hr : Rounded ops finite num u η) (h : Represents m fo) (hX : ∀ row ∈ X, row.length = nf)
    (hfin : ∀ row ∈ X, ∀ x ∈ row, finite x) (hth : ∀ p ∈ fo, ∀ t ∈ p.1.thresholds, finite t)
    (hsum : ∀ l : List F, SumTree ops l.length l (ops.sum l)) (lr : F) (bs : Option F) (detailed : Bool) {r : Scored F}
    (hs : scoreFresh ops m lr bs detailed X nf = .ok r) {i : Nat} {row : List F} (hi : X[i]? = some row) :
    ∃ y, r.yPred[i]? = some y ∧ (finite y →
      |num y - exactScore num (bs.elim 0 num) (num lr) fo row| ≤ errorBound num u η (bs.elim 0 num) (num lr) fo row) := by
  have hmem : row ∈ X := List.mem_of_getElem? hi
  have hc : featureCheck m nf = .ok () := by
    unfold scoreFresh at hs
    cases hh : featureCheck m nf with
    | ok v => rfl
    | error e => rw [hh] at hs; cases hs
  have hfe : ∀ p ∈ fo, ∀ f ∈ p.1.features, f < row.length := by
    rw [hX row hmem]
    exact features_lt_of_check h hc
  have hlen : (Forest.contributions ops.mul (goesLeft ops.le row) fo).length = fo.length := by simp [Forest.contributions]
  cases detailed with
  | false =>
    have hy : r.yPred = (X.map (fun row => (Forest.contributions ops.mul (goesLeft ops.le row) fo).foldl ops.add ops.zero)).map (adjustOne ops lr bs) := by
      unfold scoreFresh at hs
      simp only [hc, rawScore, Bool.false_eq_true, if_false, C29_score ops h hX hc, bind, Except.bind, pure, Except.pure, Except.ok.injEq] at hs
      rw [← hs, adjust_yPred_map]
    refine ⟨_, by rw [hy, List.map_map, List.getElem?_map, hi]; rfl, fun hf => ?_⟩
    have hst := foldl_sumTree (ops := ops) (Forest.contributions ops.mul (goesLeft ops.le row) fo)
    rw [hlen] at hst
    exact score_error hr (hfin row hmem) hth hfe hst lr bs hf
  | true =>
    obtain ⟨leaves, hd, -⟩ := C30_detailed ops h hX hc
    have hy : r.yPred = ((X.map (fun row => Forest.contributions ops.mul (goesLeft ops.le row) fo)).map ops.sum).map (adjustOne ops lr bs) := by
      unfold scoreFresh at hs
      simp only [hc, rawScore, if_true, hd, bind, Except.bind, pure, Except.pure, Except.ok.injEq] at hs
      rw [← hs, adjust_yPred_map]
    refine ⟨_, by rw [hy, List.map_map, List.map_map, List.getElem?_map, hi]; rfl, fun hf => ?_⟩
    have hst := hsum (Forest.contributions ops.mul (goesLeft ops.le row) fo)
    rw [hlen] at hst
    exact score_error hr (hfin row hmem) hth hfe hst lr bs hf

theorem value_mem_outputs {p : Nat → F → Bool} : ∀ t : Spec.Tree F, t.value p ∈ t.outputs
  | .leaf _ => List.mem_singleton_self _
  | .node f t l r => by
    rw [Spec.Tree.value, Spec.Tree.outputs]
    split
    · exact List.mem_append_left _ (value_mem_outputs l)
    · exact List.mem_append_right _ (value_mem_outputs r)

/-- C79: if all numbers of the model are finite and the sizes of the contributions of the trees leave room for rounding, then nothing overflows: the
prediction is finite and within the bound. -/
theorem C79_finite (hr : Rounded ops finite num u η) {M : ℝ} (ho : NoOverflow ops finite num M) (h : Represents m fo) (hX : ∀ row ∈ X, row.length = nf)
    (hfin : ∀ row ∈ X, ∀ x ∈ row, finite x) (hth : ∀ p ∈ fo, ∀ t ∈ p.1.thresholds, finite t)
    (hout : ∀ p ∈ fo, finite p.2 ∧ ∀ v ∈ p.1.outputs, finite v) (hsum : ∀ l : List F, SumTree ops l.length l (ops.sum l)) {lr : F} (hlr : finite lr)
    {bs : Option F} (hbs : ∀ b ∈ bs, finite b) (detailed : Bool) {r : Scored F} (hs : scoreFresh ops m lr bs detailed X nf = .ok r) {i : Nat}
    {row : List F} (hi : X[i]? = some row) (hM : (1 + u) ^ (fo.length + 1) * (treesSize num fo row + fo.length * η) ≤ M)
    (hM' : (1 + u) ^ (fo.length + 2) * (|num lr| * (treesSize num fo row + fo.length * η)) + η + |bs.elim 0 num| ≤ M) :
    ∃ y, r.yPred[i]? = some y ∧ finite y ∧
      |num y - exactScore num (bs.elim 0 num) (num lr) fo row| ≤ errorBound num u η (bs.elim 0 num) (num lr) fo row := by
  have hmem : row ∈ X := List.mem_of_getElem? hi
  have hc : featureCheck m nf = .ok () := by
    unfold scoreFresh at hs
    cases hh : featureCheck m nf with
    | ok v => rfl
    | error e => rw [hh] at hs; cases hs
  have hfe : ∀ p ∈ fo, ∀ f ∈ p.1.features, f < row.length := by
    rw [hX row hmem]
    exact features_lt_of_check h hc
  have hlen : (Forest.contributions ops.mul (goesLeft ops.le row) fo).length = fo.length := by simp [Forest.contributions]
  have key : ∀ s, SumTree ops fo.length (Forest.contributions ops.mul (goesLeft ops.le row) fo) s → finite (adjustOne ops lr bs s) := by
    intro s hst
    have hcs : Forest.contributions ops.mul (goesLeft ops.le row) fo =
        (fo.map (fun p => (p.1.value (goesLeft ops.le row), p.2))).map (fun p => ops.mul p.1 p.2) := by
      rw [List.map_map]
      rfl
    have hsize : treesSize num fo row = ((fo.map (fun p => (p.1.value (goesLeft ops.le row), p.2))).map (fun p => |num p.1 * num p.2|)).sum := by
      rw [treesSize, Forest.toReal, List.map_map, List.map_map]
      congr 1
      apply List.map_congr_left
      intro p hp
      simp only [Function.comp]
      rw [value_toReal hr (hfin row hmem) p.1 (hth p hp) (hfe p hp)]
    rw [hcs] at hst
    rw [hsize] at hM hM'
    obtain ⟨hf, ht⟩ := dot_finite hr ho (fo.map (fun p => (p.1.value (goesLeft ops.le row), p.2))) (by
      intro q hq
      obtain ⟨p, hp, rfl⟩ := List.mem_map.1 hq
      exact ⟨(hout p hp).2 _ (value_mem_outputs p.1), (hout p hp).1⟩) hst (by rw [List.length_map]; exact hM)
    refine adjustOne_finite hr ho hlr hbs hf ht ?_
    rw [List.length_map]
    refine le_trans (le_of_eq ?_) hM'
    rw [pow_succ (1 + u) (fo.length + 1)]
    ring
  obtain ⟨y, h1, h2⟩ := C79_prediction hr h hX hfin hth hsum lr bs detailed hs hi
  have hy : finite y := by
    cases detailed with
    | false =>
      have hy : r.yPred = (X.map (fun row => (Forest.contributions ops.mul (goesLeft ops.le row) fo).foldl ops.add ops.zero)).map (adjustOne ops lr bs) := by
        unfold scoreFresh at hs
        simp only [hc, rawScore, Bool.false_eq_true, if_false, C29_score ops h hX hc, bind, Except.bind, pure, Except.pure, Except.ok.injEq] at hs
        rw [← hs, adjust_yPred_map]
      rw [hy, List.map_map, List.getElem?_map, hi] at h1
      simp only [Option.map_some, Option.some.injEq, Function.comp] at h1
      rw [← h1]
      have hst := foldl_sumTree (ops := ops) (Forest.contributions ops.mul (goesLeft ops.le row) fo)
      rw [hlen] at hst
      exact key _ hst
    | true =>
      obtain ⟨leaves, hd, -⟩ := C30_detailed ops h hX hc
      have hy : r.yPred = ((X.map (fun row => Forest.contributions ops.mul (goesLeft ops.le row) fo)).map ops.sum).map (adjustOne ops lr bs) := by
        unfold scoreFresh at hs
        simp only [hc, rawScore, if_true, hd, bind, Except.bind, pure, Except.pure, Except.ok.injEq] at hs
        rw [← hs, adjust_yPred_map]
      rw [hy, List.map_map, List.map_map, List.getElem?_map, hi] at h1
      simp only [Option.map_some, Option.some.injEq, Function.comp] at h1
      rw [← h1]
      have hst := hsum (Forest.contributions ops.mul (goesLeft ops.le row) fo)
      rw [hlen] at hst
      exact key _ hst
  exact ⟨y, h1, hy, h2 hy⟩

/-- C79: basic and detailed scoring agree up to twice the bound. -/
theorem C79_detailed (hr : Rounded ops finite num u η) (h : Represents m fo) (hX : ∀ row ∈ X, row.length = nf)
    (hfin : ∀ row ∈ X, ∀ x ∈ row, finite x) (hth : ∀ p ∈ fo, ∀ t ∈ p.1.thresholds, finite t)
    (hsum : ∀ l : List F, SumTree ops l.length l (ops.sum l)) (lr : F) (bs : Option F) {r r' : Scored F}
    (hs : scoreFresh ops m lr bs false X nf = .ok r) (hs' : scoreFresh ops m lr bs true X nf = .ok r') {i : Nat} {row : List F}
    (hi : X[i]? = some row) : ∃ y y', r.yPred[i]? = some y ∧ r'.yPred[i]? = some y' ∧ (finite y → finite y' →
      |num y - num y'| ≤ 2 * errorBound num u η (bs.elim 0 num) (num lr) fo row) := by
  obtain ⟨y, h1, h2⟩ := C79_prediction hr h hX hfin hth hsum lr bs false hs hi
  obtain ⟨y', h1', h2'⟩ := C79_prediction hr h hX hfin hth hsum lr bs true hs' hi
  refine ⟨y, y', h1, h1', fun hy hy' => ?_⟩
  have e1 := h2 hy
  have e2 := h2' hy'
  have : num y - num y' = (num y - exactScore num (bs.elim 0 num) (num lr) fo row) - (num y' - exactScore num (bs.elim 0 num) (num lr) fo row) := by ring
  rw [this]
  exact (abs_sub _ _).trans (by linarith)

/-- C79: two documents are ranked in the order of their exact scores if these differ by more than the bounds. -/
theorem C79_order (hr : Rounded ops finite num u η) (h : Represents m fo) (hX : ∀ row ∈ X, row.length = nf)
    (hfin : ∀ row ∈ X, ∀ x ∈ row, finite x) (hth : ∀ p ∈ fo, ∀ t ∈ p.1.thresholds, finite t)
    (hsum : ∀ l : List F, SumTree ops l.length l (ops.sum l)) (lr : F) (bs : Option F) (detailed : Bool) {r : Scored F}
    (hs : scoreFresh ops m lr bs detailed X nf = .ok r) {i j : Nat} {row row' : List F} (hi : X[i]? = some row) (hj : X[j]? = some row')
    (hlt : exactScore num (bs.elim 0 num) (num lr) fo row + errorBound num u η (bs.elim 0 num) (num lr) fo row +
      errorBound num u η (bs.elim 0 num) (num lr) fo row' < exactScore num (bs.elim 0 num) (num lr) fo row') :
    ∃ y y', r.yPred[i]? = some y ∧ r.yPred[j]? = some y' ∧ (finite y → finite y' → num y < num y') := by
  obtain ⟨y, h1, h2⟩ := C79_prediction hr h hX hfin hth hsum lr bs detailed hs hi
  obtain ⟨y', h1', h2'⟩ := C79_prediction hr h hX hfin hth hsum lr bs detailed hs hj
  refine ⟨y, y', h1, h1', fun hy hy' => ?_⟩
  have e1 := (abs_le.1 (h2 hy)).2
  have e2 := (abs_le.1 (h2' hy')).1
  linarith

/-- C79: the factor in the bound is about the number of roundings times `u`. -/
theorem C79_factor (hu : 0 ≤ u) (k : Nat) (hk : k * u < 1) : (1 + u) ^ k - 1 ≤ k * u / (1 - k * u) := pow_le_gamma hu k hk

/-- C79: the hypotheses about arithmetic hold for binary32 numbers, with 24 bits, gradual underflow and overflow. -/
theorem C79_binary32 : Rounded Binary32.ops (fun a => a.isSome = true) Binary32.num (1 / 2 ^ 24) (1 / 2 ^ 150) ∧
    ∀ l, SumTree Binary32.ops l.length l (Binary32.ops.sum l) :=
  ⟨Binary32.rounded, fun l => foldl_sumTree l⟩

/-- C79: binary32 operations do not overflow as long as the exact results are at most the largest power of two less half a unit in the last place. -/
theorem C79_binary32_overflow : NoOverflow Binary32.ops (fun a => a.isSome = true) Binary32.num ((1 - 1 / 2 ^ 24) * 2 ^ 128) := Binary32.noOverflow

/-- 1 and 0.1 as binary32 numbers, and a model with three leaves 0.1. -/
def tenth : Option Int := some (13421773 * 2 ^ 122)

def tenths : Ensemble (Option Int) where
  nTrees := 3
  nNodes := 3
  root := [0, 1, 2]
  weight := [some (2 ^ 149), some (2 ^ 149), some (2 ^ 149)]
  left := [-1, -1, -1]
  right := [-1, -1, -1]
  value := [tenth, tenth, tenth]
  feature := [-1, -1, -1]

/-- The hypotheses of C79 hold for it, and its prediction is finite. -/
example : Represents tenths [(.leaf tenth, some (2 ^ 149)), (.leaf tenth, some (2 ^ 149)), (.leaf tenth, some (2 ^ 149))] := by
  refine ⟨rfl, rfl, rfl, rfl, rfl, rfl, rfl, rfl, ?_⟩
  intro k t w hk
  match k with
  | 0 => cases hk; exact ⟨[0], .leaf rfl rfl rfl rfl, by decide⟩
  | 1 => cases hk; exact ⟨[1], .leaf rfl rfl rfl rfl, by decide⟩
  | 2 => cases hk; exact ⟨[2], .leaf rfl rfl rfl rfl, by decide⟩
  | k + 3 => simp at hk

/-- The sizes leave room for rounding (hypotheses of C79_finite). -/
example : (1 + 1 / 2 ^ 24 : ℝ) ^ (3 + 2) * (|Binary32.num (some (2 ^ 149))| * (treesSize Binary32.num
      [(.leaf tenth, some (2 ^ 149)), (.leaf tenth, some (2 ^ 149)), (.leaf tenth, some (2 ^ 149))] [] + 3 * (1 / 2 ^ 150))) + 1 / 2 ^ 150 + |(0 : ℝ)| ≤
    (1 - 1 / 2 ^ 24) * 2 ^ 128 := by
  simp only [treesSize, Forest.toReal, List.map_cons, List.map_nil, List.sum_cons, List.sum_nil, Tree.toReal, Spec.Tree.value, tenth, Binary32.num]
  norm_num [abs_of_pos]

/-- The prediction is not exact: it is 10066330 * 2^-25 (0.3000000119), not three times 0.1. -/
theorem C79_inexact : scoreFresh Binary32.ops tenths (some (2 ^ 149)) none false [[]] 0 = .ok ⟨[some (10066330 * 2 ^ 124)], none, none⟩ ∧
    (10066330 * 2 ^ 124 : Int) ≠ 3 * (13421773 * 2 ^ 122) := by
  decide +kernel

end Verif.Props
