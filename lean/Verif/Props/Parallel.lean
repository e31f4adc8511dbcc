/-
Property C32: the parallel scoring loops give the sequential result under every schedule.
-/
import Verif.Lemmas.Parallel
import Verif.Props.Scoring

namespace Verif.Props
open Spec Ensemble

section
variable {F : Type} (ops : FloatOps F) {m : Ensemble F} {X : List (List F)}

theorem mapM_ok_getElem {ε α β : Type} {f : α → Except ε β} :
    ∀ {l : List α} {r : List β}, l.mapM f = .ok r → r.length = l.length ∧ ∀ (i : Nat) a, l[i]? = some a → ∃ b, r[i]? = some b ∧ f a = .ok b := by
  intro l
  induction l with
  | nil => intro r h; rw [List.mapM_nil] at h; cases h; exact ⟨rfl, by simp⟩
  | cons a l ih =>
    intro r h
    rw [List.mapM_cons] at h
    obtain ⟨b, h1, h2⟩ := except_bind_ok h
    obtain ⟨bs, h3, h4⟩ := except_bind_ok h2
    cases h4
    obtain ⟨h5, h6⟩ := ih h3
    refine ⟨by simp [h5], ?_⟩
    intro i x hx
    cases i with
    | zero => simp only [List.getElem?_cons_zero, Option.some.injEq] at hx; subst hx; exact ⟨b, rfl, h1⟩
    | succ i => simpa using h6 i x (by simpa using hx)

theorem le_sum_of_mem_nat {l : List Nat} {a : Nat} (h : a ∈ l) : a ≤ l.sum := by
  induction l with
  | nil => cases h
  | cons b l ih =>
    rw [List.sum_cons]
    rcases List.mem_cons.1 h with rfl | h
    · omega
    · have := ih h; omega

theorem basic_final {ys : List F} (h : basicScoring ops m X = .ok ys) {i : Nat} (hi : i < X.length) :
    ∃ v, ys[i]? = some v ∧ ∃ N, ((basicLoop ops m X).solo i)^[N] ((basicLoop ops m X).start, fun _ => ops.zero) =
      (.done, fun j => if j = i then v else ops.zero) := by
  have hX : X[i]? = some X[i] := List.getElem?_eq_getElem hi
  obtain ⟨v, h1, h2⟩ := (mapM_ok_getElem h).2 i _ hX
  refine ⟨v, h1, ?_⟩
  rw [List.range_eq_range'] at h2
  exact basic_reach ops m X hX m.nTrees 0 (by omega) (fun _ => ops.zero) v h2

/-- C32, `basic_scoring`: if the sequential loop gives `ys`, then after every interleaving of the steps of the iterations in which
all iterations have finished, the shared array holds exactly `ys`. No law of float arithmetic is used. -/
theorem C32_basic {ys : List F} (h : basicScoring ops m X = .ok ys) (schedule : List Nat)
    (hdone : ∀ i < X.length, ((basicLoop ops m X).run (fun _ => ops.zero) schedule).priv i = .done) :
    (List.range X.length).map ((basicLoop ops m X).run (fun _ => ops.zero) schedule).mem = ys := by
  apply List.ext_getElem?
  intro i
  by_cases hi : i < X.length
  · obtain ⟨v, hv, N, hN⟩ := basic_final ops h hi
    obtain ⟨hp, hm⟩ := ParLoop.run_local (basic_local ops m X) (fun _ => ops.zero) schedule i
    rw [List.getElem?_map, List.getElem?_range hi, hv, Option.map_some, hm i rfl]
    rw [hdone i hi] at hp
    have hfix : ∀ s : BasicPc F × (Nat → F), s.1 = .done → (basicLoop ops m X).solo i s = s := by
      rintro ⟨pc, y⟩ rfl
      exact basic_done_fixed ops m X i y
    have := ParLoop.iterate_unique _ (hfix _ (by rw [hN])) (hfix _ hp.symm)
    rw [this, hN]
    simp
  · rw [List.getElem?_eq_none_iff.2 (by simpa using hi)]
    have := (mapM_ok_getElem h).1
    rw [List.getElem?_eq_none_iff.2 (by omega)]

/-- C32, `basic_scoring`: no interleaving, finished or not, makes an access outside of the arrays, and every schedule in which each
iteration gets enough steps finishes. -/
theorem C32_basic_progress {ys : List F} (h : basicScoring ops m X = .ok ys) :
    (∀ schedule, ∀ i < X.length, ((basicLoop ops m X).run (fun _ => ops.zero) schedule).priv i ≠ .fault) ∧
    ∃ N, ∀ schedule, (∀ i < X.length, N ≤ schedule.count i) →
      ∀ i < X.length, ((basicLoop ops m X).run (fun _ => ops.zero) schedule).priv i = .done := by
  have hfix : ∀ i, ∀ s : BasicPc F × (Nat → F), s.1 = .done ∨ s.1 = .fault → (basicLoop ops m X).solo i s = s := by
    rintro i ⟨pc, y⟩ (rfl | rfl)
    · exact basic_done_fixed ops m X i y
    · simp only [ParLoop.solo, basicLoop]
      split <;> rfl
  constructor
  · intro σ i hi hf
    obtain ⟨v, hv, N, hN⟩ := basic_final ops h hi
    rw [(ParLoop.run_local (basic_local ops m X) (fun _ => ops.zero) σ i).1] at hf
    have := ParLoop.iterate_unique _ (hfix i _ (Or.inl (by rw [hN]))) (hfix i _ (Or.inr hf))
    rw [this, hN] at hf
    cases hf
  · have : ∀ i, ∃ N, i < X.length → (((basicLoop ops m X).solo i)^[N] ((basicLoop ops m X).start, fun _ => ops.zero)).1 = .done := by
      intro i
      by_cases hi : i < X.length
      · obtain ⟨v, hv, N, hN⟩ := basic_final ops h hi
        exact ⟨N, fun _ => by rw [hN]⟩
      · exact ⟨0, fun h => (hi h).elim⟩
    choose N hN using this
    refine ⟨((List.range X.length).map N).sum, fun σ hσ i hi => ?_⟩
    rw [(ParLoop.run_local (basic_local ops m X) (fun _ => ops.zero) σ i).1]
    have hle : N i ≤ σ.count i := le_trans (le_sum_of_mem_nat (List.mem_map_of_mem (List.mem_range.2 hi))) (hσ i hi)
    have hd := hN i hi
    have := ParLoop.iterate_fixed _ (hfix i _ (Or.inl hd)) hle
    rw [this, hd]

/-- C32, `basic_scoring` on an ensemble that represents a forest: every complete interleaving gives each row the sum of the
contributions of the trees, added in the order of the trees. -/
theorem C32_basic_score {fo : Forest F} {nf : Nat} (h : Represents m fo) (hX : ∀ row ∈ X, row.length = nf)
    (hc : featureCheck m nf = .ok ()) (schedule : List Nat)
    (hdone : ∀ i < X.length, ((basicLoop ops m X).run (fun _ => ops.zero) schedule).priv i = .done) :
    (List.range X.length).map ((basicLoop ops m X).run (fun _ => ops.zero) schedule).mem =
      X.map (fun row => (Forest.contributions ops.mul (goesLeft ops.le row) fo).foldl ops.add ops.zero) :=
  C32_basic ops (C29_score ops h hX hc) schedule hdone

theorem det_cells {leaves : List (List Int)} {part : List (List F)} (h : detailedScoring ops m X = .ok (leaves, part)) :
    ∃ cell : Nat → Nat → Int × F, (∀ (i : Nat) row, X[i]? = some row → ∀ k < m.nTrees, detailedCell ops m row k = .ok (cell i k)) ∧
      leaves = (List.range X.length).map (fun i => (List.range m.nTrees).map (fun k => (cell i k).1)) ∧
      part = (List.range X.length).map (fun i => (List.range m.nTrees).map (fun k => (cell i k).2)) := by
  obtain ⟨cells, h1, h2⟩ := except_bind_ok h
  cases h2
  obtain ⟨hl, hg⟩ := mapM_ok_getElem h1
  have hcs : ∀ i : Nat, ∃ cs : List (Int × F), ∀ row, X[i]? = some row →
      cells[i]? = some cs ∧ (List.range m.nTrees).mapM (detailedCell ops m row) = .ok cs := by
    intro i
    by_cases hi : i < X.length
    · obtain ⟨b, hb1, hb2⟩ := hg i _ (List.getElem?_eq_getElem hi)
      refine ⟨b, fun row hr => ?_⟩
      rw [List.getElem?_eq_getElem hi] at hr
      cases hr
      exact ⟨hb1, hb2⟩
    · refine ⟨[], fun row hr => ?_⟩
      rw [List.getElem?_eq_none_iff.2 (by omega)] at hr
      cases hr
  choose cs hcs using hcs
  have hcell : ∀ i k : Nat, ∃ c : Int × F, ∀ row, X[i]? = some row → k < m.nTrees →
      detailedCell ops m row k = .ok c ∧ (cs i)[k]? = some c := by
    intro i k
    by_cases hi : i < X.length ∧ k < m.nTrees
    · obtain ⟨b, hb1, hb2⟩ := (mapM_ok_getElem (hcs i _ (List.getElem?_eq_getElem hi.1)).2).2 k k (List.getElem?_range hi.2)
      refine ⟨b, fun row hr hk => ?_⟩
      rw [List.getElem?_eq_getElem hi.1] at hr
      cases hr
      exact ⟨hb2, hb1⟩
    · refine ⟨(0, ops.zero), fun row hr hk => ?_⟩
      exact (hi ⟨(List.getElem?_eq_some_iff.1 hr).1, hk⟩).elim
  choose cell hcell using hcell
  have hcells : cells = (List.range X.length).map (fun i => (List.range m.nTrees).map (cell i)) := by
    apply List.ext_getElem?
    intro i
    by_cases hi : i < X.length
    · have hX := List.getElem?_eq_getElem hi
      rw [(hcs i _ hX).1, List.getElem?_map, List.getElem?_range hi, Option.map_some]
      congr 1
      apply List.ext_getElem?
      intro k
      by_cases hk : k < m.nTrees
      · rw [(hcell i k _ hX hk).2, List.getElem?_map, List.getElem?_range hk]; rfl
      · have := (mapM_ok_getElem (hcs i _ hX).2).1
        rw [List.length_range] at this
        rw [List.getElem?_eq_none_iff.2 (by omega), List.getElem?_eq_none_iff.2 (by simpa using hk)]
    · rw [List.getElem?_eq_none_iff.2 (by omega), List.getElem?_eq_none_iff.2 (by simpa using hi)]
  refine ⟨cell, fun i row hr k hk => (hcell i k row hr hk).1, ?_, ?_⟩ <;>
    simp [hcells]

/-- C32, `detailed_scoring`: if the sequential loops give `leaves` and `part`, then after every complete interleaving the two shared
matrices hold exactly these. -/
theorem C32_detailed {leaves : List (List Int)} {part : List (List F)}
    (h : detailedScoring ops m X = .ok (leaves, part)) (start : Nat × Nat → Int × F) (schedule : List Nat)
    (hdone : ∀ k < m.nTrees, ((detLoop ops m X).run start schedule).priv k = .done) :
    (List.range X.length).map (fun i => (List.range m.nTrees).map
      (fun k => (((detLoop ops m X).run start schedule).mem (i, k)).1)) = leaves ∧
    (List.range X.length).map (fun i => (List.range m.nTrees).map
      (fun k => (((detLoop ops m X).run start schedule).mem (i, k)).2)) = part := by
  obtain ⟨cell, hcell, rfl, rfl⟩ := det_cells ops h
  have key : ∀ i < X.length, ∀ k < m.nTrees, ((detLoop ops m X).run start schedule).mem (i, k) = cell i k := by
    intro i hi k hk
    obtain ⟨N, (hN : ((detLoop ops m X).solo k)^[N] ((detLoop ops m X).start, start) = _)⟩ :=
      det_reach ops m X (k := k) (fun i => cell i k) (fun i row hr => hcell i row hr k hk) X.length 0 (by omega) start
    obtain ⟨hp, hm⟩ := ParLoop.run_local (det_local ops m X) start schedule k
    rw [hdone k hk] at hp
    have hfix : ∀ s : DetPc × (Nat × Nat → Int × F), s.1 = .done → (detLoop ops m X).solo k s = s := by
      rintro ⟨pc, y⟩ rfl; rfl
    have := ParLoop.iterate_unique _ (hfix _ (by rw [hN])) (hfix _ hp.symm)
    rw [hm (i, k) rfl]
    rw [this, hN]
    simp [hi]
  constructor <;>
  · apply List.map_congr_left
    intro i hi
    apply List.map_congr_left
    intro k hk
    rw [key i (List.mem_range.1 hi) k (List.mem_range.1 hk)]

/-- C32, `detailed_scoring`: enough steps for each iteration finish the loop, and nothing is accessed outside of the arrays. -/
theorem C32_detailed_progress {leaves : List (List Int)} {part : List (List F)}
    (h : detailedScoring ops m X = .ok (leaves, part)) (start : Nat × Nat → Int × F) :
    (∀ schedule, ∀ k < m.nTrees, ((detLoop ops m X).run start schedule).priv k ≠ .fault) ∧
    ∃ N, ∀ schedule, (∀ k < m.nTrees, N ≤ schedule.count k) →
      ∀ k < m.nTrees, ((detLoop ops m X).run start schedule).priv k = .done := by
  obtain ⟨cell, hcell, rfl, rfl⟩ := det_cells ops h
  have hfix : ∀ k, ∀ s : DetPc × (Nat × Nat → Int × F), s.1 = .done ∨ s.1 = .fault → (detLoop ops m X).solo k s = s := by
    rintro k ⟨pc, y⟩ (rfl | rfl) <;> rfl
  have hr : ∀ k, ∃ N, k < m.nTrees → (((detLoop ops m X).solo k)^[N] ((detLoop ops m X).start, start)).1 = .done := by
    intro k
    by_cases hk : k < m.nTrees
    · obtain ⟨N, hN⟩ := det_reach ops m X (k := k) (fun i => cell i k) (fun i row hr => hcell i row hr k hk)
        X.length 0 (by omega) start
      exact ⟨N, fun _ => congrArg Prod.fst hN⟩
    · exact ⟨0, fun h => (hk h).elim⟩
  choose N hN using hr
  constructor
  · intro σ k hk hf
    have hd := hN k hk
    rw [(ParLoop.run_local (det_local ops m X) start σ k).1] at hf
    have := ParLoop.iterate_unique _ (hfix k _ (Or.inl hd)) (hfix k _ (Or.inr hf))
    rw [this, hd] at hf
    cases hf
  · refine ⟨((List.range m.nTrees).map N).sum, fun σ hσ k hk => ?_⟩
    rw [(ParLoop.run_local (det_local ops m X) start σ k).1]
    have hle : N k ≤ σ.count k := le_trans (le_sum_of_mem_nat (List.mem_map_of_mem (List.mem_range.2 hk))) (hσ k hk)
    have := ParLoop.iterate_fixed _ (hfix k _ (Or.inl (hN k hk))) hle
    rw [this, hN k hk]

end

/-- C32: two different complete interleavings for two rows and two trees (the second strictly alternating), with the values of the
sequential loop. -/
example : basicScoring (exactOps ℚ) ens0 [[0, 9], [1, 4]] = .ok [9, 17] ∧
    (∀ σ ∈ [List.replicate 12 0 ++ List.replicate 12 1, (List.replicate 12 [1, 0]).flatten],
      (List.range 2).map ((basicLoop (exactOps ℚ) ens0 [[0, 9], [1, 4]]).run (fun _ => 0) σ).mem = [9, 17]) := by
  decide +kernel

/-- C32: interleavings matter in general: were the sum kept in one cell shared by two iterations, an update could get lost. Such a
loop is not `Local`, so the theorem does not apply to it. -/
example :
    let p : ParLoop Nat Unit Nat (Option Nat ⊕ Unit) :=
      ⟨.inl none, fun _ l y => match l with
        | .inl none => (.inl (some (y ())), y)
        | .inl (some v) => (.inr (), fun _ => v + 1)
        | .inr u => (.inr u, y)⟩
    (p.run (fun _ => 0) [0, 0, 1, 1]).mem () = 2 ∧ (p.run (fun _ => 0) [0, 1, 0, 1]).mem () = 1 := by
  decide

end Verif.Props
