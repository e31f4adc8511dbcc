/-
Lemmas about parallel loops: iterations that own disjoint cells do not influence each other.
-/
import Verif.Model.Parallel
import Verif.Lemmas.Ensemble
import Mathlib.Logic.Function.Iterate
import Mathlib.Data.List.Induction

namespace Verif

namespace ParLoop
variable {I C V L : Type} [DecidableEq I]

/-- Iteration `i` reads and writes only the cells it owns. -/
structure Local (p : ParLoop I C V L) (own : C → I) : Prop where
  frame : ∀ i l μ c, own c ≠ i → (p.step i l μ).2 c = μ c
  priv : ∀ i l μ μ', (∀ c, own c = i → μ c = μ' c) → (p.step i l μ).1 = (p.step i l μ').1
  mem : ∀ i l μ μ', (∀ c, own c = i → μ c = μ' c) → ∀ c, own c = i → (p.step i l μ).2 c = (p.step i l μ').2 c

/-- One step of iteration `i` when only this iteration runs. -/
def solo (p : ParLoop I C V L) (i : I) (s : L × (C → V)) : L × (C → V) := p.step i s.1 s.2

theorem run_append (p : ParLoop I C V L) (mem : C → V) (σ : List I) (j : I) :
    p.run mem (σ ++ [j]) = p.exec (p.run mem σ) j := by
  simp [run, List.foldl_append]

theorem run_local {p : ParLoop I C V L} {own : C → I} (h : p.Local own) (mem : C → V) (σ : List I) (i : I) :
    (p.run mem σ).priv i = ((p.solo i)^[σ.count i] (p.start, mem)).1 ∧
    ∀ c, own c = i → (p.run mem σ).mem c = ((p.solo i)^[σ.count i] (p.start, mem)).2 c := by
  induction σ using List.reverseRecOn with
  | nil => exact ⟨rfl, fun _ _ => rfl⟩
  | append_singleton σ j ih =>
    rw [run_append, List.count_append]
    by_cases hj : i = j
    · subst hj
      have h1 : List.count i [i] = 1 := by simp
      rw [h1, Function.iterate_succ_apply']
      simp only [exec, if_true]
      constructor
      · rw [h.priv i _ _ _ ih.2, ih.1]; rfl
      · intro c hc
        rw [h.mem i _ _ _ ih.2 c hc, ih.1]; rfl
    · have h1 : List.count i [j] = 0 := by
        rw [List.count_eq_zero]; simp [hj]
      rw [h1, Nat.add_zero]
      simp only [exec, if_neg hj]
      refine ⟨ih.1, fun c hc => ?_⟩
      rw [h.frame j _ _ c (by rw [hc]; exact hj)]
      exact ih.2 c hc

/-- Cells of iterations that do not run keep their value. -/
theorem run_untouched {p : ParLoop I C V L} {own : C → I} (h : p.Local own) (mem : C → V) (σ : List I) (c : C)
    (hc : own c ∉ σ) : (p.run mem σ).mem c = mem c := by
  rw [(run_local h mem σ (own c)).2 c rfl, List.count_eq_zero.2 hc]; rfl

theorem iterate_fixed {α : Type} (f : α → α) {x : α} {N n : Nat} (hf : f (f^[N] x) = f^[N] x) (hn : N ≤ n) :
    f^[n] x = f^[N] x := by
  obtain ⟨d, rfl⟩ := Nat.exists_eq_add_of_le hn
  rw [Nat.add_comm, Function.iterate_add_apply]
  exact Function.iterate_fixed hf d

/-- An iteration that reached a state in which it has nothing to do is there after any larger number of steps; two such states
are the same one. -/
theorem iterate_unique {α : Type} (f : α → α) {x : α} {N n : Nat} (hN : f (f^[N] x) = f^[N] x) (hn : f (f^[n] x) = f^[n] x) :
    f^[n] x = f^[N] x := by
  rcases Nat.le_total N n with h | h
  · exact iterate_fixed f hN h
  · exact (iterate_fixed f hn h).symm

end ParLoop

/-- `s'` is reached from `s` by some number of steps. -/
def Reach {α : Type} (f : α → α) (s s' : α) : Prop := ∃ n, f^[n] s = s'

theorem Reach.refl {α : Type} {f : α → α} (s : α) : Reach f s s := ⟨0, rfl⟩

theorem Reach.step {α : Type} {f : α → α} {s t u : α} (h : f s = t) (h2 : Reach f t u) : Reach f s u := by
  obtain ⟨n, hn⟩ := h2
  exact ⟨n + 1, by rw [Function.iterate_succ_apply, h, hn]⟩

theorem Reach.trans {α : Type} {f : α → α} {s t u : α} (h : Reach f s t) (h2 : Reach f t u) : Reach f s u := by
  obtain ⟨n, rfl⟩ := h
  obtain ⟨k, rfl⟩ := h2
  exact ⟨k + n, by rw [Function.iterate_add_apply]⟩

namespace Ensemble
variable {F : Type}

theorem traverse_walkStep (ops : FloatOps F) (m : Ensemble F) (row : List F) (fuel : Nat) (cur : Int) :
    traverse ops m row (fuel + 1) cur = (walkStep ops m row cur >>= fun r =>
      match r with
      | .inl next => traverse ops m row fuel next
      | .inr leaf => pure leaf) := by
  rw [traverse, walkStep]
  cases h1 : rd m.left cur with
  | error e => rfl
  | ok l =>
    simp only [bind, Except.bind]
    split
    · cases h2 : rd m.right cur with
      | error e => rfl
      | ok r =>
        simp only
        split
        · cases h3 : rd m.feature cur with
          | error e => rfl
          | ok f =>
            simp only
            cases h4 : rd m.value cur with
            | error e => rfl
            | ok t =>
              simp only
              cases h5 : rd row f with
              | error e => rfl
              | ok x =>
                simp only
                split <;> rfl
        · rfl
    · rfl

variable (ops : FloatOps F) (m : Ensemble F) (X : List (List F))

theorem basic_local : (basicLoop ops m X).Local (fun c => c) where
  frame i l μ c hc := by
    simp only [basicLoop]
    repeat' split
    all_goals first | rfl | simp only [if_neg hc]
  priv i l μ μ' h := by
    simp only [basicLoop, h i rfl]
    repeat' split
    all_goals rfl
  mem i l μ μ' h c hc := by
    subst hc
    simp only [basicLoop]
    repeat' split
    all_goals first | exact h c rfl | simp

theorem det_local : (detLoop ops m X).Local (fun c => c.2) where
  frame i l μ c hc := by
    have hne : ∀ a, c ≠ (a, i) := fun a h => hc (by rw [h])
    simp only [detLoop]
    repeat' split
    all_goals first | rfl | simp [hne]
  priv i l μ μ' h := by
    simp only [detLoop]
    repeat' split
    all_goals rfl
  mem i l μ μ' h c hc := by
    have hc' := h c hc
    simp only [detLoop]
    repeat' split
    all_goals first | exact hc' | simp [hc']

/-- A traversal that ends is carried out by the loop. -/
theorem basic_walk {i : Nat} {row : List F} (hi : X[i]? = some row) (k : Nat) (y : Nat → F) (fuel : Nat) (cur leaf : Int)
    (h : traverse ops m row fuel cur = .ok leaf) :
    Reach ((basicLoop ops m X).solo i) (.walk k cur, y) (.load k leaf, y) := by
  induction fuel generalizing cur with
  | zero => cases h
  | succ n ih =>
    rw [traverse_walkStep] at h
    obtain ⟨r, h1, h2⟩ := except_bind_ok h
    cases r with
    | inl next =>
      refine Reach.step ?_ (ih next h2)
      simp only [ParLoop.solo, basicLoop, hi, h1]
    | inr l =>
      cases h2
      refine Reach.step ?_ (Reach.refl _)
      simp only [ParLoop.solo, basicLoop, hi, h1]

theorem basic_reach {i : Nat} {row : List F} (hi : X[i]? = some row) (d k : Nat) (hd : k + d = m.nTrees) (y : Nat → F) (v : F)
    (h : basicRow ops m row (List.range' k d) (y i) = .ok v) :
    Reach ((basicLoop ops m X).solo i) (.tree k, y) (.done, fun j => if j = i then v else y j) := by
  induction d generalizing k y with
  | zero =>
    cases h
    refine Reach.step ?_ (Reach.refl _)
    have hk : ¬ k < m.nTrees := by omega
    simp only [ParLoop.solo, basicLoop, hi, if_neg hk, Prod.mk.injEq, true_and]
    funext j
    split
    · next hj => rw [hj]
    · rfl
  | succ d ih =>
    rw [List.range'_succ, basicRow] at h
    obtain ⟨leaf, h1, h2⟩ := except_bind_ok h
    obtain ⟨c, h3, h4⟩ := except_bind_ok h2
    obtain ⟨cur, h5, h6⟩ := except_bind_ok h1
    have hk : k < m.nTrees := by omega
    refine Reach.step (t := (.walk k cur, y)) ?_ ?_
    · simp only [ParLoop.solo, basicLoop, hi, if_pos hk, h5]
    refine Reach.trans (basic_walk ops m X hi k y _ cur leaf h6) ?_
    refine Reach.step (t := (.store k leaf (y i), y)) ?_ ?_
    · simp only [ParLoop.solo, basicLoop, hi]
    refine Reach.step (t := (.tree (k + 1), fun j => if j = i then ops.add (y i) c else y j)) ?_ ?_
    · simp only [ParLoop.solo, basicLoop, hi, h3]
    have := ih (k + 1) (by omega) (fun j => if j = i then ops.add (y i) c else y j) (by simpa using h4)
    convert this using 3
    split <;> simp_all

theorem basic_done_fixed (i : Nat) (y : Nat → F) :
    (basicLoop ops m X).solo i (.done, y) = (.done, y) := by
  simp only [ParLoop.solo, basicLoop]
  split <;> rfl

theorem det_walk {i k : Nat} {row : List F} (hi : X[i]? = some row) (μ : Nat × Nat → Int × F) (fuel : Nat) (cur leaf : Int)
    (h : traverse ops m row fuel cur = .ok leaf) :
    Reach ((detLoop ops m X).solo k) (.walk i cur, μ) (.storeLeaf i leaf, μ) := by
  induction fuel generalizing cur with
  | zero => cases h
  | succ n ih =>
    rw [traverse_walkStep] at h
    obtain ⟨r, h1, h2⟩ := except_bind_ok h
    cases r with
    | inl next =>
      refine Reach.step ?_ (ih next h2)
      simp only [ParLoop.solo, detLoop, hi, h1]
    | inr l =>
      cases h2
      refine Reach.step ?_ (Reach.refl _)
      simp only [ParLoop.solo, detLoop, hi, h1]

theorem det_reach {k : Nat} (cell : Nat → Int × F)
    (hcell : ∀ i row, X[i]? = some row → detailedCell ops m row k = .ok (cell i))
    (d i : Nat) (hd : i + d = X.length) (μ : Nat × Nat → Int × F) :
    Reach ((detLoop ops m X).solo k) (.inst i, μ)
      (.done, fun c => if c.2 = k ∧ i ≤ c.1 ∧ c.1 < X.length then cell c.1 else μ c) := by
  induction d generalizing i μ with
  | zero =>
    refine Reach.step ?_ (Reach.refl _)
    have hk : ¬ i < X.length := by omega
    simp only [ParLoop.solo, detLoop, if_neg hk, Prod.mk.injEq, true_and]
    funext c
    rw [if_neg (by omega)]
  | succ d ih =>
    have hlt : i < X.length := by omega
    have hi : X[i]? = some X[i] := List.getElem?_eq_getElem hlt
    have h := hcell i _ hi
    obtain ⟨leaf, h1, h2⟩ := except_bind_ok h
    obtain ⟨v, h3, h4⟩ := except_bind_ok h2
    obtain ⟨cur, h5, h6⟩ := except_bind_ok h1
    refine Reach.step (t := (.walk i cur, μ)) ?_ ?_
    · simp only [ParLoop.solo, detLoop, if_pos hlt, h5]
    refine Reach.trans (det_walk ops m X hi μ _ cur leaf h6) ?_
    refine Reach.step (t := (.storePart i leaf, fun c => if c = (i, k) then (leaf, (μ c).2) else μ c)) rfl ?_
    refine Reach.step (t := (.inst (i + 1), fun c => if c = (i, k) then cell i else μ c)) ?_ ?_
    · simp only [ParLoop.solo, detLoop, h3, Prod.mk.injEq, true_and]
      funext c
      split
      · have : cell i = (leaf, v) := (Except.ok.inj h4).symm
        rw [this]
      · rfl
    have := ih (i + 1) (by omega) (fun c => if c = (i, k) then cell i else μ c)
    convert this using 3
    rename_i c
    obtain ⟨a, b⟩ := c
    by_cases hc : (a, b) = (i, k)
    · cases hc
      rw [if_pos ⟨rfl, le_refl _, hlt⟩]
      simp
    · have hne : ¬ (b = k ∧ a = i) := fun hh => hc (by rw [hh.1, hh.2])
      rw [if_neg hc]
      by_cases hin : b = k ∧ i ≤ a ∧ a < X.length
      · rw [if_pos hin, if_pos (by simp only; omega)]
      · rw [if_neg hin, if_neg (by simp only; omega)]

theorem det_done_fixed (k : Nat) (μ : Nat × Nat → Int × F) :
    (detLoop ops m X).solo k (.done, μ) = (.done, μ) := rfl

end Ensemble
end Verif
