/-
Property C62: Kendall's tau and Spearman's rho of a query. Documents are given by position: `y i` and `s i` are label and score of document
`i`, and the vectors passed to `eval_per_query` are `List.ofFn y` and `List.ofFn s`. `none` stands for NaN.
-/
import Verif.Lemmas.RankCorrFin
import Verif.Props.Eval

namespace Verif.Props
open Metrics Spec

variable {α β α' β' : Type} [LinearOrder α] [LinearOrder β] [LinearOrder α'] [LinearOrder β'] {n : ℕ} {y : Fin n → α} {s : Fin n → β}

theorem kendall_eq (y : Fin n → α) (s : Fin n → β) :
    kendallPerQuery (List.ofFn y) (List.ofFn s) = .ok (tauOf (List.ofFn (fun i => (y i, s i)))) := by
  unfold kendallPerQuery
  rw [if_neg (by simp), zip_ofFn]

theorem spearman_eq (y : Fin n → α) (s : Fin n → β) :
    spearmanPerQuery (List.ofFn y) (List.ofFn s) = .ok (rhoOf (List.ofFn (fun i => (y i, s i)))) := by
  unfold spearmanPerQuery
  rw [if_neg (by simp), zip_ofFn]

/-- C62: vectors of different lengths are refused. -/
theorem C62_lengths {y : List α} {s : List β} (h : y.length ≠ s.length) :
    kendallPerQuery y s = .error .valueError ∧ spearmanPerQuery y s = .error .valueError := by
  simp [kendallPerQuery, spearmanPerQuery, h]

/-- C62: both are NaN exactly if all labels or all scores of the query are equal (so also for a single document), and numbers in [-1, 1]
otherwise. -/
theorem C62_range (y : Fin n → α) (s : Fin n → β) :
    (Constant y ∨ Constant s → kendallPerQuery (List.ofFn y) (List.ofFn s) = .ok none ∧ spearmanPerQuery (List.ofFn y) (List.ofFn s) = .ok none) ∧
    (¬ Constant y → ¬ Constant s →
      (∃ r, kendallPerQuery (List.ofFn y) (List.ofFn s) = .ok (some r) ∧ -1 ≤ r ∧ r ≤ 1) ∧
      (∃ r, spearmanPerQuery (List.ofFn y) (List.ofFn s) = .ok (some r) ∧ -1 ≤ r ∧ r ≤ 1)) := by
  rw [kendall_eq, spearman_eq]
  have ht := tauOf_none (List.ofFn (fun i => (y i, s i)))
  have hr := rhoOf_none (List.ofFn (fun i => (y i, s i)))
  rw [forall_mem_ofFn (fun i => (y i, s i)) (P := fun a b => a.1 = b.1), forall_mem_ofFn (fun i => (y i, s i)) (P := fun a b => a.2 = b.2)] at ht hr
  constructor
  · intro h
    exact ⟨by rw [ht.2 h], by rw [hr.2 h]⟩
  · intro h1 h2
    constructor
    · cases h : tauOf (List.ofFn (fun i => (y i, s i))) with
      | none => exact absurd (ht.1 h) (by rw [not_or]; exact ⟨h1, h2⟩)
      | some r => exact ⟨r, rfl, tauOf_range h⟩
    · cases h : rhoOf (List.ofFn (fun i => (y i, s i))) with
      | none => exact absurd (hr.1 h) (by rw [not_or]; exact ⟨h1, h2⟩)
      | some r => exact ⟨r, rfl, pearson_range h⟩

/-- Both cases occur. -/
example : Constant (![2, 2] : Fin 2 → ℕ) ∧ ¬ Constant (![0, 1] : Fin 2 → ℕ) := by
  constructor
  · intro i j; fin_cases i <;> fin_cases j <;> rfl
  · intro h; exact absurd (h 0 1) (by decide)

/-- C62: Kendall's tau is the documented tau-b: concordant minus discordant pairs over the geometric mean of the numbers of pairs without
ties in the labels and without ties in the scores. -/
theorem C62_kendall (h1 : ¬ Constant y) (h2 : ¬ Constant s) :
    kendallPerQuery (List.ofFn y) (List.ofFn s) =
      .ok (some (((concordantPairs y s).card - (discordantPairs y s).card : ℝ) / Real.sqrt ((untiedPairs y).card * (untiedPairs s).card))) := by
  rw [kendall_eq, tauOf_eq, untied_first_card, untied_second_card, conc_card, disc_card, mul_comm ((untiedPairs s).card : ℝ)]
  · rw [forall_mem_ofFn (fun i => (y i, s i)) (P := fun a b => a.1 = b.1)]; exact h1
  · rw [forall_mem_ofFn (fun i => (y i, s i)) (P := fun a b => a.2 = b.2)]; exact h2

/-- C62: without ties the textbook formulas hold. -/
theorem C62_no_ties (hy : Function.Injective y) (hs : Function.Injective s) (hn : 2 ≤ n) :
    kendallPerQuery (List.ofFn y) (List.ofFn s) = .ok (some (1 - 4 * ((discordantPairs y s).card : ℝ) / (n * ((n : ℝ) - 1)))) ∧
    spearmanPerQuery (List.ofFn y) (List.ofFn s) =
      .ok (some (1 - 6 * (∑ i, ((rankOf y i : ℝ) - rankOf s i) ^ 2) / (n * ((n : ℝ) ^ 2 - 1)))) := by
  rw [kendall_eq, spearman_eq, tauOf_no_ties hy hs hn, rhoOf_no_ties hy hs hn]
  exact ⟨rfl, rfl⟩

/-- Three documents, one exchanged pair: tau is 1/3 and rho is 1/2. -/
example : kendallPerQuery (List.ofFn (![0, 1, 2] : Fin 3 → ℕ)) (List.ofFn (![0, 2, 1] : Fin 3 → ℕ)) = .ok (some (1 / 3)) ∧
    spearmanPerQuery (List.ofFn (![0, 1, 2] : Fin 3 → ℕ)) (List.ofFn (![0, 2, 1] : Fin 3 → ℕ)) = .ok (some (1 / 2)) := by
  obtain ⟨h1, h2⟩ := C62_no_ties (y := (![0, 1, 2] : Fin 3 → ℕ)) (s := (![0, 2, 1] : Fin 3 → ℕ)) (by decide) (by decide) (by decide)
  have e : (discordantPairs (![0, 1, 2] : Fin 3 → ℕ) (![0, 2, 1] : Fin 3 → ℕ)).card = 1 := by decide +kernel
  have r : ∀ i, rankOf (![0, 1, 2] : Fin 3 → ℕ) i = ![1, 2, 3] i := by decide +kernel
  have r' : ∀ i, rankOf (![0, 2, 1] : Fin 3 → ℕ) i = ![1, 3, 2] i := by decide +kernel
  rw [h1, h2, e]
  have r2 : ∑ i, ((rankOf (![0, 1, 2] : Fin 3 → ℕ) i : ℝ) - rankOf (![0, 2, 1] : Fin 3 → ℕ) i) ^ 2 = 2 := by
    simp only [r, r']
    rw [Fin.sum_univ_three]
    have a : (![1, 2, 3] : Fin 3 → ℕ) 2 = 3 := rfl
    have b : (![1, 3, 2] : Fin 3 → ℕ) 2 = 2 := rfl
    rw [a, b]
    norm_num
  have r3 : ∑ i : Fin (Nat.succ 2), ((rankOf (![0, 1, 2] : Fin 3 → ℕ) i : ℝ) - rankOf (![0, 2, 1] : Fin 3 → ℕ) i) ^ 2 = 2 := r2
  rw [r3]
  norm_num

/-- C62: 1 exactly for scores that order the documents as the labels do (ties included), for both measures. -/
theorem C62_perfect (h1 : ¬ Constant y) :
    (kendallPerQuery (List.ofFn y) (List.ofFn s) = .ok (some 1) ↔ SameOrder y s) ∧
    (spearmanPerQuery (List.ofFn y) (List.ofFn s) = .ok (some 1) ↔ SameOrder y s) := by
  have h : ¬ ∀ a ∈ List.ofFn (fun i => (y i, s i)), ∀ b ∈ List.ofFn (fun i => (y i, s i)), a.1 = b.1 := by
    rw [forall_mem_ofFn (fun i => (y i, s i)) (P := fun a b => a.1 = b.1)]; exact h1
  rw [kendall_eq, spearman_eq, Except.ok.injEq, Except.ok.injEq, tauOf_one h, rhoOf_one h,
    forall_mem_ofFn (fun i => (y i, s i)) (P := fun a b => a.1 < b.1 ↔ a.2 < b.2)]
  exact ⟨Iff.rfl, Iff.rfl⟩

/-- The hypotheses hold with ties. -/
example : ¬ Constant (![0, 1, 1] : Fin 3 → ℕ) ∧ SameOrder (![0, 1, 1] : Fin 3 → ℕ) (![3, 8, 8] : Fin 3 → ℕ) := by
  constructor
  · intro h; exact absurd (h 0 1) (by decide)
  · unfold SameOrder; decide

/-- Pairs of documents with the second components replaced by values in the same order. -/
theorem tauOf_congr {γ : Type} {f : γ → α} {g : γ → β} {f' : γ → α'} {g' : γ → β'} {d : List γ}
    (hf : ∀ a b, f a < f b ↔ f' a < f' b) (hg : ∀ a b, g a < g b ↔ g' a < g' b) :
    tauOf (d.map (fun x => (f x, g x))) = tauOf (d.map (fun x => (f' x, g' x))) := by
  have ef : ∀ a b, f a = f b ↔ f' a = f' b := fun a b => by
    rw [← not_iff_not, ← ne_eq, ← ne_eq, ne_iff_lt_or_gt, ne_iff_lt_or_gt]; exact or_congr (hf a b) (hf b a)
  have eg : ∀ a b, g a = g b ↔ g' a = g' b := fun a b => by
    rw [← not_iff_not, ← ne_eq, ← ne_eq, ne_iff_lt_or_gt, ne_iff_lt_or_gt]; exact or_congr (hg a b) (hg b a)
  unfold tauOf
  simp only [countPairs_map, concordant, discordant, tiedFirst, tiedSecond, hf, hg, ef, eg, ne_eq]

/-- C62: strictly increasing functions of labels and of scores change nothing. -/
theorem C62_monotone {f : α → α'} {g : β → β'} (hf : StrictMono f) (hg : StrictMono g) :
    kendallPerQuery (List.ofFn (f ∘ y)) (List.ofFn (g ∘ s)) = kendallPerQuery (List.ofFn y) (List.ofFn s) ∧
    spearmanPerQuery (List.ofFn (f ∘ y)) (List.ofFn (g ∘ s)) = spearmanPerQuery (List.ofFn y) (List.ofFn s) := by
  rw [kendall_eq, kendall_eq, spearman_eq, spearman_eq]
  constructor
  · congr 1
    have := tauOf_congr (d := List.finRange n) (f := f ∘ y) (f' := y) (g := g ∘ s) (g' := s) (fun _ _ => hf.lt_iff_lt) (fun _ _ => hg.lt_iff_lt)
    rw [List.ofFn_eq_map, List.ofFn_eq_map]
    exact this
  · congr 1
    rw [List.ofFn_eq_map, List.ofFn_eq_map]
    unfold rhoOf
    rw [pearson_map, pearson_map, List.map_map, List.map_map, List.map_map, List.map_map]
    apply pearson_congr
    · intro i hi
      exact avgRank_congr (d := List.finRange n) (f := f ∘ y) (g := y) (fun _ _ _ _ => hf.lt_iff_lt) hi
    · intro i hi
      exact avgRank_congr (d := List.finRange n) (f := g ∘ s) (g := s) (fun _ _ _ _ => hg.lt_iff_lt) hi

/-- C62: a strictly decreasing function of the scores changes the sign. -/
theorem C62_reverse {g : β → β'} (hg : StrictAnti g) :
    kendallPerQuery (List.ofFn y) (List.ofFn (g ∘ s)) = (kendallPerQuery (List.ofFn y) (List.ofFn s)).map (Option.map (fun r => -r)) ∧
    spearmanPerQuery (List.ofFn y) (List.ofFn (g ∘ s)) = (spearmanPerQuery (List.ofFn y) (List.ofFn s)).map (Option.map (fun r => -r)) := by
  rw [kendall_eq, kendall_eq, spearman_eq, spearman_eq]
  constructor
  · simp only [Except.map]
    congr 1
    rw [List.ofFn_eq_map, List.ofFn_eq_map]
    unfold tauOf
    have hgi := hg.injective
    have c1 : ∀ i j, concordant (y i, (g ∘ s) i) (y j, (g ∘ s) j) = discordant (y i, s i) (y j, s j) := fun i j => by
      simp [concordant, discordant, hg.lt_iff_gt]
    have c2 : ∀ i j, discordant (y i, (g ∘ s) i) (y j, (g ∘ s) j) = concordant (y i, s i) (y j, s j) := fun i j => by
      simp [concordant, discordant, hg.lt_iff_gt]
    have c3 : ∀ i j, tiedFirst (y i, (g ∘ s) i) (y j, (g ∘ s) j) = tiedFirst (y i, s i) (y j, s j) := fun i j => by
      simp [tiedFirst, hgi.eq_iff]
    have c4 : ∀ i j, tiedSecond (y i, (g ∘ s) i) (y j, (g ∘ s) j) = tiedSecond (y i, s i) (y j, s j) := fun i j => by
      simp [tiedSecond, hgi.eq_iff]
    simp only [countPairs_map, c1, c2, c3, c4]
    generalize countPairs (fun i j => discordant (y i, s i) (y j, s j)) (List.finRange n) = q
    generalize countPairs (fun i j => concordant (y i, s i) (y j, s j)) (List.finRange n) = p
    generalize countPairs (fun i j => tiedFirst (y i, s i) (y j, s j)) (List.finRange n) = t
    generalize countPairs (fun i j => tiedSecond (y i, s i) (y j, s j)) (List.finRange n) = u
    rw [add_comm q p]
    split_ifs
    · rfl
    · simp only [Option.map_some]
      rw [add_comm (q : ℝ) p, ← neg_div]
      congr 2
      ring
  · simp only [Except.map]
    congr 1
    rcases Nat.eq_zero_or_pos n with h0 | h0
    · subst h0
      rw [(rhoOf_none _).2 (by simp), (rhoOf_none _).2 (by simp)]
      rfl
    rw [List.ofFn_eq_map, List.ofFn_eq_map]
    unfold rhoOf
    rw [pearson_map, pearson_map, List.map_map, List.map_map, List.map_map, List.map_map]
    have hne : List.finRange n ≠ [] := by
      intro h
      have := congrArg List.length h
      simp at this
      omega
    rw [← pearson_reflect hne _ _ (((List.finRange n).length : ℝ) + 1)]
    apply pearson_congr
    · intro i hi; rfl
    · intro i hi
      exact avgRank_reverse (d := List.finRange n) (f := g ∘ s) (g := s) (fun _ _ _ _ => hg.lt_iff_gt) hi

/-- C62: -1 exactly for scores that order the documents the other way round. -/
theorem C62_worst (h1 : ¬ Constant y) :
    (kendallPerQuery (List.ofFn y) (List.ofFn s) = .ok (some (-1)) ↔ OppositeOrder y s) ∧
    (spearmanPerQuery (List.ofFn y) (List.ofFn s) = .ok (some (-1)) ↔ OppositeOrder y s) := by
  have hd : StrictAnti (OrderDual.toDual : β → βᵒᵈ) := fun _ _ h => h
  obtain ⟨k, r⟩ := C62_reverse (y := y) (s := s) hd
  obtain ⟨k', r'⟩ := C62_perfect (s := OrderDual.toDual ∘ s) h1
  have e : SameOrder y (OrderDual.toDual ∘ s) ↔ OppositeOrder y s := Iff.rfl
  rw [k, e] at k'
  rw [r, e] at r'
  have aux : ∀ x : Except PyErr (Option ℝ), x = .ok (some (-1)) ↔ x.map (Option.map (fun r => -r)) = .ok (some 1) := by
    intro x
    rcases x with e | (_ | v)
    · simp [Except.map]
    · simp [Except.map]
    · simp [Except.map, neg_eq_iff_eq_neg]
  exact ⟨(aux _).trans k', (aux _).trans r'⟩

example : ¬ Constant (![0, 1, 2] : Fin 3 → ℕ) ∧ OppositeOrder (![0, 1, 2] : Fin 3 → ℕ) (![5, 4, 3] : Fin 3 → ℕ) := by
  constructor
  · intro h; exact absurd (h 0 1) (by decide)
  · unfold OppositeOrder; decide

/-- C62: labels and scores can be exchanged. -/
theorem C62_symmetric : kendallPerQuery (List.ofFn s) (List.ofFn y) = kendallPerQuery (List.ofFn y) (List.ofFn s) ∧
    spearmanPerQuery (List.ofFn s) (List.ofFn y) = spearmanPerQuery (List.ofFn y) (List.ofFn s) := by
  rw [kendall_eq, kendall_eq, spearman_eq, spearman_eq]
  constructor
  · congr 1
    rw [List.ofFn_eq_map, List.ofFn_eq_map]
    unfold tauOf
    have c1 : ∀ i j, concordant (s i, y i) (s j, y j) = concordant (y i, s i) (y j, s j) := fun i j => by simp [concordant, and_comm]
    have c2 : ∀ i j, discordant (s i, y i) (s j, y j) = discordant (y i, s i) (y j, s j) := fun i j => by
      simp only [discordant, decide_eq_decide]; tauto
    have c3 : ∀ i j, tiedFirst (s i, y i) (s j, y j) = tiedSecond (y i, s i) (y j, s j) := fun i j => by simp [tiedFirst, tiedSecond, and_comm]
    have c4 : ∀ i j, tiedSecond (s i, y i) (s j, y j) = tiedFirst (y i, s i) (y j, s j) := fun i j => by simp [tiedFirst, tiedSecond, and_comm]
    simp only [countPairs_map, c1, c2, c3, c4]
    generalize countPairs (fun i j => discordant (y i, s i) (y j, s j)) (List.finRange n) = q
    generalize countPairs (fun i j => concordant (y i, s i) (y j, s j)) (List.finRange n) = p
    generalize countPairs (fun i j => tiedFirst (y i, s i) (y j, s j)) (List.finRange n) = t
    generalize countPairs (fun i j => tiedSecond (y i, s i) (y j, s j)) (List.finRange n) = u
    rw [mul_comm (p + q + u), mul_comm ((p : ℝ) + q + u)]
  · congr 1
    rw [List.ofFn_eq_map, List.ofFn_eq_map]
    unfold rhoOf
    rw [pearson_map, pearson_map, List.map_map, List.map_map, List.map_map, List.map_map, pearson_comm]
    rfl

/-- C62: the order of the documents in the file does not matter. -/
theorem C62_order_of_documents (σ : Equiv.Perm (Fin n)) :
    kendallPerQuery (List.ofFn (y ∘ σ)) (List.ofFn (s ∘ σ)) = kendallPerQuery (List.ofFn y) (List.ofFn s) ∧
    spearmanPerQuery (List.ofFn (y ∘ σ)) (List.ofFn (s ∘ σ)) = spearmanPerQuery (List.ofFn y) (List.ofFn s) := by
  have hp : (List.ofFn (fun i => (y (σ i), s (σ i)))).Perm (List.ofFn (fun i => (y i, s i))) :=
    Equiv.Perm.ofFn_comp_perm σ (fun i => (y i, s i))
  rw [kendall_eq, kendall_eq, spearman_eq, spearman_eq]
  constructor
  · congr 1
    show tauOf (List.ofFn (fun i => (y (σ i), s (σ i)))) = _
    unfold tauOf
    rw [countPairs_perm (fun a b => by simp only [concordant, decide_eq_decide]; tauto) hp,
      countPairs_perm (fun a b => by simp only [discordant, decide_eq_decide]; tauto) hp,
      countPairs_perm (fun a b => by simp only [tiedFirst, decide_eq_decide, eq_comm, ne_comm]) hp,
      countPairs_perm (fun a b => by simp only [tiedSecond, decide_eq_decide, eq_comm, ne_comm]) hp]
  · congr 1
    show rhoOf (List.ofFn (fun i => (y (σ i), s (σ i)))) = _
    unfold rhoOf
    rw [pearson_perm hp]
    exact pearson_congr (fun x _ => avgRank_perm (hp.map _) _) (fun x _ => avgRank_perm (hp.map _) _)

/-! ### Whole datasets -/

theorem length_ofQuery {γ : Type} (q : Int) : ∀ {ids : List Int} {a : List γ}, a.length = ids.length → (ofQuery q ids a).length = ids.count q
  | [], [], _ => rfl
  | i :: ids, x :: a, h => by
    have ih := length_ofQuery q (ids := ids) (a := a) (by simpa using h)
    unfold ofQuery at ih ⊢
    by_cases hq : i = q <;> simp_all [List.filter_cons, List.count_cons]

/-- Labels or scores of the query are all equal. -/
def Flat {γ : Type} (l : List γ) : Prop := ∀ a ∈ l, ∀ b ∈ l, a = b

theorem flat_ofFn {γ : Type} (l : List γ) [LinearOrder γ] {n : ℕ} {v : Fin n → γ} (h : l = List.ofFn v) : Flat l ↔ Constant v := by
  subst h
  exact forall_mem_ofFn v (P := fun a b => a = b)

theorem exists_ofFn {γ : Type} {n : ℕ} (l : List γ) (h : l.length = n) : ∃ v : Fin n → γ, l = List.ofFn v := by
  subst h
  exact ⟨l.get, (List.ofFn_get l).symm⟩

/-- C62: on a dataset, the detailed value of a query is NaN exactly if its labels or its scores are all equal; such queries do not enter the
average, and the average is in [-1, 1] when there is another query. Stated for either measure. -/
theorem C62_dataset {R : Type} {X : List R} {nf : Nat} {y : List α} {ids : List Int} {d : Dataset R α} {yPred : List β}
    (h : mkDataset X nf y ids = .ok d) (hc : Contiguous ids) (hy : y.length = ids.length) (hp : yPred.length = ids.length)
    {m : List α → List β → Except PyErr (Option ℝ)} (hm : m = kendallPerQuery ∨ m = spearmanPerQuery) :
    ∃ avg det, metricEval id m d yPred = .ok (avg, det) ∧ det.length = d.queryIds.length ∧
      (∀ (i : Nat) q, d.queryIds[i]? = some q → (det[i]? = some none ↔ Flat (ofQuery q ids y) ∨ Flat (ofQuery q ids yPred))) ∧
      ((∀ q ∈ d.queryIds, Flat (ofQuery q ids y) ∨ Flat (ofQuery q ids yPred)) → avg = none) ∧
      ((∃ q ∈ d.queryIds, ¬ Flat (ofQuery q ids y) ∧ ¬ Flat (ofQuery q ids yPred)) →
        ∃ r, avg = some r ∧ r = (det.filterMap id).sum / ((det.filterMap id).length : ℝ) ∧ -1 ≤ r ∧ r ≤ 1) := by
  have hval : ∀ q, (m (ofQuery q ids y) (ofQuery q ids yPred) = .ok none ∧ (Flat (ofQuery q ids y) ∨ Flat (ofQuery q ids yPred))) ∨
      (¬ (Flat (ofQuery q ids y) ∨ Flat (ofQuery q ids yPred)) ∧
        ∃ r, m (ofQuery q ids y) (ofQuery q ids yPred) = .ok (some r) ∧ -1 ≤ r ∧ r ≤ 1) := by
    intro q
    obtain ⟨u, hu⟩ := exists_ofFn (ofQuery q ids y) (length_ofQuery q hy)
    obtain ⟨v, hv⟩ := exists_ofFn (ofQuery q ids yPred) (length_ofQuery q hp)
    rw [flat_ofFn _ hu, flat_ofFn _ hv, hu, hv]
    obtain ⟨h1, h2⟩ := C62_range u v
    by_cases hf : Constant u ∨ Constant v
    · left
      refine ⟨?_, hf⟩
      rcases hm with rfl | rfl
      · exact (h1 hf).1
      · exact (h1 hf).2
    · right
      refine ⟨hf, ?_⟩
      rw [not_or] at hf
      rcases hm with rfl | rfl
      · exact (h2 hf.1 hf.2).1
      · exact (h2 hf.1 hf.2).2
  obtain ⟨⟨avg, det⟩, hr⟩ := C13_eval_succeeds (store := id) (evalQ := m) h hc hy hp (by
    intro q _
    rcases hval q with h | ⟨_, r, h, _⟩
    · exact ⟨_, h.1⟩
    · exact ⟨_, h⟩)
  obtain ⟨hlen, hdet, hn, hs⟩ := C13_eval h hc hy hp hr
  have hiff : ∀ (i : Nat) q, d.queryIds[i]? = some q → (det[i]? = some none ↔ Flat (ofQuery q ids y) ∨ Flat (ofQuery q ids yPred)) := by
    intro i q hq
    obtain ⟨v, hv, hd⟩ := hdet i q hq
    rw [hd]
    rcases hval q with ⟨h1, h2⟩ | ⟨h1, r, h2, _⟩
    · rw [h1] at hv
      cases hv
      simp [h2]
    · rw [h2] at hv
      cases hv
      simp only [id, Option.some.injEq, reduceCtorEq, false_iff]
      exact h1
  have hrange : ∀ r, some r ∈ det → -1 ≤ r ∧ r ≤ 1 := by
    intro r hr
    obtain ⟨i, hi, hri⟩ := List.getElem_of_mem hr
    have hi' : i < d.queryIds.length := by rw [← hlen]; exact hi
    obtain ⟨v, hv, hd⟩ := hdet i _ (List.getElem?_eq_getElem hi')
    rw [List.getElem?_eq_getElem hi, hri] at hd
    simp only [id, Option.some.injEq] at hd
    rw [← hd] at hv
    rcases hval (d.queryIds[i]) with ⟨h1, _⟩ | ⟨_, r', h2, hb⟩
    · rw [h1] at hv; cases hv
    · rw [h2] at hv; cases hv; exact hb
  refine ⟨avg, det, hr, hlen, hiff, ?_, ?_⟩
  · intro hall
    apply hn
    intro v hv
    obtain ⟨i, hi, hri⟩ := List.getElem_of_mem hv
    have hi' : i < d.queryIds.length := by rw [← hlen]; exact hi
    have := (hiff i _ (List.getElem?_eq_getElem hi')).2 (hall _ (List.getElem_mem hi'))
    rw [List.getElem?_eq_getElem hi, hri] at this
    simpa using this
  · rintro ⟨q, hq, hf⟩
    obtain ⟨i, hi, hqi⟩ := List.getElem_of_mem hq
    have hi' : i < det.length := by rw [hlen]; exact hi
    have hne : det[i] ≠ none := by
      intro he
      have := (hiff i q (by rw [List.getElem?_eq_getElem hi, hqi])).1 (by rw [List.getElem?_eq_getElem hi', he])
      rcases this with h | h
      · exact hf.1 h
      · exact hf.2 h
    refine ⟨_, hs ⟨_, List.getElem_mem hi', hne⟩, rfl, ?_⟩
    have hmem : ∀ r ∈ det.filterMap id, -1 ≤ r ∧ r ≤ 1 := by
      intro r hr
      rw [List.mem_filterMap] at hr
      obtain ⟨o, ho, hro⟩ := hr
      simp only [id] at hro
      exact hrange r (hro ▸ ho)
    have hpos : 0 < (det.filterMap id).length := by
      obtain ⟨r, hr⟩ := Option.ne_none_iff_exists'.1 hne
      exact List.length_pos_of_mem (List.mem_filterMap.2 ⟨_, List.getElem_mem hi', hr⟩)
    generalize det.filterMap id = l at hmem hpos
    have hb : -(l.length : ℝ) ≤ l.sum ∧ l.sum ≤ l.length := by
      clear hpos
      induction l with
      | nil => simp
      | cons x l ih =>
        have h1 := hmem x (by simp)
        have h2 := ih (fun r hr => hmem r (by simp [hr]))
        rw [List.sum_cons, List.length_cons]
        push_cast
        constructor <;> linarith
    have hpos' : (0 : ℝ) < l.length := by exact_mod_cast hpos
    rw [le_div_iff₀ hpos', div_le_iff₀ hpos']
    constructor <;> linarith

/-- Two queries; the labels of the second are equal. -/
example : ∃ d : Dataset Nat ℕ, mkDataset [0, 0, 0, 0] 1 [0, 1, 2, 2] [7, 7, 3, 3] = .ok d ∧ Contiguous [7, 7, 3, 3] ∧
    ¬ Flat (ofQuery 7 [7, 7, 3, 3] [0, 1, 2, 2]) ∧ Flat (ofQuery 3 [7, 7, 3, 3] [0, 1, 2, 2]) := by
  refine ⟨⟨[0, 0, 0, 0], 1, [0, 1, 2, 2], [7, 3], [0, 2, 4]⟩, by decide +kernel, by decide, ?_, ?_⟩
  · intro h; exact absurd (h 0 (by decide) 1 (by decide)) (by decide)
  · have e : ofQuery 3 [7, 7, 3, 3] [0, 1, 2, 2] = [2, 2] := by decide
    rw [e]; intro a ha b hb; simp at ha hb; omega

end Verif.Props
