/-
Property C81: the names of metrics.
-/
import Verif.Model.MetricName
import Verif.Lemmas.SvmlightDump
import Verif.Props.MetricsGain
import Verif.Props.MetricsCount

namespace Verif.Props
open Spec Metrics Svm

/-- The arguments that the name does not show have their default values, and the class is not `PrecisionMax`. -/
def UsualArguments : AnyMetric → Prop
  | .rank .precisionMax => False
  | .rank (.recall _ d) => d = 0
  | .rank (.dcg i) => i = .flat
  | .rank (.ndcg i d) => i = .exp ∧ d = 1
  | .rank (.pfound p) => p = 15 / 100
  | .rank (.rbp _ p) => p = 1 / 2
  | .rank (.map d) => d = 1
  | _ => True

/-- A character of a name or of a cutoff. -/
def inWord (c : Char) : Bool := c ≠ '@' && c ≠ '['

theorem word_eq {a b r s : List Char} (ha : ∀ c ∈ a, inWord c = true) (hb : ∀ c ∈ b, inWord c = true)
    (hr : ∀ c ∈ r.head?, inWord c = false) (hs : ∀ c ∈ s.head?, inWord c = false) (h : a ++ r = b ++ s) : a = b ∧ r = s := by
  obtain ⟨h1, h2⟩ := takeWhile_append_stop ha hr
  obtain ⟨h3, h4⟩ := takeWhile_append_stop hb hs
  rw [← h] at h3 h4
  exact ⟨h1.symm.trans h3, h2.symm.trans h4⟩

theorem showInt_inWord (q : Int) : ∀ c ∈ showInt q, inWord c = true := by
  have hd : ∀ n, ∀ c ∈ decimal n, inWord c = true := by
    intro n c hc
    obtain ⟨-, h, -⟩ := numeral_digits (decimal_numeral n)
    obtain ⟨d, hd, rfl⟩ := h c hc
    interval_cases d <;> decide
  unfold showInt
  intro c hc
  split at hc
  · rcases List.mem_cons.1 hc with rfl | hc
    · decide
    · exact hd _ _ hc
  · exact hd _ _ hc

theorem showInt_injective : Function.Injective showInt := by
  have hd : ∀ m n, decimal m = decimal n → m = n := by
    intro m n h
    obtain ⟨-, -, h1⟩ := numeral_digits (decimal_numeral m)
    obtain ⟨-, -, h2⟩ := numeral_digits (decimal_numeral n)
    rw [← h1, ← h2, h]
  have hm : ∀ m n, '-' :: decimal m ≠ decimal n := by
    intro m n h
    obtain ⟨-, h1, -⟩ := numeral_digits (decimal_numeral n)
    obtain ⟨d, hd, h2⟩ := h1 '-' (by rw [← h]; exact List.mem_cons_self)
    interval_cases d <;> revert h2 <;> decide
  intro a b h
  unfold showInt at h
  split at h <;> split at h
  · have := hd _ _ (List.cons.inj h).2; omega
  · exact (hm _ _ h).elim
  · exact (hm _ _ h.symm).elim
  · have := hd _ _ h; omega

theorem defaultName_inWord (m : AnyMetric) : ∀ c ∈ defaultName m, inWord c = true := by
  rcases m with (_ | _ | _ | _ | _ | _ | _ | _ | _ | _) | _ | _ | _ | _ <;> (simp only [defaultName]; decide)

theorem thresholdText_head (num : ℝ → List Char) (t : Option ℝ) : thresholdText num t = [] ∨ ∃ r, thresholdText num t = '[' :: r := by
  cases t with
  | none => exact .inl rfl
  | some t =>
    unfold thresholdText
    simp only [Option.elim_some]
    split
    · exact .inr ⟨_, rfl⟩
    · exact .inl rfl

theorem thresholdText_injective {num : ℝ → List Char} (hnum : Function.Injective num) {t t' : ℝ}
    (h : thresholdText num (some t) = thresholdText num (some t')) : t = t' := by
  unfold thresholdText at h
  simp only [Option.elim_some] at h
  split at h <;> split at h
  · exact hnum (by simpa using h)
  · simp at h
  · simp at h
  · rename_i h1 h2
    rw [not_not.1 h1, not_not.1 h2]

/-- C81, proved part: for objects with default names, where the arguments that names do not show have their defaults, and other than `PrecisionMax`,
different objects have different names; the two correlations have no cutoff. -/
theorem C81_names_partial {num : ℝ → List Char} (hnum : Function.Injective num) {a b : AnyMetric} (ha : UsualArguments a) (hb : UsualArguments b)
    {c d : Option Int} (hc : a = .kendall ∨ a = .spearman → c = none) (hd : b = .kendall ∨ b = .spearman → d = none)
    (h : metricStr num (defaultName a) c a = metricStr num (defaultName b) d b) : a = b ∧ c = d := by
  have hcut : ∀ m, hasCutoff m = false → m = .kendall ∨ m = .spearman := by
    intro m hm
    cases m <;> simp [hasCutoff] at hm ⊢
  replace hc : hasCutoff a = false → c = none := fun hm => hc (hcut a hm)
  replace hd : hasCutoff b = false → d = none := fun hm => hd (hcut b hm)
  have hct : ∀ m (c : Option Int), (hasCutoff m = false → c = none) → (if hasCutoff m then cutoffText c else []) = cutoffText c := by
    intro m c hc
    cases hm : hasCutoff m with
    | true => simp
    | false => rw [hc hm]; rfl
  unfold metricStr at h
  rw [hct a c hc, hct b d hd, List.append_assoc, List.append_assoc] at h
  have hhead : ∀ (c : Option Int) (t : Option ℝ), ∀ x ∈ (cutoffText c ++ thresholdText num t).head?, inWord x = false := by
    intro c t x hx
    cases c with
    | none =>
      rcases thresholdText_head num t with h | ⟨r, h⟩
      · simp [cutoffText, h] at hx
      · simp only [cutoffText, Option.elim_none, List.nil_append, h, List.head?_cons, Option.mem_def, Option.some.injEq] at hx
        subst hx; decide
    | some k =>
      simp only [cutoffText, Option.elim_some, List.cons_append, List.head?_cons, Option.mem_def, Option.some.injEq] at hx
      subst hx; decide
  obtain ⟨h1, h2⟩ := word_eq (defaultName_inWord a) (defaultName_inWord b) (hhead _ _) (hhead _ _) h
  have hth : ∀ t : Option ℝ, ∀ x ∈ (thresholdText num t).head?, inWord x = false := fun t => hhead none t
  have key : c = d ∧ thresholdText num (shownThreshold a) = thresholdText num (shownThreshold b) := by
    cases c with
    | none =>
      cases d with
      | none => exact ⟨rfl, h2⟩
      | some k =>
        rcases thresholdText_head num (shownThreshold a) with h | ⟨r, h⟩ <;> simp [cutoffText, h] at h2
    | some k =>
      cases d with
      | none =>
        rcases thresholdText_head num (shownThreshold b) with h | ⟨r, h⟩ <;> simp [cutoffText, h] at h2
      | some k' =>
        simp only [cutoffText, Option.elim_some, List.cons_append, List.cons.injEq, true_and] at h2
        obtain ⟨h3, h4⟩ := word_eq (showInt_inWord k) (showInt_inWord k') (hth _) (hth _) h2
        exact ⟨by rw [showInt_injective h3], h4⟩
  refine ⟨?_, key.1⟩
  have ht := key.2
  clear h h2 key hc hd
  rcases a with (_ | _ | _ | _ | _ | _ | _ | _ | _ | _) | _ | _ | _ | _ <;> rcases b with (_ | _ | _ | _ | _ | _ | _ | _ | _ | _) | _ | _ | _ | _ <;>
    first
    | rfl
    | (exfalso; revert h1; simp only [defaultName]; decide)
    | exact absurd ha id
    | exact absurd hb id
    | (simp only [UsualArguments] at ha hb
       simp only [shownThreshold] at ht
       first
       | rw [thresholdText_injective hnum ht, ha, hb]
       | rw [thresholdText_injective hnum ht]
       | rw [ha, hb]
       | rw [ha.1, ha.2, hb.1, hb.2])

/-- C81: the discount of RBP, the abandonment of Pfound, the gain of DCG and NDCG and the value for queries without relevant documents are not in the name. -/
theorem C81_hidden (num : ℝ → List Char) (name : List Char) (c : Option Int) :
    (∀ t p p', metricStr num name c (.rank (.rbp t p)) = metricStr num name c (.rank (.rbp t p'))) ∧
    (∀ p p', metricStr num name c (.rank (.pfound p)) = metricStr num name c (.rank (.pfound p'))) ∧
    (∀ i i', metricStr num name c (.rank (.dcg i)) = metricStr num name c (.rank (.dcg i'))) ∧
    (∀ i i' d d', metricStr num name c (.rank (.ndcg i d)) = metricStr num name c (.rank (.ndcg i' d'))) ∧
    (∀ t d d', metricStr num name c (.rank (.recall t d)) = metricStr num name c (.rank (.recall t d'))) ∧
    (∀ d d', metricStr num name c (.rank (.map d)) = metricStr num name c (.rank (.map d'))) :=
  ⟨fun _ _ _ => rfl, fun _ _ => rfl, fun _ _ => rfl, fun _ _ _ _ => rfl, fun _ _ _ => rfl, fun _ _ => rfl⟩

/-- C81 is violated: two objects with the same name, DCG, and different values; they differ by `implementation`. -/
theorem C81_violated_gain (num : ℝ → List Char) :
    metricStr num (defaultName (.rank (.dcg .flat))) none (.rank (.dcg .flat)) = metricStr num (defaultName (.rank (.dcg .exp))) none (.rank (.dcg .exp)) ∧
    evalMetric (fun s : List Nat => List.range s.length) (fun s => List.range s.length) none (.dcg .flat) [2] [0] = .ok 2 ∧
    evalMetric (fun s : List Nat => List.range s.length) (fun s => List.range s.length) none (.dcg .exp) [2] [0] = .ok 3 := by
  refine ⟨rfl, ?_, ?_⟩
  · simp [evalMetric, Metrics.dcg, dcgGain, topIdx, gather, bind, Except.bind, pure, Except.pure]
  · simp [evalMetric, Metrics.dcg, dcgGain, topIdx, gather, bind, Except.bind, pure, Except.pure]
    norm_num

/-- C81 is violated: `Precision(cutoff=1)` and `PrecisionMax(cutoff=1)` are both called P@1. On labels 1, 2 with the first document ranked first the former
is 1 and the latter 0. -/
theorem C81_violated_max (num : ℝ → List Char) :
    metricStr num (defaultName (.rank (.precision 1))) (some 1) (.rank (.precision 1)) = ['P', '@', '1'] ∧
    metricStr num (defaultName (.rank .precisionMax)) (some 1) (.rank .precisionMax) = ['P', '@', '1'] ∧
    evalMetric (fun _ : List Nat => [1, 0]) (fun s => List.range s.length) (some 1) (.precision 1) [1, 2] [5, 3] = .ok 1 ∧
    evalMetric (fun _ : List Nat => [1, 0]) (fun s => List.range s.length) (some 1) .precisionMax [1, 2] [5, 3] = .ok 0 := by
  have h1 : cutoffText (some 1) = ['@', '1'] := by decide +kernel
  refine ⟨?_, ?_, ?_, ?_⟩
  · simp [metricStr, defaultName, hasCutoff, h1, thresholdText, shownThreshold]
  · simp [metricStr, defaultName, hasCutoff, h1, thresholdText, shownThreshold]
  · simp [evalMetric, Metrics.precision, topIdx, gather, pyTake]
  · simp [evalMetric, Metrics.precisionMax, npMax, topIdx, gather, pyTake, bind, Except.bind]

/-- C81 is violated: `Precision(threshold=2)` is called P[>2], but counts documents with label 2. -/
theorem C81_violated_sign {num : ℝ → List Char} (hnum : num 2 = ['2']) :
    metricStr num (defaultName (.rank (.precision 2))) none (.rank (.precision 2)) = ['P', '[', '>', '2', ']'] ∧
    evalMetric (fun s : List Nat => List.range s.length) (fun s => List.range s.length) none (.precision 2) [2] [0] = .ok 1 := by
  refine ⟨?_, ?_⟩
  · simp [metricStr, defaultName, hasCutoff, cutoffText, thresholdText, shownThreshold, hnum]
  · simp [evalMetric, Metrics.precision, topIdx, gather]

/-- The hypotheses of C81_names_partial hold for RBP@10[>2] and NDCG. -/
example : UsualArguments (.rank (.rbp 2 (1 / 2))) ∧ UsualArguments (.rank (.ndcg .exp 1)) ∧ ((.rank (.rbp 2 (1 / 2)) : AnyMetric) = .kendall ∨ (.rank (.rbp 2 (1 / 2)) : AnyMetric) = .spearman → some (10 : Int) = none) :=
  ⟨rfl, ⟨rfl, rfl⟩, by rintro (h | h) <;> cases h⟩

end Verif.Props
