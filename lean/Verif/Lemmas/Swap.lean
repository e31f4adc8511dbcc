/-
Exchange arguments: weighted gains and cascades do not decrease when a better label moves up.
-/
import Verif.Lemmas.Metrics

namespace Verif
open Spec Metrics

section field
variable {K : Type} [Field K] [LinearOrder K] [IsStrictOrderedRing K]

/-- `F` does not decrease when two adjacent labels satisfying `P` are put in decreasing order. -/
def SwapMono (P : K → Prop) (F : List K → K) : Prop :=
  ∀ l1 a b l2, (∀ v ∈ l1 ++ a :: b :: l2, P v) → a ≤ b → F (l1 ++ a :: b :: l2) ≤ F (l1 ++ b :: a :: l2)

omit [Field K] [IsStrictOrderedRing K] in
theorem le_orderedInsert [Field K] {P : K → Prop} {F : List K → K} (hF : SwapMono P F) (x : K) : ∀ (m pre : List K),
    (∀ v ∈ pre ++ x :: m, P v) → F (pre ++ x :: m) ≤ F (pre ++ m.orderedInsert (· ≥ ·) x)
  | [], pre, _ => by simp
  | b :: m, pre, h => by
    by_cases hx : x ≥ b
    · simp [List.orderedInsert, hx]
    · have hb : x ≤ b := (not_le.1 hx).le
      have h1 := hF pre x b m h hb
      have h2 := le_orderedInsert hF x m (pre ++ [b]) (by
        intro v hv; apply h v; simp at hv ⊢; tauto)
      have e : (b :: m).orderedInsert (· ≥ ·) x = b :: m.orderedInsert (· ≥ ·) x := by
        simp [List.orderedInsert, hx]
      rw [e]
      simp only [List.append_assoc, List.singleton_append] at h2
      exact le_trans h1 h2

omit [Field K] [IsStrictOrderedRing K] in
theorem le_insertionSort [Field K] {P : K → Prop} {F : List K → K} (hF : SwapMono P F) : ∀ (l pre : List K),
    (∀ v ∈ pre ++ l, P v) → F (pre ++ l) ≤ F (pre ++ l.insertionSort (· ≥ ·))
  | [], pre, _ => by simp
  | x :: l, pre, h => by
    have h1 := le_insertionSort hF l (pre ++ [x]) (by simpa using h)
    simp only [List.append_assoc, List.singleton_append] at h1
    refine le_trans h1 ?_
    rw [List.insertionSort_cons]
    apply le_orderedInsert hF
    intro v hv
    apply h v
    simpa [List.mem_insertionSort] using hv

omit [Field K] [IsStrictOrderedRing K] in
theorem sorted_unique {r t : List K} (h : r.Perm t) (hr : r.Pairwise (· ≥ ·)) (ht : t.Pairwise (· ≥ ·)) : r = t := by
  haveI : Std.Antisymm (fun a b : K => a ≥ b) := ⟨fun a b h1 h2 => le_antisymm h2 h1⟩
  exact h.eq_of_pairwise' hr ht

/-- The sorted list maximises every such `F`. -/
theorem le_of_sorted {P : K → Prop} {F : List K → K} (hF : SwapMono P F) {r t : List K} (h : r.Perm t)
    (ht : t.Pairwise (· ≥ ·)) (hP : ∀ v ∈ r, P v) : F r ≤ F t := by
  have h1 := le_insertionSort hF r [] (by simpa using hP)
  have e : r.insertionSort (· ≥ ·) = t := by
    apply sorted_unique ((List.perm_insertionSort _ _).trans h) _ ht
    haveI : Std.Total (fun a b : K => a ≥ b) := ⟨fun a b => le_total b a⟩
    haveI : IsTrans K (fun a b : K => a ≥ b) := ⟨fun a b c h h' => le_trans h' h⟩
    exact List.pairwise_insertionSort _ _
  simpa [e] using h1

/-! ### Weighted gains -/

omit [LinearOrder K] [IsStrictOrderedRing K] in
theorem weightedGain_take (w : Nat → K) (g : K → K) (l : List K) (k : Nat) :
    weightedGain w g (l.take k) = weightedGain (fun i => if i < k then w i else 0) g l := by
  induction l generalizing w k with
  | nil => simp [weightedGain_nil]
  | cons a l ih =>
    cases k with
    | zero => rw [List.take_zero, weightedGain_nil]; simp [weightedGain]
    | succ k => simp [weightedGain_cons, ih]

omit [LinearOrder K] [IsStrictOrderedRing K] in
theorem weightedGain_exchange (w : Nat → K) (g : K → K) (l1 m l2 : List K) (a b : K) :
    weightedGain w g (l1 ++ b :: m ++ a :: l2) - weightedGain w g (l1 ++ a :: m ++ b :: l2) =
      (w l1.length - w (l1.length + (m.length + 1))) * (g b - g a) := by
  simp only [weightedGain_append, weightedGain_cons, List.length_append, List.length_cons]
  have e : 0 + (l1.length + (m.length + 1)) = l1.length + (m.length + 1) := by omega
  simp only [e, Nat.zero_add]
  ring

theorem weightedGain_swap {w : Nat → K} {g : K → K} (hw : Antitone w) (l1 m l2 : List K) {a b : K}
    (hg : g a ≤ g b) :
    weightedGain w g (l1 ++ a :: m ++ b :: l2) ≤ weightedGain w g (l1 ++ b :: m ++ a :: l2) := by
  have h := weightedGain_exchange w g l1 m l2 a b
  have h1 : 0 ≤ (w l1.length - w (l1.length + (m.length + 1))) * (g b - g a) := by
    apply mul_nonneg
    · have := hw (by omega : l1.length ≤ l1.length + (m.length + 1)); linarith
    · linarith
  linarith

omit [Field K] [IsStrictOrderedRing K] in
theorem antitone_trunc [Field K] {w : Nat → K} (hw : Antitone w) (h0 : ∀ i, 0 ≤ w i) (k : Nat) :
    Antitone (fun i => if i < k then w i else 0) := by
  intro i j hij
  by_cases hj : j < k
  · simp only [hj, ↓reduceIte, show i < k by omega]; exact hw hij
  · simp only [hj, ↓reduceIte]; split
    · exact h0 i
    · exact le_refl _

theorem swapMono_weightedGain {P : K → Prop} {w : Nat → K} {g : K → K} (hw : Antitone w)
    (hg : ∀ a b, P a → P b → a ≤ b → g a ≤ g b) : SwapMono P (weightedGain w g) := by
  intro l1 a b l2 hP hab
  have := weightedGain_swap hw l1 [] l2 (hg a b (hP a (by simp)) (hP b (by simp)) hab)
  simpa using this

/-- Prefix sums: Abel summation. -/
theorem weightedGain_abel (w : Nat → K) (g : K → K) (l : List K) :
    weightedGain w g l = (∑ j ∈ Finset.range l.length, (w j - w (j + 1)) * ((l.take (j + 1)).map g).sum) +
      w l.length * (l.map g).sum := by
  induction l using List.reverseRecOn with
  | nil => simp [weightedGain_nil]
  | append_singleton l a ih =>
    rw [weightedGain_append, weightedGain_cons, weightedGain_nil, ih, List.length_append, List.length_singleton,
      Finset.sum_range_succ]
    have e : ∀ j ∈ Finset.range l.length, (w j - w (j + 1)) * (((l ++ [a]).take (j + 1)).map g).sum =
        (w j - w (j + 1)) * ((l.take (j + 1)).map g).sum := by
      intro j hj
      rw [Finset.mem_range] at hj
      rw [List.take_append_of_le_length (by omega)]
    rw [Finset.sum_congr rfl e, List.take_of_length_le (by simp)]
    simp only [List.map_append, List.sum_append, List.map_cons, List.map_nil, List.sum_singleton, Nat.zero_add]
    ring

omit [LinearOrder K] [IsStrictOrderedRing K] in
theorem sum_take_eq_weightedGain (g : K → K) (l : List K) (k : Nat) :
    ((l.take k).map g).sum = weightedGain (fun i => if i < k then 1 else 0) g l := by
  rw [← weightedGain_take]
  generalize l.take k = m
  induction m with
  | nil => simp [weightedGain_nil]
  | cons a m ih => simp [weightedGain_cons, ih]

/-- The prefix sums of the sorted list dominate those of any permutation. -/
theorem sum_take_le_sorted {P : K → Prop} {g : K → K} (hg : ∀ a b, P a → P b → a ≤ b → g a ≤ g b)
    {r t : List K} (h : r.Perm t) (ht : t.Pairwise (· ≥ ·)) (hP : ∀ v ∈ r, P v) (k : Nat) :
    ((r.take k).map g).sum ≤ ((t.take k).map g).sum := by
  rw [sum_take_eq_weightedGain, sum_take_eq_weightedGain]
  exact le_of_sorted (swapMono_weightedGain
    (antitone_trunc (w := fun _ => (1 : K)) (fun _ _ _ => le_refl _) (fun _ => zero_le_one) k) hg) h ht hP

/-- A weighted gain equal to that of the sorted list forces equal gains at every rank that counts, if the weights
are strictly decreasing and positive. -/
theorem eq_sorted_of_weightedGain_eq {P : K → Prop} {w : Nat → K} {g : K → K} (hw : StrictAnti w)
    (h0 : ∀ i, 0 < w i) (hg : ∀ a b, P a → P b → a ≤ b → g a ≤ g b) {r t : List K} (h : r.Perm t)
    (ht : t.Pairwise (· ≥ ·)) (hP : ∀ v ∈ r, P v) {k : Nat}
    (heq : weightedGain w g (r.take k) = weightedGain w g (t.take k)) :
    (r.take k).map g = (t.take k).map g := by
  have hlen : (r.take k).length = (t.take k).length := by simp [h.length_eq]
  have hpre : ∀ j, j ≤ (r.take k).length → (((r.take k).take j).map g).sum = (((t.take k).take j).map g).sum := by
    rw [weightedGain_abel, weightedGain_abel, ← hlen] at heq
    have hle : ∀ j, (((r.take k).take j).map g).sum ≤ (((t.take k).take j).map g).sum := by
      intro j
      rw [List.take_take, List.take_take]
      exact sum_take_le_sorted hg h ht hP _
    have hterm : ∀ j ∈ Finset.range (r.take k).length,
        (w j - w (j + 1)) * (((r.take k).take (j + 1)).map g).sum ≤
          (w j - w (j + 1)) * (((t.take k).take (j + 1)).map g).sum := by
      intro j _
      apply mul_le_mul_of_nonneg_left (hle _)
      have := hw (Nat.lt_succ_self j); linarith
    have hlast : w (r.take k).length * ((r.take k).map g).sum ≤ w (r.take k).length * ((t.take k).map g).sum := by
      apply mul_le_mul_of_nonneg_left _ (h0 _).le
      have := hle k
      simpa [List.take_take] using this
    have hsum := Finset.sum_le_sum hterm
    have hsumeq : ∑ j ∈ Finset.range (r.take k).length, (w j - w (j + 1)) * (((r.take k).take (j + 1)).map g).sum =
        ∑ j ∈ Finset.range (r.take k).length, (w j - w (j + 1)) * (((t.take k).take (j + 1)).map g).sum := by
      linarith
    rw [Finset.sum_eq_sum_iff_of_le hterm] at hsumeq
    intro j hj
    cases j with
    | zero => simp
    | succ j =>
      have := hsumeq j (Finset.mem_range.2 (by omega))
      have hpos : w j - w (j + 1) ≠ 0 := by have := hw (Nat.lt_succ_self j); intro h; linarith
      exact mul_left_cancel₀ hpos this
  have key : ∀ (a b : List K), a.length = b.length →
      (∀ j, j ≤ a.length → ((a.take j).map g).sum = ((b.take j).map g).sum) → a.map g = b.map g := by
    intro a
    induction a using List.reverseRecOn with
    | nil => intro b hb _; rw [List.length_nil] at hb; rw [List.length_eq_zero_iff.1 hb.symm]
    | append_singleton a x ih =>
      intro b hb hj
      obtain ⟨b', z, rfl⟩ : ∃ b' z, b = b' ++ [z] := by
        cases b using List.reverseRecOn with
        | nil => simp at hb
        | append_singleton b' z => exact ⟨b', z, rfl⟩
      simp only [List.length_append, List.length_singleton, Nat.add_right_cancel_iff] at hb
      have h1 := ih b' hb (by
        intro j hj'
        have := hj j (by simp; omega)
        rwa [List.take_append_of_le_length hj', List.take_append_of_le_length (by omega)] at this)
      have h2 := hj (a.length + 1) (by simp)
      rw [List.take_of_length_le (by simp), List.take_of_length_le (by simp; omega)] at h2
      simp only [List.map_append, List.sum_append, List.map_cons, List.map_nil, List.sum_singleton] at h2 ⊢
      rw [h1] at h2 ⊢
      rw [add_left_cancel h2]
  exact key _ _ hlen hpre

end field

/-! ### Cascades -/

/-- Expected value of `w` at the stopping rank. -/
noncomputable def casc (w : Nat → ℝ) (u : ℝ → ℝ) (l : List ℝ) : ℝ :=
  ∑ i : Fin l.length, stopAt u l i * w i

/-- Probability of passing all documents. -/
noncomputable def pass (u : ℝ → ℝ) (l : List ℝ) : ℝ := (l.map (fun v => 1 - u v)).prod

theorem casc_nil (w : Nat → ℝ) (u : ℝ → ℝ) : casc w u [] = 0 := by simp [casc]

theorem casc_cons (w : Nat → ℝ) (u : ℝ → ℝ) (a : ℝ) (l : List ℝ) :
    casc w u (a :: l) = u a * w 0 + (1 - u a) * casc (fun i => w (i + 1)) u l := by
  simp [casc, stopAt, Fin.sum_univ_succ, Finset.mul_sum, mul_assoc]

theorem pass_cons (u : ℝ → ℝ) (a : ℝ) (l : List ℝ) : pass u (a :: l) = (1 - u a) * pass u l := by
  simp [pass]

theorem casc_append (w : Nat → ℝ) (u : ℝ → ℝ) (l l' : List ℝ) :
    casc w u (l ++ l') = casc w u l + pass u l * casc (fun i => w (i + l.length)) u l' := by
  induction l generalizing w with
  | nil => simp [casc_nil, pass]
  | cons a l ih =>
    rw [List.cons_append, casc_cons, casc_cons, ih, pass_cons]
    simp only [List.length_cons, add_assoc]
    ring

theorem casc_take (w : Nat → ℝ) (u : ℝ → ℝ) (l : List ℝ) (k : Nat) :
    casc w u (l.take k) = casc (fun i => if i < k then w i else 0) u l := by
  induction l generalizing w k with
  | nil => simp [casc_nil]
  | cons a l ih =>
    cases k with
    | zero => rw [List.take_zero, casc_nil]; simp [casc]
    | succ k => simp [casc_cons, ih]

theorem pass_nonneg {u : ℝ → ℝ} {l : List ℝ} (h : ∀ v ∈ l, u v ≤ 1) : 0 ≤ pass u l := by
  apply List.prod_nonneg
  intro a ha
  obtain ⟨v, hv, rfl⟩ := List.mem_map.1 ha
  have := h v hv
  linarith

theorem casc_nonneg {w : Nat → ℝ} {u : ℝ → ℝ} {l : List ℝ} (hw : ∀ i, 0 ≤ w i)
    (h : ∀ v ∈ l, 0 ≤ u v ∧ u v ≤ 1) : 0 ≤ casc w u l := by
  apply Finset.sum_nonneg
  intro i _
  apply mul_nonneg _ (hw _)
  apply mul_nonneg
  · exact pass_nonneg (fun v hv => (h v (List.mem_of_mem_take hv)).2)
  · exact (h _ (List.getElem_mem _)).1

/-- The stopping probabilities and the probability of passing everything sum up to 1. -/
theorem casc_one (u : ℝ → ℝ) (l : List ℝ) : casc (fun _ => 1) u l + pass u l = 1 := by
  induction l with
  | nil => simp [casc_nil, pass]
  | cons a l ih =>
    rw [casc_cons, pass_cons]
    have : casc (fun _ => 1) u l = 1 - pass u l := by linarith
    rw [this]; ring

theorem casc_pass_le {w : Nat → ℝ} {u : ℝ → ℝ} {l : List ℝ} (hw : Antitone w)
    (h : ∀ v ∈ l, 0 ≤ u v ∧ u v ≤ 1) : casc w u l + pass u l * w l.length ≤ w 0 := by
  induction l generalizing w with
  | nil => simp [casc_nil, pass]
  | cons a l ih =>
    have hw' : Antitone (fun i => w (i + 1)) := fun i j hij => hw (by omega)
    have h1 := ih hw' (fun v hv => h v (by simp [hv]))
    obtain ⟨h2, h3⟩ := h a (by simp)
    rw [casc_cons, pass_cons, List.length_cons]
    have h4 : w 1 ≤ w 0 := hw (by omega)
    simp only [Nat.zero_add] at h1
    have h5 : (1 - u a) * (casc (fun i => w (i + 1)) u l + pass u l * w (l.length + 1)) ≤ (1 - u a) * w 0 :=
      mul_le_mul_of_nonneg_left (le_trans h1 h4) (by linarith)
    nlinarith

theorem casc_le {w : Nat → ℝ} {u : ℝ → ℝ} {l : List ℝ} (hw : Antitone w) (hw0 : ∀ i, 0 ≤ w i)
    (h : ∀ v ∈ l, 0 ≤ u v ∧ u v ≤ 1) : casc w u l ≤ w 0 := by
  have h1 := casc_pass_le hw h
  have h2 := mul_nonneg (pass_nonneg (fun v hv => (h v hv).2) : 0 ≤ pass u l) (hw0 l.length)
  linarith

/-- Exchanging two documents so that the more attractive one comes first does not decrease a cascade. -/
theorem casc_swap {w : Nat → ℝ} {u : ℝ → ℝ} (hw : Antitone w) (l1 m l2 : List ℝ) {a b : ℝ}
    (h : ∀ v ∈ l1 ++ a :: m ++ b :: l2, 0 ≤ u v ∧ u v ≤ 1) (hab : u a ≤ u b) :
    casc w u (l1 ++ a :: m ++ b :: l2) ≤ casc w u (l1 ++ b :: m ++ a :: l2) := by
  rw [List.append_assoc, List.append_assoc, casc_append, casc_append w u l1]
  have hp : 0 ≤ pass u l1 := pass_nonneg (fun v hv => (h v (by simp [hv])).2)
  have hw' : Antitone (fun i => w (i + l1.length)) := fun i j hij => hw (by omega)
  generalize (fun i => w (i + l1.length)) = w1 at hw'
  have key : casc w1 u (a :: m ++ b :: l2) ≤ casc w1 u (b :: m ++ a :: l2) := by
    simp only [List.cons_append, casc_cons, casc_append]
    have hw2 : Antitone (fun i => w1 (i + 1)) := fun i j hij => hw' (by omega)
    have h1 := casc_pass_le hw2 (fun v hv => h v (by simp [hv]) : ∀ v ∈ m, 0 ≤ u v ∧ u v ≤ 1)
    simp only [Nat.zero_add] at h1 ⊢
    have h4 : w1 1 ≤ w1 0 := hw' (by omega)
    generalize casc (fun i => w1 (i + 1)) u m = V at *
    generalize pass u m = Q at *
    generalize casc _ u l2 = T at *
    generalize w1 (m.length + 1) = wj at *
    have h5 : 0 ≤ (u b - u a) * (w1 0 - V - Q * wj) := mul_nonneg (by linarith) (by linarith)
    nlinarith
  have := mul_le_mul_of_nonneg_left key hp
  linarith

theorem swapMono_casc {P : ℝ → Prop} {w : Nat → ℝ} {u : ℝ → ℝ} (hw : Antitone w)
    (hu : ∀ v, P v → 0 ≤ u v ∧ u v ≤ 1) (hmono : ∀ a b, P a → P b → a ≤ b → u a ≤ u b) :
    SwapMono P (casc w u) := by
  intro l1 a b l2 hP hab
  have := casc_swap hw l1 [] l2 (a := a) (b := b) (fun v hv => hu v (hP v (by simpa using hv)))
    (hmono a b (hP a (by simp)) (hP b (by simp)) hab)
  simpa using this

end Verif
