/-
Property C119: the statistics of the heights of trees, and the tables by level.
-/
import Verif.Lemmas.TopologyResult
import Mathlib.Tactic.Positivity

namespace Verif.Props
open Ensemble Spec
variable {F : Type} {m : Ensemble F} {fo : Forest F}

/-- Number, extremes, mean, variance (from the squared differences of all pairs), skewness and kurtosis of heights. -/
structure Statistics (flat : Option ℝ × Option ℝ) (hs : List Nat) (d : Described) : Prop where
  nobs : d.nobs = hs.length
  least : d.minmax.1 ∈ hs ∧ ∀ h ∈ hs, d.minmax.1 ≤ h
  largest : d.minmax.2 ∈ hs ∧ ∀ h ∈ hs, h ≤ d.minmax.2
  mean : IsMean hs d.mean
  variance : 2 ≤ hs.length → ∃ v, d.variance = some v ∧ v * (2 * hs.length * (hs.length - 1)) = pairSum hs
  single : hs.length = 1 → d.variance = none
  skewness : (∃ x ∈ hs, ∃ y ∈ hs, x ≠ y) →
    ∃ s, d.skewness = some s ∧ s * √(powSum hs d.mean 2 / hs.length) ^ 3 = powSum hs d.mean 3 / hs.length
  kurtosis : (∃ x ∈ hs, ∃ y ∈ hs, x ≠ y) → ∃ k, d.kurtosis = some k ∧ (k + 3) * powSum hs d.mean 2 ^ 2 = hs.length * powSum hs d.mean 4
  flat : (∀ x ∈ hs, ∀ y ∈ hs, x = y) → (d.skewness, d.kurtosis) = flat

theorem foldl_min_spec : ∀ (t : List Nat) (h : Nat), t.foldl min h ∈ h :: t ∧ ∀ x ∈ h :: t, t.foldl min h ≤ x
  | [], h => by simp
  | y :: t, h => by
    obtain ⟨h1, h2⟩ := foldl_min_spec t (min h y)
    rw [List.foldl_cons]
    have h3 := h2 (min h y) (by simp)
    constructor
    · rcases List.mem_cons.1 h1 with h1 | h1
      · rw [h1]
        rcases le_total h y with hc | hc
        · simp [hc]
        · simp [hc]
      · simp [h1]
    · intro x hx
      rcases List.mem_cons.1 hx with rfl | hx
      · omega
      · rcases List.mem_cons.1 hx with rfl | hx
        · omega
        · exact h2 x (by simp [hx])

theorem foldl_max_spec : ∀ (t : List Nat) (h : Nat), t.foldl max h ∈ h :: t ∧ ∀ x ∈ h :: t, x ≤ t.foldl max h
  | [], h => by simp
  | y :: t, h => by
    obtain ⟨h1, h2⟩ := foldl_max_spec t (max h y)
    rw [List.foldl_cons]
    have h3 := h2 (max h y) (by simp)
    constructor
    · rcases List.mem_cons.1 h1 with h1 | h1
      · rw [h1]
        rcases le_total h y with hc | hc
        · simp [hc]
        · simp [hc]
      · simp [h1]
    · intro x hx
      rcases List.mem_cons.1 hx with rfl | hx
      · omega
      · rcases List.mem_cons.1 hx with rfl | hx
        · omega
        · exact h2 x (by simp [hx])

theorem cast_sum : ∀ hs : List Nat, ((hs.map (fun n : Nat => (n : ℝ))).sum) = (hs.sum : ℝ)
  | [] => by simp
  | x :: hs => by
    rw [List.map_cons, List.sum_cons, cast_sum hs, List.sum_cons]
    push_cast
    rfl

theorem moment_eq (hs : List Nat) (k : Nat) :
    moment (hs.map (fun n : Nat => (n : ℝ))) k = powSum hs (meanOf (hs.map (fun n : Nat => (n : ℝ)))) k / hs.length := by
  unfold moment
  obtain ⟨c, hc⟩ : ∃ c, meanOf (hs.map (fun n : Nat => (n : ℝ))) = c := ⟨_, rfl⟩
  rw [hc]
  unfold meanOf powSum
  simp [List.map_map, Function.comp_def]

theorem powSum_pos {hs : List Nat} {c : ℝ} (h : ∃ x ∈ hs, ∃ y ∈ hs, x ≠ y) : 0 < powSum hs c 2 := by
  rcases (powSum_even_nonneg hs c 1).lt_or_eq with h1 | h1
  · exact h1
  · exfalso
    obtain ⟨x, hx, y, hy, hxy⟩ := h
    have h2 := (powSum_two_zero c hs).1 h1.symm
    exact hxy (by exact_mod_cast (h2 x hx).trans (h2 y hy).symm)

theorem powSum_flat {hs : List Nat} {c : ℝ} (hm : IsMean hs c) (hne : hs ≠ []) (h : ∀ x ∈ hs, ∀ y ∈ hs, x = y) : powSum hs c 2 = 0 := by
  have hn : (0 : ℝ) < hs.length := by exact_mod_cast List.length_pos_iff.2 hne
  have h1 : pairSum hs = 0 := by
    refine List.sum_eq_zero fun z hz => ?_
    obtain ⟨x, hx, rfl⟩ := List.mem_map.1 hz
    refine List.sum_eq_zero fun w hw => ?_
    obtain ⟨y, hy, rfl⟩ := List.mem_map.1 hw
    rw [h x hx y hy]
    ring
  rw [pairSum_eq hm] at h1
  rcases mul_eq_zero.1 h1 with h2 | h2
  · exact absurd h2 (ne_of_gt (by positivity))
  · exact h2

theorem describe_spec (flat : Option ℝ × Option ℝ) {hs : List Nat} (hne : hs ≠ []) : ∃ d, describe flat hs = .ok d ∧ Statistics flat hs d := by
  obtain ⟨h, t, rfl⟩ := List.exists_cons_of_ne_nil hne
  refine ⟨_, rfl, ?_⟩
  have hn : (0 : ℝ) < ((h :: t).length : ℝ) := by exact_mod_cast List.length_pos_iff.2 hne
  obtain ⟨hs, ehs⟩ : ∃ hs, h :: t = hs := ⟨_, rfl⟩
  obtain ⟨c, hc⟩ : ∃ c, meanOf (hs.map (fun n : Nat => (n : ℝ))) = c := ⟨_, rfl⟩
  have hm : IsMean hs c := by
    rw [ehs] at hn
    unfold IsMean
    rw [← hc]
    unfold meanOf
    rw [cast_sum, List.length_map]
    field_simp
  have hmin := foldl_min_spec t h
  have hmax := foldl_max_spec t h
  simp only [ehs] at hn hmin hmax ⊢
  have hm2 := moment_eq hs 2
  have hm3 := moment_eq hs 3
  have hm4 := moment_eq hs 4
  rw [hc] at hm2 hm3 hm4
  have hsq : ((hs.map (fun n : Nat => (n : ℝ))).map (fun x => (x - c) ^ 2)).sum = powSum hs c 2 := by
    unfold powSum
    rw [List.map_map]
    rfl
  have hzero : powSum hs c 2 = 0 → moment (hs.map (fun n : Nat => (n : ℝ))) 2 = 0 := by
    intro h0
    rw [hm2, h0, zero_div]
  have hposi : 0 < powSum hs c 2 → moment (hs.map (fun n : Nat => (n : ℝ))) 2 ≠ 0 := by
    intro h0
    rw [hm2]
    positivity
  constructor
  · rfl
  · exact hmin
  · exact hmax
  · simp only [hc]; exact hm
  · intro h2
    refine ⟨_, if_neg (by omega), ?_⟩
    have h3 : (0 : ℝ) < (hs.length : ℝ) - 1 := by
      have : (2 : ℝ) ≤ (hs.length : ℝ) := by exact_mod_cast h2
      linarith
    rw [pairSum_eq hm, hc, hsq]
    field_simp
  · intro h1
    exact if_pos h1
  · intro hx
    have hp := powSum_pos (c := c) hx
    refine ⟨_, if_neg (hposi hp), ?_⟩
    simp only [hc, hm2, hm3]
    have : (0 : ℝ) < √(powSum hs c 2 / hs.length) ^ 3 := by positivity
    field_simp
  · intro hx
    have hp := powSum_pos (c := c) hx
    refine ⟨_, if_neg (hposi hp), ?_⟩
    simp only [hc, hm2, hm4]
    field_simp
    ring
  · intro hx
    have h0 := hzero (powSum_flat hm (by rw [← ehs]; simp) hx)
    simp only [h0, if_true]

/-- The statistics are determined by the heights. -/
theorem Statistics.unique {flat : Option ℝ × Option ℝ} {hs : List Nat} {d d' : Described} (hne : hs ≠ []) (h : Statistics flat hs d)
    (h' : Statistics flat hs d') : d = d' := by
  have hn : (0 : ℝ) < (hs.length : ℝ) := by exact_mod_cast List.length_pos_iff.2 hne
  have hlen := List.length_pos_iff.2 hne
  obtain ⟨n1, ⟨lo1, hi1⟩, m1, v1, s1, k1⟩ := d
  obtain ⟨n2, ⟨lo2, hi2⟩, m2, v2, s2, k2⟩ := d'
  have e1 : n1 = n2 := h.nobs.trans h'.nobs.symm
  have e2 : lo1 = lo2 := le_antisymm (h.least.2 _ h'.least.1) (h'.least.2 _ h.least.1)
  have e3 : hi1 = hi2 := le_antisymm (h'.largest.2 _ h.largest.1) (h.largest.2 _ h'.largest.1)
  have e4 : m1 = m2 := by
    have h1 : m1 * hs.length = _ := h.mean
    have h2 : m2 * hs.length = _ := h'.mean
    exact mul_right_cancel₀ hn.ne' (h1.trans h2.symm)
  subst e1 e2 e3 e4
  have e5 : v1 = v2 := by
    by_cases h1 : hs.length = 1
    · exact (h.single h1).trans (h'.single h1).symm
    · have h2 : 2 ≤ hs.length := by omega
      obtain ⟨a, ha, ha'⟩ := h.variance h2
      obtain ⟨b, hb, hb'⟩ := h'.variance h2
      have h3 : (0 : ℝ) < (hs.length : ℝ) - 1 := by
        have : (2 : ℝ) ≤ (hs.length : ℝ) := by exact_mod_cast h2
        linarith
      have h4 : a = b := mul_right_cancel₀ (ne_of_gt (by positivity)) (ha'.trans hb'.symm)
      exact ha.trans (h4 ▸ hb.symm)
  subst e5
  by_cases hx : ∃ x ∈ hs, ∃ y ∈ hs, x ≠ y
  · have hp := powSum_pos (c := m1) hx
    obtain ⟨a, ha, ha'⟩ := h.skewness hx
    obtain ⟨b, hb, hb'⟩ := h'.skewness hx
    have h4 : a = b := mul_right_cancel₀ (ne_of_gt (by positivity)) (ha'.trans hb'.symm)
    obtain ⟨a2, ha2, ha2'⟩ := h.kurtosis hx
    obtain ⟨b2, hb2, hb2'⟩ := h'.kurtosis hx
    have h5 : a2 + 3 = b2 + 3 := mul_right_cancel₀ (ne_of_gt (by positivity)) (ha2'.trans hb2'.symm)
    have h6 : a2 = b2 := by linarith
    simp only at ha hb ha2 hb2
    rw [ha, hb, ha2, hb2, h4, h6]
  · push Not at hx
    have h1 := (h.flat hx).trans (h'.flat hx).symm
    simp only [Prod.mk.injEq] at h1
    rw [h1.1, h1.2]

/-- C119: `describe_tree_height` gives the statistics of the heights of the trees, with or without leaves. -/
theorem C119_describe_partial (flat : Option ℝ × Option ℝ) (h : Represents m fo) (hne : fo ≠ []) (hpf : ParentFirst m)
    (hh : ∀ p ∈ fo, p.1.height < 63) (incl : Bool) :
    ∃ d, describeTreeHeight flat m incl = .ok d ∧ Statistics flat (fo.map (fun p => p.1.height)) d := by
  obtain ⟨top, h1, -⟩ := C44_topology_partial h hne hpf hh incl
  obtain ⟨d, h2, h3⟩ := describe_spec flat (hs := fo.map (fun p => p.1.height)) (by simpa using hne)
  refine ⟨d, ?_, h3⟩
  unfold describeTreeHeight
  rw [h1]
  exact h2

/-- C119: there are no statistics of no heights, and none of a model without trees. -/
theorem C119_empty (flat : Option ℝ × Option ℝ) (h : Represents m []) (incl : Bool) :
    describe flat [] = .error .valueError ∧ ∀ d, describeTreeHeight flat m incl ≠ .ok d := by
  refine ⟨rfl, fun d hd => ?_⟩
  unfold describeTreeHeight at hd
  cases ht : topologicalAnalysis m incl with
  | error e => rw [ht] at hd; cases hd
  | ok p =>
    have h1 : p.2 = [] := by
      unfold topologicalAnalysis at ht
      rw [h.nTrees] at ht
      simp only [List.length_nil, List.range_zero, List.foldlM_nil, bind, Except.bind, pure, Except.pure] at ht
      split at ht
      · cases ht
      · simp only [Except.ok.injEq] at ht
        rw [← ht]
    rw [ht] at hd
    obtain ⟨a, b⟩ := p
    subst h1
    cases hd

/-- C119: the mean is between the extremes; the variance is not negative, zero for equal heights only, and not larger than the extremes
allow; the kurtosis is at least the square of the skewness minus 2. -/
theorem C119_bounds {flat : Option ℝ × Option ℝ} {hs : List Nat} {d : Described} (hne : hs ≠ []) (h : Statistics flat hs d) :
    (d.minmax.1 : ℝ) ≤ d.mean ∧ d.mean ≤ d.minmax.2 ∧
    (∀ v, d.variance = some v → 0 ≤ v ∧ (v = 0 ↔ ∀ x ∈ hs, ∀ y ∈ hs, x = y) ∧
      v * (hs.length - 1) ≤ hs.length * ((d.minmax.2 - d.mean) * (d.mean - d.minmax.1))) ∧
    ((∃ x ∈ hs, ∃ y ∈ hs, x ≠ y) → ∃ s k, d.skewness = some s ∧ d.kurtosis = some k ∧ s ^ 2 - 2 ≤ k) := by
  have hlen := List.length_pos_iff.2 hne
  have hn : (0 : ℝ) < (hs.length : ℝ) := by exact_mod_cast hlen
  obtain ⟨c, hc⟩ : ∃ c, d.mean = c := ⟨_, rfl⟩
  have hm : IsMean hs c := hc ▸ h.mean
  have hp1 : powSum hs c 1 = 0 := by rw [powSum_one, ← hm]; ring
  have hlo : ∀ x ∈ hs, (d.minmax.1 : ℝ) ≤ x := fun x hx => by exact_mod_cast h.least.2 x hx
  have hhi : ∀ x ∈ hs, (x : ℝ) ≤ d.minmax.2 := fun x hx => by exact_mod_cast h.largest.2 x hx
  have hsumlo : ∀ l : List Nat, (∀ x ∈ l, (d.minmax.1 : ℝ) ≤ x) → (d.minmax.1 : ℝ) * l.length ≤ (l.sum : ℝ) := by
    intro l
    induction l with
    | nil => simp
    | cons x l ih =>
      intro hl
      have h1 := ih (fun y hy => hl y (by simp [hy]))
      have h2 := hl x (by simp)
      rw [List.length_cons, List.sum_cons]
      simp only [Nat.cast_add, Nat.cast_one]
      linarith
  have hsumhi : ∀ l : List Nat, (∀ x ∈ l, (x : ℝ) ≤ d.minmax.2) → (l.sum : ℝ) ≤ d.minmax.2 * l.length := by
    intro l
    induction l with
    | nil => simp
    | cons x l ih =>
      intro hl
      have h1 := ih (fun y hy => hl y (by simp [hy]))
      have h2 := hl x (by simp)
      rw [List.length_cons, List.sum_cons]
      simp only [Nat.cast_add, Nat.cast_one]
      linarith
  have hmean : c * hs.length = (hs.sum : ℝ) := hm
  rw [hc]
  refine ⟨?_, ?_, ?_, ?_⟩
  · have := hsumlo hs hlo
    rw [← hmean] at this
    exact le_of_mul_le_mul_right this hn
  · have := hsumhi hs hhi
    rw [← hmean] at this
    exact le_of_mul_le_mul_right this hn
  · intro v hv
    have h2 : 2 ≤ hs.length := by
      by_contra hlt
      rw [h.single (by omega)] at hv
      simp at hv
    obtain ⟨v', hv', he⟩ := h.variance h2
    obtain rfl : v = v' := Option.some.inj (hv.symm.trans hv')
    have h3 : (0 : ℝ) < (hs.length : ℝ) - 1 := by
      have : (2 : ℝ) ≤ (hs.length : ℝ) := by exact_mod_cast h2
      linarith
    have he2 : v * (hs.length - 1) = powSum hs c 2 := by
      rw [pairSum_eq hm] at he
      have : 2 * (hs.length : ℝ) * (v * (hs.length - 1)) = 2 * hs.length * powSum hs c 2 := by linarith
      exact mul_left_cancel₀ (by positivity) this
    have hnn := powSum_even_nonneg hs c 1
    have hv0 : v = 0 ↔ powSum hs c 2 = 0 := by
      rw [← he2]
      constructor
      · rintro rfl; ring
      · intro h0
        exact (mul_eq_zero.1 h0).resolve_right h3.ne'
    refine ⟨?_, ?_, ?_⟩
    · by_contra hlt
      push Not at hlt
      have := mul_neg_of_neg_of_pos hlt h3
      rw [he2] at this
      simp only [mul_one] at hnn
      linarith
    · rw [hv0]
      constructor
      · intro h0 x hx y hy
        have h4 := (powSum_two_zero c hs).1 h0
        exact_mod_cast (h4 x hx).trans (h4 y hy).symm
      · exact powSum_flat hm hne
    · rw [he2]
      have := powSum_between c d.minmax.1 d.minmax.2 hs (fun x hx => ⟨hlo x hx, hhi x hx⟩)
      rw [hp1] at this
      linarith
  · intro hx
    obtain ⟨s, hs1, hs2⟩ := h.skewness hx
    obtain ⟨k, hk1, hk2⟩ := h.kurtosis hx
    refine ⟨s, k, hs1, hk1, ?_⟩
    rw [hc] at hs2 hk2
    have hp := powSum_pos (c := c) hx
    have hq : s ^ 2 * powSum hs c 2 ^ 3 = hs.length * powSum hs c 3 ^ 2 := by
      have h4 : √(powSum hs c 2 / hs.length) ^ 2 = powSum hs c 2 / hs.length := Real.sq_sqrt (by positivity)
      have h5 : s ^ 2 * (√(powSum hs c 2 / hs.length) ^ 2) ^ 3 = (powSum hs c 3 / hs.length) ^ 2 := by rw [← hs2]; ring
      rw [h4] at h5
      field_simp at h5
      linarith
    have h6 := powSum_square c (powSum hs c 3 / powSum hs c 2) (powSum hs c 2 / hs.length) hs
    rw [hp1] at h6
    have h7 : 0 ≤ hs.length * powSum hs c 4 * powSum hs c 2 - hs.length * powSum hs c 3 ^ 2 - powSum hs c 2 ^ 3 := by
      have h8 : hs.length * powSum hs c 4 * powSum hs c 2 - hs.length * powSum hs c 3 ^ 2 - powSum hs c 2 ^ 3 =
          hs.length * powSum hs c 2 * (powSum hs c 4 - 2 * (powSum hs c 3 / powSum hs c 2) * powSum hs c 3 +
            ((powSum hs c 3 / powSum hs c 2) ^ 2 - 2 * (powSum hs c 2 / hs.length)) * powSum hs c 2 +
            2 * (powSum hs c 3 / powSum hs c 2) * (powSum hs c 2 / hs.length) * 0 + hs.length * (powSum hs c 2 / hs.length) ^ 2) := by
        field_simp
        ring
      rw [h8]
      exact mul_nonneg (by positivity) h6
    rw [← hk2, ← hq] at h7
    have h9 : 0 ≤ (k + 3 - s ^ 2 - 1) * powSum hs c 2 ^ 3 := by
      have : (k + 3 - s ^ 2 - 1) * powSum hs c 2 ^ 3 = (k + 3) * powSum hs c 2 ^ 2 * powSum hs c 2 - s ^ 2 * powSum hs c 2 ^ 3 - powSum hs c 2 ^ 3 := by ring
      rw [this]
      exact h7
    have h10 : 0 < powSum hs c 2 ^ 3 := by positivity
    have h11 : 0 ≤ k + 3 - s ^ 2 - 1 := by
      by_contra hlt
      push Not at hlt
      have := mul_neg_of_neg_of_pos hlt h10
      linarith
    linarith

theorem powSum_perm {hs hs' : List Nat} (h : hs.Perm hs') (c : ℝ) (k : Nat) : powSum hs c k = powSum hs' c k := (h.map _).sum_eq

theorem pairSum_perm {hs hs' : List Nat} (h : hs.Perm hs') : pairSum hs = pairSum hs' := by
  unfold pairSum
  rw [(h.map _).sum_eq]
  congr 1
  refine List.map_congr_left fun x _ => ?_
  exact (h.map _).sum_eq

theorem Statistics.perm {flat : Option ℝ × Option ℝ} {hs hs' : List Nat} {d : Described} (hp : hs.Perm hs') (h : Statistics flat hs d) :
    Statistics flat hs' d := by
  have hl := hp.length_eq
  constructor
  · exact h.nobs.trans hl
  · exact ⟨hp.mem_iff.1 h.least.1, fun x hx => h.least.2 x (hp.mem_iff.2 hx)⟩
  · exact ⟨hp.mem_iff.1 h.largest.1, fun x hx => h.largest.2 x (hp.mem_iff.2 hx)⟩
  · have := h.mean
    unfold IsMean at this ⊢
    rw [← hl, this, hp.sum_eq]
  · rw [← hl, ← pairSum_perm hp]; exact h.variance
  · rw [← hl]; exact h.single
  · rintro ⟨x, hx, y, hy, hxy⟩
    rw [← powSum_perm hp, ← powSum_perm hp, ← hl]
    exact h.skewness ⟨x, hp.mem_iff.2 hx, y, hp.mem_iff.2 hy, hxy⟩
  · rintro ⟨x, hx, y, hy, hxy⟩
    rw [← powSum_perm hp, ← powSum_perm hp, ← hl]
    exact h.kurtosis ⟨x, hp.mem_iff.2 hx, y, hp.mem_iff.2 hy, hxy⟩
  · intro hx
    exact h.flat (fun x h1 y h2 => hx x (hp.mem_iff.1 h1) y (hp.mem_iff.1 h2))

/-- C119: the order of the trees, their weights and thresholds, and the counting of leaves make no difference to the statistics. -/
theorem C119_order {F' : Type} {m' : Ensemble F'} {fo' : Forest F'} (flat : Option ℝ × Option ℝ) (h : Represents m fo) (h' : Represents m' fo')
    (hne : fo ≠ []) (hpf : ParentFirst m) (hpf' : ParentFirst m') (hh : ∀ p ∈ fo, p.1.height < 63)
    (hp : (fo.map (fun p => p.1.height)).Perm (fo'.map (fun p => p.1.height))) (incl incl' : Bool) :
    describeTreeHeight flat m incl = describeTreeHeight flat m' incl' := by
  have hne' : fo' ≠ [] := by
    rintro rfl
    have := hp.length_eq
    simp at this
    exact hne this
  have hh' : ∀ p ∈ fo', p.1.height < 63 := by
    intro p hp'
    obtain ⟨q, hq, he⟩ := List.mem_map.1 (hp.mem_iff.2 (List.mem_map.2 ⟨p, hp', rfl⟩))
    have := hh q hq
    rw [he] at this
    exact this
  obtain ⟨d, h1, h2⟩ := C119_describe_partial flat h hne hpf hh incl
  obtain ⟨d', h1', h2'⟩ := C119_describe_partial flat h' hne' hpf' hh' incl'
  rw [h1, h1', Statistics.unique (by simpa using hne') (h2.perm hp) h2']

/-! ### Tables by level -/

theorem entry_col {incl : Bool} {top : List Entry} (h : Counts incl fo top) (row : Nat) : ∀ e ∈ top, e.row = row → e.col < 2 ^ row := by
  rintro e he rfl
  obtain ⟨h1, h2⟩ := h.count e he
  rw [h1] at h2
  unfold Forest.having at h2
  split at h2
  · next hc => rw [hc.1, hc.2]; simp
  · obtain ⟨p, -, hp⟩ := List.countP_pos_iff.1 h2
    exact (hasNode_true hp).2

theorem level_entries {incl : Bool} {top : List Entry} (h : Counts incl fo top) (l : Nat) :
    ((top.filter (fun e => e.row = l)).map Entry.count).sum = Forest.inLevel incl fo l := by
  rw [← row_sum l (2 ^ l) top (entry_col h l), ← having_level]
  exact Finset.sum_congr rfl fun p _ => C44_cell h l p

/-- C119: the cells of a level add up to the nodes of the trees in this level. -/
theorem C119_level {incl : Bool} {top : List Entry} (h : Counts incl fo top) (l : Nat) :
    ∑ p ∈ Finset.range (2 ^ l), cell top l p = Forest.inLevel incl fo l ∧ ∀ p, 2 ^ l ≤ p → cell top l p = 0 := by
  constructor
  · rw [← having_level]
    exact Finset.sum_congr rfl fun p _ => C44_cell h l p
  · intro p hp
    rw [C44_cell h]
    by_contra h0
    obtain ⟨e, he, h1, h2⟩ := h.complete l p (Nat.pos_of_ne_zero h0)
    have := entry_col h l e he h1
    omega

theorem forest_inLevel_pos (incl : Bool) (l : Nat) : 0 < Forest.inLevel incl fo l ↔
    ((l = 0 ∧ fo ≠ []) ∨ ∃ p ∈ fo, if incl then l ≤ p.1.height else l < p.1.height) := by
  unfold Forest.inLevel
  split
  · next hl =>
    subst hl
    rw [List.length_pos_iff]
    constructor
    · exact fun h => .inl ⟨rfl, h⟩
    · rintro (⟨-, h⟩ | ⟨p, hp, -⟩)
      · exact h
      · exact List.ne_nil_of_mem hp
  · next hl =>
    rw [Nat.pos_iff_ne_zero, ne_eq, List.sum_eq_zero_iff]
    constructor
    · intro h
      push Not at h
      obtain ⟨x, hx, hx0⟩ := h
      obtain ⟨p, hp, rfl⟩ := List.mem_map.1 hx
      refine .inr ⟨p, hp, ?_⟩
      cases incl
      · exact (inLevel_pos p.1 l).2.1 (Nat.pos_of_ne_zero hx0)
      · exact (inLevel_pos p.1 l).1.1 (Nat.pos_of_ne_zero hx0)
    · rintro (⟨h, -⟩ | ⟨p, hp, hlt⟩)
      · exact absurd h hl
      · intro h
        have h0 := h _ (List.mem_map.2 ⟨p, hp, rfl⟩)
        cases incl
        · have := (inLevel_pos p.1 l).2.2 hlt
          omega
        · have := (inLevel_pos p.1 l).1.2 hlt
          omega

theorem lt_numRows {incl : Bool} {top : List Entry} (h : Counts incl fo top) (l : Nat) :
    l < numRows top ↔ ∃ l', l ≤ l' ∧ 0 < Forest.inLevel incl fo l' := by
  have h1 := C75_rings h l l
  unfold Plots.shapeLevels at h1
  rw [lt_min_iff] at h1
  constructor
  · intro hl
    obtain ⟨-, l', p, hle, hp⟩ := h1.1 ⟨hl, by omega⟩
    refine ⟨l', hle, ?_⟩
    rw [← having_level]
    refine lt_of_lt_of_le hp (Finset.single_le_sum (f := fun p => Forest.having incl fo l' p) (fun _ _ => Nat.zero_le _) ?_)
    obtain ⟨e, he, h2, h3⟩ := h.complete l' p hp
    exact Finset.mem_range.2 (h3 ▸ entry_col h l' e he h2)
  · rintro ⟨l', hle, hp⟩
    rw [← having_level] at hp
    obtain ⟨p, -, hp'⟩ : ∃ p ∈ Finset.range (2 ^ l'), Forest.having incl fo l' p ≠ 0 := by
      by_contra hcon
      push Not at hcon
      rw [Finset.sum_eq_zero hcon] at hp
      omega
    exact (h1.2 ⟨le_rfl, l', p, hle, Nat.pos_of_ne_zero hp'⟩).1

/-- C119: the matrix has one row for each level up to the highest tree; without leaves the levels of splits, and always the level of
the roots. -/
theorem C119_rows {incl : Bool} {top : List Entry} (h : Counts incl fo top) (hne : fo ≠ []) (l : Nat) :
    l < numRows top ↔ l = 0 ∨ ∃ p ∈ fo, if incl then l ≤ p.1.height else l < p.1.height := by
  rw [lt_numRows h]
  constructor
  · rintro ⟨l', hle, hp⟩
    rcases (forest_inLevel_pos incl l').1 hp with ⟨h0, -⟩ | ⟨p, hp, h1⟩
    · exact .inl (by omega)
    · refine .inr ⟨p, hp, ?_⟩
      cases incl
      · simp only [Bool.false_eq_true, if_false] at h1 ⊢; omega
      · simp only [if_true] at h1 ⊢; omega
  · intro hc
    refine ⟨l, le_rfl, (forest_inLevel_pos incl l).2 ?_⟩
    rcases hc with h0 | h0
    · exact .inl ⟨h0, hne⟩
    · exact .inr h0

/-- C119: with leaves the cells of the matrix add up to the number of nodes of the model. -/
theorem C119_total {top : List Entry} (h : Represents m fo) (hc : Counts true fo top) (hne : fo ≠ []) :
    ∑ l ∈ Finset.range (numRows top), ∑ p ∈ Finset.range (2 ^ l), cell top l p = m.nNodes := by
  rw [h.nNodes]
  have hrow : ∀ p ∈ fo, p.1.height < numRows top := fun p hp => (C119_rows hc hne p.1.height).2 (.inr ⟨p, hp, le_rfl⟩)
  obtain ⟨R, hR⟩ : ∃ R, numRows top = R := ⟨_, rfl⟩
  rw [hR] at hrow ⊢
  rw [Finset.sum_congr rfl fun l _ => (C119_level hc l).1]
  have hlev : ∀ l, Forest.inLevel true fo l = (fo.map (fun p => p.1.inLevel true l)).sum := by
    intro l
    unfold Forest.inLevel
    split
    · next h0 =>
      subst h0
      clear h hc hne hrow
      induction fo with
      | nil => rfl
      | cons p fo ih =>
        have h1 : p.1.inLevel true 0 = 1 := by cases p.1 <;> rfl
        rw [List.map_cons, List.sum_cons, ← ih, h1, List.length_cons, Nat.add_comm]
    · rfl
  simp only [hlev]
  clear h hc hne hR hlev
  unfold Forest.numNodes
  induction fo with
  | nil => simp
  | cons p fo ih =>
    simp only [List.map_cons, List.sum_cons]
    rw [Finset.sum_add_distrib, inLevel_total p.1 R (hrow p (by simp)), ih (fun q hq => hrow q (by simp [hq]))]

/-- C119: `fullness_per_level` has a number for each level: the nodes of the level divided by the number of positions taken in some tree and by
the number of trees. -/
theorem C119_fullness {incl : Bool} {top : List Entry} (h : Counts incl fo top) (hne : fo ≠ []) :
    (fullnessPerLevel (K := ℚ) top fo.length).length = numRows top ∧
    ∀ l < numRows top, ∃ x : ℚ, (fullnessPerLevel (K := ℚ) top fo.length)[l]? = some (some x) ∧ 0 < x ∧ x ≤ 1 ∧
      x * (((Finset.range (2 ^ l)).filter (fun p => 0 < Forest.having incl fo l p)).card * fo.length) = Forest.inLevel incl fo l := by
  refine ⟨by simp [fullnessPerLevel], fun l hl => ?_⟩
  have hpos : 0 < Forest.inLevel incl fo l := by
    rw [forest_inLevel_pos]
    rcases (C119_rows h hne l).1 hl with h0 | h0
    · exact .inl ⟨h0, hne⟩
    · exact .inr h0
  have hsum := level_entries h l
  have hcard : (top.filter (fun e => e.row = l)).length = ((Finset.range (2 ^ l)).filter (fun p => 0 < Forest.having incl fo l p)).card := by
    have hnd : ((top.filter (fun e => e.row = l)).map Entry.col).Nodup := by
      have h1 := h.nodup
      refine List.Nodup.map_on ?_ (List.Nodup.filter _ (List.Nodup.of_map _ h1))
      intro a ha b hb hab
      rw [List.mem_filter, decide_eq_true_eq] at ha hb
      exact List.inj_on_of_nodup_map h1 ha.1 hb.1 (by rw [ha.2, hb.2, hab])
    rw [← List.length_map (f := Entry.col), ← List.toFinset_card_of_nodup hnd]
    congr 1
    ext p
    simp only [List.mem_toFinset, List.mem_map, List.mem_filter, decide_eq_true_eq, Finset.mem_filter, Finset.mem_range]
    constructor
    · rintro ⟨e, ⟨he, h1⟩, rfl⟩
      refine ⟨entry_col h l e he h1, ?_⟩
      obtain ⟨h2, h3⟩ := h.count e he
      rw [h1] at h2
      omega
    · rintro ⟨-, h1⟩
      obtain ⟨e, he, h2, h3⟩ := h.complete l p h1
      exact ⟨e, ⟨he, h2⟩, h3⟩
  have hn : (0 : ℚ) < fo.length := by exact_mod_cast List.length_pos_iff.2 hne
  have hne0 : (top.filter (fun e => e.row = l)).length ≠ 0 := by
    intro h0
    rw [List.length_eq_zero_iff.1 h0] at hsum
    simp at hsum
    omega
  have hl' : (0 : ℚ) < (top.filter (fun e => e.row = l)).length := by exact_mod_cast Nat.pos_of_ne_zero hne0
  refine ⟨fullness top fo.length l, ?_, ?_, ?_, ?_⟩
  · unfold fullnessPerLevel
    rw [List.getElem?_map, List.getElem?_range hl]
    simp only [Option.map_some, hne0, if_false]
  · unfold fullness
    simp only [hsum]
    have : (0 : ℚ) < Forest.inLevel incl fo l := by exact_mod_cast hpos
    positivity
  · obtain ⟨e, he⟩ := List.exists_mem_of_ne_nil _ (fun h0 => hne0 (List.length_eq_zero_iff.2 h0))
    rw [List.mem_filter, decide_eq_true_eq] at he
    obtain ⟨h2, h3⟩ := h.count e he.1
    rw [he.2] at h2
    exact (C45_fullness_partial h hne (row := l) (col := e.col) (by omega)).2.1
  · unfold fullness
    simp only [hsum, ← hcard]
    field_simp

/-- Two trees of heights 2 and 1: mean 3/2, variance 1/2, no skewness, kurtosis -2. -/
example : ∃ d, describeTreeHeight (none, none) topoEnsemble true = .ok d ∧ d.nobs = 2 ∧ d.minmax = (1, 2) ∧ d.mean = 3 / 2 ∧
    d.variance = some (1 / 2) ∧ d.skewness = some 0 ∧ d.kurtosis = some (-2) := by
  have e : describeTreeHeight (none, none) topoEnsemble true = describe (none, none) [2, 1] := by
    unfold describeTreeHeight
    rw [show topologicalAnalysis topoEnsemble true = .ok ([⟨0, 0, 2⟩, ⟨1, 0, 2⟩, ⟨1, 1, 2⟩, ⟨2, 2, 1⟩, ⟨2, 3, 1⟩], [2, 1]) by decide +kernel]
    rfl
  rw [e]
  refine ⟨_, rfl, ?_⟩
  have h2 : moment (List.map (fun n : Nat => (n : ℝ)) [2, 1]) 2 = 1 / 4 := by simp [moment, meanOf]; norm_num
  have h3 : moment (List.map (fun n : Nat => (n : ℝ)) [2, 1]) 3 = 0 := by simp [moment, meanOf]; norm_num
  have h4 : moment (List.map (fun n : Nat => (n : ℝ)) [2, 1]) 4 = 1 / 16 := by simp [moment, meanOf]; norm_num
  refine ⟨rfl, rfl, ?_, ?_, ?_, ?_⟩
  · simp [meanOf]; norm_num
  · simp [meanOf]; norm_num
  · simp only [h2, h3]; norm_num
  · simp only [h2, h4]; norm_num

/-- The tables of the two trees: 2, 4 and 2 nodes in the levels. -/
example : numRows [⟨0, 0, 2⟩, ⟨1, 0, 2⟩, ⟨1, 1, 2⟩, ⟨2, 2, 1⟩, ⟨2, 3, 1⟩] = 3 ∧
    (List.range 3).map (Forest.inLevel true topoForest) = [2, 4, 2] ∧ topoEnsemble.nNodes = 8 ∧
    fullnessPerLevel (K := ℚ) [⟨0, 0, 2⟩, ⟨1, 0, 2⟩, ⟨1, 1, 2⟩, ⟨2, 2, 1⟩, ⟨2, 3, 1⟩] 2 = [some 1, some 1, some (1 / 2)] := by
  refine ⟨by decide, by decide, rfl, by decide +kernel⟩

/-- C119: the variance of a model with one tree is not a number. -/
theorem C119_violated_single (flat : Option ℝ × Option ℝ) (h : Represents m fo) (hpf : ParentFirst m)
    (hh : ∀ p ∈ fo, p.1.height < 63) (h1 : fo.length = 1) (incl : Bool) :
    ∃ d, describeTreeHeight flat m incl = .ok d ∧ d.variance = none ∧ (d.skewness, d.kurtosis) = flat := by
  have hne : fo ≠ [] := by rintro rfl; simp at h1
  obtain ⟨d, h2, h3⟩ := C119_describe_partial flat h hne hpf hh incl
  refine ⟨d, h2, h3.single (by simpa using h1), h3.flat ?_⟩
  obtain ⟨p, rfl⟩ := List.length_eq_one_iff.1 h1
  simp

end Verif.Props
