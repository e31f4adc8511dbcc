/-
C75: the plot of the average tree shape.
-/
import Verif.Model.Plots
import Verif.Props.Topology

namespace Verif.Props
open Ensemble Spec Plots
variable {K F : Type}

theorem setRange_at (z : Nat → Nat → K) (start stop level : Nat) (v : K) (i l : Nat) :
    setRange z start stop level v i l = if start ≤ i ∧ i < stop ∧ l = level then v else z i l := rfl

theorem setLevel_at (ts : Nat → Nat → K) (cols same level : Nat) (z : Nat → Nat → K) (hs : 0 < same) (i l : Nat) : ∀ n,
    (List.range n).foldl (fun z node => if node < cols then setRange z (same * node) (same * node + same) level (ts level node) else z) z i l =
      if l = level ∧ i / same < n ∧ i / same < cols then ts level (i / same) else z i l
  | 0 => by simp
  | n + 1 => by
    rw [List.range_succ, List.foldl_append, List.foldl_cons, List.foldl_nil]
    have key : (same * n ≤ i ∧ i < same * n + same) ↔ i / same = n := by
      rw [Nat.div_eq_iff hs]
      have : same * n = n * same := Nat.mul_comm _ _
      omega
    by_cases hc : n < cols
    · rw [if_pos hc, setRange_at]
      by_cases hk : same * n ≤ i ∧ i < same * n + same ∧ l = level
      · rw [if_pos hk, if_pos ⟨hk.2.2, by rw [key.1 ⟨hk.1, hk.2.1⟩]; omega, by rw [key.1 ⟨hk.1, hk.2.1⟩]; exact hc⟩, key.1 ⟨hk.1, hk.2.1⟩]
      · rw [if_neg hk, setLevel_at ts cols same level z hs i l n]
        by_cases h1 : l = level ∧ i / same < n ∧ i / same < cols
        · rw [if_pos h1, if_pos ⟨h1.1, by omega, h1.2.2⟩]
        · rw [if_neg h1, if_neg]
          rintro ⟨h2, h3, h4⟩
          by_cases h5 : i / same = n
          · exact hk ⟨(key.2 h5).1, (key.2 h5).2, h2⟩
          · exact h1 ⟨h2, by omega, h4⟩
    · rw [if_neg hc, setLevel_at ts cols same level z hs i l n]
      by_cases h1 : l = level ∧ i / same < n ∧ i / same < cols
      · rw [if_pos h1, if_pos ⟨h1.1, by omega, h1.2.2⟩]
      · rw [if_neg h1, if_neg]
        rintro ⟨h2, h3, h4⟩
        exact h1 ⟨h2, by omega, h4⟩

theorem shapeNodes_eq (levels : Nat) : shapeNodes levels = 2 ^ max 7 levels := by
  unfold shapeNodes
  rw [show (128 : Nat) = 2 ^ 7 from rfl]
  rcases le_total 7 levels with h | h
  · rw [max_eq_right h, max_eq_right (Nat.pow_le_pow_right (by omega) h)]
  · rw [max_eq_left h, max_eq_left (Nat.pow_le_pow_right (by omega) h)]

/-- C75: the grid shows the matrix: ring `l`, angle `i` has the colour of the node whose sector contains it. -/
theorem C75_grid [Zero K] (ts : Nat → Nat → K) (rows cols maxLevel : Nat) (i l : Nat) (hl : l < min rows (maxLevel + 1))
    (hi : i < shapeNodes (shapeLevels rows maxLevel)) :
    shapeGrid ts rows cols maxLevel i l =
      (let same := shapeNodes (shapeLevels rows maxLevel) / 2 ^ l
       if i / same < cols then ts l (i / same) else 0) := by
  obtain ⟨L, hL⟩ : ∃ L, shapeLevels rows maxLevel = L := ⟨_, rfl⟩
  have hL' : min rows (maxLevel + 1) = L := hL
  unfold shapeGrid
  simp only [hL] at hi ⊢
  rw [hL'] at hl
  have hsame : ∀ level < L, shapeNodes L / 2 ^ level = 2 ^ (max 7 L - level) := by
    intro level h
    rw [shapeNodes_eq, Nat.pow_div (by omega) (by omega)]
  have hgen : ∀ n ≤ L, (List.range n).foldl (shapeLevel ts cols (shapeNodes L)) (fun _ _ => 0) i l =
      if l < n then (if i / (shapeNodes L / 2 ^ l) < cols then ts l (i / (shapeNodes L / 2 ^ l)) else 0) else 0 := by
    intro n
    induction n with
    | zero => intro _; simp
    | succ n ih =>
      intro hn
      rw [List.range_succ, List.foldl_append, List.foldl_cons, List.foldl_nil]
      have hstep := setLevel_at ts cols (shapeNodes L / 2 ^ n) n ((List.range n).foldl (shapeLevel ts cols (shapeNodes L)) (fun _ _ => 0))
        (by rw [hsame n (by omega)]; positivity) i l (2 ^ n)
      rw [ih (by omega)] at hstep
      refine hstep.trans ?_
      by_cases hln : l = n
      · subst hln
        have hlt : i / (shapeNodes L / 2 ^ l) < 2 ^ l := by
          rw [Nat.div_lt_iff_lt_mul (by rw [hsame l hl]; positivity), hsame l hl, ← pow_add, show l + (max 7 L - l) = max 7 L by omega,
            ← shapeNodes_eq]
          exact hi
        rw [if_pos (Nat.lt_succ_self _)]
        by_cases hc : i / (shapeNodes L / 2 ^ l) < cols
        · rw [if_pos ⟨rfl, hlt, hc⟩, if_pos hc]
        · rw [if_neg (fun h => hc h.2.2), if_neg (lt_irrefl _), if_neg hc]
      · rw [if_neg (fun h => hln h.1)]
        by_cases h : l < n
        · rw [if_pos h, if_pos (show l < n + 1 by omega)]
        · rw [if_neg h, if_neg (show ¬ l < n + 1 by omega)]
  rw [hgen L le_rfl, if_pos hl]

/-- C75: the sector of a node is made of the sectors of its children, the left one first. -/
theorem C75_sectors {levels l : Nat} (hl : l + 1 < levels) (i : Nat) :
    i / (shapeNodes levels / 2 ^ (l + 1)) = 2 * (i / (shapeNodes levels / 2 ^ l)) + i / (shapeNodes levels / 2 ^ (l + 1)) % 2 ∧
      (i < shapeNodes levels → i / (shapeNodes levels / 2 ^ l) < 2 ^ l) := by
  have h1 : shapeNodes levels / 2 ^ l = 2 ^ (max 7 levels - l) := by rw [shapeNodes_eq, Nat.pow_div (by omega) (by omega)]
  have h2 : shapeNodes levels / 2 ^ (l + 1) = 2 ^ (max 7 levels - (l + 1)) := by rw [shapeNodes_eq, Nat.pow_div (by omega) (by omega)]
  constructor
  · rw [h1, h2, show max 7 levels - l = (max 7 levels - (l + 1)) + 1 by omega, pow_succ, ← Nat.div_div_eq_div_mul]
    omega
  · intro hi
    rw [h1, Nat.div_lt_iff_lt_mul (by positivity), ← pow_add, show l + (max 7 levels - l) = max 7 levels by omega, ← shapeNodes_eq]
    exact hi

theorem lt_extent {l : List Nat} {x : Nat} (h : x ∈ l) : x < extent l := by
  unfold extent
  have : ∀ (l : List Nat) (a : Nat), a ≤ l.foldl max a ∧ ∀ x ∈ l, x ≤ l.foldl max a := by
    intro l
    induction l with
    | nil => simp
    | cons y l ih =>
      intro a
      obtain ⟨h1, h2⟩ := ih (max a y)
      rw [List.foldl_cons]
      refine ⟨by omega, fun x hx => ?_⟩
      rcases List.mem_cons.1 hx with rfl | hx
      · omega
      · exact h2 x hx
  have := (this (l.map (· + 1)) 0).2 (x + 1) (List.mem_map.2 ⟨x, h, rfl⟩)
  omega

/-- C75: the plot of the analysis of a forest shows in each sector of each ring the fraction of trees with a node there. -/
theorem C75_plot {fo : Forest F} {incl : Bool} {top : List Entry} (h : Counts incl fo top) (hne : fo ≠ []) (maxLevel i l : Nat)
    (hl : l < shapeLevels (extent (top.map Entry.row)) maxLevel)
    (hi : i < shapeNodes (shapeLevels (extent (top.map Entry.row)) maxLevel)) :
    plotShape (K := ℚ) top fo.length maxLevel i l =
      (Forest.having incl fo l (i / (shapeNodes (shapeLevels (extent (top.map Entry.row)) maxLevel) / 2 ^ l)) : ℚ) / fo.length := by
  unfold plotShape
  rw [C75_grid _ _ _ _ _ _ hl hi]
  simp only
  obtain ⟨p, hp⟩ : ∃ p, i / (shapeNodes (shapeLevels (extent (top.map Entry.row)) maxLevel) / 2 ^ l) = p := ⟨_, rfl⟩
  rw [hp]
  split
  · exact (C44_avg_tree_shape h hne l p).1
  · rename_i hc
    have : Forest.having incl fo l p = 0 := by
      by_contra h0
      obtain ⟨e, he, -, he2⟩ := h.complete l p (Nat.pos_of_ne_zero h0)
      exact hc (he2 ▸ lt_extent (List.mem_map.2 ⟨e, he, rfl⟩))
    rw [this]
    simp

/-- C75: rings beyond the last level with a node, or beyond `max_level`, are not drawn; all others are. -/
theorem C75_rings {fo : Forest F} {incl : Bool} {top : List Entry} (h : Counts incl fo top) (maxLevel l : Nat) :
    l < shapeLevels (extent (top.map Entry.row)) maxLevel ↔ l ≤ maxLevel ∧ ∃ l' p, l ≤ l' ∧ 0 < Forest.having incl fo l' p := by
  have hext : ∀ x, x < extent (top.map Entry.row) ↔ ∃ e ∈ top, x ≤ e.row := by
    intro x
    constructor
    · intro hx
      by_contra hcon
      push Not at hcon
      have : ∀ (l : List Entry) (a : Nat), a ≤ x → (∀ e ∈ l, e.row < x) → ((l.map Entry.row).map (· + 1)).foldl max a ≤ x := by
        intro l
        induction l with
        | nil => intro a ha _; exact ha
        | cons e l ih =>
          intro a ha hl
          exact ih _ (max_le ha (hl e (by simp))) (fun e' he' => hl e' (by simp [he']))
      have := this top 0 (Nat.zero_le _) hcon
      unfold extent at hx
      omega
    · rintro ⟨e, he, hx⟩
      exact lt_of_le_of_lt hx (lt_extent (List.mem_map.2 ⟨e, he, rfl⟩))
  unfold shapeLevels
  rw [lt_min_iff, hext, and_comm]
  refine and_congr (by omega) ⟨?_, ?_⟩
  · rintro ⟨e, he, hx⟩
    exact ⟨e.row, e.col, hx, by obtain ⟨h1, h2⟩ := h.count e he; omega⟩
  · rintro ⟨l', p, hl, hp⟩
    obtain ⟨e, he, h1, -⟩ := h.complete l' p hp
    exact ⟨e, he, by omega⟩

/-- C75: a case: half of the trees have a left child of the root with children. -/
example : (∀ i < 128, plotShape (K := ℚ) [⟨0, 0, 2⟩, ⟨1, 0, 2⟩, ⟨1, 1, 2⟩, ⟨2, 0, 1⟩, ⟨2, 1, 1⟩] 2 10 i 2 = if i < 64 then 1 / 2 else 0) ∧
    (∀ i < 128, plotShape (K := ℚ) [⟨0, 0, 2⟩, ⟨1, 0, 2⟩, ⟨1, 1, 2⟩, ⟨2, 0, 1⟩, ⟨2, 1, 1⟩] 2 10 i 1 = 1) ∧
    Counts true ([(.node 0 1 (.node 0 1 (.leaf 1) (.leaf 2)) (.leaf 3), 1), (.node 0 1 (.leaf 1) (.leaf 2), 1)] : Forest Nat)
      [⟨0, 0, 2⟩, ⟨1, 0, 2⟩, ⟨1, 1, 2⟩, ⟨2, 0, 1⟩, ⟨2, 1, 1⟩] := by
  refine ⟨by decide +kernel, by decide +kernel, ⟨by decide, by decide, ?_⟩⟩
  intro row col h
  match row, h with
  | 0, h =>
    match col, h with
    | 0, _ => exact ⟨⟨0, 0, 2⟩, by simp, rfl, rfl⟩
    | c + 1, h => simp [Forest.having, Tree.hasNode, Tree.nodeAt] at h
  | 1, h =>
    match col, h with
    | 0, _ => exact ⟨⟨1, 0, 2⟩, by simp, rfl, rfl⟩
    | 1, _ => exact ⟨⟨1, 1, 2⟩, by simp, rfl, rfl⟩
    | c + 2, h => simp [Forest.having, Tree.hasNode, Tree.nodeAt] at h
  | 2, h =>
    match col, h with
    | 0, _ => exact ⟨⟨2, 0, 1⟩, by simp, rfl, rfl⟩
    | 1, _ => exact ⟨⟨2, 1, 1⟩, by simp, rfl, rfl⟩
    | c + 2, h =>
      exfalso
      simp only [Forest.having] at h
      rw [if_neg (by omega)] at h
      simp [Tree.hasNode, Tree.nodeAt, List.countP_cons] at h
  | r + 3, h =>
    exfalso
    simp only [Forest.having] at h
    rw [if_neg (by omega)] at h
    simp [Tree.hasNode, Tree.nodeAt, List.countP_cons] at h

end Verif.Props
