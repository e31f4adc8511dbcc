/-
Models and data with other numbers: the trees, the lines of a file, and the rows.
-/
import Verif.Lemmas.SingleOrder
import Verif.Spec.LightgbmText

namespace Verif.Decimal
open Spec Svm Ensemble
variable {F G : Type}

/-! ### Trees -/

theorem value_map (g g' : F → G) {le : F → F → Bool} {le' : G → G → Bool} {row : List F} : ∀ t : Spec.Tree F,
    (∀ p ∈ t.tests, ∀ x, row[p.1]? = some x → le' (g' x) (g p.2) = le x p.2) →
    (t.map g).value (goesLeft le' (row.map g')) = g (t.value (goesLeft le row))
  | .leaf _, _ => rfl
  | .node f t l r, h => by
    have hl := value_map g g' l (fun p hp => h p (List.mem_cons_of_mem _ (List.mem_append_left _ hp)))
    have hr := value_map g g' r (fun p hp => h p (List.mem_cons_of_mem _ (List.mem_append_right _ hp)))
    have hg : goesLeft le' (row.map g') f (g t) = goesLeft le row f t := by
      unfold goesLeft
      rw [List.getElem?_map]
      have := h (f, t) List.mem_cons_self
      cases hx : row[f]? with
      | none => rfl
      | some x => exact this x hx
    simp only [Spec.Tree.map, Spec.Tree.value, hg, hl, hr]
    split <;> rfl

theorem features_map (g : F → G) : ∀ t : Spec.Tree F, (t.map g).features = t.features
  | .leaf _ => rfl
  | .node f t l r => by simp [Spec.Tree.map, Spec.Tree.features, features_map g l, features_map g r]

/-! ### LightGBM -/

def lineMap (g : F → G) : LgbLine F → LgbLine G
  | .tree i => .tree i
  | .numLeaves n => .numLeaves n
  | .splitFeature fs => .splitFeature fs
  | .threshold ts => .threshold (ts.map g)
  | .leftChild cs => .leftChild cs
  | .rightChild cs => .rightChild cs
  | .shrinkage => .shrinkage
  | .leafValue vs => .leafValue (vs.map g)
  | .decisionType types => .decisionType types
  | .defaultValue b => .defaultValue b
  | .hasCategorical b => .hasCategorical b
  | .other => .other

theorem keyLine_map {key line : List Char} {P : List Char → F → Prop} {Q : List Char → G → Prop} (g : F → G) (h : ∀ w v, P w v → Q w (g v))
    {xs : List F} (hk : KeyLine key P line xs) : KeyLine key Q line (xs.map g) := by
  obtain ⟨ws, body, e, h1, h2, h3, h4, h5⟩ := hk
  refine ⟨ws, body, e, h1, h2, h3, h4, ?_⟩
  rw [List.forall₂_map_right_iff]
  exact h5.imp (fun w v => h w v)

theorem spellsLgb_map {isZero : F → Bool} {isZero' : G → Bool} {float : List Char → Option F} {float' : List Char → Option G} (g : F → G)
    (hf : ∀ w v, float w = some v → float' w = some (g v)) (hz : ∀ v, isZero' (g v) = isZero v) {line : List Char} {d : LgbLine F}
    (h : SpellsLgb isZero float line d) : SpellsLgb isZero' float' line (lineMap g d) := by
  have hn : ∀ w v, NumText float w v → NumText float' w (g v) := fun w v h => ⟨hf w v h.1, h.2⟩
  cases d with
  | threshold ts => exact keyLine_map g hn h
  | leafValue vs => exact keyLine_map g hn h
  | defaultValue b =>
    obtain ⟨vs, h1, h2⟩ := h
    refine ⟨vs.map g, keyLine_map g hn h1, ?_⟩
    rw [h2, List.any_map]
    congr 1
    funext v
    simp [hz]
  | _ => exact h

theorem relevant_map (g : F → G) (d : LgbLine F) : lgbRelevant (lineMap g d) = lgbRelevant d := by cases d <;> rfl

def arrMap (g : F → G) (a : ArrTree F) : ArrTree G := ⟨a.features, a.thresholds.map g, a.left, a.right, a.leaves.map g⟩

theorem lgbForest_map (g : F → G) : ∀ (k : Nat) (as : List (ArrTree F)), (lgbForest k as).map (lineMap g) = lgbForest k (as.map (arrMap g))
  | _, [] => rfl
  | k, a :: as => by simp [lgbForest, ArrTree.lgbLines, lineMap, arrMap, lgbForest_map g (k + 1) as]

theorem holds_map (g : F → G) {a : ArrTree F} {c : Int} {t : Spec.Tree F} {s : List Nat} (h : a.Holds c t s) : (arrMap g a).Holds c (t.map g) s := by
  induction h with
  | leaf hv => exact .leaf (a := arrMap g a) (by simp [arrMap, hv])
  | node hf ht hl hr _ _ ihl ihr => exact .node (a := arrMap g a) hf (by simp [arrMap, ht]) hl hr ihl ihr

theorem is_map (g : F → G) {a : ArrTree F} {t : Spec.Tree F} (h : a.Is t) : (arrMap g a).Is (t.map g) := by
  obtain ⟨h1, h2, h3, s, h4, h5⟩ := h
  refine ⟨by simpa [arrMap] using h1, h2, h3, s, holds_map g h4, ?_⟩
  simpa [arrMap] using h5

theorem forall₂_both {α β γ δ : Type} {R : α → β → Prop} {S : γ → δ → Prop} (f : α → γ) (g : β → δ) (h : ∀ a b, R a b → S (f a) (g b)) {l : List α}
    {l' : List β} (hl : List.Forall₂ R l l') : List.Forall₂ S (l.map f) (l'.map g) := by
  rw [List.forall₂_map_left_iff, List.forall₂_map_right_iff]
  exact hl.imp h

/-! ### Data -/

/-- A row after rounding. -/
def roundRow (r : SvmRow Signed) : SvmRow Single := ⟨single r.label.1 r.label.2, r.qid, r.feats.map (fun p => (p.1, narrow p.2))⟩

theorem exactPair_text {w : List Char} {p : Nat × Signed} (h : ExactPair w p) : PairText singleScan w (p.1, narrow p.2) := by
  obtain ⟨a, b, h1, h2, h3, h4⟩ := h
  exact ⟨a, b, h1, h2, h3, decimalText_word h4, readValue_decimal h4⟩

theorem exactPairs_text {ws : List (List Char)} {ps : List (Nat × Signed)} (h : List.Forall₂ ExactPair ws ps) :
    List.Forall₂ (PairText singleScan) ws (ps.map (fun p => (p.1, narrow p.2))) := by
  rw [List.forall₂_map_right_iff]
  exact h.imp (fun _ _ => exactPair_text)

/-- The label is finite. -/
def FiniteLabel (x : Signed) : Prop := x.2 < 2 ^ 128 - 2 ^ 103

theorem exactRow_spells {line : List Char} {r : SvmRow Signed} (h : ExactRow line r) (hl : FiniteLabel r.label) : SpellsRow singleScan line (roundRow r) := by
  obtain ⟨sp, lab, body, tail, ws, h1, h2, h3, h4, h5, h6, h7⟩ := h
  obtain ⟨m, hm, -⟩ := (single_spec r.label.1 (decimalText_nonneg h3)).1 hl
  have hlab : LabelText singleScan lab (roundRow r).label := by
    refine ⟨decimalText_word h3, fun rest hr => ?_⟩
    obtain ⟨e1, e2, -⟩ := decimal_scan h3 (ends_of_space hr)
    show readLabel _ = some (single r.label.1 r.label.2, rest)
    unfold readLabel
    rw [e2]
    simp only [e1, hm]
  refine ⟨sp, lab, body, tail, ws, h1, h2, hlab, h4, h5, h6, ?_⟩
  rcases h7 with ⟨hq, h7⟩ | ⟨q, w, ws', hq, h8, h9, h10⟩
  · show match r.qid with | none => _ | some q => _
    rw [hq]
    exact exactPairs_text h7
  · show match r.qid with | none => _ | some q => _
    rw [hq]
    exact ⟨w, ws', h8, h9, exactPairs_text h10⟩

theorem exactRows_spell {lines : List (List Char)} {rows : List (SvmRow Signed)} (h : ExactRows lines rows) (hl : ∀ r ∈ rows, FiniteLabel r.label) :
    SpellsRows singleScan lines (rows.map roundRow) := by
  induction h with
  | nil => exact .nil
  | comment hc _ ih => exact .comment hc (ih hl)
  | row hr _ ih => exact .row (exactRow_spells hr (hl _ List.mem_cons_self)) (ih (fun r hr => hl r (List.mem_cons_of_mem _ hr)))

theorem exactRows_nonneg {lines : List (List Char)} {rows : List (SvmRow Signed)} (h : ExactRows lines rows) : ∀ r ∈ rows, ∀ p ∈ r.feats, 0 ≤ p.2.2 := by
  have hp : ∀ {ws : List (List Char)} {ps : List (Nat × Signed)}, List.Forall₂ ExactPair ws ps → ∀ p ∈ ps, 0 ≤ p.2.2 := by
    intro ws ps h
    induction h with
    | nil => intro p hp; cases hp
    | cons h1 _ ih =>
      intro p hp
      rcases List.mem_cons.1 hp with rfl | hp
      · obtain ⟨_, _, _, _, _, h4⟩ := h1
        exact decimalText_nonneg h4
      · exact ih p hp
  induction h with
  | nil => intro r hr; cases hr
  | comment _ _ ih => exact ih
  | row hl _ ih =>
    intro r hr
    rcases List.mem_cons.1 hr with rfl | hr
    · obtain ⟨_, _, _, _, _, _, _, _, _, _, _, h7⟩ := hl
      rcases h7 with ⟨_, h7⟩ | ⟨_, _, _, _, _, _, h10⟩
      · exact hp h7
      · exact hp h10
    · exact ih r hr

theorem at_round (r : SvmRow Signed) (i : Nat) : (roundRow r).at (.num false 0) i = narrow (r.at (false, 0) i) := by
  unfold SvmRow.at roundRow
  simp only [List.find?_map]
  have he : (fun p : Nat × Single => decide (p.1 = i)) ∘ (fun p : Nat × Signed => (p.1, narrow p.2)) = fun p => decide (p.1 = i) := rfl
  rw [he]
  cases r.feats.find? (fun p => decide (p.1 = i)) with
  | none => decide +kernel
  | some p => rfl

theorem at_mem {r : SvmRow Signed} {i : Nat} : r.at (false, 0) i = (false, 0) ∨ ∃ p ∈ r.feats, r.at (false, 0) i = p.2 := by
  unfold SvmRow.at
  cases h : r.feats.find? (fun p => decide (p.1 = i)) with
  | none => exact .inl rfl
  | some p => exact .inr ⟨p, List.mem_of_find?_eq_some h, rfl⟩

theorem width_round (rows : List (SvmRow Signed)) : svmWidth (rows.map roundRow) = svmWidth rows := by
  unfold svmWidth
  congr 1
  rw [List.flatMap_map]
  congr 1
  funext r
  simp [roundRow]

theorem ordered_round {r : SvmRow Signed} (h : r.Ordered) : (roundRow r).Ordered := by
  refine ⟨?_, ?_⟩
  · intro p hp
    obtain ⟨p', hp', rfl⟩ := List.mem_map.1 hp
    exact h.1 p' hp'
  · have : (roundRow r).feats.map (·.1) = r.feats.map (·.1) := by simp [roundRow]
    rw [this]
    exact h.2

theorem fixInf_narrow {x : Signed} (h0 : 0 ≤ x.2) (h : x.2 ≤ 2 ^ 128 - 2 ^ 104) : fixInf (narrow x) = narrow x := by
  obtain ⟨m, hm⟩ := mag_finite h0 h
  rw [narrow_eq, hm]
  rfl

theorem dense_round {r : SvmRow Signed} (h0 : ∀ p ∈ r.feats, 0 ≤ p.2.2) (h : ∀ p ∈ r.feats, p.2.2 ≤ 2 ^ 128 - 2 ^ 104) (n : Nat) :
    ((roundRow r).dense (.num false 0) n).map fixInf = (r.dense (false, 0) n).map narrow := by
  unfold SvmRow.dense
  rw [List.map_map, List.map_map]
  apply List.map_congr_left
  intro j _
  show fixInf ((roundRow r).at _ _) = _
  rw [at_round]
  rcases at_mem (r := r) (i := j + 1) with h1 | ⟨p, hp, h1⟩
  · simp only [Function.comp_apply, h1]
    decide +kernel
  · simp only [Function.comp_apply, h1]
    exact fixInf_narrow (h0 p hp) (h p hp)

end Verif.Decimal
