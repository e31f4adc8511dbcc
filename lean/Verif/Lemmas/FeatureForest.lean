/-
Feature importance over all trees.
-/
import Verif.Lemmas.FeatureTree
import Verif.Lemmas.QuickRank

namespace Verif
open Ensemble Spec
variable {K : Type} [Field K] [LinearOrder K] [IsStrictOrderedRing K]

/-- The totals given by functions of documents and features. -/
def fiTotal (nf n : Nat) (pp g : Nat → K) (c : Nat → Nat) : FiTotal K :=
  ⟨(List.range n).map pp, (List.range nf).map g, (List.range nf).map (fun i => c i % 2 ^ 16)⟩

theorem map_const_range {α : Type} (n : Nat) (a : α) : (List.range n).map (fun _ => a) = List.replicate n a := by
  apply List.ext_getElem?
  intro i
  simp [List.getElem?_replicate, List.getElem?_range]

theorem zipWith_range {α β γ : Type} (f : α → β → γ) (n : Nat) (g : Nat → α) (h : Nat → β) :
    List.zipWith f ((List.range n).map g) ((List.range n).map h) = (List.range n).map (fun i => f (g i) (h i)) := by
  rw [List.zipWith_map]
  simp

theorem fiTree_spec {m : Ensemble K} {fo : Forest K} (hr : Represents m fo) {X : List K} {nf n : Nat} {left : Nat → K → Nat → Bool}
    (hdocs : Docs X nf n left) (hn : 0 < n) (hsmall : m.nNodes < 2 ^ 31) {k : Nat} {t : Spec.Tree K} {w : K} (hk : fo[k]? = some (t, w))
    (hin : t.isInner = true) (hfeat : ∀ f ∈ t.features, f < nf) (hsafe : NoEmptyLeft left t (List.range n) 0) (yf pp g : Nat → K) (c : Nat → Nat) :
    ∃ pp', fiTree m X nf n ((List.range n).map yf) (fiTotal nf n pp g c) k =
        .ok (fiTotal nf n pp' (addImps n g (gains left (fun d => yf d - pp d) t (List.range n)))
          (addCounts c (visitedFeatures left t (List.range n)))) ∧
      ∀ d < n, pp' d = pp d + fitted left (fun d => yf d - pp d) t (List.range n) d * w := by
  obtain ⟨s, hs, hperm⟩ := hr.trees k t w hk
  have hnn := hr.numNodes_le hk
  have hlen := hr.left_len
  obtain ⟨M', pf', k', hM', hk', e, hfit, -⟩ := node_done hdocs (by omega) (fun d => yf d - pp d) hs hfeat [] (List.range n) []
    (fun _ => mean (fun d => yf d - pp d) (List.range n)) g c hin (by simp) (by simp) List.nodup_range (by simp; omega) (by simpa using hsafe)
    (fun _ _ => rfl)
  refine ⟨fun d => pp d + pf' d * w, ?_, fun d hd => by simp only; rw [hfit d (by simpa using hd)]⟩
  unfold fiTree fiTotal
  simp only
  rw [zipWith_range, rd_ok (hr.root_get hk), exOkBind]
  have htn : treeStart fo k < 2 ^ 32 := by
    have := Spec.Tree.numNodes_pos t
    omega
  have hst : (⟨List.range n, List.replicate n (((List.range n).map (fun d => yf d - pp d)).sum / n), (List.range nf).map g,
      (List.range nf).map (fun i => c i % 2 ^ 16)⟩ : FiState K) = fiState nf n ([] ++ (List.range n ++ [])) (fun _ => mean (fun d => yf d - pp d) (List.range n)) g c := by
    unfold fiState mean
    rw [map_const_range]
    simp
  have hu : u32 ((n : Int) - 1) = ([] : List Nat).length + (List.range n).length - 1 := by
    have := hdocs.nSmall
    rw [u32_eq (by omega) (by omega)]
    simp
  have he := e (m.left.length + 1 - k') []
  rw [Nat.sub_add_cancel (by omega)] at he
  rw [hst, u32_nat htn, hu]
  rw [show (0 : Nat) = ([] : List Nat).length from rfl, he, fiLoop, exPure, exOkBind, rd_ok (hr.weight_get hk), exOkBind, exPure]
  unfold fiState
  simp only
  rw [zipWith_range]

theorem mean_congr {a b : Nat → K} {D : List Nat} (h : ∀ d ∈ D, a d = b d) : mean a D = mean b D := by
  unfold mean
  rw [List.map_congr_left h]

theorem sse_congr {a b : Nat → K} {D : List Nat} (h : ∀ d ∈ D, a d = b d) : sse a D = sse b D := by
  unfold sse
  rw [mean_congr h, List.map_congr_left (fun d hd => by rw [h d hd])]

theorem gains_congr {left : Nat → K → Nat → Bool} {a b : Nat → K} (t : Spec.Tree K) : ∀ {D : List Nat}, (∀ d ∈ D, a d = b d) →
    gains left a t D = gains left b t D := by
  induction t with
  | leaf v => intros; rfl
  | node f th l r ihl ihr =>
    intro D h
    have hl : ∀ d ∈ goLeft left f th D, a d = b d := fun d hd => h d (List.mem_filter.1 hd).1
    have hr : ∀ d ∈ goRight left f th D, a d = b d := fun d hd => h d (List.mem_filter.1 hd).1
    rw [gains, gains, sse_congr h, sse_congr hl, sse_congr hr, ihl hl, ihr hr]

theorem fitted_congr {left : Nat → K → Nat → Bool} {a b : Nat → K} (t : Spec.Tree K) (d : Nat) : ∀ {D : List Nat}, (∀ d ∈ D, a d = b d) →
    fitted left a t D d = fitted left b t D d := by
  induction t with
  | leaf v => intro D h; exact mean_congr h
  | node f th l r ihl ihr =>
    intro D h
    have hl : ∀ d ∈ goLeft left f th D, a d = b d := fun d hd => h d (List.mem_filter.1 hd).1
    have hr : ∀ d ∈ goRight left f th D, a d = b d := fun d hd => h d (List.mem_filter.1 hd).1
    rw [fitted, fitted, ihl hl, ihr hr]

theorem forestGains_congr {left : Nat → K → Nat → Bool} {D : List Nat} : ∀ (fo : Forest K) {a b : Nat → K}, (∀ d ∈ D, a d = b d) →
    forestGains left D fo a = forestGains left D fo b := by
  intro fo
  induction fo with
  | nil => intros; rfl
  | cons p fo ih =>
    intro a b h
    obtain ⟨t, w⟩ := p
    rw [forestGains, forestGains, gains_congr t h, ih (fun d hd => by rw [h d hd, fitted_congr t d h])]

theorem fiForest_spec {m : Ensemble K} {fo : Forest K} (hr : Represents m fo) {X : List K} {nf n : Nat} {left : Nat → K → Nat → Bool}
    (hdocs : Docs X nf n left) (hn : 0 < n) (hsmall : m.nNodes < 2 ^ 31)
    (hok : ∀ p ∈ fo, p.1.isInner = true ∧ (∀ f ∈ p.1.features, f < nf) ∧ NoEmptyLeft left p.1 (List.range n) 0) (yf : Nat → K) :
    ∀ (rest pre : Forest K) (pp g : Nat → K) (c : Nat → Nat), fo = pre ++ rest →
    ∃ pp', (List.range' pre.length rest.length).foldlM (fiTree m X nf n ((List.range n).map yf)) (fiTotal nf n pp g c) =
        .ok (fiTotal nf n pp' (addImps n g (forestGains left (List.range n) rest (fun d => yf d - pp d)))
          (addCounts c (forestVisited left (List.range n) rest))) := by
  intro rest
  induction rest with
  | nil =>
    intro pre pp g c _
    refine ⟨pp, ?_⟩
    rw [forestGains, addImps_zero n g (by simp)]
    simp [forestVisited, addCounts_nil, exPure]
  | cons p rest ih =>
    intro pre pp g c hfo
    obtain ⟨t, w⟩ := p
    have hk : fo[pre.length]? = some (t, w) := by rw [hfo]; simp
    obtain ⟨h1, h2, h3⟩ := hok (t, w) (List.mem_of_getElem? hk)
    obtain ⟨pp1, e1, hpp⟩ := fiTree_spec hr hdocs hn hsmall hk h1 h2 h3 yf pp g c
    obtain ⟨pp2, e2⟩ := ih (pre ++ [(t, w)]) pp1 (addImps n g (gains left (fun d => yf d - pp d) t (List.range n)))
      (addCounts c (visitedFeatures left t (List.range n))) (by rw [hfo]; simp)
    refine ⟨pp2, ?_⟩
    rw [List.length_cons, List.range'_succ, foldlM_ok_cons e1]
    rw [List.length_append, List.length_singleton] at e2
    rw [e2, addImps_append, addCounts_append, forestGains]
    rw [forestGains_congr rest (b := fun d => yf d - pp d - fitted left (fun d => yf d - pp d) t (List.range n) d * w)
      (fun d hd => by rw [hpp d (by simpa using hd)]; ring)]
    rfl

/-- The loop over all trees. -/
theorem featureImportance_spec {m : Ensemble K} {fo : Forest K} (hr : Represents m fo) {X : List K} {nf n : Nat} {left : Nat → K → Nat → Bool}
    (hdocs : Docs X nf n left) (hn : 0 < n) (hsmall : m.nNodes < 2 ^ 31)
    (hok : ∀ p ∈ fo, p.1.isInner = true ∧ (∀ f ∈ p.1.features, f < nf) ∧ NoEmptyLeft left p.1 (List.range n) 0) (yf : Nat → K) :
    featureImportance m X nf n ((List.range n).map yf) =
      .ok ((List.range nf).map (importance (forestGains left (List.range n) fo yf) n),
        (List.range nf).map (fun f => (forestVisited left (List.range n) fo).count f % 2 ^ 16)) := by
  obtain ⟨pp, e⟩ := fiForest_spec hr hdocs hn hsmall hok yf fo [] (fun _ => 0) (fun _ => 0) (fun _ => 0) rfl
  unfold featureImportance
  rw [List.length_nil, ← List.range_eq_range'] at e
  have h0 : (⟨List.replicate n 0, List.replicate nf 0, List.replicate nf 0⟩ : FiTotal K) = fiTotal nf n (fun _ => 0) (fun _ => 0) (fun _ => 0) := by
    unfold fiTotal
    simp only [Nat.zero_mod]
    rw [map_const_range, map_const_range, map_const_range]
  rw [hr.nTrees, h0, e, exOkBind, exPure]
  unfold fiTotal addImps addCounts
  simp only [zero_add, sub_zero]

theorem flatten_get {α : Type} {nf : Nat} : ∀ (rows : List (List α)), (∀ r ∈ rows, r.length = nf) → ∀ (d f : Nat), d < rows.length → f < nf →
    rows.flatten[d * nf + f]? = (rows[d]?).bind (·[f]?) := by
  intro rows
  induction rows with
  | nil => intro _ d f hd; simp at hd
  | cons r rows ih =>
    intro h d f hd hf
    have hr := h r (by simp)
    rw [List.flatten_cons]
    cases d with
    | zero => rw [List.getElem?_append_left (by omega)]; simp
    | succ d =>
      rw [List.getElem?_append_right (by rw [hr, Nat.succ_mul]; omega), hr, show (d + 1) * nf + f - nf = d * nf + f by rw [Nat.succ_mul]; omega,
        ih (fun r' hr' => h r' (by simp [hr'])) d f (by simpa using hd) hf]
      simp

theorem docs_of_rows {rows : List (List K)} {nf : Nat} (h : ∀ r ∈ rows, r.length = nf) (h1 : rows.length * nf < 2 ^ 32)
    (h2 : rows.length < 2 ^ 31) : Docs rows.flatten nf rows.length (leftOf rows) := by
  refine ⟨h1, h2, ?_⟩
  intro d f t hd hf
  have hrow : rows[d]? = some rows[d] := List.getElem?_eq_getElem hd
  have hl := h rows[d] (List.getElem_mem hd)
  have hx : rows[d][f]? = some (rows[d][f]'(by omega)) := List.getElem?_eq_getElem _
  refine ⟨rows[d][f]'(by omega), ?_, ?_⟩
  · rw [flatten_get rows h d f hd hf, hrow, Option.bind_some, hx]
  · unfold leftOf
    rw [hrow, Option.bind_some, hx]
    simp

theorem fitted_left {left : Nat → K → Nat → Bool} {y : Nat → K} {f : Nat} {th : K} {l r : Spec.Tree K} {D : List Nat} {d : Nat}
    (h : d ∈ goLeft left f th D) : fitted left y (.node f th l r) D d = fitted left y l (goLeft left f th D) d := by
  rw [fitted, if_pos (List.mem_filter.1 h).2]

theorem fitted_right {left : Nat → K → Nat → Bool} {y : Nat → K} {f : Nat} {th : K} {l r : Spec.Tree K} {D : List Nat} {d : Nat}
    (h : d ∈ goRight left f th D) : fitted left y (.node f th l r) D d = fitted left y r (goRight left f th D) d := by
  have := (List.mem_filter.1 h).2
  rw [fitted, if_neg (by simpa using this)]

theorem gains_sum {left : Nat → K → Nat → Bool} {y : Nat → K} (t : Spec.Tree K) : ∀ (D : List Nat),
    ((gains left y t D).map (·.2)).sum = sse y D - (D.map (fun d => (y d - fitted left y t D d) ^ 2)).sum := by
  induction t with
  | leaf v => intro D; simp [gains, fitted, sse]
  | node f th l r ihl ihr =>
    intro D
    have e1 : (goLeft left f th D).map (fun d => (y d - fitted left y (.node f th l r) D d) ^ 2) =
        (goLeft left f th D).map (fun d => (y d - fitted left y l (goLeft left f th D) d) ^ 2) :=
      List.map_congr_left (fun d hd => by rw [fitted_left hd])
    have e2 : (goRight left f th D).map (fun d => (y d - fitted left y (.node f th l r) D d) ^ 2) =
        (goRight left f th D).map (fun d => (y d - fitted left y r (goRight left f th D) d) ^ 2) :=
      List.map_congr_left (fun d hd => by rw [fitted_right hd])
    rw [gains, List.map_cons, List.map_append, List.sum_cons, List.sum_append, ihl, ihr,
      ← ((split_perm (left := left) f th D).map (fun d => (y d - fitted left y (.node f th l r) D d) ^ 2)).sum_eq,
      List.map_append, List.sum_append, e1, e2]
    ring

theorem forestGains_sum {left : Nat → K → Nat → Bool} {D : List Nat} : ∀ (fo : Forest K) (y : Nat → K),
    ((forestGains left D fo y).map (·.2)).sum = forestReduction left D fo y := by
  intro fo
  induction fo with
  | nil => intro y; rfl
  | cons p fo ih =>
    intro y
    obtain ⟨t, w⟩ := p
    rw [forestGains, forestReduction, List.map_append, List.sum_append, gains_sum, ih]

theorem forestGains_nonneg {left : Nat → K → Nat → Bool} {D : List Nat} : ∀ (fo : Forest K) (y : Nat → K),
    ∀ g ∈ forestGains left D fo y, 0 ≤ g.2 := by
  intro fo
  induction fo with
  | nil => intro y g hg; simp [forestGains] at hg
  | cons p fo ih =>
    intro y g hg
    obtain ⟨t, w⟩ := p
    rw [forestGains, List.mem_append] at hg
    rcases hg with hg | hg
    · exact gains_nonneg t D g hg
    · exact ih _ g hg

theorem gains_features {left : Nat → K → Nat → Bool} {y : Nat → K} (t : Spec.Tree K) : ∀ (D : List Nat), ∀ g ∈ gains left y t D, g.1 ∈ t.features := by
  induction t with
  | leaf v => intro D g hg; simp [gains] at hg
  | node f th l r ihl ihr =>
    intro D g hg
    rw [gains, List.mem_cons, List.mem_append] at hg
    rw [Spec.Tree.features]
    rcases hg with rfl | hg | hg
    · simp
    · simp [ihl _ g hg]
    · simp [ihr _ g hg]

theorem forestGains_features {left : Nat → K → Nat → Bool} {D : List Nat} {nf : Nat} : ∀ (fo : Forest K) (y : Nat → K),
    (∀ p ∈ fo, ∀ f ∈ p.1.features, f < nf) → ∀ g ∈ forestGains left D fo y, g.1 < nf := by
  intro fo
  induction fo with
  | nil => intro y _ g hg; simp [forestGains] at hg
  | cons p fo ih =>
    intro y h g hg
    obtain ⟨t, w⟩ := p
    rw [forestGains, List.mem_append] at hg
    rcases hg with hg | hg
    · exact h (t, w) (by simp) _ (gains_features t D g hg)
    · exact ih _ (fun p hp => h p (by simp [hp])) g hg

theorem sum_importance {nf n : Nat} : ∀ (gs : List (Nat × K)), (∀ g ∈ gs, g.1 < nf) →
    ((List.range nf).map (importance gs n)).sum = (gs.map (·.2)).sum / n := by
  intro gs
  induction gs with
  | nil =>
    intro _
    rw [List.sum_eq_zero]
    · simp
    · intro x hx
      obtain ⟨f, _, rfl⟩ := List.mem_map.1 hx
      simp [importance]
  | cons g gs ih =>
    intro h
    obtain ⟨f0, v⟩ := g
    have hf0 : f0 < nf := h (f0, v) (by simp)
    have e : (List.range nf).map (importance ((f0, v) :: gs) n) =
        (List.range nf).map (fun f => (if f = f0 then v / n else 0) + importance gs n f) :=
      List.map_congr_left (fun f _ => importance_cons f0 v gs n f)
    rw [e, List.sum_map_add, ih (fun g hg => h g (by simp [hg])), List.map_cons, List.sum_cons, add_div]
    congr 1
    have : ∀ k, f0 < k → ((List.range k).map (fun f => if f = f0 then v / (n : K) else 0)).sum = v / n := by
      intro k hk
      induction k with
      | zero => omega
      | succ k ihk =>
        rw [List.range_succ, List.map_append, List.sum_append]
        by_cases hkf : f0 < k
        · rw [ihk hkf]
          simp [show k ≠ f0 by omega]
        · have hkf' : k = f0 := by omega
          have h0 : ((List.range k).map (fun f => if f = f0 then v / (n : K) else 0)).sum = 0 := by
            apply List.sum_eq_zero
            intro x hx
            obtain ⟨f, hf, rfl⟩ := List.mem_map.1 hx
            rw [if_neg (by have := List.mem_range.1 hf; omega)]
          rw [h0, hkf']
          simp
    exact this nf hf0

theorem importance_nonneg {gs : List (Nat × K)} (h : ∀ g ∈ gs, 0 ≤ g.2) (n f : Nat) : 0 ≤ importance gs n f := by
  unfold importance
  apply div_nonneg _ (Nat.cast_nonneg n)
  apply List.sum_nonneg
  intro x hx
  obtain ⟨g, hg, rfl⟩ := List.mem_map.1 hx
  exact h g (List.mem_filter.1 hg).1

end Verif
