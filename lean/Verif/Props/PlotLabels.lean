/-
C114: what is drawn under which name in the plots of the effectiveness analyses.
-/
import Verif.Spec.PlotLabels
import Verif.Props.PlotEffectiveness
import Mathlib.Tactic.IntervalCases

namespace Verif.Props
open Plots

section
variable {D M F V X : Type}

theorem okB {A B : Type} {x : A} {f : A → Except PyErr B} : (Except.ok x >>= f) = f x := rfl

theorem positions_from {L : Type} (same : L → L → Bool) (l : L) : ∀ (labels : List L) (n i : Nat),
    (∀ (j : Nat) x, labels[j]? = some x → (same x l = true ↔ j = i)) → i < labels.length →
    (labels.zipIdx n).filterMap (fun p => if same p.1 l then some p.2 else none) = [n + i]
  | [], _, i, _, hi => by simp at hi
  | x :: labels, n, 0, h, _ => by
    have h0 : same x l = true := (h 0 x rfl).2 rfl
    have hr : (labels.zipIdx (n + 1)).filterMap (fun p => if same p.1 l then some p.2 else none) = [] := by
      rw [List.filterMap_eq_nil_iff]
      rintro ⟨y, k⟩ hy
      obtain ⟨hk1, hk2, hy'⟩ := List.mem_zipIdx hy
      have hget : labels[k - (n + 1)]? = some y := by
        rw [List.getElem?_eq_getElem (by omega), hy']
      have := (h (k - (n + 1) + 1) y (by simpa using hget))
      have hf : same y l = false := by
        cases hs : same y l with
        | false => rfl
        | true => have := this.1 hs; omega
      simp [hf]
    simp [List.zipIdx_cons, h0, hr]
  | x :: labels, n, i + 1, h, hi => by
    have h0 : same x l = false := by
      cases hs : same x l with
      | false => rfl
      | true => have := (h 0 x rfl).1 hs; omega
    have := positions_from same l labels (n + 1) i (fun j y hy => by
      have := h (j + 1) y (by simpa using hy)
      rw [this]; omega) (by simpa using hi)
    simp [List.zipIdx_cons, h0, this]
    omega

theorem positions_eq {L : Type} {same : L → L → Bool} {labels : List L} (h : Spec.Distinct same labels) {i : Nat} {l : L}
    (hl : labels[i]? = some l) : positions same labels l = [i] := by
  unfold positions
  have := positions_from same l labels 0 i (fun j x hx => h j i x l hx hl) (by
    by_contra hc
    rw [List.getElem?_eq_none (by omega)] at hl; cases hl)
  simpa using this

theorem lt_of_get {A : Type} {l : List A} {i : Nat} {x : A} (h : l[i]? = some x) : i < l.length := by
  by_contra hc
  rw [List.getElem?_eq_none (by omega)] at h; cases h

variable {s : Same D M F} {p : Perf D M F V} {v : Nat → Nat → Nat → V}

theorem sel_eq (hd : Spec.AllDistinct s p) (hv : Spec.Holds p v) {i j k : Nat} {d : D} {m : M} {f : F} (h1 : p.datasets[i]? = some d)
    (h2 : p.models[j]? = some m) (h3 : p.metrics[k]? = some f) : sel s p d m f = .ok (.one (v i j k)) := by
  have hc : cell p.data i j k = .ok (v i j k) := by
    unfold cell
    rw [hv i j k (lt_of_get h1) (lt_of_get h2) (lt_of_get h3)]
  unfold sel
  rw [positions_eq hd.datasets h1, positions_eq hd.models h2, positions_eq hd.metrics h3]
  simp only [List.mapM_cons, List.mapM_nil, hc, okB]
  rfl

theorem positions_nil {L : Type} {same : L → L → Bool} {labels : List L} {l : L} (h : ∀ x ∈ labels, same x l = false) : positions same labels l = [] := by
  unfold positions
  rw [List.filterMap_eq_nil_iff]
  rintro ⟨x, i⟩ hx
  simp [h x (List.fst_mem_of_mem_zipIdx hx)]

/-- C114, lookups: `performance.sel` with labels of the table returns the value at their positions if the labels are different, and raises `KeyError` for a dataset,
a model or a metric that equals no label. -/
theorem C114_lookup (d : D) (m : M) (f : F) :
    (∀ i j k, Spec.AllDistinct s p → Spec.Holds p v → p.datasets[i]? = some d → p.models[j]? = some m → p.metrics[k]? = some f →
      sel s p d m f = .ok (.one (v i j k))) ∧
    ((∀ x ∈ p.datasets, s.dataset x d = false) ∨ (∀ x ∈ p.models, s.model x m = false) ∨ (∀ x ∈ p.metrics, s.metric x f = false) →
      sel s p d m f = .error .keyError) ∧
    ((∀ x ∈ p.datasets, s.dataset x d = false) ∨ (∀ x ∈ p.models, s.model x m = false) → selModel s p d m = .error .keyError) ∧
    ((∀ x ∈ p.datasets, s.dataset x d = false) ∨ (∀ x ∈ p.metrics, s.metric x f = false) → selMetric s p d f = .error .keyError) := by
  refine ⟨fun i j k hd hv h1 h2 h3 => sel_eq hd hv h1 h2 h3, fun h => ?_, fun h => ?_, fun h => ?_⟩
  · unfold sel
    rcases h with h | h | h <;> simp [positions_nil h]
  · unfold selModel
    rcases h with h | h <;> simp [positions_nil h]
  · unfold selMetric
    rcases h with h | h <;> simp [positions_nil h]

/-- C114: a table of one cell, looked up with its labels and with another dataset. -/
example : sel ⟨(· == ·), (· == ·), (· == ·)⟩ (⟨"t", [1], [2], [3], [[[7]]]⟩ : Perf Nat Nat Nat Nat) 1 2 3 = .ok (.one 7) ∧
    sel ⟨(· == ·), (· == ·), (· == ·)⟩ (⟨"t", [1], [2], [3], [[[7]]]⟩ : Perf Nat Nat Nat Nat) 4 2 3 = .error .keyError := by decide

theorem mapM_zipIdx {A B : Type} {f : A → Except PyErr B} : ∀ (l : List A) (n : Nat) (g : Nat → A → B),
    (∀ (i : Nat) x, l[i]? = some x → f x = .ok (g (n + i) x)) → l.mapM f = .ok ((l.zipIdx n).map (fun q => g q.2 q.1))
  | [], _, _, _ => rfl
  | x :: l, n, g, h => by
    rw [List.mapM_cons, h 0 x rfl, okB, mapM_zipIdx l (n + 1) g (fun i y hy => by
      rw [h (i + 1) y (by simpa using hy)]; congr 2; omega), okB]
    rfl

theorem mapM_index {A B : Type} {f : A → Except PyErr B} {l : List A} (g : Nat → A → B) (h : ∀ (i : Nat) x, l[i]? = some x → f x = .ok (g i x)) :
    l.mapM f = .ok (l.zipIdx.map (fun q => g q.2 q.1)) := mapM_zipIdx l 0 g (fun i x hx => by rw [h i x hx, Nat.zero_add])

theorem onLast_length {A : Type} (f : A → A) : ∀ l : List A, (onLast f l).length = l.length
  | [] => rfl
  | [_] => rfl
  | _ :: b :: l => by simp [onLast, onLast_length f (b :: l)]

theorem onLast_get {A : Type} (f : A → A) : ∀ (l : List A) (j : Nat),
    (onLast f l)[j]? = if j + 1 = l.length then (l[j]?).map f else l[j]?
  | [], j => by simp [onLast]
  | [a], j => by
    cases j with
    | zero => simp [onLast]
    | succ j => simp [onLast]
  | a :: b :: l, j => by
    cases j with
    | zero => simp [onLast]
    | succ j =>
      have := onLast_get f (b :: l) j
      simp only [onLast, List.getElem?_cons_succ, List.length_cons] at this ⊢
      rw [this]
      by_cases h : j + 1 = l.length + 1 <;> simp [h]

theorem plot_one (a : Axes X V) {xs : List X} {ys : List V} (h : xs.length = ys.length) (label : String) :
    a.plot xs (.one ys) label = .ok { a with curves := a.curves ++ [⟨label, a.curves.length, xs.zip ys⟩] } := by
  unfold Axes.plot lines
  simp only [h, if_true, okB]
  rfl

theorem fold_plot {C : Type} {look : C → Except PyErr (Picked (List V))} (name : C → String) {xs : List X} {w : Nat → List V} :
    ∀ (cs : List C) (a : Axes X V),
    (∀ (k : Nat) c, cs[k]? = some c → look c = .ok (.one (w (a.curves.length + k))) ∧ xs.length = (w (a.curves.length + k)).length) →
    cs.foldlM (fun (a : Axes X V) c => do
      let v ← look c
      a.plot xs v (name c)) a =
    .ok { a with curves := a.curves ++ (cs.zipIdx a.curves.length).map (fun q => ⟨name q.1, q.2, xs.zip (w q.2)⟩) }
  | [], a, _ => by simp; rfl
  | c :: cs, a, h => by
    have h0 := h 0 c rfl
    rw [Nat.add_zero] at h0
    rw [List.foldlM_cons, h0.1, okB, plot_one a h0.2, okB, fold_plot name cs _ (fun k c hc => by
      have := h (k + 1) c (by simpa using hc)
      simp only [List.length_append, List.length_singleton]
      rwa [show a.curves.length + 1 + k = a.curves.length + (k + 1) by omega])]
    simp [List.zipIdx_cons]

end

section
variable {D M F X K : Type} [LinearOrder K]

theorem fold_mark {C : Type} {look : C → Except PyErr (Picked (List (Option K)))} (name : C → String) {xs : List X} {w : Nat → List (Option K)}
    {mk : Nat → X × Option K} :
    ∀ (cs : List C) (a : Axes X (Option K)),
    (∀ (k : Nat) c, cs[k]? = some c → look c = .ok (.one (w (a.curves.length + k))) ∧ xs.length = (w (a.curves.length + k)).length ∧
      maxMarker xs (w (a.curves.length + k)) = .ok (mk (a.curves.length + k))) →
    cs.foldlM (fun (a : Axes X (Option K)) c => do
      let v ← look c
      let a ← a.plot xs v (name c)
      let mark ← markMax xs v
      pure { a with marks := a.marks ++ [mark] }) a =
    .ok { a with
      curves := a.curves ++ (cs.zipIdx a.curves.length).map (fun q => ⟨name q.1, q.2, xs.zip (w q.2)⟩)
      marks := a.marks ++ (cs.zipIdx a.curves.length).map (fun q => mk q.2) }
  | [], a, _ => by simp; rfl
  | c :: cs, a, h => by
    have h0 := h 0 c rfl
    rw [Nat.add_zero] at h0
    rw [List.foldlM_cons, h0.1, okB, plot_one a h0.2.1, okB]
    rw [show markMax xs (.one (w a.curves.length)) = .ok (mk a.curves.length) from h0.2.2, okB, show (pure _ : Except PyErr (Axes X (Option K))) = .ok _ from rfl, okB, fold_mark name cs _ (fun k c hc => by
      have := h (k + 1) c (by simpa using hc)
      simp only [List.length_append, List.length_singleton]
      rwa [show a.curves.length + 1 + k = a.curves.length + (k + 1) by omega])]
    simp [List.zipIdx_cons]

theorem autoLegend_eq {X V : Type} (names : List String) (pts : Nat → List (X × V)) (a : Axes X V)
    (h : a.curves = names.zipIdx.map (fun n => ⟨n.1, n.2, pts n.2⟩)) : a.autoLegend = Spec.legendOf names := by
  unfold Axes.autoLegend Spec.legendOf
  rw [h, List.filter_map, List.map_map]
  congr 1
  apply List.filter_congr
  rintro ⟨n, i⟩ _
  cases hn : n.startsWith "_" <;> simp [inLegend, hn, -String.startsWith_string_iff]

theorem map_zipIdx_names {C A : Type} (name : C → String) (g : String → Nat → A) : ∀ (cs : List C) (n : Nat),
    (cs.zipIdx n).map (fun q => g (name q.1) q.2) = ((cs.map name).zipIdx n).map (fun q => g q.1 q.2)
  | [], _ => rfl
  | c :: cs, n => by simp [List.zipIdx_cons, map_zipIdx_names name g cs (n + 1)]

theorem subplots_ok {B : Type} {bs : List B} (hb : bs ≠ []) : subplots bs.length = .ok () := by
  unfold subplots
  rw [if_neg (by simpa using hb)]

theorem lastOf {B A : Type} {G : A → A} {bs : List B} {g : Nat → B → A} {j : Nat} {a : A}
    (ha : (onLast G (bs.zipIdx.map (fun q => g q.2 q.1)))[j]? = some a) :
    ∃ b, bs[j]? = some b ∧ (j + 1 = bs.length ∧ a = G (g j b) ∨ j + 1 < bs.length ∧ a = g j b) := by
  rw [onLast_get, List.getElem?_map, List.getElem?_zipIdx] at ha
  cases hb : bs[j]? with
  | none => rw [hb] at ha; simp at ha
  | some b =>
    have hlt := lt_of_get hb
    rw [hb] at ha
    simp only [Option.map_some, Nat.zero_add, List.length_map, List.length_zipIdx] at ha
    refine ⟨b, rfl, ?_⟩
    split at ha
    · rename_i h
      exact .inl ⟨h, (Option.some.inj ha).symm⟩
    · rename_i h
      exact .inr ⟨by omega, (Option.some.inj ha).symm⟩

/-- A figure made of subplots, of which the last one gets a legend and the name of the horizontal axis. -/
theorem grid_shows {B C V : Type} (bs : List B) (cs : List C) (nameC : C → String) (pts : Nat → Nat → List (X × V)) (g : Nat → B → Axes X V)
    (G : Axes X V → Axes X V) (title : String) (hg : ∀ j b, (g j b).curves = cs.zipIdx.map (fun q => ⟨nameC q.1, q.2, pts j q.2⟩))
    (hG : ∀ a, (G a).curves = a.curves) :
    Spec.Shows ⟨title, onLast G (bs.zipIdx.map (fun q => g q.2 q.1))⟩ title bs.length (cs.map nameC) pts := by
  refine ⟨rfl, by simp [onLast_length], fun j a ha => ?_⟩
  have hcur : ∀ b, (g j b).curves = (cs.map nameC).zipIdx.map (fun n => ⟨n.1, n.2, pts j n.2⟩) := fun b => by
    rw [hg]
    exact map_zipIdx_names nameC (fun n i => (⟨n, i, pts j i⟩ : Curve X V)) cs 0
  obtain ⟨b, -, ⟨-, rfl⟩ | ⟨-, rfl⟩⟩ := lastOf ha
  · rw [hG, hcur]
  · exact hcur b

theorem grid_labelled {B V : Type} (bs : List B) (nameB : B → String) (g : Nat → B → Axes X V)
    (G : Axes X V → Axes X V) (title xlabel : String) (legend : List (String × Option Nat))
    (hg : ∀ j b, (g j b).ylabel = nameB b ∧ (g j b).legend = none ∧ (g j b).xlabel = "")
    (hG : ∀ j b, bs[j]? = some b → j + 1 = bs.length → (G (g j b)).ylabel = nameB b ∧ (G (g j b)).legend = some legend ∧ (G (g j b)).xlabel = xlabel) :
    Spec.Labelled ⟨title, onLast G (bs.zipIdx.map (fun q => g q.2 q.1))⟩ (bs.map nameB) xlabel legend := by
  intro j a ha
  obtain ⟨b, hb, ⟨hj, rfl⟩ | ⟨hj, rfl⟩⟩ := lastOf ha
  · simp only [onLast_length, List.length_map, List.length_zipIdx, List.getElem?_map, hb, Option.map_some]
    exact ⟨by rw [(hG j b hb hj).1], fun _ => (hG j b hb hj).2, fun h => by omega⟩
  · simp only [onLast_length, List.length_map, List.length_zipIdx, List.getElem?_map, hb, Option.map_some]
    exact ⟨by rw [(hg j b).1], fun h => by omega, fun _ => (hg j b).2⟩

/-- A subplot of curves with marks. -/
def treeAxes {B C : Type} (nameB : B → String) (nameC : C → String) (ks : List X) (cs : List C) (w : Nat → Nat → List (Option K))
    (mk : Nat → Nat → X × Option K) (j : Nat) (b : B) : Axes X (Option K) :=
  { curves := cs.zipIdx.map (fun q => ⟨nameC q.1, q.2, ks.zip (w j q.2)⟩), marks := cs.zipIdx.map (fun q => mk j q.2), ylabel := nameB b }

/-- The last subplot. -/
def treeLast (a : Axes X (Option K)) : Axes X (Option K) :=
  { a with legend := some (a.autoLegend ++ [("Max", none)]), xlabel := "Number of trees" }

/-- The figure of curves with marks. -/
theorem treeFigure {B C : Type} {look : B → C → Except PyErr (Picked (List (Option K)))} {nameB : B → String} {nameC : C → String}
    {ks : List X} {bs : List B} {cs : List C} (title : String) (hb : bs ≠ []) {w : Nat → Nat → List (Option K)} {mk : Nat → Nat → X × Option K}
    (h : ∀ j k b c, bs[j]? = some b → cs[k]? = some c → look b c = .ok (.one (w j k)) ∧ ks.length = (w j k).length ∧
      maxMarker ks (w j k) = .ok (mk j k)) :
    ∃ fig, treeWiseFigure look nameB nameC ks bs cs title = .ok fig ∧
      Spec.Shows fig title bs.length (cs.map nameC) (fun j k => ks.zip (w j k)) ∧
      Spec.Labelled fig (bs.map nameB) "Number of trees" (Spec.legendOf (cs.map nameC) ++ [("Max", none)]) ∧
      ∀ j a, fig.axes[j]? = some a → a.marks = (List.range cs.length).map (mk j) := by
  have hm := mapM_index (l := bs) (f := fun b => do
    let a ← cs.foldlM (fun (a : Axes X (Option K)) c => do
      let v ← look b c
      let a ← a.plot ks v (nameC c)
      let mark ← markMax ks v
      pure { a with marks := a.marks ++ [mark] }) { curves := [] }
    pure { a with ylabel := nameB b })
    (treeAxes nameB nameC ks cs w mk)
    (fun j b hbj => by
      rw [fold_mark nameC (w := w j) (mk := mk j) cs { curves := [] } (fun k c hc => by
        simpa using h j k b c hbj hc), okB]
      rfl)
  have hfig : treeWiseFigure look nameB nameC ks bs cs title =
      .ok ⟨title, onLast treeLast (bs.zipIdx.map (fun q => treeAxes nameB nameC ks cs w mk q.2 q.1))⟩ := by
    unfold treeWiseFigure
    rw [subplots_ok hb, okB, hm, okB]
    rfl
  refine ⟨_, hfig, ?_, ?_, ?_⟩
  · exact grid_shows bs cs nameC _ _ _ _ (fun _ _ => rfl) (fun _ => rfl)
  · refine grid_labelled bs nameB _ _ _ _ _ (fun _ _ => ⟨rfl, rfl, rfl⟩) (fun j b _ _ => ⟨rfl, ?_, rfl⟩)
    show some (Axes.autoLegend _ ++ _) = _
    rw [autoLegend_eq (cs.map nameC) (fun k => ks.zip (w j k)) _ (map_zipIdx_names nameC (fun n i => (⟨n, i, ks.zip (w j i)⟩ : Curve X (Option K))) cs 0)]
  · intro j a ha
    have hmark : cs.zipIdx.map (fun r => mk j r.2) = (List.range cs.length).map (mk j) :=
      List.ext_getElem (by simp) (fun i h1 h2 => by simp)
    obtain ⟨b, -, ⟨-, rfl⟩ | ⟨-, rfl⟩⟩ := lastOf (g := treeAxes nameB nameC ks cs w mk) (G := treeLast) ha <;> exact hmark

theorem mapM_facts {A B : Type} {f : A → Except PyErr B} {P : Nat → A → B → Prop} : ∀ (l : List A) (n : Nat),
    (∀ (i : Nat) x, l[i]? = some x → ∃ y, f x = .ok y ∧ P (n + i) x y) →
    ∃ r, l.mapM f = .ok r ∧ r.length = l.length ∧ ∀ (i : Nat) x y, l[i]? = some x → r[i]? = some y → P (n + i) x y
  | [], _, _ => ⟨[], rfl, rfl, fun i x y h => by simp at h⟩
  | x :: l, n, h => by
    obtain ⟨y, hy, hp⟩ := h 0 x rfl
    obtain ⟨r, hr, hlen, hall⟩ := mapM_facts (P := P) l (n + 1) (fun i z hz => by
      obtain ⟨y, hy, hp⟩ := h (i + 1) z (by simpa using hz)
      exact ⟨y, hy, by rwa [show n + 1 + i = n + (i + 1) by omega]⟩)
    refine ⟨y :: r, ?_, by simp [hlen], ?_⟩
    · rw [List.mapM_cons, hy, okB, hr]
      rfl
    · intro i z w hz hw
      cases i with
      | zero =>
        cases (Option.some.inj hz)
        cases (Option.some.inj hw)
        exact hp
      | succ i =>
        have := hall i z w (by simpa using hz) (by simpa using hw)
        rwa [show n + 1 + i = n + (i + 1) by omega] at this

theorem mapM_facts0 {A B : Type} {f : A → Except PyErr B} {P : Nat → A → B → Prop} (l : List A)
    (h : ∀ (i : Nat) x, l[i]? = some x → ∃ y, f x = .ok y ∧ P i x y) :
    ∃ r, l.mapM f = .ok r ∧ r.length = l.length ∧ ∀ (i : Nat) x y, l[i]? = some x → r[i]? = some y → P i x y := by
  obtain ⟨r, h1, h2, h3⟩ := mapM_facts (P := P) l 0 (fun i x hx => by simpa using h i x hx)
  exact ⟨r, h1, h2, fun i x y hx hy => by simpa using h3 i x y hx hy⟩

/-! ### `plot_tree_wise_performance` -/

variable {s : Same D M F} {p : Perf D M F (List (Option K))} {v : Nat → Nat → Nat → List (Option K)}

theorem marked [Inhabited X] {ks : List X} (w : Nat → Nat → List (Option K)) : ∃ mk : Nat → Nat → X × Option K, ∀ j k,
    (∃ (n : Nat) (x : K), (w j k)[n]? = some (some x)) → ks.length = (w j k).length → maxMarker ks (w j k) = .ok (mk j k) :=
  ⟨fun j k => match maxMarker ks (w j k) with
    | .ok m => m
    | .error _ => default, fun j k ⟨n, x, hx⟩ hl => by
    obtain ⟨i, a, y, hm, -⟩ := C77_marker_partial hl hx
    simp only [hm]⟩

/-- The statement for one figure. -/
theorem treeFigure' [Inhabited X] {B C : Type} {look : B → C → Except PyErr (Picked (List (Option K)))} {nameB : B → String} {nameC : C → String}
    {ks : List X} {bs : List B} {cs : List C} (title : String) (hb : bs ≠ []) (w : Nat → Nat → List (Option K))
    (h : ∀ j k b c, bs[j]? = some b → cs[k]? = some c → look b c = .ok (.one (w j k)) ∧ ks.length = (w j k).length ∧
      ∃ (n : Nat) (x : K), (w j k)[n]? = some (some x)) :
    ∃ fig, treeWiseFigure look nameB nameC ks bs cs title = .ok fig ∧
      Spec.Shows fig title bs.length (cs.map nameC) (fun j k => ks.zip (w j k)) ∧
      Spec.Labelled fig (bs.map nameB) "Number of trees" (Spec.legendOf (cs.map nameC) ++ [("Max", none)]) ∧
      ∀ j a, fig.axes[j]? = some a → a.marks.map Except.ok = (List.range cs.length).map (fun k => maxMarker ks (w j k)) := by
  obtain ⟨mk, hmk⟩ := marked (ks := ks) w
  obtain ⟨fig, h1, h2, h3, h4⟩ := treeFigure (look := look) (nameB := nameB) (nameC := nameC) (ks := ks) title hb (mk := mk)
    (fun j k b c hb hc => ⟨(h j k b c hb hc).1, (h j k b c hb hc).2.1, hmk j k (h j k b c hb hc).2.2 (h j k b c hb hc).2.1⟩)
  refine ⟨fig, h1, h2, h3, fun j a ha => ?_⟩
  rw [h4 j a ha, List.map_map]
  refine List.map_congr_left (fun k hk => ?_)
  have hj : j < bs.length := h2.rows ▸ lt_of_get ha
  have hk' : k < cs.length := List.mem_range.1 hk
  have := h j k _ _ (List.getElem?_eq_getElem hj) (List.getElem?_eq_getElem hk')
  exact (hmk j k this.2.2 this.2.1).symm

/-- C114, `plot_tree_wise_performance(compare="metrics")`, proved part: there is one figure for each dataset, with its name, and in it one
subplot for each model, with its name beside it; in each of them there is one curve for each metric, with the name and the values of that metric
for that model on that dataset, and a mark at its largest value; the legend names each curve by the colour it has in every subplot. Missing:
labels that compare equal (`C114_violated_equal`), names that legends leave out (`C114_violated_hidden`), curves without a defined value
(`C77_violated_marker`). -/
theorem C114_tree_wise_metrics_partial [Inhabited X] (nd : D → String) (nm : M → String) (nf : F → String) {ks : List X} (hd : Spec.AllDistinct s p)
    (hv : Spec.Holds p v) (hm : p.models ≠ [])
    (hc : ∀ i j k, i < p.datasets.length → j < p.models.length → k < p.metrics.length → ks.length = (v i j k).length ∧
      ∃ (n : Nat) (x : K), (v i j k)[n]? = some (some x)) :
    ∃ figs, plotTreeWise s nd nm nf ks p "metrics" = .ok figs ∧ figs.length = p.datasets.length ∧
      ∀ (i : Nat) d fig, p.datasets[i]? = some d → figs[i]? = some fig →
        Spec.Shows fig (p.name ++ " for " ++ nd d) p.models.length (p.metrics.map nf) (fun j k => ks.zip (v i j k)) ∧
        Spec.Labelled fig (p.models.map nm) "Number of trees" (Spec.legendOf (p.metrics.map nf) ++ [("Max", none)]) ∧
        ∀ (j : Nat) a, fig.axes[j]? = some a → a.marks.map Except.ok = (List.range p.metrics.length).map (fun k => maxMarker ks (v i j k)) := by
  unfold plotTreeWise
  rw [if_pos rfl]
  refine mapM_facts0 (P := fun i d fig => Spec.Shows fig (p.name ++ " for " ++ nd d) p.models.length (p.metrics.map nf) (fun j k => ks.zip (v i j k)) ∧
        Spec.Labelled fig (p.models.map nm) "Number of trees" (Spec.legendOf (p.metrics.map nf) ++ [("Max", none)]) ∧
        ∀ (j : Nat) a, fig.axes[j]? = some a → a.marks.map Except.ok = (List.range p.metrics.length).map (fun k => maxMarker ks (v i j k)))
    p.datasets (fun i d hid => ?_)
  exact treeFigure' _ hm (fun j k => v i j k) (fun j k m f hj hk =>
    ⟨sel_eq hd hv hid hj hk, hc i j k (lt_of_get hid) (lt_of_get hj) (lt_of_get hk)⟩)

/-- C114, `plot_tree_wise_performance(compare="models")`, proved part, as above with the roles of models and metrics exchanged. -/
theorem C114_tree_wise_models_partial [Inhabited X] (nd : D → String) (nm : M → String) (nf : F → String) {ks : List X} (hd : Spec.AllDistinct s p)
    (hv : Spec.Holds p v) (hm : p.metrics ≠ [])
    (hc : ∀ i j k, i < p.datasets.length → j < p.models.length → k < p.metrics.length → ks.length = (v i j k).length ∧
      ∃ (n : Nat) (x : K), (v i j k)[n]? = some (some x)) :
    ∃ figs, plotTreeWise s nd nm nf ks p "models" = .ok figs ∧ figs.length = p.datasets.length ∧
      ∀ (i : Nat) d fig, p.datasets[i]? = some d → figs[i]? = some fig →
        Spec.Shows fig (p.name ++ " for " ++ nd d) p.metrics.length (p.models.map nm) (fun k j => ks.zip (v i j k)) ∧
        Spec.Labelled fig (p.metrics.map nf) "Number of trees" (Spec.legendOf (p.models.map nm) ++ [("Max", none)]) ∧
        ∀ (k : Nat) a, fig.axes[k]? = some a → a.marks.map Except.ok = (List.range p.models.length).map (fun j => maxMarker ks (v i j k)) := by
  unfold plotTreeWise
  rw [if_neg (by decide), if_pos rfl]
  refine mapM_facts0 (P := fun i d fig => Spec.Shows fig (p.name ++ " for " ++ nd d) p.metrics.length (p.models.map nm) (fun k j => ks.zip (v i j k)) ∧
        Spec.Labelled fig (p.metrics.map nf) "Number of trees" (Spec.legendOf (p.models.map nm) ++ [("Max", none)]) ∧
        ∀ (k : Nat) a, fig.axes[k]? = some a → a.marks.map Except.ok = (List.range p.models.length).map (fun j => maxMarker ks (v i j k)))
    p.datasets (fun i d hid => ?_)
  exact treeFigure' _ hm (fun k j => v i j k) (fun k j f m hk hj =>
    ⟨sel_eq hd hv hid hj hk, hc i j k (lt_of_get hid) (lt_of_get hj) (lt_of_get hk)⟩)

/-- C114, `plot_tree_wise_performance(compare="datasets")`, proved part: one figure for each model. -/
theorem C114_tree_wise_datasets_partial [Inhabited X] (nd : D → String) (nm : M → String) (nf : F → String) {ks : List X} (hd : Spec.AllDistinct s p)
    (hv : Spec.Holds p v) (hm : p.metrics ≠ [])
    (hc : ∀ i j k, i < p.datasets.length → j < p.models.length → k < p.metrics.length → ks.length = (v i j k).length ∧
      ∃ (n : Nat) (x : K), (v i j k)[n]? = some (some x)) :
    ∃ figs, plotTreeWise s nd nm nf ks p "datasets" = .ok figs ∧ figs.length = p.models.length ∧
      ∀ (j : Nat) m fig, p.models[j]? = some m → figs[j]? = some fig →
        Spec.Shows fig (p.name ++ " for " ++ nm m) p.metrics.length (p.datasets.map nd) (fun k i => ks.zip (v i j k)) ∧
        Spec.Labelled fig (p.metrics.map nf) "Number of trees" (Spec.legendOf (p.datasets.map nd) ++ [("Max", none)]) ∧
        ∀ (k : Nat) a, fig.axes[k]? = some a → a.marks.map Except.ok = (List.range p.datasets.length).map (fun i => maxMarker ks (v i j k)) := by
  unfold plotTreeWise
  rw [if_neg (by decide), if_neg (by decide), if_pos rfl]
  refine mapM_facts0 (P := fun j m fig => Spec.Shows fig (p.name ++ " for " ++ nm m) p.metrics.length (p.datasets.map nd) (fun k i => ks.zip (v i j k)) ∧
        Spec.Labelled fig (p.metrics.map nf) "Number of trees" (Spec.legendOf (p.datasets.map nd) ++ [("Max", none)]) ∧
        ∀ (k : Nat) a, fig.axes[k]? = some a → a.marks.map Except.ok = (List.range p.datasets.length).map (fun i => maxMarker ks (v i j k)))
    p.models (fun j m hjm => ?_)
  exact treeFigure' _ hm (fun k i => v i j k) (fun k i f d hk hi =>
    ⟨sel_eq hd hv hi hjm hk, hc i j k (lt_of_get hi) (lt_of_get hjm) (lt_of_get hk)⟩)

/-- C114: other values of `compare` are refused, and so are tables without subplots. -/
theorem C114_tree_wise_refused (nd : D → String) (nm : M → String) (nf : F → String) (ks : List X) (compare : String)
    (h : compare ≠ "metrics" ∧ compare ≠ "models" ∧ compare ≠ "datasets") : plotTreeWise s nd nm nf ks p compare = .error .runtimeError := by
  unfold plotTreeWise
  rw [if_neg h.1, if_neg h.2.1, if_neg h.2.2]

theorem markMax_several (ks : List X) (rows : List (List (Option K))) : ∃ e, markMax ks (.several rows) = .error e := by
  show ∃ e, (nanArgmax rows.flatten >>= fun i => if i < ks.length then .error .valueError else .error .indexError) = .error e
  cases nanArgmax rows.flatten with
  | error e => exact ⟨e, rfl⟩
  | ok i =>
    rw [okB]
    split <;> exact ⟨_, rfl⟩

/-- C114 is violated for a list of datasets of which a later one compares equal to the first: nothing is drawn. -/
theorem C114_violated_equal (nd : D → String) (nm : M → String) (nf : F → String) (ks : List X) {d d' : D} {ds : List D}
    (hds : p.datasets = d :: ds) (h1 : s.dataset d d = true) (h2 : d' ∈ ds) (h3 : s.dataset d' d = true) (hdm : Spec.Distinct s.model p.models)
    (hdf : Spec.Distinct s.metric p.metrics) (hm : p.models ≠ []) (hf : p.metrics ≠ []) :
    ∃ e, plotTreeWise s nd nm nf ks p "metrics" = .error e := by
  obtain ⟨m, ms, hms⟩ := List.exists_cons_of_ne_nil hm
  obtain ⟨f, fs, hfs⟩ := List.exists_cons_of_ne_nil hf
  have hpd : ∃ i is, positions s.dataset p.datasets d = 0 :: i :: is := by
    have hcons : positions s.dataset p.datasets d = 0 :: ((ds.zipIdx 1).filterMap (fun q => if s.dataset q.1 d then some q.2 else none)) := by
      unfold positions
      rw [hds]
      simp [List.zipIdx_cons, h1]
    obtain ⟨n, hn, hget⟩ := List.getElem_of_mem h2
    have hmem : n + 1 ∈ (ds.zipIdx 1).filterMap (fun q => if s.dataset q.1 d then some q.2 else none) := by
      rw [List.mem_filterMap]
      refine ⟨(d', n + 1), ?_, by simp [h3]⟩
      rw [List.mem_iff_getElem?]
      exact ⟨n, by rw [List.getElem?_zipIdx, List.getElem?_eq_getElem hn, hget]; simp [Nat.add_comm]⟩
    cases hr : (ds.zipIdx 1).filterMap (fun q => if s.dataset q.1 d then some q.2 else none) with
    | nil => rw [hr] at hmem; cases hmem
    | cons i is => exact ⟨i, is, by rw [hcons, hr]⟩
  obtain ⟨i, is, hpd⟩ := hpd
  have hsel : (∃ e, sel s p d m f = .error e) ∨ ∃ vs, sel s p d m f = .ok (.several vs) := by
    unfold sel
    rw [hpd, positions_eq hdm (i := 0) (l := m) (by rw [hms]; rfl), positions_eq hdf (i := 0) (l := f) (by rw [hfs]; rfl)]
    simp only [reduceCtorEq, or_self, if_false]
    cases List.mapM (fun i => [0].mapM (fun j => [0].mapM (fun k => cell p.data i j k))) (0 :: i :: is) with
    | error e => exact .inl ⟨e, rfl⟩
    | ok cells => exact .inr ⟨_, rfl⟩
  have hfig : ∃ e, treeWiseFigure (fun m f => sel s p d m f) nm nf ks p.models p.metrics (p.name ++ " for " ++ nd d) = .error e := by
    unfold treeWiseFigure
    rw [subplots_ok hm, okB, hms, List.mapM_cons, hfs, List.foldlM_cons]
    beta_reduce
    rcases hsel with ⟨e, he⟩ | ⟨vs, he⟩
    · rw [he]
      exact ⟨e, rfl⟩
    · rw [he, okB]
      obtain ⟨e', he'⟩ := markMax_several ks vs
      cases Axes.plot ({ curves := [] } : Axes X (Option K)) ks (.several vs) (nf f) with
      | error e => exact ⟨e, rfl⟩
      | ok a =>
        rw [okB, he']
        exact ⟨e', rfl⟩
  obtain ⟨e, he⟩ := hfig
  refine ⟨e, ?_⟩
  unfold plotTreeWise
  rw [if_pos rfl, hds, List.mapM_cons, he]
  rfl

end

/-! ### `plot_query_wise_performance` -/

section
variable {D M F V X : Type}

/-- A subplot of curves. -/
def queryAxes {B C : Type} (nameC : C → String) (bins : List X) (cs : List C) (w : Nat → Nat → List V) (j : Nat) (_ : B) : Axes X V :=
  { curves := cs.zipIdx.map (fun q => ⟨nameC q.1, q.2, bins.zip (w j q.2)⟩), ylabel := "Query %" }

/-- The last subplot. -/
def queryLast (xlabel : String) (a : Axes X V) : Axes X V := { a with legend := some a.autoLegend, xlabel := xlabel }

theorem queryFigure {B C : Type} {times100 : V → V} {look : B → C → Except PyErr (Picked (List V))} {nameC : C → String} {xlabel : Option B → String}
    {bins : List X} {bs : List B} {cs : List C} (title : String) (hb : bs ≠ []) (w : Nat → Nat → List V)
    (h : ∀ j k b c, bs[j]? = some b → cs[k]? = some c → look b c = .ok (.one (w j k)) ∧ bins.length = (w j k).length) :
    ∃ fig, queryWiseFigure times100 look nameC xlabel bins bs cs title = .ok fig ∧
      Spec.Shows fig title bs.length (cs.map nameC) (fun j k => bins.zip ((w j k).map times100)) ∧
      Spec.Labelled fig (bs.map (fun _ => "Query %")) (xlabel bs.getLast?) (Spec.legendOf (cs.map nameC)) := by
  have hm := mapM_index (l := bs) (f := fun b => do
    let a ← cs.foldlM (fun (a : Axes X V) c => do
      let v ← look b c
      a.plot bins (v.scale times100) (nameC c)) { curves := [] }
    pure { a with ylabel := "Query %" })
    (queryAxes nameC bins cs (fun j k => (w j k).map times100))
    (fun j b hbj => by
      have hf := fold_plot nameC (w := fun k => (w j k).map times100) (xs := bins) (look := fun c => do
        let v ← look b c
        pure (v.scale times100)) cs { curves := [] } (fun k c hc => by
          have := h j k b c hbj hc
          simp only [List.length_nil, Nat.zero_add]
          rw [this.1]
          exact ⟨rfl, by simpa using this.2⟩)
      have he : (fun (a : Axes X V) c => do
        let v ← look b c
        a.plot bins (v.scale times100) (nameC c)) = (fun (a : Axes X V) c => do
        let v ← (do
          let v ← look b c
          pure (v.scale times100))
        a.plot bins v (nameC c)) := by
        funext a c
        cases look b c <;> rfl
      rw [he, hf, okB]
      rfl)
  have hfig : queryWiseFigure times100 look nameC xlabel bins bs cs title =
      .ok ⟨title, onLast (queryLast (xlabel bs.getLast?)) (bs.zipIdx.map (fun q => queryAxes nameC bins cs (fun j k => (w j k).map times100) q.2 q.1))⟩ := by
    unfold queryWiseFigure
    rw [subplots_ok hb, okB, hm, okB]
    rfl
  refine ⟨_, hfig, ?_, ?_⟩
  · exact grid_shows bs cs nameC _ _ _ _ (fun _ _ => rfl) (fun _ => rfl)
  · refine grid_labelled bs _ _ _ _ _ _ (fun _ _ => ⟨rfl, rfl, rfl⟩) (fun j b _ _ => ⟨rfl, ?_, rfl⟩)
    show some (Axes.autoLegend _) = _
    rw [autoLegend_eq (cs.map nameC) (fun k => bins.zip ((w j k).map times100)) _
      (map_zipIdx_names nameC (fun n i => (⟨n, i, bins.zip ((w j i).map times100)⟩ : Curve X V)) cs 0)]

variable {s : Same D M F} {p : Perf D M F (List V)} {v : Nat → Nat → Nat → List V}

/-- C114, `plot_query_wise_performance(compare="metrics")`, proved part: figures, subplots and curves as in `plot_tree_wise_performance`, with
percentages. Missing: labels that compare equal, and the names of the models, which are nowhere in the figure (`C114_violated_models`). -/
theorem C114_query_wise_metrics_partial (times100 : V → V) (nd : D → String) (nm : M → String) (nf : F → String) {bins : List X}
    (hd : Spec.AllDistinct s p) (hv : Spec.Holds p v) (hm : p.models ≠ [])
    (hc : ∀ i j k, i < p.datasets.length → j < p.models.length → k < p.metrics.length → bins.length = (v i j k).length) :
    ∃ figs, plotQueryWise times100 s nd nm nf bins p "metrics" = .ok figs ∧ figs.length = p.datasets.length ∧
      ∀ (i : Nat) d fig, p.datasets[i]? = some d → figs[i]? = some fig →
        Spec.Shows fig (p.name ++ " for " ++ nd d) p.models.length (p.metrics.map nf) (fun j k => bins.zip ((v i j k).map times100)) ∧
        Spec.Labelled fig (p.models.map (fun _ => "Query %")) "Metric Score" (Spec.legendOf (p.metrics.map nf)) := by
  unfold plotQueryWise
  rw [if_pos rfl]
  refine mapM_facts0 (P := fun i d fig =>
        Spec.Shows fig (p.name ++ " for " ++ nd d) p.models.length (p.metrics.map nf) (fun j k => bins.zip ((v i j k).map times100)) ∧
        Spec.Labelled fig (p.models.map (fun _ => "Query %")) "Metric Score" (Spec.legendOf (p.metrics.map nf))) p.datasets (fun i d hid => ?_)
  exact queryFigure _ hm (fun j k => v i j k) (fun j k m f hj hk =>
    ⟨sel_eq hd hv hid hj hk, hc i j k (lt_of_get hid) (lt_of_get hj) (lt_of_get hk)⟩)

/-- C114, `plot_query_wise_performance(compare="models")`, proved part. Missing: as above for the names of all metrics but the last
(`C114_violated_metrics`). -/
theorem C114_query_wise_models_partial (times100 : V → V) (nd : D → String) (nm : M → String) (nf : F → String) {bins : List X}
    (hd : Spec.AllDistinct s p) (hv : Spec.Holds p v) {f : F} (hm : p.metrics.getLast? = some f)
    (hc : ∀ i j k, i < p.datasets.length → j < p.models.length → k < p.metrics.length → bins.length = (v i j k).length) :
    ∃ figs, plotQueryWise times100 s nd nm nf bins p "models" = .ok figs ∧ figs.length = p.datasets.length ∧
      ∀ (i : Nat) d fig, p.datasets[i]? = some d → figs[i]? = some fig →
        Spec.Shows fig (p.name ++ " for " ++ nd d) p.metrics.length (p.models.map nm) (fun k j => bins.zip ((v i j k).map times100)) ∧
        Spec.Labelled fig (p.metrics.map (fun _ => "Query %")) (nf f) (Spec.legendOf (p.models.map nm)) := by
  have hne : p.metrics ≠ [] := by
    intro h
    rw [h] at hm
    cases hm
  unfold plotQueryWise
  rw [if_neg (by decide), if_pos rfl]
  refine mapM_facts0 (P := fun i d fig =>
        Spec.Shows fig (p.name ++ " for " ++ nd d) p.metrics.length (p.models.map nm) (fun k j => bins.zip ((v i j k).map times100)) ∧
        Spec.Labelled fig (p.metrics.map (fun _ => "Query %")) (nf f) (Spec.legendOf (p.models.map nm))) p.datasets (fun i d hid => ?_)
  have := queryFigure (times100 := times100) (look := fun f m => sel s p d m f) (nameC := nm) (xlabel := fun f => (f.map nf).getD "")
    (p.name ++ " for " ++ nd d) hne (fun k j => v i j k) (fun k j f m hk hj =>
    ⟨sel_eq hd hv hid hj hk, hc i j k (lt_of_get hid) (lt_of_get hj) (lt_of_get hk)⟩)
  rw [hm] at this
  exact this

/-- C114 is violated by `plot_query_wise_performance(compare="metrics")`: the figures do not depend on the names of the models, so they do not
tell which subplot shows which model. -/
theorem C114_violated_models (times100 : V → V) (nd : D → String) (nm nm' : M → String) (nf : F → String) (bins : List X) :
    plotQueryWise times100 s nd nm nf bins p "metrics" = plotQueryWise times100 s nd nm' nf bins p "metrics" := rfl

/-- C114 is violated by `plot_query_wise_performance(compare="models")`: the figures depend only on the name of the last metric. -/
theorem C114_violated_metrics (times100 : V → V) (nd : D → String) (nm : M → String) {nf nf' : F → String} (bins : List X)
    (h : ∀ f, p.metrics.getLast? = some f → nf f = nf' f) :
    plotQueryWise times100 s nd nm nf bins p "models" = plotQueryWise times100 s nd nm nf' bins p "models" := by
  have hx : (p.metrics.getLast?.map nf).getD "" = (p.metrics.getLast?.map nf').getD "" := by
    cases hl : p.metrics.getLast? with
    | none => rfl
    | some f => simp [h f hl]
  have hne : ¬ "models" = "metrics" := by decide
  simp only [plotQueryWise, queryWiseFigure, hne, if_false, if_true, hx]

/-- C114: other values of `compare` are refused. -/
theorem C114_query_wise_refused (times100 : V → V) (nd : D → String) (nm : M → String) (nf : F → String) (bins : List X) (compare : String)
    (h : compare ≠ "metrics" ∧ compare ≠ "models") : plotQueryWise times100 s nd nm nf bins p compare = .error .runtimeError := by
  unfold plotQueryWise
  rw [if_neg h.1, if_neg h.2]

/-! ### `plot_document_graded_relevance` and `plot_tree_wise_average_contribution` -/

/-- A subplot. -/
def gradedAxes (bins : List X) (n : Nat) (title : M → String) (w : Nat → Nat → List V) (j : Nat) (m : M) : Axes X V :=
  { curves := (List.range n).map (fun k => ⟨"", k, bins.zip (w j k)⟩), title := title m, ylabel := "Relevance" }

/-- C114, `plot_document_graded_relevance`, proved part: one figure for each dataset, one subplot for each model, with both names in its title,
in it one curve for each relevance label with the values of this label; the legend of the last subplot has the texts of the labels in the order of the
colours. Missing: labels that compare equal. -/
theorem C114_graded_partial (nd : D → String) (nm : M → String) (text : F → String) {bins : List X} (hd : Spec.AllDistinct s p) (hv : Spec.Holds p v)
    (hm : p.models ≠ [])
    (hc : ∀ i j k, i < p.datasets.length → j < p.models.length → k < p.metrics.length → bins.length = (v i j k).length) :
    ∃ figs, plotGraded s nd nm text bins p = .ok figs ∧ figs.length = p.datasets.length ∧
      ∀ (i : Nat) d fig, p.datasets[i]? = some d → figs[i]? = some fig → fig.axes.length = p.models.length ∧
        ∀ (j : Nat) m a, p.models[j]? = some m → fig.axes[j]? = some a → a.title = p.name ++ " for " ++ nd d ++ " and model " ++ nm m ∧
          a.curves = (List.range p.metrics.length).map (fun k => ⟨"", k, bins.zip (v i j k)⟩) ∧
          a.legend = if j + 1 = p.models.length then some ((p.metrics.map text).zip ((List.range p.metrics.length).map some)) else none := by
  unfold plotGraded
  refine mapM_facts0 (P := fun i d (fig : Figure X V) => fig.axes.length = p.models.length ∧
        ∀ (j : Nat) m a, p.models[j]? = some m → fig.axes[j]? = some a → a.title = p.name ++ " for " ++ nd d ++ " and model " ++ nm m ∧
          a.curves = (List.range p.metrics.length).map (fun k => ⟨"", k, bins.zip (v i j k)⟩) ∧
          a.legend = if j + 1 = p.models.length then some ((p.metrics.map text).zip ((List.range p.metrics.length).map some)) else none)
    p.datasets (fun i d hid => ?_)
  have hax := mapM_index (l := p.models) (f := fun m => do
      let a ← p.metrics.foldlM (fun (a : Axes X V) l => do
        let v ← sel s p d m l
        a.plot bins v "") { curves := [] }
      pure { a with title := p.name ++ " for " ++ nd d ++ " and model " ++ nm m, ylabel := "Relevance" })
    (gradedAxes bins p.metrics.length (fun m => p.name ++ " for " ++ nd d ++ " and model " ++ nm m) (fun j k => v i j k))
    (fun j m hj => by
      rw [fold_plot (fun _ => "") (w := fun k => v i j k) p.metrics { curves := [] } (fun k l hk => by
        simp only [List.length_nil, Nat.zero_add]
        exact ⟨sel_eq hd hv hid hj hk, hc i j k (lt_of_get hid) (lt_of_get hj) (lt_of_get hk)⟩), okB]
      have : p.metrics.zipIdx.map (fun q => (⟨"", q.2, bins.zip (v i j q.2)⟩ : Curve X V)) =
          (List.range p.metrics.length).map (fun k => ⟨"", k, bins.zip (v i j k)⟩) :=
        List.ext_getElem (by simp) (fun i h1 h2 => by simp)
      simp only [List.length_nil, List.nil_append, this]
      rfl)
  rw [subplots_ok hm, okB, hax, okB]
  refine ⟨_, rfl, by simp [onLast_length], fun j m a hj ha => ?_⟩
  obtain ⟨m', hm', ⟨hl, rfl⟩ | ⟨hl, rfl⟩⟩ :=
    lastOf (g := gradedAxes bins p.metrics.length (fun m => p.name ++ " for " ++ nd d ++ " and model " ++ nm m) (fun j k => v i j k)) ha
  · cases Option.some.inj (hj.symm.trans hm')
    refine ⟨rfl, rfl, ?_⟩
    rw [if_pos hl]
    show some (Axes.namedLegend _ _) = _
    unfold Axes.namedLegend gradedAxes
    rw [List.map_map]
    rfl
  · cases Option.some.inj (hj.symm.trans hm')
    exact ⟨rfl, rfl, by rw [if_neg (by omega)]; rfl⟩

end

section
variable {D M V : Type} {s : Same D M Unit} {p : Perf D M Unit (List V)} {v : Nat → Nat → List V}

/-- A subplot. -/
def contributionAxes (nm : M → String) (w : Nat → List V) (j : Nat) (m : M) : Axes Nat V :=
  { curves := [⟨"", 0, (List.range (w j).length).zip (w j)⟩], legend := some [(nm m, some 0)] }

/-- C114, `plot_tree_wise_average_contribution`, proved part: one figure for each dataset, one subplot for each model, with its contributions in the
order of the trees and its name. The first tree is at 0, although the axis is called "Number of trees". Missing: labels that compare equal. -/
theorem C114_contribution_partial (nd : D → String) (nm : M → String) (hd : Spec.AllDistinct s p) (hu : p.metrics = [()])
    (hv : Spec.Holds p (fun i j _ => v i j)) (hm : p.models ≠ []) :
    ∃ figs, plotContribution s nd nm p = .ok figs ∧ figs.length = p.datasets.length ∧
      ∀ (i : Nat) d fig, p.datasets[i]? = some d → figs[i]? = some fig → fig.title = p.name ++ " for " ++ nd d ∧ fig.axes.length = p.models.length ∧
        ∀ (j : Nat) m a, p.models[j]? = some m → fig.axes[j]? = some a →
          a.curves = [⟨"", 0, (List.range (v i j).length).zip (v i j)⟩] ∧ a.legend = some [(nm m, some 0)] := by
  unfold plotContribution
  refine mapM_facts0 (P := fun i d (fig : Figure Nat V) => fig.title = p.name ++ " for " ++ nd d ∧ fig.axes.length = p.models.length ∧
        ∀ (j : Nat) m a, p.models[j]? = some m → fig.axes[j]? = some a →
          a.curves = [⟨"", 0, (List.range (v i j).length).zip (v i j)⟩] ∧ a.legend = some [(nm m, some 0)]) p.datasets (fun i d hid => ?_)
  have hax := mapM_index (l := p.models) (f := fun m => do
      let v ← sel s p d m ()
      let a ← ({ curves := [] } : Axes Nat V).plot (List.range v.points) v ""
      pure { a with legend := some (a.namedLegend [nm m]) })
    (contributionAxes nm (v i))
    (fun j m hj => by
      rw [sel_eq hd hv (k := 0) hid hj (by rw [hu]; rfl), okB]
      rw [show (Picked.one (v i j)).points = (v i j).length from rfl, plot_one _ (by simp), okB]
      rfl)
  rw [subplots_ok hm, okB, hax, okB]
  refine ⟨_, rfl, rfl, by simp [onLast_length], fun j m a hj ha => ?_⟩
  obtain ⟨m', hm', ⟨-, rfl⟩ | ⟨-, rfl⟩⟩ := lastOf (g := contributionAxes nm (v i)) ha
  all_goals
    cases Option.some.inj (hj.symm.trans hm')
    exact ⟨rfl, rfl⟩

end

/-! ### Bars -/

section
variable {D M F V K : Type} [Field K]

section
variable {s : Same D M F} {p : Perf D M F V} {v : Nat → Nat → Nat → V}

theorem selModel_eq (hd : Spec.AllDistinct s p) (hv : Spec.Holds p v) {i j : Nat} {d : D} {m : M} (h1 : p.datasets[i]? = some d)
    (h2 : p.models[j]? = some m) : selModel s p d m = .ok (.one ((List.range p.metrics.length).map (fun k => v i j k))) := by
  have hc := mapM_index (l := List.range p.metrics.length) (f := fun k => cell p.data i j k) (fun k _ => v i j k) (fun k x hx => by
    have hk := lt_of_get hx
    rw [List.getElem?_range (by simpa using hk)] at hx
    cases hx
    unfold cell
    rw [hv i j k (lt_of_get h1) (lt_of_get h2) (by simpa using hk)])
  have he : (List.range p.metrics.length).zipIdx.map (fun q => v i j q.2) = (List.range p.metrics.length).map (fun k => v i j k) :=
    List.ext_getElem (by simp) (fun i h1 h2 => by simp)
  unfold selModel
  rw [positions_eq hd.datasets h1, positions_eq hd.models h2]
  simp only [List.mapM_cons, List.mapM_nil, hc, he, okB]
  rfl

theorem selMetric_eq (hd : Spec.AllDistinct s p) (hv : Spec.Holds p v) {i k : Nat} {d : D} {f : F} (h1 : p.datasets[i]? = some d)
    (h3 : p.metrics[k]? = some f) : selMetric s p d f = .ok (.one ((List.range p.models.length).map (fun j => v i j k))) := by
  have hc := mapM_index (l := List.range p.models.length) (f := fun j => cell p.data i j k) (fun j _ => v i j k) (fun j x hx => by
    have hj := lt_of_get hx
    rw [List.getElem?_range (by simpa using hj)] at hx
    cases hx
    unfold cell
    rw [hv i j k (lt_of_get h1) (by simpa using hj) (lt_of_get h3)])
  have he : (List.range p.models.length).zipIdx.map (fun q => v i q.2 k) = (List.range p.models.length).map (fun j => v i j k) :=
    List.ext_getElem (by simp) (fun i h1 h2 => by simp)
  unfold selMetric
  rw [positions_eq hd.datasets h1, positions_eq hd.metrics h3]
  simp only [List.mapM_cons, List.mapM_nil, hc, he, okB]
  rfl

theorem zipIdx_range {A B : Type} (l : List A) (g : Nat → B) : l.zipIdx.map (fun q => g q.2) = (List.range l.length).map g :=
  List.ext_getElem (by simp) (fun i h1 h2 => by simp)

/-- C114, `plot_model_performance`, proved part: one figure for each dataset, with its name; comparing models there is a row of bars (a colour) for
each model and a group for each metric, with the value of this metric for this model on this dataset (`C77_bars`: heights and places), the names of
the metrics under the groups (`C77_names`) and the names of the models beside their colours; comparing metrics, the other way round. Missing: labels
that compare equal. -/
theorem C114_bars_partial (nd : D → String) (nm : M → String) (nf : F → String) (hd : Spec.AllDistinct s p) (hv : Spec.Holds p v) :
    (∃ figs, plotModelPerformance (K := K) s nd nm nf p "models" = .ok figs ∧ figs.length = p.datasets.length ∧
      ∀ (i : Nat) d fig, p.datasets[i]? = some d → figs[i]? = some fig → fig.title = p.name ++ " for " ++ nd d ∧
        ∃ a, fig.axes = [a] ∧
          a.bars = barPlot ((List.range p.models.length).map (fun j => (List.range p.metrics.length).map (fun k => v i j k))) ∧
          a.ticks = (groupTicks p.models.length p.metrics.length).zip (p.metrics.map nf) ∧
          a.legend = some ((p.models.map nm).zip (List.range p.models.length))) ∧
    (∃ figs, plotModelPerformance (K := K) s nd nm nf p "metrics" = .ok figs ∧ figs.length = p.datasets.length ∧
      ∀ (i : Nat) d fig, p.datasets[i]? = some d → figs[i]? = some fig → fig.title = p.name ++ " for " ++ nd d ∧
        ∃ a, fig.axes = [a] ∧
          a.bars = barPlot ((List.range p.metrics.length).map (fun k => (List.range p.models.length).map (fun j => v i j k))) ∧
          a.ticks = (groupTicks p.metrics.length p.models.length).zip (p.models.map nm) ∧
          a.legend = some ((p.metrics.map nf).zip (List.range p.metrics.length))) := by
  constructor
  · unfold plotModelPerformance
    rw [if_pos rfl]
    refine mapM_facts0 (P := fun i d (fig : BarFigure K V) => fig.title = p.name ++ " for " ++ nd d ∧
        ∃ a, fig.axes = [a] ∧
          a.bars = barPlot ((List.range p.models.length).map (fun j => (List.range p.metrics.length).map (fun k => v i j k))) ∧
          a.ticks = (groupTicks p.models.length p.metrics.length).zip (p.metrics.map nf) ∧
          a.legend = some ((p.models.map nm).zip (List.range p.models.length))) p.datasets (fun i d hid => ?_)
    rw [mapM_index (l := p.models) (fun j _ => (List.range p.metrics.length).map (fun k => v i j k)) (fun j m hj => by
      rw [selModel_eq hd hv hid hj]; rfl), okB, zipIdx_range p.models (fun j => (List.range p.metrics.length).map (fun k => v i j k))]
    refine ⟨_, rfl, rfl, _, rfl, rfl, ?_, ?_⟩
    · simp [barAxes, withLegend]
    · simp [barAxes, withLegend, barPlot]
  · unfold plotModelPerformance
    rw [if_neg (by decide), if_pos rfl]
    refine mapM_facts0 (P := fun i d (fig : BarFigure K V) => fig.title = p.name ++ " for " ++ nd d ∧
        ∃ a, fig.axes = [a] ∧
          a.bars = barPlot ((List.range p.metrics.length).map (fun k => (List.range p.models.length).map (fun j => v i j k))) ∧
          a.ticks = (groupTicks p.metrics.length p.models.length).zip (p.models.map nm) ∧
          a.legend = some ((p.metrics.map nf).zip (List.range p.metrics.length))) p.datasets (fun i d hid => ?_)
    rw [mapM_index (l := p.metrics) (fun k _ => (List.range p.models.length).map (fun j => v i j k)) (fun k f hk => by
      rw [selMetric_eq hd hv hid hk]; rfl), okB, zipIdx_range p.metrics (fun k => (List.range p.models.length).map (fun j => v i j k))]
    refine ⟨_, rfl, rfl, _, rfl, rfl, ?_, ?_⟩
    · simp [barAxes, withLegend]
    · simp [barAxes, withLegend, barPlot]

end

section
variable {s : Same D M F} {p : Perf D M F (List V)} {v : Nat → Nat → Nat → List V}

/-- C114, `plot_query_class_performance(compare="models")`, proved part: a subplot for each metric with its name, in it a row of bars for each model
and a group for each class; the legend is at the last subplot. Missing: labels that compare equal. -/
theorem C114_classes_models_partial (nd : D → String) (nm : M → String) (nf : F → String) (classes : List String) (hd : Spec.AllDistinct s p)
    (hv : Spec.Holds p v) (hm : p.metrics ≠ []) :
    ∃ figs, plotQueryClass (K := K) s nd nm nf classes p "models" = .ok figs ∧ figs.length = p.datasets.length ∧
      ∀ (i : Nat) d fig, p.datasets[i]? = some d → figs[i]? = some fig → fig.title = p.name ++ " for " ++ nd d ∧ fig.axes.length = p.metrics.length ∧
        ∀ (k : Nat) f a, p.metrics[k]? = some f → fig.axes[k]? = some a → a.ylabel = nf f ∧
          a.bars = barPlot ((List.range p.models.length).map (fun j => v i j k)) ∧
          a.ticks = (groupTicks p.models.length classes.length).zip classes ∧
          a.legend = if k + 1 = p.metrics.length then some ((p.models.map nm).zip (List.range p.models.length)) else none := by
  unfold plotQueryClass
  rw [if_neg (by decide), if_pos rfl]
  refine mapM_facts0 (P := fun i d (fig : BarFigure K V) => fig.title = p.name ++ " for " ++ nd d ∧ fig.axes.length = p.metrics.length ∧
        ∀ (k : Nat) f a, p.metrics[k]? = some f → fig.axes[k]? = some a → a.ylabel = nf f ∧
          a.bars = barPlot ((List.range p.models.length).map (fun j => v i j k)) ∧
          a.ticks = (groupTicks p.models.length classes.length).zip classes ∧
          a.legend = if k + 1 = p.metrics.length then some ((p.models.map nm).zip (List.range p.models.length)) else none)
    p.datasets (fun i d hid => ?_)
  have hax := mapM_index (l := p.metrics) (f := fun f => do
      let table ← p.models.mapM (fun m => do oneRow (← sel s p d m f))
      pure (barAxes (K := K) table (p.models.map nm) classes (nf f)))
    (fun k f => barAxes ((List.range p.models.length).map (fun j => v i j k)) (p.models.map nm) classes (nf f)) (fun k f hk => by
      rw [mapM_index (l := p.models) (fun j _ => v i j k) (fun j m hj => by rw [sel_eq hd hv hid hj hk]; rfl), okB,
        zipIdx_range p.models (fun j => v i j k)]
      rfl)
  rw [subplots_ok hm, okB, hax, okB]
  refine ⟨_, rfl, rfl, by simp [onLast_length], fun k f a hk ha => ?_⟩
  obtain ⟨f', hf', ⟨hl, rfl⟩ | ⟨hl, rfl⟩⟩ := lastOf (g := fun k f => barAxes ((List.range p.models.length).map (fun j => v i j k)) (p.models.map nm) classes (nf f)) ha
  · cases Option.some.inj (hk.symm.trans hf')
    refine ⟨rfl, rfl, by simp [barAxes, withLegend], ?_⟩
    rw [if_pos hl]
    simp [barAxes, withLegend, barPlot]
  · cases Option.some.inj (hk.symm.trans hf')
    refine ⟨rfl, rfl, by simp [barAxes], ?_⟩
    rw [if_neg (by omega)]
    rfl

/-- C114, `plot_query_class_performance(compare="metrics")`, proved part: a subplot for each model. Missing: as above, and the names of all models
but the last (`C114_violated_classes`), after which the whole figure is named. -/
theorem C114_classes_metrics_partial (nd : D → String) (nm : M → String) (nf : F → String) (classes : List String) (hd : Spec.AllDistinct s p)
    (hv : Spec.Holds p v) {m₀ : M} (hm : p.models.getLast? = some m₀) :
    ∃ figs, plotQueryClass (K := K) s nd nm nf classes p "metrics" = .ok figs ∧ figs.length = p.datasets.length ∧
      ∀ (i : Nat) d fig, p.datasets[i]? = some d → figs[i]? = some fig → fig.title = p.name ++ " for " ++ nd d ++ " and model " ++ nm m₀ ∧
        fig.axes.length = p.models.length ∧ ∀ (j : Nat) m a, p.models[j]? = some m → fig.axes[j]? = some a → a.ylabel = "Metric Score" ∧
          a.bars = barPlot ((List.range p.metrics.length).map (fun k => v i j k)) ∧
          a.ticks = (groupTicks p.metrics.length classes.length).zip classes ∧
          a.legend = if j + 1 = p.models.length then some ((p.metrics.map nf).zip (List.range p.metrics.length)) else none := by
  have hne : p.models ≠ [] := by
    intro h
    rw [h] at hm
    cases hm
  unfold plotQueryClass
  rw [if_pos rfl]
  refine mapM_facts0 (P := fun i d (fig : BarFigure K V) => fig.title = p.name ++ " for " ++ nd d ++ " and model " ++ nm m₀ ∧
        fig.axes.length = p.models.length ∧ ∀ (j : Nat) m a, p.models[j]? = some m → fig.axes[j]? = some a → a.ylabel = "Metric Score" ∧
          a.bars = barPlot ((List.range p.metrics.length).map (fun k => v i j k)) ∧
          a.ticks = (groupTicks p.metrics.length classes.length).zip classes ∧
          a.legend = if j + 1 = p.models.length then some ((p.metrics.map nf).zip (List.range p.metrics.length)) else none)
    p.datasets (fun i d hid => ?_)
  have hax := mapM_index (l := p.models) (f := fun m => do
      let table ← p.metrics.mapM (fun f => do oneRow (← sel s p d m f))
      pure (barAxes (K := K) table (p.metrics.map nf) classes "Metric Score"))
    (fun j _ => barAxes ((List.range p.metrics.length).map (fun k => v i j k)) (p.metrics.map nf) classes "Metric Score") (fun j m hj => by
      rw [mapM_index (l := p.metrics) (fun k _ => v i j k) (fun k f hk => by rw [sel_eq hd hv hid hj hk]; rfl), okB,
        zipIdx_range p.metrics (fun k => v i j k)]
      rfl)
  rw [subplots_ok hne, okB, hax, okB]
  refine ⟨_, rfl, by rw [hm]; rfl, by simp [onLast_length], fun j m a hj ha => ?_⟩
  obtain ⟨m', hm', ⟨hl, rfl⟩ | ⟨hl, rfl⟩⟩ := lastOf (g := fun j (_ : M) => barAxes ((List.range p.metrics.length).map (fun k => v i j k)) (p.metrics.map nf) classes "Metric Score") ha
  · refine ⟨rfl, rfl, by simp [barAxes, withLegend], ?_⟩
    rw [if_pos hl]
    simp [barAxes, withLegend, barPlot]
  · refine ⟨rfl, rfl, by simp [barAxes], ?_⟩
    rw [if_neg (by omega)]
    rfl

/-- C114 is violated by `plot_query_class_performance(compare="metrics")`: the figures depend only on the name of the last model. -/
theorem C114_violated_classes (nd : D → String) {nm nm' : M → String} (nf : F → String) (classes : List String)
    (h : ∀ m, p.models.getLast? = some m → nm m = nm' m) :
    plotQueryClass (K := K) s nd nm nf classes p "metrics" = plotQueryClass (K := K) s nd nm' nf classes p "metrics" := by
  have hx : (p.models.getLast?.map nm).getD "" = (p.models.getLast?.map nm').getD "" := by
    cases hl : p.models.getLast? with
    | none => rfl
    | some f => simp [h f hl]
  simp only [plotQueryClass, if_true, hx]

end
end

/-! ### Names left out, examples -/

/-- Two datasets, two models, a metric; the datasets are told apart by their numbers. -/
def examplePerf : Perf Nat Nat Nat (List (Option ℚ)) :=
  ⟨"Tree-wise", [1, 2], [10, 20], [7], [[[[some (1/2), some (3/4), none]], [[some (1/4), some 0, some (1/4)]]],
    [[[some 0, some (1/5), some (2/5)]], [[none, some (1/3), some (1/3)]]]]⟩

/-- Comparison by identity. -/
def byIdentity : Same Nat Nat Nat := ⟨(· == ·), (· == ·), (· == ·)⟩

theorem distinct_of_nodup {l : List Nat} (h : l.Nodup) : Spec.Distinct (· == ·) l := by
  intro i j x y hi hj
  rw [beq_iff_eq]
  constructor
  · rintro rfl
    exact (List.getElem?_inj (lt_of_get hi) h).1 (hi.trans hj.symm)
  · rintro rfl
    exact Option.some.inj (hi.symm.trans hj)

/-- The hypotheses of the theorems hold for the example. -/
example : Spec.AllDistinct byIdentity examplePerf ∧
    Spec.Holds examplePerf (fun i j k => (((examplePerf.data[i]?).bind (·[j]?)).bind (·[k]?)).getD []) :=
  ⟨⟨distinct_of_nodup (by decide), distinct_of_nodup (by decide), distinct_of_nodup (by decide)⟩, by
    intro i j k hi hj hk
    simp only [examplePerf, List.length_cons, List.length_nil, Nat.zero_add, Nat.reduceAdd] at hi hj hk
    interval_cases i <;> interval_cases j <;> interval_cases k <;> rfl⟩

/-- C114 is violated for models whose names start with an underscore: two curves are drawn, the legend has only one of them. -/
theorem C114_violated_hidden :
    (plotTreeWise (X := Nat) byIdentity (fun d => toString d) (fun m => if m = 10 then "_base" else "new") (fun _ => "NDCG") [1, 2, 3] examplePerf "models").map
      (fun figs => figs.map (fun f => f.axes.map (fun a => (a.curves.map (·.label), a.legend)))) =
    .ok [[(["_base", "new"], some [("new", some 1), ("Max", none)])], [(["_base", "new"], some [("new", some 1), ("Max", none)])]] := by
  set_option synthInstance.maxSize 1000 in
  decide +kernel

/-- C114: two datasets that compare equal (the numbers modulo 1), the case of `C114_violated_equal`. -/
example : plotTreeWise (K := ℚ) ⟨fun _ _ => true, (· == ·), (· == ·)⟩ (fun d => toString d) (fun m => toString m) (fun _ => "NDCG") [1, 2, 3] examplePerf "metrics" =
    .error .valueError := by decide +kernel

/-- C114: the bars of two datasets that compare equal cannot be drawn: `plot_model_performance` raises `ValueError`, whatever is compared. -/
theorem C114_violated_bars_equal :
    plotModelPerformance (K := ℚ) ⟨fun _ _ => true, (· == ·), (· == ·)⟩ (fun d => toString d) (fun m => toString m) (fun _ => "NDCG") examplePerf "models" =
      .error .valueError ∧
    plotModelPerformance (K := ℚ) ⟨fun _ _ => true, (· == ·), (· == ·)⟩ (fun d => toString d) (fun m => toString m) (fun _ => "NDCG") examplePerf "metrics" =
      .error .valueError := by decide +kernel

/-- C114: nothing to draw in a figure. A table with a dataset but without the models or metrics of the subplots is refused with `ValueError`. -/
theorem C114_empty {D M F X K : Type} [LinearOrder K] (s : Same D M F) (nd : D → String) (nm : M → String) (nf : F → String) (ks : List X) {p : Perf D M F (List (Option K))}
    (hd : p.datasets ≠ []) :
    (p.models = [] → plotTreeWise s nd nm nf ks p "metrics" = .error .valueError) ∧
    (p.metrics = [] → plotTreeWise s nd nm nf ks p "models" = .error .valueError) ∧
    (p.models ≠ [] → p.metrics = [] → plotTreeWise s nd nm nf ks p "datasets" = .error .valueError) := by
  obtain ⟨d, ds, hds⟩ := List.exists_cons_of_ne_nil hd
  refine ⟨fun h => ?_, fun h => ?_, fun hm h => ?_⟩
  · unfold plotTreeWise
    rw [if_pos rfl, hds, h]
    rfl
  · unfold plotTreeWise
    rw [if_neg (by decide), if_pos rfl, hds, h]
    rfl
  · obtain ⟨m, ms, hms⟩ := List.exists_cons_of_ne_nil hm
    unfold plotTreeWise
    rw [if_neg (by decide), if_neg (by decide), if_pos rfl, hms, h]
    rfl

/-- C114: an array with several columns is drawn as one curve for each column, each with the next colour and the same name. -/
theorem C114_columns {X V : Type} (a : Axes X V) (label : String) {xs : List X} {rows : List (List V)} {n : Nat} (hl : xs.length = rows.length) (hne : rows ≠ [])
    (hn : ∀ r ∈ rows, r.length = n) :
    ∃ a', a.plot xs (.several rows) label = .ok a' ∧ a'.curves.length = a.curves.length + n ∧ (∀ i < a.curves.length, a'.curves[i]? = a.curves[i]?) ∧
      ∀ c < n, ∃ points, a'.curves[a.curves.length + c]? = some ⟨label, a.curves.length + c, points⟩ ∧ points.length = xs.length ∧
        ∀ (t : Nat) x r v, xs[t]? = some x → rows[t]? = some r → r[c]? = some v → points[t]? = some (x, v) := by
  obtain ⟨r0, rs, hr⟩ := List.exists_cons_of_ne_nil hne
  have h0 : (rows.head?.map List.length).getD 0 = n := by
    rw [hr]
    exact hn r0 (by simp [hr])
  unfold Axes.plot lines
  simp only
  rw [if_pos hl, h0]
  refine ⟨_, rfl, by simp, fun i hi => by simp [List.getElem?_append_left hi], fun c hc => ?_⟩
  have hcol : ∀ rows : List (List V), (∀ r ∈ rows, r.length = n) → (rows.filterMap (·[c]?)).length = rows.length ∧
      ∀ (t : Nat) r, rows[t]? = some r → (rows.filterMap (·[c]?))[t]? = r[c]? := by
    intro rows
    induction rows with
    | nil => exact fun _ => ⟨rfl, fun t r h => by simp at h⟩
    | cons r rows ih =>
      intro h
      obtain ⟨h1, h2⟩ := ih (fun r hr => h r (List.mem_cons_of_mem _ hr))
      have hlt : c < r.length := by rw [h r (by simp)]; exact hc
      have e : r[c]? = some r[c] := List.getElem?_eq_getElem hlt
      refine ⟨by simp [List.filterMap_cons, e, h1], fun t r' ht => ?_⟩
      rw [List.filterMap_cons, e]
      cases t with
      | zero => simp only [List.getElem?_cons_zero, Option.some.injEq] at ht ⊢; rw [← ht, e]
      | succ t => simp only [List.getElem?_cons_succ] at ht ⊢; exact h2 t r' ht
  obtain ⟨h1, h2⟩ := hcol rows hn
  refine ⟨xs.zip (rows.filterMap (·[c]?)), ?_, by simp [h1, hl], fun t x r v hx hr hv => ?_⟩
  · rw [List.getElem?_append_right (by omega)]
    simp [hc]
  · rw [List.getElem?_zip_eq_some]
    exact ⟨hx, by rw [h2 t r hr, hv]⟩

/-- C114: two columns. -/
example : ((⟨[⟨"a", 0, [(1, 5)]⟩], [], "", "", "", none⟩ : Axes Nat Nat).plot [1, 2] (.several [[3, 4], [5, 6]]) "b").map (·.curves) =
    .ok [⟨"a", 0, [(1, 5)]⟩, ⟨"b", 1, [(1, 3), (2, 5)]⟩, ⟨"b", 2, [(1, 4), (2, 6)]⟩] := by decide

end Verif.Props
