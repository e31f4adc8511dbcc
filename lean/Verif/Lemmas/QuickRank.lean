/-
Lemmas for the QuickRank format.
-/
import Verif.Spec.QuickRank
import Verif.Lemmas.Loader

namespace Verif
open Spec
namespace Ensemble
variable {F : Type} {m : Ensemble F}

/-- The events inside the `split` element of a tree. -/
def inner : Spec.Tree F → List (XmlEvent F)
  | .leaf v => [.start "output" [], .finish "output" (some (.num v))]
  | .node f t l r => [.start "feature" [], .finish "feature" (some (.int (f + 1 : Nat))), .start "threshold" [],
      .finish "threshold" (some (.num t))] ++
      (.start "split" [("pos", .str "left")] :: (inner l ++ [.finish "split" none])) ++
      (.start "split" [("pos", .str "right")] :: (inner r ++ [.finish "split" none]))

theorem splitXml_events (attrs : List (String × Text F)) (t : Spec.Tree F) :
    (splitXml attrs t).events = .start "split" attrs :: (inner t ++ [.finish "split" none]) := by
  induction t generalizing attrs with
  | leaf v => simp [splitXml, Xml.events, Xml.eventsList, textElem, inner]
  | node f t l r ihl ihr => simp [splitXml, Xml.events, Xml.eventsList, textElem, inner, ihl, ihr]

/-- Only nodes from `c` to `c + n - 1` have changed. -/
structure Within (N c n : Nat) (m m' : Ensemble F) : Prop where
  nTrees : m'.nTrees = m.nTrees
  nNodes : m'.nNodes = m.nNodes
  root : m'.root = m.root
  weight : m'.weight = m.weight
  len : NodeLen m' N
  agree : ∀ i, i < c ∨ c + n ≤ i → Agree m m' i

theorem Within.trans {N c n c1 n1 c2 n2 : Nat} {m m' m'' : Ensemble F} (h : Within N c1 n1 m m') (h' : Within N c2 n2 m' m'')
    (h1 : c ≤ c1) (h2 : c ≤ c2) (h3 : c1 + n1 ≤ c + n) (h4 : c2 + n2 ≤ c + n) : Within N c n m m'' :=
  ⟨by rw [h'.nTrees, h.nTrees], by rw [h'.nNodes, h.nNodes], by rw [h'.root, h.root], by rw [h'.weight, h.weight], h'.len,
    fun i hi => (h.agree i (by omega)).trans (h'.agree i (by omega))⟩

theorem foldlM_ok_append {σ ε : Type} {step : σ → ε → Except PyErr σ} {s s' : σ} {a b : List ε}
    (h : a.foldlM step s = .ok s') : (a ++ b).foldlM step s = b.foldlM step s' := by
  rw [List.foldlM_append, h]
  rfl

theorem foldlM_ok_cons {σ ε : Type} {step : σ → ε → Except PyErr σ} {s s' : σ} {a : ε} {b : List ε}
    (h : step s a = .ok s') : (a :: b).foldlM step s = b.foldlM step s' := by
  rw [List.foldlM_cons, h]
  rfl

theorem foldlM_ok_nil {σ ε : Type} {step : σ → ε → Except PyErr σ} {s : σ} : ([] : List ε).foldlM step s = .ok s := rfl

theorem qrStep_feature {s : QrState F} {c f : Nat} (hc : s.currNode = c) (hf : f < 2 ^ 15) (hlen : c < s.m.feature.length) :
    qrStep s (.finish "feature" (some (.int (f + 1 : Nat)))) = .ok { s with m := { s.m with feature := s.m.feature.set c (f : Int) } } := by
  unfold qrStep
  simp only [textInt, hc, bind, Except.bind, pure, Except.pure]
  rw [show (((f + 1 : Nat) : Int) - 1) = (f : Int) by omega, setFeature_ok hf hlen]
  rfl

theorem qrStep_value {s : QrState F} {c : Nat} {v : F} {tag : String} (htag : tag = "threshold" ∨ tag = "output")
    (hc : s.currNode = c) (hlen : c < s.m.value.length) :
    qrStep s (.finish tag (some (.num v))) = .ok { s with m := { s.m with value := s.m.value.set c v } } := by
  unfold qrStep
  simp only [textNum, hc, bind, Except.bind, pure, Except.pure]
  rcases htag with rfl | rfl <;> rw [setValue_ok _ hlen] <;> rfl

theorem qrStep_left {s : QrState F} {c p : Nat} {st : List Int} (hc : s.currNode = c) (hst : s.stack = (p : Int) :: st)
    (hlen : p < s.m.left.length) :
    qrStep s (.start "split" [("pos", .str "left")]) =
      .ok { s with m := { s.m with left := s.m.left.set p ((c + 1 : Nat) : Int) }, currNode := ((c + 1 : Nat) : Int), stack := ((c + 1 : Nat) : Int) :: (p : Int) :: st } := by
  unfold qrStep
  simp only [attrib, hc, hst, bind, Except.bind, pure, Except.pure]
  have := setLeft_ok (m := s.m) ((c + 1 : Nat) : Int) hlen
  push_cast at this ⊢
  simp [this]

theorem qrStep_right {s : QrState F} {c p : Nat} {st : List Int} (hc : s.currNode = c) (hst : s.stack = (p : Int) :: st)
    (hlen : p < s.m.right.length) :
    qrStep s (.start "split" [("pos", .str "right")]) =
      .ok { s with m := { s.m with right := s.m.right.set p ((c + 1 : Nat) : Int) }, currNode := ((c + 1 : Nat) : Int), stack := ((c + 1 : Nat) : Int) :: (p : Int) :: st } := by
  unfold qrStep
  simp only [attrib, hc, hst, bind, Except.bind, pure, Except.pure]
  have := setRight_ok (m := s.m) ((c + 1 : Nat) : Int) hlen
  push_cast at this ⊢
  simp [this]

theorem qrStep_pop {s : QrState F} {p : Int} {st : List Int} (hst : s.stack = p :: st) (text : Option (Text F)) :
    qrStep s (.finish "split" text) = .ok { s with stack := st } := by
  unfold qrStep
  simp [hst]
  rfl

theorem qrStep_skip_start {s : QrState F} {tag : String} (attrs : List (String × Text F)) (h1 : tag ≠ "tree") (h2 : tag ≠ "split") :
    qrStep s (.start tag attrs) = .ok s := by
  unfold qrStep
  simp only [h1, h2, if_false]
  rfl

theorem qrStep_skip_finish {s : QrState F} {tag : String} (text : Option (Text F)) (h1 : tag ≠ "split") (h2 : tag ≠ "feature")
    (h3 : tag ≠ "threshold") (h4 : tag ≠ "output") : qrStep s (.finish tag text) = .ok s := by
  unfold qrStep
  simp only [h1, h2, h3, h4, if_false, or_self]
  rfl

theorem qr_inner (N : Nat) (t : Spec.Tree F) (hf : ∀ f ∈ t.features, f < 2 ^ 15) (m : Ensemble F) (ct : Int) (c : Nat) (st : List Int)
    (hlen : NodeLen m N) (hc : c + t.numNodes ≤ N) (hblank : ∀ i, c ≤ i → i < c + t.numNodes → Blank m i) :
    ∃ m', (inner t).foldlM qrStep ⟨m, ct, (c : Int), (c : Int) :: st⟩ = .ok ⟨m', ct, ((c + t.numNodes - 1 : Nat) : Int), (c : Int) :: st⟩ ∧
      Within N c t.numNodes m m' ∧ Encodes m' c t (List.range' c t.numNodes) := by
  induction t generalizing m c st with
  | leaf v =>
    simp only [Spec.Tree.numNodes] at hc hblank ⊢
    refine ⟨{ m with value := m.value.set c v }, ?_, ?_, ?_⟩
    · rw [inner, foldlM_ok_cons (qrStep_skip_start _ (by decide) (by decide)),
        foldlM_ok_cons (qrStep_value (c := c) (Or.inr rfl) rfl (by simp only; rw [hlen.value]; omega))]
      rfl
    · refine ⟨rfl, rfl, rfl, rfl, ⟨hlen.left, hlen.right, by simp [hlen.value], hlen.feature⟩, ?_⟩
      intro i hi
      refine ⟨rfl, rfl, ?_, rfl⟩
      simp only
      rw [List.getElem?_set_ne (by omega)]
    · have hb := hblank c le_rfl (by omega)
      refine .leaf hb.left hb.right hb.feature ?_
      simp only
      rw [List.getElem?_set_self (by rw [hlen.value]; omega)]
  | node f th l r ihl ihr =>
    simp only [Spec.Tree.numNodes] at hc hblank ⊢
    simp only [Spec.Tree.features, List.mem_cons, List.mem_append] at hf
    have hlpos := Tree.numNodes_pos l
    have hrpos := Tree.numNodes_pos r
    -- feature, threshold, left link
    obtain ⟨m3, hm3⟩ : ∃ m3 : Ensemble F, m3 = { m with feature := m.feature.set c (f : Int), value := m.value.set c th, left := m.left.set c ((c + 1 : Nat) : Int) } := ⟨_, rfl⟩
    have w3 : Within N c 1 m m3 := by
      subst hm3
      refine ⟨rfl, rfl, rfl, rfl, ⟨by simp [hlen.left], hlen.right, by simp [hlen.value], by simp [hlen.feature]⟩, ?_⟩
      intro i hi
      refine ⟨?_, rfl, ?_, ?_⟩ <;> simp only <;> rw [List.getElem?_set_ne (by omega)]
    have b3 : ∀ i, c < i → i < c + (1 + l.numNodes + r.numNodes) → Blank m3 i :=
      fun i h1 h2 => (hblank i (by omega) h2).agree (w3.agree i (by omega))
    obtain ⟨m4, e4, w4, enc4⟩ := ihl (fun g hg => hf g (by simp [hg])) m3 (c + 1) ((c : Int) :: st) w3.len (by omega)
      (fun i h1 h2 => b3 i (by omega) (by omega))
    -- right link
    obtain ⟨m5, hm5⟩ : ∃ m5 : Ensemble F, m5 = { m4 with right := m4.right.set c ((c + l.numNodes + 1 : Nat) : Int) } := ⟨_, rfl⟩
    have w5 : Within N c 1 m4 m5 := by
      subst hm5
      refine ⟨rfl, rfl, rfl, rfl, ⟨w4.len.left, by simp [w4.len.right], w4.len.value, w4.len.feature⟩, ?_⟩
      intro i hi
      refine ⟨rfl, ?_, rfl, rfl⟩
      simp only
      rw [List.getElem?_set_ne (by omega)]
    have b5 : ∀ i, c + l.numNodes < i → i < c + (1 + l.numNodes + r.numNodes) → Blank m5 i :=
      fun i h1 h2 => ((b3 i (by omega) h2).agree (w4.agree i (by omega))).agree (w5.agree i (by omega))
    obtain ⟨m6, e6, w6, enc6⟩ := ihr (fun g hg => hf g (by simp [hg])) m5 (c + l.numNodes + 1) ((c : Int) :: st) w5.len (by omega)
      (fun i h1 h2 => b5 i (by omega) (by omega))
    have wall : Within N c (1 + l.numNodes + r.numNodes) m m6 := by
      have w34 := w3.trans w4 (c := c) (n := 1 + l.numNodes + r.numNodes) (by omega) (by omega) (by omega) (by omega)
      have w35 := w34.trans w5 (c := c) (n := 1 + l.numNodes + r.numNodes) (by omega) (by omega) (by omega) (by omega)
      exact w35.trans w6 (c := c) (n := 1 + l.numNodes + r.numNodes) (by omega) (by omega) (by omega) (by omega)
    refine ⟨m6, ?_, wall, ?_⟩
    · rw [inner, List.append_assoc, List.cons_append, List.cons_append, List.cons_append, List.cons_append, List.nil_append,
        foldlM_ok_cons (qrStep_skip_start _ (by decide) (by decide)),
        foldlM_ok_cons (qrStep_feature (c := c) rfl (hf f (by simp)) (by simp only; rw [hlen.feature]; omega)),
        foldlM_ok_cons (qrStep_skip_start _ (by decide) (by decide)),
        foldlM_ok_cons (qrStep_value (c := c) (Or.inl rfl) rfl (by simp only; rw [hlen.value]; omega)),
        List.cons_append, foldlM_ok_cons (qrStep_left (c := c) (p := c) rfl rfl (by simp only; rw [hlen.left]; omega))]
      simp only
      rw [← hm3, List.append_assoc, foldlM_ok_append e4, List.cons_append, foldlM_ok_cons (qrStep_pop rfl none), List.nil_append,
        foldlM_ok_cons (qrStep_right (c := c + l.numNodes) (p := c) (by simp only; congr 1; omega) rfl
          (by simp only; rw [w4.len.right]; omega))]
      simp only
      rw [← hm5, foldlM_ok_append e6, foldlM_ok_cons (qrStep_pop rfl none), foldlM_ok_nil]
      simp only [Except.ok.injEq, QrState.mk.injEq, true_and, and_true]
      congr 1
      omega
    · have hl3 : m3.left[c]? = some ((c + 1 : Nat) : Int) := by
        subst hm3; simp only; rw [List.getElem?_set_self (by rw [hlen.left]; omega)]
      have hf3 : m3.feature[c]? = some (f : Int) := by
        subst hm3; simp only; rw [List.getElem?_set_self (by rw [hlen.feature]; omega)]
      have hv3 : m3.value[c]? = some th := by
        subst hm3; simp only; rw [List.getElem?_set_self (by rw [hlen.value]; omega)]
      have hr5 : m5.right[c]? = some ((c + l.numNodes + 1 : Nat) : Int) := by
        subst hm5; simp only; rw [List.getElem?_set_self (by rw [w4.len.right]; omega)]
      have a4 := w4.agree c (by omega)
      have a6 := w6.agree c (by omega)
      have h5l : m5.left = m4.left := by subst hm5; rfl
      have h5f : m5.feature = m4.feature := by subst hm5; rfl
      have h5v : m5.value = m4.value := by subst hm5; rfl
      have hrange : List.range' c (1 + l.numNodes + r.numNodes) =
          c :: (List.range' (c + 1) l.numNodes ++ List.range' (c + l.numNodes + 1) r.numNodes) := by
        rw [show 1 + l.numNodes + r.numNodes = (l.numNodes + r.numNodes) + 1 by omega, List.range'_succ, ← List.range'_append_1,
          show c + 1 + l.numNodes = c + l.numNodes + 1 by omega]
      rw [hrange]
      refine .node (l := c + 1) (r := c + l.numNodes + 1) ?_ ?_ ?_ ?_ ?_ enc6
      · rw [a6.left, h5l, a4.left, hl3]
      · rw [a6.right, hr5]
      · rw [a6.feature, h5f, a4.feature, hf3]
      · rw [a6.value, h5v, a4.value, hv3]
      · refine encodes_agree enc4 (fun j hj => ?_)
        rw [List.mem_range'_1] at hj
        exact (w5.agree j (by omega)).trans (w6.agree j (by omega))

/-- The element of one tree. -/
def treeElem (k : Nat) (t : Spec.Tree F) (w : F) : Xml F :=
  .elem "tree" [("id", .int (k + 1 : Nat)), ("weight", .num w)] none [splitXml [] t]

theorem qr_tree {fo : Forest F} {k : Nat} {m : Ensemble F} (h : LoadedTrees fo k m) {t : Spec.Tree F} {w : F}
    (hk : fo[k]? = some (t, w)) (hf : ∀ f ∈ t.features, f < 2 ^ 15) :
    ∃ m', (treeElem k t w).events.foldlM qrStep ⟨m, (k : Int) - 1, (treeStart fo k : Int) - 1, []⟩ =
      .ok ⟨m', ((k + 1 : Nat) : Int) - 1, (treeStart fo (k + 1) : Int) - 1, []⟩ ∧ LoadedTrees fo (k + 1) m' := by
  have hklt : k < fo.length := (List.getElem?_eq_some_iff.1 hk).1
  have hstart := treeStart_succ hk
  have hle := treeStart_le fo (k + 1)
  have hpos := Tree.numNodes_pos t
  obtain ⟨m1, hm1⟩ : ∃ m1 : Ensemble F, m1 = { m with root := m.root.set k (treeStart fo k : Int), weight := m.weight.set k w } := ⟨_, rfl⟩
  have hl1 : NodeLen m1 (Forest.numNodes fo) := by
    subst hm1; exact ⟨h.len.left, h.len.right, h.len.value, h.len.feature⟩
  have ha1 : ∀ i, Agree m m1 i := by subst hm1; exact fun i => ⟨rfl, rfl, rfl, rfl⟩
  obtain ⟨m2, e2, w2, enc2⟩ := qr_inner (Forest.numNodes fo) t hf m1 (k : Int) (treeStart fo k) [] hl1 (by omega)
    (fun i h1 h2 => (h.blank i h1 (by omega)).agree (ha1 i))
  refine ⟨m2, ?_, ?_⟩
  · have hstep : qrStep ⟨m, (k : Int) - 1, (treeStart fo k : Int) - 1, []⟩ (.start "tree" [("id", .int (k + 1 : Nat)), ("weight", .num w)]) =
        .ok ⟨m1, (k : Int), (treeStart fo k : Int), []⟩ := by
      unfold qrStep
      simp only [weightAttr, attrib, Int.sub_add_cancel, bind, Except.bind, pure, Except.pure,
        setRoot_ok _ (show k < m.root.length by rw [h.root_len]; exact hklt)]
      have := setWeight_ok (m := { m with root := m.root.set k (treeStart fo k : Int) }) w
        (show k < m.weight.length by rw [h.weight_len]; exact hklt)
      simp [this, hm1]
    have hev : (treeElem k t w).events = .start "tree" [("id", .int (k + 1 : Nat)), ("weight", .num w)] ::
        (.start "split" [] :: (inner t ++ [.finish "split" none, .finish "tree" none])) := by
      unfold treeElem
      rw [Xml.events, Xml.eventsList, Xml.eventsList, splitXml_events]
      simp
    have hpush : qrStep (⟨m1, (k : Int), (treeStart fo k : Int), []⟩ : QrState F) (.start "split" []) =
        .ok ⟨m1, (k : Int), (treeStart fo k : Int), [(treeStart fo k : Int)]⟩ := rfl
    rw [hev, foldlM_ok_cons hstep, foldlM_ok_cons hpush, foldlM_ok_append e2, foldlM_ok_cons (qrStep_pop rfl none),
      foldlM_ok_cons (qrStep_skip_finish none (by decide) (by decide) (by decide) (by decide)), foldlM_ok_nil]
    simp only [Except.ok.injEq, QrState.mk.injEq, true_and, and_true]
    omega
  · refine h.step hk ?_ ?_ w2.len ?_ ?_ ?_ enc2 (List.Perm.refl _)
    · rw [w2.nTrees, hm1]
    · rw [w2.nNodes, hm1]
    · rw [w2.root, hm1]
    · rw [w2.weight, hm1]
    · intro i hi
      exact (ha1 i).trans (w2.agree i (by omega))

theorem qr_forest {fo : Forest F} (hf : ∀ p ∈ fo, ∀ f ∈ p.1.features, f < 2 ^ 15) (ps : Forest F) (k : Nat) (hps : fo.drop k = ps)
    (m : Ensemble F) (h : LoadedTrees fo k m) :
    ∃ m', (Xml.eventsList (forestXml k ps)).foldlM qrStep ⟨m, (k : Int) - 1, (treeStart fo k : Int) - 1, []⟩ =
      .ok ⟨m', ((k + ps.length : Nat) : Int) - 1, (treeStart fo (k + ps.length) : Int) - 1, []⟩ ∧ LoadedTrees fo (k + ps.length) m' := by
  induction ps generalizing k m with
  | nil => exact ⟨m, rfl, h⟩
  | cons p ps ih =>
    obtain ⟨t, w⟩ := p
    have hk : fo[k]? = some (t, w) := by
      have := congrArg (·[0]?) hps
      simpa using this
    obtain ⟨m1, e1, h1⟩ := qr_tree h hk (hf (t, w) (List.mem_of_getElem? hk))
    obtain ⟨m2, e2, h2⟩ := ih (k + 1) (by rw [← List.drop_drop, hps]; rfl) m1 h1
    refine ⟨m2, ?_, ?_⟩
    · rw [forestXml, Xml.eventsList]
      have e1' : (Xml.elem "tree" [("id", .int (k + 1 : Nat)), ("weight", .num w)] none [splitXml [] t] : Xml F).events.foldlM qrStep
          ⟨m, (k : Int) - 1, (treeStart fo k : Int) - 1, []⟩ = _ := e1
      rw [foldlM_ok_append e1', e2, List.length_cons, show k + 1 + ps.length = k + (ps.length + 1) by omega]
    · rw [List.length_cons, show k + (ps.length + 1) = k + 1 + ps.length by omega]
      exact h2

/-- The tags of the `end` events. -/
def endTags (es : List (XmlEvent F)) : List String := es.filterMap (fun e => match e with | .finish tag _ => some tag | _ => none)

theorem endTags_append (a b : List (XmlEvent F)) : endTags (a ++ b) = endTags a ++ endTags b := List.filterMap_append ..

theorem endTags_inner (t : Spec.Tree F) :
    (endTags (inner t)).count "tree" = 0 ∧
      (endTags (inner t)).count "feature" + (endTags (inner t)).count "output" = t.numNodes := by
  induction t with
  | leaf v => exact ⟨rfl, rfl⟩
  | node f th l r ihl ihr =>
    have e : endTags (inner (.node f th l r)) = ["feature", "threshold"] ++ (endTags (inner l) ++ ["split"]) ++
        (endTags (inner r) ++ ["split"]) := by
      simp [inner, endTags]
    have c1 : ["feature", "threshold"].count "tree" = 0 := by decide
    have c2 : ["split"].count "tree" = 0 := by decide
    have c3 : ["feature", "threshold"].count "feature" = 1 := by decide
    have c4 : ["feature", "threshold"].count "output" = 0 := by decide
    have c5 : ["split"].count "feature" = 0 := by decide
    have c6 : ["split"].count "output" = 0 := by decide
    simp only [e, List.count_append, c1, c2, c3, c4, c5, c6, Spec.Tree.numNodes]
    omega

theorem endTags_forest (ps : Forest F) (k : Nat) :
    (endTags (Xml.eventsList (forestXml k ps))).count "tree" = ps.length ∧
    (endTags (Xml.eventsList (forestXml k ps))).count "feature" + (endTags (Xml.eventsList (forestXml k ps))).count "output" =
      Forest.numNodes ps := by
  induction ps generalizing k with
  | nil => simp [forestXml, Xml.eventsList, endTags, Forest.numNodes]
  | cons p ps ih =>
    obtain ⟨t, w⟩ := p
    have e : endTags (Xml.eventsList (forestXml k ((t, w) :: ps))) = (endTags (inner t) ++ ["split", "tree"]) ++
        endTags (Xml.eventsList (forestXml (k + 1) ps)) := by
      rw [forestXml, Xml.eventsList, endTags_append]
      congr 1
      rw [Xml.events, Xml.eventsList, Xml.eventsList, splitXml_events]
      simp [endTags]
    have c2 : ["split", "tree"].count "tree" = 1 := by decide
    have c5 : ["split", "tree"].count "feature" = 0 := by decide
    have c6 : ["split", "tree"].count "output" = 0 := by decide
    obtain ⟨i1, i2⟩ := ih (k + 1)
    obtain ⟨t1, t2⟩ := endTags_inner t
    have hn : Forest.numNodes ((t, w) :: ps) = t.numNodes + Forest.numNodes ps := by simp [Forest.numNodes]
    simp only [e, List.count_append, c2, c5, c6, List.length_cons, hn]
    omega

/-- The document that `save` writes for a forest. -/
def docXml (nTrees leaves : Nat) (lr : F) (fo : Forest F) : Xml F :=
  .elem "ranker" [] none [infoXml nTrees leaves lr, .elem "ensemble" [] none (forestXml 0 fo)]

theorem docXml_events (nTrees leaves : Nat) (lr : F) (fo : Forest F) :
    ∃ info : List (XmlEvent F), (docXml nTrees leaves lr fo).events = .start "ranker" [] :: (info ++ (.start "ensemble" [] ::
        (Xml.eventsList (forestXml 0 fo) ++ [.finish "ensemble" none, .finish "ranker" none]))) ∧
      (∀ s, info.foldlM qrStep s = .ok s) ∧
      endTags info = ["type", "trees", "leaves", "shrinkage", "leafsupport", "discretization", "estop", "info"] := by
  refine ⟨(infoXml nTrees leaves lr).events, ?_, ?_, ?_⟩
  · unfold docXml
    rw [Xml.events, Xml.eventsList, Xml.eventsList, Xml.eventsList, Xml.events]
    simp
  · intro s
    simp only [infoXml, Xml.events, Xml.eventsList, textElem, List.nil_append, List.cons_append, List.append_nil]
    repeat first
      | rw [foldlM_ok_cons (qrStep_skip_start _ (by decide) (by decide))]
      | rw [foldlM_ok_cons (qrStep_skip_finish _ (by decide) (by decide) (by decide) (by decide))]
    rfl
  · rfl

theorem qrCount_doc (nTrees leaves : Nat) (lr : F) (fo : Forest F) :
    qrCount (docXml nTrees leaves lr fo) = (fo.length, Forest.numNodes fo) := by
  obtain ⟨info, e, _, htags⟩ := docXml_events nTrees leaves lr fo
  obtain ⟨h1, h2⟩ := endTags_forest fo 0
  have ht : endTags (docXml nTrees leaves lr fo).events = ["type", "trees", "leaves", "shrinkage", "leafsupport", "discretization",
      "estop", "info"] ++ (endTags (Xml.eventsList (forestXml 0 fo)) ++ ["ensemble", "ranker"]) := by
    rw [e, ← htags]
    simp [endTags]
  have hq : qrCount (docXml nTrees leaves lr fo) = (((endTags (docXml nTrees leaves lr fo).events).drop 1).count "tree",
      ((endTags (docXml nTrees leaves lr fo).events).drop 1).count "feature" +
      ((endTags (docXml nTrees leaves lr fo).events).drop 1).count "output") := rfl
  rw [hq, ht]
  have hd : (["type", "trees", "leaves", "shrinkage", "leafsupport", "discretization", "estop", "info"] ++
      (endTags (Xml.eventsList (forestXml 0 fo)) ++ ["ensemble", "ranker"])).drop 1 =
      ["trees", "leaves", "shrinkage", "leafsupport", "discretization", "estop", "info"] ++
      (endTags (Xml.eventsList (forestXml 0 fo)) ++ ["ensemble", "ranker"]) := rfl
  have c1 : ∀ tag, (tag = "tree" ∨ tag = "feature" ∨ tag = "output") →
      ["trees", "leaves", "shrinkage", "leafsupport", "discretization", "estop", "info"].count tag = 0 ∧
      ["ensemble", "ranker"].count tag = 0 := by
    rintro tag (rfl | rfl | rfl) <;> decide
  rw [hd]
  simp only [List.count_append, (c1 "tree" (by simp)).1, (c1 "tree" (by simp)).2, (c1 "feature" (by simp)).1,
    (c1 "feature" (by simp)).2, (c1 "output" (by simp)).1, (c1 "output" (by simp)).2, Prod.mk.injEq]
  omega

theorem nodeXml_encodes {i : Nat} {t : Spec.Tree F} {s : List Nat} (h : Encodes m i t s) :
    ∀ fuel, t.numNodes ≤ fuel → ∀ child, nodeXml m fuel i child = .ok (splitXml (posAttrs child) t) := by
  induction h with
  | leaf hl hr hf hv =>
    intro fuel hfuel child
    obtain ⟨n, rfl⟩ : ∃ n, fuel = n + 1 := ⟨fuel - 1, by simp only [Spec.Tree.numNodes] at hfuel; omega⟩
    unfold nodeXml isLeafNode
    simp [pyGet_ok hl, pyGet_ok hr, pyGet_ok hv, bind, Except.bind, pure, Except.pure, splitXml]
  | @node i f l r t tl tr sl sr hl hr hf hv _ _ ihl ihr =>
    intro fuel hfuel child
    simp only [Spec.Tree.numNodes] at hfuel
    obtain ⟨n, rfl⟩ : ∃ n, fuel = n + 1 := ⟨fuel - 1, by omega⟩
    have hleaf : isLeafNode m (i : Int) = .ok false := by
      unfold isLeafNode
      simp only [pyGet_ok hl, bind, Except.bind]
      rw [if_neg (by omega)]
      rfl
    unfold nodeXml
    simp only [hleaf, pyGet_ok hl, pyGet_ok hr, pyGet_ok hf, pyGet_ok hv, ihl n (by omega), ihr n (by omega), bind, Except.bind, pure,
      Except.pure, splitXml, posAttrs]
    simp

end Ensemble
end Verif
