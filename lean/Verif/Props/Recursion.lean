/-
Property C113: trees of any depth.
-/
import Verif.Model.Recursion
import Verif.Props.QuickRank

namespace Verif.Props
open Spec Ensemble

variable {F : Type} {m : Ensemble F} {fo : Forest F}

/-- `ok x` if `n` nested calls are possible, and otherwise `RecursionError`. -/
def needs {α : Type} (n : Nat) (x : α) (frames : Nat) : Except PyErr α :=
  if n ≤ frames then .ok x else .error .runtimeError

theorem needs_pos {α : Type} {n : Nat} (x : α) {frames : Nat} (h : n ≤ frames) : needs n x frames = .ok x := if_pos h

theorem needs_neg {α : Type} {n : Nat} (x : α) {frames : Nat} (h : ¬n ≤ frames) :
    needs n x frames = .error .runtimeError := if_neg h

theorem mapM_needs {β : Type} {f : Nat → Except PyErr β} {frames : Nat} (n : Spec.Tree F × F → Nat) (g : Nat → Spec.Tree F × F → β) :
    ∀ (l : Forest F) (k : Nat), (∀ j a, l[j]? = some a → f (k + j) = needs (n a) (g (k + j) a) frames) →
      (List.range' k l.length).mapM f =
        if ∀ p ∈ l, n p ≤ frames then .ok ((l.zipIdx k).map (fun p => g p.2 p.1)) else .error .runtimeError
  | [], k, h => by simp [pure, Except.pure]
  | a :: l, k, h => by
    have h0 := h 0 a rfl
    have ih := mapM_needs n g l (k + 1) (fun j b hj => by
      have := h (j + 1) b (by simpa using hj)
      rwa [show k + (j + 1) = k + 1 + j by omega] at this)
    rw [List.length_cons, List.range'_succ, List.mapM_cons, show f k = needs (n a) (g k a) frames from h0, ih]
    by_cases h1 : n a ≤ frames
    · rw [needs_pos _ h1]
      by_cases h2 : ∀ p ∈ l, n p ≤ frames
      · rw [if_pos h2, if_pos (fun p hp => by
          rcases List.mem_cons.1 hp with rfl | hp
          · exact h1
          · exact h2 p hp)]
        rfl
      · rw [if_neg h2, if_neg (fun h3 => h2 (fun p hp => h3 p (List.mem_cons_of_mem _ hp)))]
        rfl
    · rw [needs_neg _ h1, if_neg (c := ∀ p ∈ a :: l, n p ≤ frames) (fun h3 => h1 (h3 a (by simp)))]
      rfl

theorem heightNodeR_encodes {i : Nat} {t : Spec.Tree F} {s : List Nat} (h : Encodes m i t s) :
    ∀ frames depth, heightNodeR m frames (i : Int) depth = needs (t.height + 1) (depth + t.height) frames := by
  induction h with
  | leaf h1 =>
    intro frames depth
    cases frames with
    | zero => rw [needs_neg _ (by omega)]; rfl
    | succ n =>
      rw [needs_pos _ (by simp [Spec.Tree.height])]
      simp [heightNodeR, pyGet_ok h1, bind, Except.bind, pure, Except.pure, Spec.Tree.height]
  | @node i f l r th tl tr sl sr h1 h2 _ _ _ _ ihl ihr =>
    intro frames depth
    cases frames with
    | zero => rw [needs_neg _ (by omega)]; rfl
    | succ n =>
      have hne : (l : Int) ≠ -1 := by omega
      simp only [heightNodeR, pyGet_ok h1, pyGet_ok h2, bind, Except.bind, hne, ↓reduceIte, ihl n (depth + 1),
        ihr n (depth + 1), Spec.Tree.height]
      by_cases ha : tl.height + 1 ≤ n
      · rw [needs_pos _ ha]
        by_cases hb : tr.height + 1 ≤ n
        · rw [needs_pos _ hb, needs_pos _ (by omega)]
          simp only [pure, Except.pure, Except.ok.injEq]
          omega
        · rw [needs_neg _ hb, needs_neg _ (by omega)]
      · rw [needs_neg _ ha, needs_neg (n := 1 + max tl.height tr.height + 1) _ (by omega)]

/-- C113, heights: `height_trees` gives the heights of the trees if every height is less than the number of calls that can be
nested, and raises `RecursionError` otherwise. -/
theorem C113_height (h : Represents m fo) (frames : Nat) :
    heightTreesR m frames = if ∀ p ∈ fo, p.1.height + 1 ≤ frames then .ok (fo.map (fun p => p.1.height))
      else .error .runtimeError := by
  unfold heightTreesR
  rw [h.nTrees, List.range_eq_range', mapM_needs (fun p => p.1.height + 1) (fun _ p => p.1.height) fo 0]
  · congr 2
    rw [show (fun p : (Spec.Tree F × F) × Nat => p.1.1.height) = (fun p : Spec.Tree F × F => p.1.height) ∘ Prod.fst from rfl,
      ← List.map_map, List.zipIdx_map_fst]
  · intro j p hj
    obtain ⟨t, w⟩ := p
    obtain ⟨s, hs, _⟩ := h.trees j t w hj
    simp only [Nat.zero_add, pyGet_ok (h.root_get hj), bind, Except.bind]
    rw [heightNodeR_encodes hs, Nat.zero_add]

theorem nodeXmlR_encodes {i : Nat} {t : Spec.Tree F} {s : List Nat} (h : Encodes m i t s) :
    ∀ frames child, nodeXmlR m frames (i : Int) child = needs (t.height + 2) (splitXml (posAttrs child) t) frames := by
  induction h with
  | leaf hl hr hf hv =>
    intro frames child
    cases frames with
    | zero => rw [needs_neg _ (by omega)]; rfl
    | succ n =>
      by_cases hn : n = 0
      · subst hn
        rw [needs_neg _ (by omega)]
        simp [nodeXmlR]
      · rw [needs_pos _ (by simp only [Spec.Tree.height]; omega)]
        unfold nodeXmlR isLeafNode
        rw [if_neg hn]
        simp [pyGet_ok hl, pyGet_ok hr, pyGet_ok hv, bind, Except.bind, pure, Except.pure, splitXml]
  | @node i f l r t tl tr sl sr hl hr hf hv _ _ ihl ihr =>
    intro frames child
    cases frames with
    | zero => rw [needs_neg _ (by omega)]; rfl
    | succ n =>
      by_cases hn : n = 0
      · subst hn
        rw [needs_neg _ (by omega)]
        simp [nodeXmlR]
      · have hleaf : isLeafNode m (i : Int) = .ok false := by
          unfold isLeafNode
          simp only [pyGet_ok hl, bind, Except.bind]
          rw [if_neg (by omega)]
          rfl
        unfold nodeXmlR
        rw [if_neg hn]
        simp only [hleaf, pyGet_ok hl, pyGet_ok hr, pyGet_ok hf, pyGet_ok hv, ihl n, ihr n, bind, Except.bind, Spec.Tree.height]
        simp only [Bool.false_eq_true, if_false]
        by_cases ha : tl.height + 2 ≤ n
        · rw [needs_pos _ ha]
          by_cases hb : tr.height + 2 ≤ n
          · rw [needs_pos _ hb, needs_pos _ (by omega)]
            simp [pure, Except.pure, splitXml, posAttrs]
          · rw [needs_neg _ hb, needs_neg _ (by omega)]
        · rw [needs_neg _ ha, needs_neg (n := 1 + max tl.height tr.height + 2) _ (by omega)]

/-- Walking the element nests `n` calls. -/
def Nests (x : Xml F) (n : Nat) : Prop := ∀ frames, walkXml frames x = needs n () frames

theorem forM_needs (f : Nat) : ∀ {cs : List (Xml F)} {ds : List Nat}, List.Forall₂ Nests cs ds →
    cs.forM (walkXml f) = needs (ds.foldr max 0) () f
  | _, _, .nil => by simp [needs, pure, Except.pure]
  | c :: cs, d :: ds, .cons h hs => by
    rw [show (c :: cs).forM (walkXml f) = (do walkXml f c; cs.forM (walkXml f)) from rfl, h f, forM_needs f hs, List.foldr_cons]
    by_cases h1 : d ≤ f
    · rw [needs_pos _ h1]
      by_cases h2 : ds.foldr max 0 ≤ f
      · rw [needs_pos _ h2, needs_pos _ (by omega)]
        rfl
      · rw [needs_neg _ h2, needs_neg _ (by omega)]
        rfl
    · rw [needs_neg _ h1, needs_neg (n := max d (ds.foldr max 0)) _ (by omega)]
      rfl

theorem nests_elem {tag : String} {attrs : List (String × Text F)} {text : Option (Text F)} {cs : List (Xml F)} {ds : List Nat}
    (h : List.Forall₂ Nests cs ds) : Nests (.elem tag attrs text cs) (ds.foldr max 0 + 1) := by
  intro frames
  cases frames with
  | zero => rw [needs_neg _ (by omega)]; rfl
  | succ n =>
    simp only [walkXml]
    rw [forM_needs n h]
    by_cases h1 : ds.foldr max 0 ≤ n
    · rw [needs_pos _ h1, needs_pos _ (by omega)]
    · rw [needs_neg _ h1, needs_neg _ (by omega)]

theorem nests_text (tag : String) (text : Text F) : Nests (textElem tag text) 1 := nests_elem .nil

theorem nests_split : ∀ (t : Spec.Tree F) (attrs : List (String × Text F)), Nests (splitXml attrs t) (t.height + 2)
  | .leaf v, attrs => nests_elem (ds := [1]) (.cons (nests_text _ _) .nil)
  | .node f t l r, attrs => by
    have := nests_elem (F := F) (tag := "split") (attrs := attrs) (text := none) (ds := [1, 1, l.height + 2, r.height + 2])
      (.cons (nests_text "feature" (.int (f + 1 : Nat))) (.cons (nests_text "threshold" (.num t))
        (.cons (nests_split l [("pos", .str "left")]) (.cons (nests_split r [("pos", .str "right")]) .nil))))
    have e : [1, 1, l.height + 2, r.height + 2].foldr max 0 + 1 = (Spec.Tree.node f t l r).height + 2 := by
      simp only [List.foldr_cons, List.foldr_nil, Spec.Tree.height]
      omega
    rw [e] at this
    exact this

theorem nests_forest : ∀ (fo : Forest F) (k : Nat), List.Forall₂ Nests (forestXml k fo) (fo.map (fun p => p.1.height + 3))
  | [], _ => .nil
  | (t, _) :: fo, k => .cons (nests_elem (ds := [t.height + 2]) (.cons (nests_split t []) .nil)) (nests_forest fo (k + 1))

theorem nests_info (trees leaves : Nat) (lr : F) : Nests (infoXml trees leaves lr) 2 :=
  nests_elem (ds := [1, 1, 1, 1, 1, 1, 1]) (.cons (nests_text _ _) (.cons (nests_text _ _) (.cons (nests_text _ _)
    (.cons (nests_text _ _) (.cons (nests_text _ _) (.cons (nests_text _ _) (.cons (nests_text _ _) .nil)))))))

theorem foldr_max_eq {l : List Nat} {n : Nat} (h1 : n ∈ l) (h2 : ∀ x ∈ l, x ≤ n) : l.foldr max 0 = n := by
  apply Nat.le_antisymm
  · clear h1
    induction l with
    | nil => simp
    | cons a l ih =>
      rw [List.foldr_cons]
      exact max_le (h2 a (by simp)) (ih (fun x hx => h2 x (List.mem_cons_of_mem _ hx)))
  · clear h2
    induction l with
    | nil => simp at h1
    | cons a l ih =>
      rw [List.foldr_cons]
      rcases List.mem_cons.1 h1 with rfl | h
      · exact le_max_left _ _
      · exact le_max_of_le_right (ih h)

/-- C113, saving: with `H` the height of the highest tree, the file has the document of `C37_save` if `H + 5 + extra` calls can be
nested. With fewer, `save` raises `RecursionError`; the file is then empty if `H + 5` calls can be nested, whatever was in it
before, and as before if they cannot. -/
theorem C113_save (h : Represents m fo) {H : Nat} (hH : ∃ p ∈ fo, p.1.height = H) (hmax : ∀ p ∈ fo, p.1.height ≤ H) (lr : F)
    (frames extra : Nat) :
    (H + 5 + extra ≤ frames → ∃ doc, quickrankSave m lr = .ok doc ∧ quickrankSaveR m lr frames extra = (.ok (), .doc doc)) ∧
    (H + 5 ≤ frames → frames < H + 5 + extra → quickrankSaveR m lr frames extra = (.error .runtimeError, .empty)) ∧
    (frames < H + 5 → quickrankSaveR m lr frames extra = (.error .runtimeError, .asBefore)) := by
  obtain ⟨p0, hp0, hp0H⟩ := hH
  have hne : fo ≠ [] := List.ne_nil_of_mem hp0
  obtain ⟨n, hn, _, _⟩ := C36_max_leaves h hne
  obtain ⟨n', hsave, _⟩ := C37_save h hne lr
  have htrees : (List.range m.nTrees).mapM (treeXmlR m frames) =
      if ∀ p ∈ fo, p.1.height + 2 ≤ frames then .ok (forestXml 0 fo) else .error .runtimeError := by
    rw [h.nTrees, List.range_eq_range', forestXml_eq]
    apply mapM_needs (fun p => p.1.height + 2) (fun k p => treeElem k p.1 p.2) fo 0
    intro j p hj
    obtain ⟨t, w⟩ := p
    obtain ⟨s, hs, _⟩ := h.trees j t w hj
    unfold treeXmlR
    simp only [Nat.zero_add, pyGet_ok (h.weight_get hj), pyGet_ok (h.root_get hj), bind, Except.bind,
      nodeXmlR_encodes hs frames none]
    by_cases hb : t.height + 2 ≤ frames
    · rw [needs_pos _ hb, needs_pos _ hb]
      rfl
    · rw [needs_neg _ hb, needs_neg _ hb]
  have hdoc : Nests (.elem "ranker" [] none [infoXml m.nTrees n lr, .elem "ensemble" [] none (forestXml 0 fo)]) (H + 5) := by
    have h1 := nests_elem (tag := "ensemble") (attrs := []) (text := none) (nests_forest fo 0)
    have h2 := nests_elem (tag := "ranker") (attrs := []) (text := none) (.cons (nests_info m.nTrees n lr) (.cons h1 .nil))
    have e : (fo.map (fun p => p.1.height + 3)).foldr max 0 = H + 3 := by
      apply foldr_max_eq
      · exact List.mem_map.2 ⟨p0, hp0, by rw [hp0H]⟩
      · intro x hx
        obtain ⟨p, hp, rfl⟩ := List.mem_map.1 hx
        have := hmax p hp
        omega
    rw [e] at h2
    have e2 : [2, H + 3 + 1].foldr max 0 + 1 = H + 5 := by
      simp only [List.foldr_cons, List.foldr_nil]
      omega
    rw [e2] at h2
    exact h2
  unfold quickrankSave at hsave
  rw [hn] at hsave
  unfold quickrankSaveR
  rw [hn, htrees]
  have hdocs : quickrankSave m lr = .ok (.elem "ranker" [] none [infoXml m.nTrees n lr, .elem "ensemble" [] none (forestXml 0 fo)]) := by
    obtain ⟨n'', hs, _⟩ := C37_save h hne lr
    rw [hs]
    unfold quickrankSave at hs
    rw [hn] at hs
    simp only [bind, Except.bind] at hs
    cases ht : (List.range m.nTrees).mapM (treeXml m) with
    | error e => rw [ht] at hs; cases hs
    | ok trees =>
      rw [ht] at hs
      simp only [pure, Except.pure, Except.ok.injEq, Xml.elem.injEq, List.cons.injEq, true_and, and_true] at hs
      rw [h.nTrees, ← hs.1, h.nTrees]
  refine ⟨fun hf => ⟨_, hdocs, ?_⟩, fun hf hx => ?_, fun hf => ?_⟩
  · rw [if_pos (fun p hp => by have := hmax p hp; omega)]
    simp only [hdoc frames, hdoc (frames - extra)]
    rw [needs_pos _ (by omega), needs_pos _ (by omega)]
  · rw [if_pos (fun p hp => by have := hmax p hp; omega)]
    simp only [hdoc frames, hdoc (frames - extra)]
    rw [needs_pos _ (by omega), needs_neg _ (by omega)]
  · by_cases h2 : ∀ p ∈ fo, p.1.height + 2 ≤ frames
    · rw [if_pos h2]
      simp only [hdoc frames]
      rw [needs_neg _ (by omega)]
    · rw [if_neg h2]

/-- A tree of height `n` in which every inner node has a leaf to the left. -/
def chain (x : F) : Nat → Spec.Tree F
  | 0 => .leaf x
  | n + 1 => .node 0 x (.leaf x) (chain x n)

theorem chain_height (x : F) : ∀ n, (chain x n).height = n
  | 0 => rfl
  | n + 1 => by simp only [chain, Spec.Tree.height, chain_height x n]; omega

theorem chain_features (x : F) : ∀ n, ∀ f ∈ (chain x n).features, f < 2 ^ 15
  | 0, f, hf => by simp [chain, Spec.Tree.features] at hf
  | n + 1, f, hf => by
    simp only [chain, Spec.Tree.features, List.nil_append, List.mem_cons] at hf
    rcases hf with rfl | hf
    · decide
    · exact chain_features x n f hf

/-- C113 is violated, whatever the limit is: there is a QuickRank document that is loaded without an error and whose model can be
scored (C29), but `height_trees` and `save` of the model raise `RecursionError`. -/
theorem C113_violated (x half : F) (frames extra : Nat) :
    ∃ (doc : Xml F) (l : Loaded F) (fo : Forest F), rtEnsemble half .quickRank (quickrankLoad x x doc) x none none = .ok l ∧
      Represents l.arrays fo ∧ fo ≠ [] ∧ heightTreesR l.arrays frames = .error .runtimeError ∧
      quickrankSaveR l.arrays l.learningRate frames extra = (.error .runtimeError, .asBefore) := by
  obtain ⟨m, h1, h2⟩ := C37_load x x half [(chain x frames, x)] (by
    intro p hp f hf
    simp only [List.mem_singleton] at hp
    subst hp
    exact chain_features x frames f hf) 1 1 x x none none
  have h3 : Represents m [(chain x frames, x)] := by simpa using h2
  refine ⟨_, ⟨m, x, none⟩, _, h1, h3, by simp, ?_, ?_⟩
  · rw [show (Loaded.mk m x none).arrays = m from rfl, C113_height h3, if_neg]
    intro h4
    have := h4 _ (List.mem_singleton.2 rfl)
    simp only [chain_height] at this
    omega
  · refine (C113_save h3 (H := frames) ⟨_, List.mem_singleton.2 rfl, chain_height x frames⟩ ?_ x frames extra).2.2 (by omega)
    intro p hp
    simp only [List.mem_singleton] at hp
    subst hp
    exact (chain_height x frames).le

/-- C113 is violated: a failing `save` can destroy the file. If `tostring` nests at least one call besides those for the elements,
then for every limit of at least 5 there is a model that `save` cannot write and for which it leaves an empty file. -/
theorem C113_file_lost (x : F) {frames extra : Nat} (hf : 5 ≤ frames) (he : 0 < extra) :
    ∃ (m : Ensemble F) (fo : Forest F), Represents m fo ∧ quickrankSaveR m x frames extra = (.error .runtimeError, .empty) := by
  obtain ⟨m, _, h2⟩ := C37_load x x x [(chain x (frames - 5), x)] (by
    intro p hp f hf
    simp only [List.mem_singleton] at hp
    subst hp
    exact chain_features x _ f hf) 1 1 x x none none
  have h3 : Represents m [(chain x (frames - 5), x)] := by simpa using h2
  refine ⟨m, _, h3, (C113_save h3 (H := frames - 5) ⟨_, List.mem_singleton.2 rfl, chain_height x _⟩ ?_ x frames extra).2.1
    (by omega) (by omega)⟩
  intro p hp
  simp only [List.mem_singleton] at hp
  subst hp
  exact (chain_height x _).le

/-- The model of two trees, of heights 2 and 0: 3 nested calls are enough for the heights, 2 are not. -/
example : heightTreesR ens0 3 = .ok [2, 0] ∧ heightTreesR ens0 2 = .error .runtimeError := by decide +kernel

example : (quickrankSaveR ens0 1 10 3).1 = .ok () ∧ (quickrankSaveR ens0 1 9 3).1 = .error .runtimeError ∧
    (quickrankSaveR ens0 1 6 3).1 = .error .runtimeError := by decide +kernel

end Verif.Props
