/-
Lemmas about the text of jforests files.
-/
import Verif.Spec.JforestsText
import Verif.Model.JforestsText
import Verif.Lemmas.QuickRankText

namespace Verif.Ensemble
open Spec Etree
variable {F : Type}

theorem splitSpace_word {w : List Char} (hw : ' ' ∉ w) : ∀ cur, splitSpaceFrom cur w = [cur ++ w] := by
  induction w with
  | nil => intro cur; simp [splitSpaceFrom]
  | cons c w ih =>
    intro cur
    rw [List.mem_cons, not_or] at hw
    rw [splitSpaceFrom, if_neg (Ne.symm hw.1), ih hw.2]
    simp

theorem splitSpace_first {w : List Char} (hw : ' ' ∉ w) (s : List Char) : ∀ cur, splitSpaceFrom cur (w ++ ' ' :: s) = (cur ++ w) :: splitSpaceFrom [] s := by
  induction w with
  | nil => intro cur; simp [splitSpaceFrom]
  | cons c w ih =>
    intro cur
    rw [List.mem_cons, not_or] at hw
    rw [List.cons_append, splitSpaceFrom, if_neg (Ne.symm hw.1), ih hw.2]
    simp

theorem splitSpace_join : ∀ {ws : List (List Char)}, ws ≠ [] → (∀ w ∈ ws, ' ' ∉ w) → splitSpaceFrom [] (List.intercalate [' '] ws) = ws
  | [], h, _ => (h rfl).elim
  | [w], _, hw => by
    have := splitSpace_word (hw w (by simp)) []
    simpa [List.intercalate] using this
  | w :: w' :: ws, _, hw => by
    have ih := splitSpace_join (ws := w' :: ws) (by simp) (fun x hx => hw x (List.mem_cons_of_mem _ hx))
    have e : List.intercalate [' '] (w :: w' :: ws) = w ++ ' ' :: List.intercalate [' '] (w' :: ws) := by
      simp [List.intercalate]
    rw [e, splitSpace_first (hw w (by simp)), ih]
    simp

theorem splitSpace_suffix (a s : List Char) : ∀ cur, ∃ pre, pre ≠ [] ∧ splitSpaceFrom cur (a ++ ' ' :: s) = pre ++ splitSpaceFrom [] s := by
  induction a with
  | nil => intro cur; exact ⟨[cur], by simp, by simp [splitSpaceFrom]⟩
  | cons c a ih =>
    intro cur
    rw [List.cons_append, splitSpaceFrom]
    split
    · obtain ⟨pre, h1, h2⟩ := ih []
      exact ⟨cur :: pre, by simp, by rw [h2]; simp⟩
    · exact ih _

/-- Loose blanks give an empty word. -/
theorem splitSpace_loose {t : List Char} (h : LooseBlanks t) : [] ∈ splitSpaceFrom [] t := by
  rcases h with ⟨a, b, rfl⟩ | ⟨b, rfl⟩ | ⟨a, rfl⟩
  · have e : a ++ [' ', ' '] ++ b = a ++ ' ' :: (' ' :: b) := by simp
    obtain ⟨pre, -, h⟩ := splitSpace_suffix a (' ' :: b) []
    rw [e, h]
    simp [splitSpaceFrom]
  · simp [splitSpaceFrom]
  · obtain ⟨pre, -, h⟩ := splitSpace_suffix a [] []
    rw [show a ++ [' '] = a ++ ' ' :: [] from rfl, h]
    simp [splitSpaceFrom]

section
variable {float : List Char → Option F}

theorem jfWord_no_blank {α : Type} {text : List Char → α → Prop} {w : List Char} {x : α} (h : JfWord text w x) : ' ' ∉ w := by
  obtain ⟨sp, v, sp', rfl, -, -, h1, h2, hv, -⟩ := h
  simp only [List.mem_append, not_or]
  exact ⟨⟨h1, fun h => hv.2 ' ' h (by decide)⟩, h2⟩

theorem jfList_words {α : Type} {text : List Char → α → Prop} {t : List Char} {xs : List α} (h : JfList text t xs) :
    ∃ ws, jfWords (some t) = pure ws ∧ List.Forall₂ (JfWord text) ws xs ∧ ws.length = xs.length := by
  obtain ⟨ws, rfl, h1, h2⟩ := h
  refine ⟨ws, ?_, h1, h1.length_eq⟩
  rw [jfWords, splitSpace_join]
  · rintro rfl
    cases h1
    exact h2 rfl
  · intro w hw
    obtain ⟨i, hi, rfl⟩ := List.getElem_of_mem hw
    exact jfWord_no_blank (h1.get (by simpa using hi) (by simpa [← h1.length_eq] using hi))

theorem pyInt_jfWord {w : List Char} {i : Int} (h : JfWord IntText w i) : pyInt w = pure i := by
  obtain ⟨sp, v, sp', rfl, h1, h2, -, -, hv, ht⟩ := h
  have h3 := pyInt_ok ht
  unfold pyInt at h3 ⊢
  rw [pyStrip_word h1 h2 hv]
  rwa [pyStrip_plain (fun c hc hm => hv.2 c hc (List.mem_cons_of_mem _ hm))] at h3

theorem jfFloat_word {w : List Char} {v : F} (h : JfWord (NumText float) w v) : jfFloat float w = pure v := by
  obtain ⟨sp, u, sp', rfl, h1, h2, -, -, hv, ht⟩ := h
  unfold jfFloat
  rw [pyStrip_word h1 h2 hv, toFloat_ok ht]

theorem writeWords_ok {α : Type} {conv : List Char → Except PyErr α} {text : List Char → α → Prop} (hc : ∀ w x, JfWord text w x → conv w = pure x)
    (set : Ensemble F → Int → α → Except PyErr (Ensemble F)) {ws : List (List Char)} {xs : List α} (h : List.Forall₂ (JfWord text) ws xs) :
    ∀ (m : Ensemble F) (base : Nat), writeWords conv set m base ws = writeFrom set m base xs := by
  induction h with
  | nil => intro m base; rfl
  | cons hx _ ih =>
    intro m base
    simp only [writeWords, writeFrom, hc _ _ hx, pure_bind, ih]

theorem jfWord_nat {w : List Char} {n : Nat} (h : JfWord Numeral w n) : JfWord IntText w (n : Int) := by
  obtain ⟨sp, v, sp', e, h1, h2, h3, h4, hv, ht⟩ := h
  exact ⟨sp, v, sp', e, h1, h2, h3, h4, hv, v, n, ht, .inl ⟨rfl, rfl⟩⟩

theorem elemText_ne {α : Type} {xs : List α} (h : xs ≠ []) : elemText xs = pure xs := by rw [elemText, if_neg h]

theorem attribText_mem {attrs : List (List Char × List Char)} (hn : (attrs.map (·.1)).Nodup) {k s : List Char} (h : (k, s) ∈ attrs) :
    attribText attrs k = some s := by
  unfold attribText
  induction attrs with
  | nil => cases h
  | cons a attrs ih =>
    rw [List.map_cons, List.nodup_cons] at hn
    rcases List.mem_cons.1 h with rfl | h
    · simp
    · have hne : a.1 ≠ k := fun e => hn.1 (e ▸ List.mem_map_of_mem (f := (·.1)) h)
      rw [List.find?_cons_of_neg (by simpa using hne)]
      exact ih hn.2 h

/-- An event and the converted event do the same. -/
theorem jf_event {ev : Event} {x : JfEvent F} (h : SpellsJf float ev x) :
    (∀ s, jfTextStep float s ev = jfStep s x) ∧ ∀ es xs, jfTextCount es = jfCount xs → jfTextCount (ev :: es) = jfCount (x :: xs) := by
  cases ev with
  | start tag attrs =>
    cases x with
    | startTree w =>
      obtain ⟨rfl, hn, t, ht, hw, hf⟩ := h
      refine ⟨fun s => ?_, fun es xs he => by simp only [jfTextCount, jfTextAdds, jfCount, he, pure_bind]⟩
      have hfl : jfFloat float t = pure w := by
        unfold jfFloat
        rw [pyStrip_plain (fun c hc hm => hw.2 c hc (List.mem_cons_of_mem _ hm)), toFloat_ok hf]
      simp only [jfTextStep, ↓reduceIte, jfTextTree, jfStep, attribText_mem hn ht, hfl, pure_bind]
    | other =>
      have h : tag ≠ "Tree".toList := h
      refine ⟨fun s => by simp only [jfTextStep, if_neg h, jfStep], fun es xs he => by simp only [jfTextCount, jfTextAdds, jfCount, he, pure_bind]⟩
    | _ => exact h.elim
  | finish tag text =>
    cases x with
    | startTree w => exact h.elim
    | endTree =>
      have h : tag = "Tree".toList := h
      subst h
      refine ⟨fun s => rfl, fun es xs he => ?_⟩
      simp only [jfTextCount, jfTextAdds, ↓reduceIte, jfCount, he, pure_bind]
    | splitFeatures fs =>
      obtain ⟨rfl, t, rfl, hl⟩ := h
      have hne : fs ≠ [] := by obtain ⟨_, _, _, h⟩ := hl; exact h
      obtain ⟨ws, h1, h2, h3⟩ := jfList_words hl
      have h4 : List.Forall₂ (JfWord IntText) ws (fs.map Int.ofNat) :=
        List.forall₂_map_right_iff.2 (h2.imp (fun _ _ h => jfWord_nat h))
      refine ⟨fun s => ?_, fun es xs he => ?_⟩
      · simp only [jfTextStep, jfTextEnd, ↓reduceIte, h1, pure_bind, writeWords_ok (fun _ _ h => pyInt_jfWord h) _ h4, jfStep, elemText_ne hne,
          writeFrom_map, h3]
        rfl
      · have e1 : ("SplitFeatures".toList = "Tree".toList) = False := by decide
        simp only [jfTextCount, jfTextAdds, e1, ↓reduceIte, true_or, h1, pure_bind, jfCount, elemText_ne hne, he, h3]
    | leftChildren cs =>
      obtain ⟨rfl, t, rfl, hl⟩ := h
      have hne : cs ≠ [] := by obtain ⟨_, _, _, h⟩ := hl; exact h
      obtain ⟨ws, h1, h2, h3⟩ := jfList_words hl
      have e1 : ("LeftChildren".toList = "SplitFeatures".toList) = False := by decide
      have e2 : ("LeftChildren".toList = "Tree".toList) = False := by decide
      have e3 : ("LeftChildren".toList = "LeafOutputs".toList) = False := by decide
      refine ⟨fun s => ?_, fun es xs he => ?_⟩
      · simp only [jfTextStep, jfTextEnd, e1, ↓reduceIte, h1, pure_bind, writeWords_ok (fun _ _ h => pyInt_jfWord h) _ h2, jfStep, elemText_ne hne]
      · simp only [jfTextCount, jfTextAdds, e1, e2, e3, or_self, ↓reduceIte, pure_bind, jfCount, he]
    | rightChildren cs =>
      obtain ⟨rfl, t, rfl, hl⟩ := h
      have hne : cs ≠ [] := by obtain ⟨_, _, _, h⟩ := hl; exact h
      obtain ⟨ws, h1, h2, h3⟩ := jfList_words hl
      have e1 : ("RightChildren".toList = "SplitFeatures".toList) = False := by decide
      have e2 : ("RightChildren".toList = "Tree".toList) = False := by decide
      have e3 : ("RightChildren".toList = "LeafOutputs".toList) = False := by decide
      have e4 : ("RightChildren".toList = "LeftChildren".toList) = False := by decide
      refine ⟨fun s => ?_, fun es xs he => ?_⟩
      · simp only [jfTextStep, jfTextEnd, e1, e4, ↓reduceIte, h1, pure_bind, writeWords_ok (fun _ _ h => pyInt_jfWord h) _ h2, jfStep, elemText_ne hne]
      · simp only [jfTextCount, jfTextAdds, e1, e2, e3, or_self, ↓reduceIte, pure_bind, jfCount, he]
    | originalThresholds ts =>
      obtain ⟨rfl, t, rfl, hl⟩ := h
      have hne : ts ≠ [] := by obtain ⟨_, _, _, h⟩ := hl; exact h
      obtain ⟨ws, h1, h2, h3⟩ := jfList_words hl
      have e1 : ("OriginalThresholds".toList = "SplitFeatures".toList) = False := by decide
      have e2 : ("OriginalThresholds".toList = "Tree".toList) = False := by decide
      have e3 : ("OriginalThresholds".toList = "LeafOutputs".toList) = False := by decide
      have e4 : ("OriginalThresholds".toList = "LeftChildren".toList) = False := by decide
      have e5 : ("OriginalThresholds".toList = "RightChildren".toList) = False := by decide
      refine ⟨fun s => ?_, fun es xs he => ?_⟩
      · simp only [jfTextStep, jfTextEnd, e1, e4, e5, ↓reduceIte, h1, pure_bind, writeWords_ok (fun _ _ h => jfFloat_word h) _ h2, jfStep, elemText_ne hne]
      · simp only [jfTextCount, jfTextAdds, e1, e2, e3, or_self, ↓reduceIte, pure_bind, jfCount, he]
    | leafOutputs vs =>
      obtain ⟨rfl, t, rfl, hl⟩ := h
      have hne : vs ≠ [] := by obtain ⟨_, _, _, h⟩ := hl; exact h
      obtain ⟨ws, h1, h2, h3⟩ := jfList_words hl
      have e1 : ("LeafOutputs".toList = "SplitFeatures".toList) = False := by decide
      have e2 : ("LeafOutputs".toList = "Tree".toList) = False := by decide
      have e3 : ("LeafOutputs".toList = "OriginalThresholds".toList) = False := by decide
      have e4 : ("LeafOutputs".toList = "LeftChildren".toList) = False := by decide
      have e5 : ("LeafOutputs".toList = "RightChildren".toList) = False := by decide
      refine ⟨fun s => ?_, fun es xs he => ?_⟩
      · simp only [jfTextStep, jfTextEnd, e1, e3, e4, e5, ↓reduceIte, h1, pure_bind, writeWords_ok (fun _ _ h => jfFloat_word h) _ h2, jfStep,
          elemText_ne hne, h3]
      · simp only [jfTextCount, jfTextAdds, e1, e2, or_true, ↓reduceIte, h1, pure_bind, jfCount, elemText_ne hne, he, h3]
    | other =>
      have h : tag ∉ jfTags := h
      have hn : ∀ t ∈ jfTags, tag ≠ t := fun t ht e => h (e ▸ ht)
      have a1 := hn "Tree".toList (by decide)
      have a2 := hn "SplitFeatures".toList (by decide)
      have a3 := hn "LeftChildren".toList (by decide)
      have a4 := hn "RightChildren".toList (by decide)
      have a5 := hn "OriginalThresholds".toList (by decide)
      have a6 := hn "LeafOutputs".toList (by decide)
      refine ⟨fun s => ?_, fun es xs he => ?_⟩
      · simp only [jfTextStep, jfTextEnd, if_neg a2, if_neg a3, if_neg a4, if_neg a5, if_neg a6, jfStep]
      · simp only [jfTextCount, jfTextAdds, if_neg a1, if_neg (not_or.2 ⟨a2, a6⟩), pure_bind, jfCount, he]

theorem jf_events {es : List Event} {xs : List (JfEvent F)} (h : List.Forall₂ (SpellsJf float) es xs) :
    jfTextCount es = jfCount xs ∧ ∀ s, es.foldlM (jfTextStep float) s = xs.foldlM jfStep s := by
  induction h with
  | nil => exact ⟨rfl, fun s => rfl⟩
  | cons hx _ ih =>
    refine ⟨(jf_event hx).2 _ _ ih.1, fun s => ?_⟩
    rw [List.foldlM_cons, List.foldlM_cons, (jf_event hx).1 s]
    congr 1
    funext s'
    exact ih.2 s'

/-! ### Texts that are refused -/

theorem writeWords_bad {α : Type} {conv : List Char → Except PyErr α} {e : PyErr} (hc : conv [] = .error e)
    (set : Ensemble F → Int → α → Except PyErr (Ensemble F)) {ws : List (List Char)} (h : [] ∈ ws) :
    ∀ (m : Ensemble F) (base : Nat), ∃ e, writeWords conv set m base ws = .error e := by
  induction ws with
  | nil => cases h
  | cons w ws ih =>
    intro m base
    rcases List.mem_cons.1 h with rfl | h
    · exact ⟨e, by simp only [writeWords, hc]; rfl⟩
    · simp only [writeWords]
      cases conv w with
      | error e => exact ⟨e, rfl⟩
      | ok x =>
        simp only [bind, Except.bind]
        cases set m base x with
        | error e => exact ⟨e, rfl⟩
        | ok m' => exact ih h m' _

theorem jfTextEnd_bad (hfl : float [] = none) {tag t : List Char} (htag : tag ∈ jfTags.drop 1) (ht : LooseBlanks t) (s : ArrState F) :
    ∃ e, jfTextStep float s (.finish tag (some t)) = .error e := by
  have hm := splitSpace_loose ht
  have hi : pyInt [] = .error .valueError := by decide
  have hf : jfFloat float [] = .error .valueError := by
    show toFloat float [] = _
    rw [toFloat, hfl]
  simp only [jfTags, List.drop_succ_cons, List.drop_zero, List.mem_cons, List.not_mem_nil, or_false] at htag
  simp only [jfTextStep, jfTextEnd, jfWords, pure_bind]
  rcases htag with rfl | rfl | rfl | rfl | rfl
  · obtain ⟨e, he⟩ := writeWords_bad hi setFeature hm s.m s.rootNode
    exact ⟨e, by rw [if_pos rfl, he]; rfl⟩
  · obtain ⟨e, he⟩ := writeWords_bad hi (fun m i c => setLeft m i (childIndex s.rootNode s.numSplits c)) hm s.m s.rootNode
    exact ⟨e, by rw [if_neg (by decide), if_pos rfl, he]; rfl⟩
  · obtain ⟨e, he⟩ := writeWords_bad hi (fun m i c => setRight m i (childIndex s.rootNode s.numSplits c)) hm s.m s.rootNode
    exact ⟨e, by rw [if_neg (by decide), if_neg (by decide), if_pos rfl, he]; rfl⟩
  · obtain ⟨e, he⟩ := writeWords_bad hf setValue hm s.m s.rootNode
    exact ⟨e, by rw [if_neg (by decide), if_neg (by decide), if_neg (by decide), if_pos rfl, he]; rfl⟩
  · obtain ⟨e, he⟩ := writeWords_bad hf setValue hm s.m (s.rootNode + s.numSplits)
    exact ⟨e, by rw [if_neg (by decide), if_neg (by decide), if_neg (by decide), if_neg (by decide), if_pos rfl, he]; rfl⟩

theorem foldlM_fails {α β : Type} {f : β → α → Except PyErr β} {xs : List α} {x : α} (hx : x ∈ xs) (h : ∀ b, ∃ e, f b x = .error e) :
    ∀ b, ∃ e, xs.foldlM f b = .error e := by
  induction xs with
  | nil => cases hx
  | cons y ys ih =>
    intro b
    rw [List.foldlM_cons]
    rcases List.mem_cons.1 hx with rfl | hx
    · obtain ⟨e, he⟩ := h b
      exact ⟨e, by rw [he]; rfl⟩
    · cases f b y with
      | error e => exact ⟨e, rfl⟩
      | ok b' => exact ih hx b'

theorem jfTextAdds_error {ev : Event} {e : PyErr} (h : jfTextAdds ev = .error e) : e = .attributeError := by
  cases ev with
  | start => cases h
  | finish tag text =>
    simp only [jfTextAdds] at h
    split at h
    · cases h
    · split at h
      · cases text with
        | none => cases h; rfl
        | some t => cases h
      · cases h

theorem jfTextCount_bad {es : List Event} {tag : List Char} (htag : tag = "SplitFeatures".toList ∨ tag = "LeafOutputs".toList)
    (h : .finish tag none ∈ es) : jfTextCount es = .error .attributeError := by
  induction es with
  | nil => cases h
  | cons ev es ih =>
    rw [jfTextCount]
    cases he : jfTextAdds ev with
    | error e => rw [jfTextAdds_error he]; rfl
    | ok n =>
      rcases List.mem_cons.1 h with rfl | h
      · exfalso
        rcases htag with rfl | rfl
        · have : jfTextAdds (.finish "SplitFeatures".toList none) = .error .attributeError := by decide
          rw [this] at he
          cases he
        · have : jfTextAdds (.finish "LeafOutputs".toList none) = .error .attributeError := by decide
          rw [this] at he
          cases he
      · simp only [bind, Except.bind, ih h]

end
end Verif.Ensemble
