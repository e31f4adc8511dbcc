/-
Lemmas about the text of QuickRank documents.
-/
import Verif.Spec.QuickRankText
import Verif.Lemmas.Etree
import Verif.Lemmas.QuickRank
import Verif.Lemmas.LightgbmText

namespace Verif.Ensemble
open Spec Etree
variable {F : Type}

/-! ### Indentation -/

theorem newline_space (level : Nat) : (newline level).all space = true := by
  simp [newline, space, List.all_replicate]

theorem newline_ne (level : Nat) : newline level ≠ [] := by simp [newline]

theorem allSpace_newline (level : Nat) : AllSpace (newline level) := by
  intro c hc
  rcases List.mem_cons.1 hc with rfl | hc
  · decide
  · rw [(List.mem_replicate.1 hc).2]
    decide

theorem blank_allSpace {t : Option (List Char)} (h : blank t = true) : AllSpace (textOf t) := by
  obtain ⟨a, b, e, ha, hb⟩ := pyStrip_split (textOf t)
  rw [List.isEmpty_iff.1 h, List.append_nil] at e
  rw [e]
  intro c hc
  rcases List.mem_append.1 hc with hc | hc
  · exact ha c hc
  · exact hb c hc

theorem setLastTail_events (s : List Char) (es : List Elem) : elemsEvents (setLastTail s es) = elemsEvents es := by
  induction es with
  | nil => rw [setLastTail]
  | cons e es ih =>
    cases es with
    | nil =>
      obtain ⟨tag, attrs, text, tail, children⟩ := e
      simp only [setLastTail, setTail, elemsEvents, elemEvents]
    | cons e' es =>
      rw [setLastTail, elemsEvents, ih]
      simp only [elemsEvents]

theorem setLastTail_valid (s : List Char) (es : List Elem) : ValidElems (setLastTail s es) ↔ ValidElems es := by
  induction es with
  | nil => rw [setLastTail]
  | cons e es ih =>
    cases es with
    | nil =>
      obtain ⟨tag, attrs, text, tail, children⟩ := e
      simp only [setLastTail, setTail, ValidElems, ValidElem]
    | cons e' es =>
      rw [setLastTail, ValidElems, ih]
      simp only [ValidElems]

theorem sameEvent_refl (e : Event) : SameEvent e e := by
  cases e with
  | start tag attrs => exact ⟨rfl, rfl⟩
  | finish tag text => exact ⟨rfl, Or.inl rfl⟩

theorem content_textOf (t : Option (List Char)) : textOf (content t) = textOf t := by
  unfold content
  split
  · rename_i h
    rw [h]
    rfl
  · rfl

mutual
/-- Indentation changes white space only. -/
theorem pretty_events : ∀ (level : Nat) (e : Elem), List.Forall₂ SameEvent (elemEvents e) (elemEvents (pretty level e))
  | level, .mk tag attrs text tail children => by
    cases children with
    | nil =>
      rw [pretty, elemEvents, elemEvents]
      refine .cons (sameEvent_refl _) ?_
      rw [elemsEvents, List.nil_append]
      exact .cons (sameEvent_refl _) .nil
    | cons c cs =>
      rw [pretty, elemEvents, elemEvents, setLastTail_events]
      refine .cons (sameEvent_refl _) ?_
      refine List.rel_append (pretty_list_events (level + 1) (c :: cs)) (.cons ⟨rfl, ?_⟩ .nil)
      split
      · rename_i hb
        refine Or.inr ?_
        rw [content_textOf, content_textOf]
        refine ⟨blank_allSpace hb, ?_⟩
        intro a ha
        rcases List.mem_append.1 ha with ha | ha
        · exact allSpace_newline level a ha
        · rw [List.mem_singleton.1 ha]
          decide
      · exact Or.inl rfl

theorem pretty_list_events : ∀ (level : Nat) (es : List Elem), List.Forall₂ SameEvent (elemsEvents es) (elemsEvents (prettyList level es))
  | level, [] => by
    rw [prettyList]
    exact .nil
  | level, e :: es => by
    rw [prettyList, elemsEvents, elemsEvents]
    exact List.rel_append (pretty_events level e) (pretty_list_events level es)
end

mutual
theorem pretty_valid : ∀ (level : Nat) (e : Elem), ValidElem e → ValidElem (pretty level e)
  | level, .mk tag attrs text tail children, h => by
    rw [ValidElem] at h
    cases children with
    | nil =>
      rw [pretty, ValidElem]
      exact h
    | cons c cs =>
      rw [pretty, ValidElem, setLastTail_valid]
      exact ⟨h.1, h.2.1, h.2.2.1, pretty_list_valid (level + 1) (c :: cs) h.2.2.2⟩

theorem pretty_list_valid : ∀ (level : Nat) (es : List Elem), ValidElems es → ValidElems (prettyList level es)
  | level, [], h => by
    rw [prettyList]
    exact h
  | level, e :: es, h => by
    rw [ValidElems] at h
    rw [prettyList, ValidElems]
    exact ⟨pretty_valid level e h.1, pretty_list_valid level es h.2⟩
end

theorem pretty_tail (level : Nat) (e : Elem) (h : tailOf e = []) : (tailOf (pretty level e)).all space = true := by
  obtain ⟨tag, attrs, text, tail, children⟩ := e
  change textOf tail = [] at h
  cases children with
  | nil =>
    rw [pretty]
    show (textOf _).all space = true
    split
    · exact newline_space level
    · rw [h]; rfl
  | cons c cs =>
    rw [pretty]
    show (textOf _).all space = true
    split
    · exact newline_space level
    · rw [h]; rfl

/-! ### Layout -/

/-- The element without its tail. -/
def bare : Elem → List Char
  | .mk tag attrs text _ children => serialize (.mk tag attrs text none children)

theorem serialize_bare (tag : List Char) (attrs : List (List Char × List Char)) (text tail : Option (List Char)) (children : List Elem) :
    serialize (.mk tag attrs text tail children) = bare (.mk tag attrs text tail children) ++ escapeText (textOf tail) := by
  rw [bare, serialize, serialize]
  simp [textOf, escapeText]

theorem serialize_setTail (s : List Char) (e : Elem) : serialize (setTail s e) = bare e ++ escapeText s := by
  obtain ⟨tag, attrs, text, tail, children⟩ := e
  rw [setTail, serialize_bare]
  rfl

theorem indented_append (a b : List (Nat × List Char)) : indented (a ++ b) = indented a ++ indented b := List.flatMap_append ..

theorem serialize_pretty {level : Nat} (e : Elem) (h : tailOf e = []) (hl : level ≠ 0) :
    serialize (pretty level e) = bare (pretty level e) ++ newline level := by
  obtain ⟨tag, attrs, text, tail, children⟩ := e
  have hb : blank tail = true := by
    change textOf tail = [] at h
    rw [blank, h]
    rfl
  cases children with
  | nil => rw [pretty, serialize_bare, if_pos ⟨hl, hb⟩, textOf, escapeText_space (newline_space level)]
  | cons c cs => rw [pretty, serialize_bare, if_pos hb, textOf, escapeText_space (newline_space level)]

mutual
theorem layout_elem : ∀ (level : Nat) (e : Elem), Plain e → List.replicate level '\t' ++ bare (pretty level e) ++ ['\n'] = indented (layout level e)
  | level, .mk tag attrs text tail children, h => by
    rw [Plain] at h
    obtain ⟨ht, htext, hc⟩ := h
    cases children with
    | nil =>
      rw [pretty, bare, serialize, layout]
      by_cases hx : textOf text = []
      · rw [if_pos hx, if_neg (by simp [hx])]
        simp [indented, textOf, escapeText]
      · rw [if_neg hx, if_pos (Or.inl hx)]
        simp [indented, textOf, escapeText, serializeList]
    | cons c cs =>
      have hx := htext (by simp)
      have hb : blank text = true := by
        rw [blank, hx]
        rfl
      have hl := layout_list level (c :: cs) hc (by simp)
      rw [pretty, bare, serialize, layout, if_pos hb]
      have hne : setLastTail (newline level) (prettyList (level + 1) (c :: cs)) ≠ [] := by
        rw [prettyList]
        cases h1 : prettyList (level + 1) cs with
        | nil => rw [setLastTail]; simp
        | cons a b => rw [setLastTail]; simp
      rw [if_pos (Or.inr hne)]
      have e1 : escapeText (textOf (some (newline level ++ ['\t']))) = '\n' :: List.replicate (level + 1) '\t' := by
        rw [textOf, escapeText_space]
        · simp [newline, List.replicate_succ']
        · rw [List.all_append, newline_space]
          rfl
      rw [e1]
      have e2 : indented ((level, '<' :: tag ++ attrsText attrs ++ ['>']) :: (layouts (level + 1) (c :: cs) ++ [(level, '<' :: '/' :: tag ++ ['>'])])) =
          List.replicate level '\t' ++ ('<' :: tag ++ attrsText attrs ++ ['>']) ++ ['\n'] ++ ((indented (layouts (level + 1) (c :: cs)) ++
            List.replicate level '\t') ++ ('<' :: '/' :: tag ++ ['>']) ++ ['\n']) := by
        have : ∀ (p : Nat × List Char) l, indented (p :: l) = (List.replicate p.1 '\t' ++ p.2 ++ ['\n']) ++ indented l := fun p l => rfl
        rw [this, indented_append, this]
        simp [indented]
      rw [e2, ← hl]
      simp [textOf, escapeText]

theorem layout_list : ∀ (level : Nat) (es : List Elem), Plains es → es ≠ [] →
    List.replicate (level + 1) '\t' ++ serializeList (setLastTail (newline level) (prettyList (level + 1) es)) =
      indented (layouts (level + 1) es) ++ List.replicate level '\t'
  | level, [], _, h => absurd rfl h
  | level, [e], h, _ => by
    rw [Plains] at h
    have h1 := layout_elem (level + 1) e h.1
    rw [prettyList, prettyList, setLastTail, serializeList, serializeList, serialize_setTail, escapeText_space (newline_space level), layouts, layouts,
      List.append_nil, List.append_nil, ← h1]
    simp [newline]
  | level, e :: e' :: es, h, _ => by
    rw [Plains] at h
    have h1 := layout_elem (level + 1) e h.1
    have h2 := layout_list level (e' :: es) h.2 (by simp)
    have ht : tailOf e = [] := by
      have := h.1
      obtain ⟨tag, attrs, text, tail, children⟩ := e
      rw [Plain] at this
      exact this.1
    have hp : prettyList (level + 1) (e :: e' :: es) = pretty (level + 1) e :: pretty (level + 1) e' :: prettyList (level + 1) es := by
      rw [prettyList, prettyList]
    have hp' : prettyList (level + 1) (e' :: es) = pretty (level + 1) e' :: prettyList (level + 1) es := by rw [prettyList]
    rw [hp'] at h2
    rw [hp, setLastTail, serializeList, serialize_pretty e ht (by omega), layouts, indented_append, ← h1, List.append_assoc, List.append_assoc _ (indented _) _, ← h2]
    simp [newline]
end

/-! ### The elements of documents -/

/-- How an event of a document is printed. -/
def printEvent (pr : Reprs F) : XmlEvent F → Event
  | .start tag attrs => .start tag.toList (attrs.map (fun a => (a.1.toList, pr.text a.2)))
  | .finish tag text => .finish tag.toList (content (text.map pr.text))

mutual
theorem toElem_events (pr : Reprs F) : ∀ x : Xml F, elemEvents (toElem pr x) = x.events.map (printEvent pr)
  | .elem tag attrs text children => by
    rw [toElem, elemEvents, toElems_events pr children, Xml.events]
    simp [printEvent]

theorem toElems_events (pr : Reprs F) : ∀ xs : List (Xml F), elemsEvents (toElems pr xs) = (Xml.eventsList xs).map (printEvent pr)
  | [] => by rw [toElems, elemsEvents, Xml.eventsList]; rfl
  | x :: xs => by
    rw [toElems, elemsEvents, toElem_events pr x, toElems_events pr xs, Xml.eventsList, List.map_append]
end

/-- Names that may be written. -/
def ValidEvent : Event → Prop
  | .start tag attrs => Name tag ∧ (∀ a ∈ attrs, Name a.1) ∧ (attrs.map (·.1)).Nodup
  | .finish _ _ => True

mutual
theorem valid_of_events : ∀ e : Elem, (∀ ev ∈ elemEvents e, ValidEvent ev) → ValidElem e
  | .mk tag attrs text tail children, h => by
    rw [elemEvents] at h
    have h1 := h (.start tag attrs) List.mem_cons_self
    rw [ValidElem]
    exact ⟨h1.1, h1.2.1, h1.2.2, valids_of_events children (fun ev hev => h ev (List.mem_cons_of_mem _ (List.mem_append_left _ hev)))⟩

theorem valids_of_events : ∀ es : List Elem, (∀ ev ∈ elemsEvents es, ValidEvent ev) → ValidElems es
  | [], _ => by rw [ValidElems]; trivial
  | e :: es, h => by
    rw [elemsEvents] at h
    rw [ValidElems]
    exact ⟨valid_of_events e (fun ev hev => h ev (List.mem_append_left _ hev)),
      valids_of_events es (fun ev hev => h ev (List.mem_append_right _ hev))⟩
end

/-- The events of the documents of forests: names, `pos` a string, no white space as a text. -/
def GoodEvent : XmlEvent F → Prop
  | .start tag attrs => Name tag.toList ∧ (∀ a ∈ attrs, Name a.1.toList) ∧ (attrs.map (·.1.toList)).Nodup ∧
      ∀ t, attrib attrs "pos" = some t → ∃ p, t = .str p
  | .finish _ text => ∀ p, text = some (.str p) → ¬ AllSpace p.toList

theorem name_of_decide {s : String} (h : decide (s.toList ≠ [] ∧ ∀ c ∈ s.toList, nameChar c = true) = true) : Name s.toList := by
  unfold Name
  exact of_decide_eq_true h

theorem good_start_nil {tag : String} (h : decide (tag.toList ≠ [] ∧ ∀ c ∈ tag.toList, nameChar c = true) = true) :
    GoodEvent (F := F) (.start tag []) := by
  refine ⟨name_of_decide h, by simp, by simp, ?_⟩
  intro t ht
  cases ht

theorem good_finish {tag : String} {t : Option (Text F)} (h : ∀ p, t = some (.str p) → ¬ AllSpace p.toList) : GoodEvent (.finish tag t) := h

theorem good_pos (p : String) : GoodEvent (F := F) (.start "split" [("pos", .str p)]) := by
  refine ⟨name_of_decide (by decide), ?_, by simp, ?_⟩
  · intro a ha
    rw [List.mem_singleton.1 ha]
    exact name_of_decide (s := "pos") (by decide)
  · intro t ht
    cases ht
    exact ⟨p, rfl⟩

theorem good_inner (t : Spec.Tree F) : ∀ ev ∈ inner t, GoodEvent ev := by
  induction t with
  | leaf v =>
    intro ev hev
    simp only [inner, List.mem_cons, List.not_mem_nil, or_false] at hev
    rcases hev with rfl | rfl
    · exact good_start_nil (by decide)
    · exact good_finish (by intro p hp; cases hp)
  | node f t l r ihl ihr =>
    intro ev hev
    simp only [inner, List.mem_cons, List.mem_append, List.not_mem_nil, or_false] at hev
    rcases hev with ((rfl | rfl | rfl | rfl) | (rfl | h | rfl)) | (rfl | h | rfl)
    · exact good_start_nil (by decide)
    · exact good_finish (by intro p hp; cases hp)
    · exact good_start_nil (by decide)
    · exact good_finish (by intro p hp; cases hp)
    · exact good_pos _
    · exact ihl ev h
    · exact good_finish (by intro p hp; cases hp)
    · exact good_pos _
    · exact ihr ev h
    · exact good_finish (by intro p hp; cases hp)

theorem good_forest (fo : Forest F) (k : Nat) : ∀ ev ∈ Xml.eventsList (forestXml k fo), GoodEvent ev := by
  induction fo generalizing k with
  | nil =>
    intro ev hev
    simp [forestXml, Xml.eventsList] at hev
  | cons p fo ih =>
    obtain ⟨t, w⟩ := p
    intro ev hev
    rw [forestXml, Xml.eventsList] at hev
    rcases List.mem_append.1 hev with h | h
    · rw [Xml.events, Xml.eventsList, Xml.eventsList, splitXml_events] at h
      simp only [List.append_nil, List.cons_append, List.mem_cons, List.mem_append, List.not_mem_nil, or_false] at h
      rcases h with rfl | rfl | (h | rfl) | rfl
      · refine ⟨name_of_decide (by decide), ?_, ?_, ?_⟩
        · intro a ha
          rcases List.mem_cons.1 ha with rfl | ha
          · exact name_of_decide (s := "id") (by decide)
          · rw [List.mem_singleton.1 ha]
            exact name_of_decide (s := "weight") (by decide)
        · show ["id".toList, "weight".toList].Nodup
          decide
        · intro t ht
          simp [attrib] at ht
      · exact good_start_nil (by decide)
      · exact good_inner t ev h
      · exact good_finish (by intro p hp; cases hp)
      · exact good_finish (by intro p hp; cases hp)
    · exact ih (k + 1) ev h

theorem good_doc (nTrees leaves : Nat) (lr : F) (fo : Forest F) : ∀ ev ∈ (docXml nTrees leaves lr fo).events, GoodEvent ev := by
  intro ev hev
  unfold docXml at hev
  rw [Xml.events, Xml.eventsList, Xml.eventsList, Xml.eventsList, Xml.events] at hev
  simp only [List.append_nil, List.cons_append, List.mem_cons, List.mem_append, List.not_mem_nil, or_false] at hev
  rcases hev with rfl | (h | rfl | h | rfl) | rfl
  · exact good_start_nil (by decide)
  · simp only [infoXml, Xml.events, Xml.eventsList, textElem, List.nil_append, List.cons_append, List.append_nil, List.mem_cons,
      List.not_mem_nil, or_false] at h
    rcases h with rfl | rfl | rfl | rfl | rfl | rfl | rfl | rfl | rfl | rfl | rfl | rfl | rfl | rfl | rfl | rfl
    all_goals first
      | exact good_start_nil (by decide)
      | (refine good_finish ?_; intro p hp; cases hp; done)
      | (refine good_finish ?_; intro p hp; cases hp; decide)
  · exact good_start_nil (by decide)
  · exact good_forest fo 0 ev h
  · exact good_finish (by intro p hp; cases hp)
  · exact good_finish (by intro p hp; cases hp)

/-! ### Spelling -/

theorem numeral_ne {s : List Char} {n : Nat} (h : Numeral s n) : s ≠ [] := (Svm.numeral_digits h).1

theorem numeral_word {s : List Char} {n : Nat} (h : Numeral s n) : IsWord s := by
  refine ⟨numeral_ne h, fun c hc hm => ?_⟩
  have := numeral_isDigit h c hc
  simp only [List.mem_cons, List.not_mem_nil, or_false] at hm
  rcases hm with rfl | rfl | rfl | rfl | rfl | rfl | rfl <;> exact absurd this (by decide)

theorem isWord_cons {c : Char} {s : List Char} (hc : c ∉ ['#', ' ', '\t', '\n', '\x0b', '\x0c', '\r']) (h : IsWord s) : IsWord (c :: s) := by
  refine ⟨by simp, fun a ha => ?_⟩
  rcases List.mem_cons.1 ha with rfl | ha
  · exact hc
  · exact h.2 a ha

theorem intText_word {s : List Char} {i : Int} (h : IntText s i) : IsWord s := by
  obtain ⟨ds, n, hd, ⟨rfl, -⟩ | ⟨rfl, -⟩ | ⟨rfl, -⟩⟩ := h
  · exact numeral_word hd
  · exact isWord_cons (by decide) (numeral_word hd)
  · exact isWord_cons (by decide) (numeral_word hd)

variable {float : List Char → Option F} {pr : Reprs F}

theorem allSpace_nil : AllSpace [] := by
  intro c hc
  cases hc

theorem print_text (hp : PrintsNumbers pr float) (t : Text F) (hs : ∀ p, t = .str p → p.toList ≠ []) :
    SpellsText float (pr.text t) t ∧ pr.text t ≠ [] ∧ SpellsAttr float (pr.text t) t := by
  cases t with
  | int i => exact ⟨⟨[], _, [], by simp [Reprs.text], allSpace_nil, allSpace_nil, hp.int i⟩, (intText_word (hp.int i)).1, hp.int i⟩
  | num v => exact ⟨⟨[], _, [], by simp [Reprs.text], allSpace_nil, allSpace_nil, hp.num v⟩, (hp.num v).1.1, (hp.num v).2⟩
  | str p => exact ⟨rfl, hs p rfl, rfl⟩

theorem print_attr (hp : PrintsNumbers pr float) (t : Text F) : SpellsAttr float (pr.text t) t := by
  cases t with
  | int i => exact hp.int i
  | num v => exact (hp.num v).2
  | str p => rfl

theorem print_event (hp : PrintsNumbers pr float) {ev : XmlEvent F} (h : GoodEvent ev) : SpellsEvent float (printEvent pr ev) ev := by
  cases ev with
  | start tag attrs =>
    refine ⟨rfl, ?_⟩
    rw [List.forall₂_map_left_iff]
    exact List.forall₂_same.2 (fun a _ => ⟨rfl, print_attr hp a.2⟩)
  | finish tag text =>
    refine ⟨rfl, ?_⟩
    rintro t rfl
    obtain ⟨h1, h2, -⟩ := print_text hp t (fun p hpp e => h p (by rw [hpp]) (by rw [e]; exact allSpace_nil))
    exact ⟨pr.text t, by simp [content, textOf, h2], h1⟩

theorem print_valid {ev : XmlEvent F} (h : GoodEvent ev) : ValidEvent (printEvent pr ev) := by
  cases ev with
  | start tag attrs =>
    refine ⟨h.1, ?_, ?_⟩
    · intro a ha
      obtain ⟨b, hb, rfl⟩ := List.mem_map.1 ha
      exact h.2.1 b hb
    · rw [List.map_map]
      exact h.2.2.1
  | finish tag text => trivial

theorem spells_ne_space {s : List Char} {t : Text F} (h : SpellsText float s t) (hs : ∀ p, t = .str p → ¬ AllSpace p.toList) : ¬ AllSpace s := by
  have key : ∀ sp w sp', s = sp ++ w ++ sp' → IsWord w → ¬ AllSpace s := by
    rintro sp w sp' rfl hw ha
    obtain ⟨c, w', rfl⟩ := List.exists_cons_of_ne_nil hw.1
    have h1 := ha c (by simp)
    exact hw.2 c (by simp) (List.mem_cons_of_mem _ h1)
  cases t with
  | int i =>
    obtain ⟨sp, w, sp', e, -, -, hw⟩ := h
    exact key sp w sp' e (intText_word hw)
  | num v =>
    obtain ⟨sp, w, sp', e, -, -, hw, -⟩ := h
    exact key sp w sp' e hw
  | str p =>
    rw [show s = p.toList from h]
    exact hs p rfl

theorem spells_same {ev ev' : Event} {x : XmlEvent F} (hs : SameEvent ev ev') (h : SpellsEvent float ev x) (hx : GoodEvent x) :
    SpellsEvent float ev' x := by
  cases x with
  | start tag attrs =>
    cases ev with
    | finish _ _ => exact absurd h (by simp [SpellsEvent])
    | start tag1 attrs1 =>
      cases ev' with
      | finish _ _ => exact absurd hs (by simp [SameEvent])
      | start tag2 attrs2 =>
        obtain ⟨rfl, rfl⟩ := hs
        exact h
  | finish tag text =>
    cases ev with
    | start _ _ => exact absurd h (by simp [SpellsEvent])
    | finish tag1 text1 =>
      cases ev' with
      | start _ _ => exact absurd hs (by simp [SameEvent])
      | finish tag2 text2 =>
        obtain ⟨rfl, hs⟩ := hs
        refine ⟨h.1, fun t ht => ?_⟩
        obtain ⟨s, rfl, h2⟩ := h.2 t ht
        rcases hs with rfl | ⟨h3, -⟩
        · exact ⟨s, rfl, h2⟩
        · exact absurd h3 (spells_ne_space h2 (fun p hp => hx p (by rw [ht, hp])))

theorem forall₂_spells {es es' : List Event} {xs : List (XmlEvent F)} (hs : List.Forall₂ SameEvent es es')
    (h : List.Forall₂ (SpellsEvent float) es xs) (hx : ∀ x ∈ xs, GoodEvent x) : List.Forall₂ (SpellsEvent float) es' xs := by
  induction hs generalizing xs with
  | nil => cases h; exact .nil
  | cons h1 _ ih =>
    cases h with
    | cons h2 h3 => exact .cons (spells_same h1 h2 (hx _ List.mem_cons_self)) (ih h3 (fun x hm => hx x (List.mem_cons_of_mem _ hm)))

/-! ### Loading -/

theorem toList_inj {a b : String} : a.toList = b.toList ↔ a = b := String.toList_inj

theorem attrib_spells {attrs : List (List Char × List Char)} {attrs' : List (String × Text F)}
    (h : List.Forall₂ (fun a b => a.1 = b.1.toList ∧ SpellsAttr float a.2 b.2) attrs attrs') (key : String) :
    (attrib attrs' key = none ∧ attribText attrs key.toList = none) ∨
    ∃ s t, attribText attrs key.toList = some s ∧ attrib attrs' key = some t ∧ SpellsAttr float s t := by
  induction h with
  | nil => exact Or.inl ⟨rfl, rfl⟩
  | @cons a b attrs attrs' h1 _ ih =>
    obtain ⟨k, s⟩ := a
    obtain ⟨k', t⟩ := b
    obtain ⟨rfl, h2⟩ := h1
    by_cases hk : k' = key
    · subst hk
      exact Or.inr ⟨s, t, by simp [attribText], by simp [attrib], h2⟩
    · have e1 : attribText ((k'.toList, s) :: attrs) key.toList = attribText attrs key.toList := by
        unfold attribText
        rw [List.find?_cons_of_neg]
        simpa [toList_inj] using hk
      have e2 : attrib ((k', t) :: attrs') key = attrib attrs' key := by
        unfold attrib
        rw [List.find?_cons_of_neg]
        simpa using hk
      rw [e1, e2]
      exact ih

theorem spells_int {s : List Char} {i : Int} (h : SpellsText float s (.int i)) : pyInt (pyStrip s) = pure i := by
  obtain ⟨sp, w, sp', rfl, h1, h2, h3⟩ := h
  rw [pyStrip_word h1 h2 (intText_word h3), pyInt_ok h3]

theorem spells_num {s : List Char} {v : F} (h : SpellsText float s (.num v)) : toFloat float (pyStrip s) = pure v := by
  obtain ⟨sp, w, sp', rfl, h1, h2, h3, h4⟩ := h
  rw [pyStrip_word h1 h2 h3, toFloat_ok h4]

/-- What succeeds on the converted texts succeeds on the texts. -/
theorem step_spells {ev : Event} {x : XmlEvent F} (h : SpellsEvent float ev x) (hx : GoodEvent x) {s s' : QrState F}
    (hs : qrStep s x = .ok s') : qrTextStep float s ev = .ok s' := by
  cases x with
  | start tag attrs' =>
    cases ev with
    | finish _ _ => exact absurd h (by simp [SpellsEvent])
    | start tag1 attrs =>
      obtain ⟨rfl, ha⟩ := h
      unfold qrStep at hs
      unfold qrTextStep
      simp only [toList_inj] at hs ⊢
      by_cases h1 : tag = "tree"
      · rw [if_pos h1] at hs ⊢
        unfold qrTextTree
        simp only [weightAttr] at hs
        cases hr : setRoot s.m (s.currTree + 1) (s.currNode + 1) with
        | error e => rw [hr] at hs; cases hs
        | ok m =>
          rw [hr] at hs
          rcases attrib_spells ha "weight" with ⟨h2, -⟩ | ⟨w, t, h2, h3, h4⟩
          · rw [h2] at hs; cases hs
          · rw [h3] at hs
            rw [h2]
            cases t with
            | int i => cases hs
            | str p => cases hs
            | num v =>
              simp only [toFloat_ok h4]
              exact hs
      · rw [if_neg h1] at hs ⊢
        by_cases h2 : tag = "split"
        · rw [if_pos h2] at hs ⊢
          unfold qrTextSplit
          rcases attrib_spells ha "pos" with ⟨h3, h4⟩ | ⟨p, t, h3, h4, h5⟩
          · rw [h3] at hs
            rw [h4]
            exact hs
          · rw [h4] at hs
            rw [h3]
            obtain ⟨q, rfl⟩ := hx.2.2.2 t h4
            simp only at hs ⊢
            cases hst : s.stack with
            | nil => rw [hst] at hs; cases hs
            | cons parent rest =>
              rw [hst] at hs
              simp only at hs ⊢
              rw [show p = q.toList from h5]
              simp only [toList_inj]
              exact hs
        · rw [if_neg h2] at hs ⊢
          exact hs
  | finish tag text' =>
    cases ev with
    | start _ _ => exact absurd h (by simp [SpellsEvent])
    | finish tag1 text =>
      obtain ⟨rfl, ht⟩ := h
      unfold qrStep at hs
      unfold qrTextStep
      simp only [toList_inj] at hs ⊢
      by_cases h1 : tag = "split"
      · rw [if_pos h1] at hs ⊢
        exact hs
      rw [if_neg h1] at hs ⊢
      by_cases h2 : tag = "feature"
      · rw [if_pos h2] at hs ⊢
        cases text' with
        | none => cases hs
        | some t =>
          obtain ⟨c, rfl, h3⟩ := ht t rfl
          cases t with
          | num v => cases hs
          | str p => cases hs
          | int i =>
            simp only [spells_int h3]
            exact hs
      rw [if_neg h2] at hs ⊢
      by_cases h3 : tag = "threshold" ∨ tag = "output"
      · rw [if_pos h3] at hs ⊢
        cases text' with
        | none => cases hs
        | some t =>
          obtain ⟨c, rfl, h4⟩ := ht t rfl
          cases t with
          | int v => cases hs
          | str p => cases hs
          | num i =>
            simp only [spells_num h4]
            exact hs
      · rw [if_neg h3] at hs ⊢
        exact hs

theorem foldlM_spells {es : List Event} {xs : List (XmlEvent F)} (h : List.Forall₂ (SpellsEvent float) es xs) (hx : ∀ x ∈ xs, GoodEvent x)
    {s s' : QrState F} (hs : xs.foldlM qrStep s = .ok s') : es.foldlM (qrTextStep float) s = .ok s' := by
  induction h generalizing s with
  | nil => exact hs
  | @cons ev x es xs h1 _ ih =>
    rw [List.foldlM_cons] at hs ⊢
    cases hq : qrStep s x with
    | error e => rw [hq] at hs; cases hs
    | ok s1 =>
      rw [hq] at hs
      rw [step_spells h1 (hx x List.mem_cons_self) hq]
      exact ih (fun x hm => hx x (List.mem_cons_of_mem _ hm)) hs

theorem tags_spells {es : List Event} {xs : List (XmlEvent F)} (h : List.Forall₂ (SpellsEvent float) es xs) :
    es.filterMap endTag = (endTags xs).map String.toList := by
  induction h with
  | nil => rfl
  | @cons ev x es xs h1 _ ih =>
    cases x with
    | start tag attrs =>
      cases ev with
      | finish _ _ => exact absurd h1 (by simp [SpellsEvent])
      | start _ _ => exact ih
    | finish tag text =>
      cases ev with
      | start _ _ => exact absurd h1 (by simp [SpellsEvent])
      | finish tag1 text1 =>
        obtain ⟨rfl, -⟩ := h1
        exact congrArg _ ih

theorem count_toList (l : List String) (a : String) : (l.map String.toList).count a.toList = l.count a :=
  List.count_map_of_injective l String.toList (fun _ _ h => toList_inj.1 h) a

theorem count_spells {es : List Event} {doc : Xml F} (h : List.Forall₂ (SpellsEvent float) es doc.events) : qrTextCount es = qrCount doc := by
  have e : qrCount doc = (((endTags doc.events).drop 1).count "tree", ((endTags doc.events).drop 1).count "feature" +
      ((endTags doc.events).drop 1).count "output") := rfl
  rw [e]
  unfold qrTextCount
  simp only [tags_spells h, ← List.map_drop, count_toList]

/-- A text loads to what the document it spells loads to. -/
theorem load_spells {doc : Xml F} (hx : ∀ x ∈ doc.events, GoodEvent x) {text : List Char} {es : List Event} (hp : parse text = .ok es)
    (h : List.Forall₂ (SpellsEvent float) es doc.events) {zero minusOne lr : F} {bs : Option F} {r : Loaded F}
    (hl : quickrankLoad zero minusOne doc lr bs = .ok r) : quickrankLoadText float zero minusOne text lr bs = .ok r := by
  unfold quickrankLoadText
  unfold quickrankLoad at hl
  rw [hp]
  simp only [bind, Except.bind, count_spells h] at hl ⊢
  cases hf : (doc.events.drop 1).foldlM qrStep ⟨alloc zero minusOne (qrCount doc).1 (qrCount doc).2, -1, -1, []⟩ with
  | error e => rw [hf] at hl; cases hl
  | ok s =>
    rw [hf] at hl
    rw [foldlM_spells (List.forall₂_drop 1 h) (fun x hm => hx x (List.mem_of_mem_drop hm)) hf]
    exact hl

end Verif.Ensemble
