/-
Saved models whose numbers are read back: the hypothesis is needed for the numbers that occur only.
-/
import Verif.Lemmas.QuickRankText

namespace Verif.Ensemble
open Spec Etree
variable {F : Type} {P : F → Prop}

/-- The numbers of a text satisfy `P`. -/
def TextNum (P : F → Prop) : Text F → Prop
  | .num v => P v
  | _ => True

/-- The numbers of an event satisfy `P`. -/
def EventNums (P : F → Prop) : XmlEvent F → Prop
  | .start _ attrs => ∀ a ∈ attrs, TextNum P a.2
  | .finish _ text => ∀ t, text = some t → TextNum P t

theorem nums_inner (t : Spec.Tree F) (h : ∀ v ∈ t.numbers, P v) : ∀ ev ∈ inner t, EventNums P ev := by
  induction t with
  | leaf v =>
    intro ev hev
    simp only [inner, List.mem_cons, List.not_mem_nil, or_false] at hev
    rcases hev with rfl | rfl
    · intro a ha; cases ha
    · intro t ht
      cases ht
      exact h v (by simp [Tree.numbers])
  | node f t l r ihl ihr =>
    simp only [Tree.numbers, List.mem_cons, List.mem_append] at h
    intro ev hev
    simp only [inner, List.mem_cons, List.mem_append, List.not_mem_nil, or_false] at hev
    rcases hev with ((rfl | rfl | rfl | rfl) | (rfl | h' | rfl)) | (rfl | h' | rfl)
    · intro a ha; cases ha
    · intro t ht; cases ht; trivial
    · intro a ha; cases ha
    · intro t' ht; cases ht; exact h t (.inl rfl)
    · intro a ha; rw [List.mem_singleton.1 ha]; trivial
    · exact ihl (fun v hv => h v (.inr (.inl hv))) ev h'
    · intro t ht; cases ht
    · intro a ha; rw [List.mem_singleton.1 ha]; trivial
    · exact ihr (fun v hv => h v (.inr (.inr hv))) ev h'
    · intro t ht; cases ht

theorem nums_forest (fo : Forest F) (k : Nat) (h : ∀ p ∈ fo, P p.2 ∧ ∀ v ∈ p.1.numbers, P v) : ∀ ev ∈ Xml.eventsList (forestXml k fo), EventNums P ev := by
  induction fo generalizing k with
  | nil =>
    intro ev hev
    simp [forestXml, Xml.eventsList] at hev
  | cons p fo ih =>
    obtain ⟨t, w⟩ := p
    obtain ⟨hw, ht⟩ := h (t, w) List.mem_cons_self
    intro ev hev
    rw [forestXml, Xml.eventsList] at hev
    rcases List.mem_append.1 hev with h' | h'
    · rw [Xml.events, Xml.eventsList, Xml.eventsList, splitXml_events] at h'
      simp only [List.append_nil, List.cons_append, List.mem_cons, List.mem_append, List.not_mem_nil, or_false] at h'
      rcases h' with rfl | rfl | (h' | rfl) | rfl
      · intro a ha
        rcases List.mem_cons.1 ha with rfl | ha
        · trivial
        · rw [List.mem_singleton.1 ha]
          exact hw
      · intro a ha; cases ha
      · exact nums_inner t ht ev h'
      · intro t ht; cases ht
      · intro t ht; cases ht
    · exact ih (k + 1) (fun p hp => h p (List.mem_cons_of_mem _ hp)) ev h'

theorem nums_doc (nTrees leaves : Nat) {lr : F} (hlr : P lr) (fo : Forest F) (hP : ∀ p ∈ fo, P p.2 ∧ ∀ v ∈ p.1.numbers, P v) :
    ∀ ev ∈ (docXml nTrees leaves lr fo).events, EventNums P ev := by
  intro ev hev
  unfold docXml at hev
  rw [Xml.events, Xml.eventsList, Xml.eventsList, Xml.eventsList, Xml.events] at hev
  simp only [List.append_nil, List.cons_append, List.mem_cons, List.mem_append, List.not_mem_nil, or_false] at hev
  rcases hev with rfl | (h | rfl | h | rfl) | rfl
  · intro a ha; cases ha
  · simp only [infoXml, Xml.events, Xml.eventsList, textElem, List.nil_append, List.cons_append, List.append_nil, List.mem_cons,
      List.not_mem_nil, or_false] at h
    rcases h with rfl | rfl | rfl | rfl | rfl | rfl | rfl | rfl | rfl | rfl | rfl | rfl | rfl | rfl | rfl | rfl
    all_goals first
      | (intro a ha; cases ha; done)
      | (intro t ht; cases ht; first | trivial | exact hlr)
  · intro a ha; cases ha
  · exact nums_forest fo 0 hP ev h
  · intro t ht; cases ht
  · intro t ht; cases ht

variable {float : List Char → Option F} {pr : Reprs F}

theorem print_text_on (hi : ∀ i, IntText (pr.int i) i) (hn : ∀ v, P v → IsWord (pr.num v) ∧ NumText float (pr.num v) v) (t : Text F) (hP : TextNum P t)
    (hs : ∀ p, t = .str p → p.toList ≠ []) : SpellsText float (pr.text t) t ∧ pr.text t ≠ [] := by
  cases t with
  | int i => exact ⟨⟨[], _, [], by simp [Reprs.text], allSpace_nil, allSpace_nil, hi i⟩, (intText_word (hi i)).1⟩
  | num v => exact ⟨⟨[], _, [], by simp [Reprs.text], allSpace_nil, allSpace_nil, hn v hP⟩, (hn v hP).1.1⟩
  | str p => exact ⟨rfl, hs p rfl⟩

theorem print_attr_on (hi : ∀ i, IntText (pr.int i) i) (hn : ∀ v, P v → IsWord (pr.num v) ∧ NumText float (pr.num v) v) (t : Text F) (hP : TextNum P t) :
    SpellsAttr float (pr.text t) t := by
  cases t with
  | int i => exact hi i
  | num v => exact (hn v hP).2
  | str p => rfl

theorem print_event_on (hi : ∀ i, IntText (pr.int i) i) (hn : ∀ v, P v → IsWord (pr.num v) ∧ NumText float (pr.num v) v) {ev : XmlEvent F}
    (h : GoodEvent ev) (hP : EventNums P ev) : SpellsEvent float (printEvent pr ev) ev := by
  cases ev with
  | start tag attrs =>
    refine ⟨rfl, ?_⟩
    rw [List.forall₂_map_left_iff]
    exact List.forall₂_same.2 (fun a ha => ⟨rfl, print_attr_on hi hn a.2 (hP a ha)⟩)
  | finish tag text =>
    refine ⟨rfl, ?_⟩
    rintro t rfl
    obtain ⟨h1, h2⟩ := print_text_on hi hn t (hP t rfl) (fun p hpp e => h p (by rw [hpp]) (by rw [e]; exact allSpace_nil))
    exact ⟨pr.text t, by simp [content, textOf, h2], h1⟩

end Verif.Ensemble
