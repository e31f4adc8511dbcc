/-
Lemmas about the text of XML documents: what is written is read back, and nothing is read from a part of a document.
-/
import Verif.Spec.Etree
import Mathlib.Data.List.TakeWhile

namespace Verif.Etree
open Spec

/-! ### References -/

theorem unescape_cons {c : Char} (s : List Char) (h : c ≠ '&') : unescape (c :: s) = (unescape s).map (c :: ·) := by
  conv => lhs; unfold unescape
  split <;> simp_all

theorem unescape_text (s : List Char) : unescape (escapeText s) = some s := by
  induction s with
  | nil => rfl
  | cons c s ih =>
    have e : escapeText (c :: s) = (if c = '&' then "&amp;".toList else if c = '<' then "&lt;".toList else if c = '>' then "&gt;".toList else [c]) ++
      escapeText s := rfl
    rw [e]
    by_cases h1 : c = '&'
    · subst h1
      show unescape ('&' :: 'a' :: 'm' :: 'p' :: ';' :: escapeText s) = _
      rw [unescape, ih]
      rfl
    by_cases h2 : c = '<'
    · subst h2
      show unescape ('&' :: 'l' :: 't' :: ';' :: escapeText s) = _
      rw [unescape, ih]
      rfl
    by_cases h3 : c = '>'
    · subst h3
      show unescape ('&' :: 'g' :: 't' :: ';' :: escapeText s) = _
      rw [unescape, ih]
      rfl
    rw [if_neg h1, if_neg h2, if_neg h3]
    show unescape (c :: escapeText s) = _
    rw [unescape_cons _ h1, ih]
    rfl

theorem unescape_attr (s : List Char) : unescape (escapeAttr s) = some s := by
  induction s with
  | nil => rfl
  | cons c s ih =>
    have e : escapeAttr (c :: s) = (if c = '&' then "&amp;".toList else if c = '<' then "&lt;".toList else if c = '>' then "&gt;".toList
      else if c = '"' then "&quot;".toList else if c = '\n' then "&#10;".toList else [c]) ++ escapeAttr s := rfl
    rw [e]
    by_cases h1 : c = '&'
    · subst h1
      show unescape ('&' :: 'a' :: 'm' :: 'p' :: ';' :: escapeAttr s) = _
      rw [unescape, ih]
      rfl
    by_cases h2 : c = '<'
    · subst h2
      show unescape ('&' :: 'l' :: 't' :: ';' :: escapeAttr s) = _
      rw [unescape, ih]
      rfl
    by_cases h3 : c = '>'
    · subst h3
      show unescape ('&' :: 'g' :: 't' :: ';' :: escapeAttr s) = _
      rw [unescape, ih]
      rfl
    by_cases h4 : c = '"'
    · subst h4
      show unescape ('&' :: 'q' :: 'u' :: 'o' :: 't' :: ';' :: escapeAttr s) = _
      rw [unescape, ih]
      rfl
    by_cases h5 : c = '\n'
    · subst h5
      show unescape ('&' :: '#' :: '1' :: '0' :: ';' :: escapeAttr s) = _
      rw [unescape, ih]
      rfl
    rw [if_neg h1, if_neg h2, if_neg h3, if_neg h4, if_neg h5]
    show unescape (c :: escapeAttr s) = _
    rw [unescape_cons _ h1, ih]
    rfl

theorem escapeText_lt (s : List Char) : ∀ c ∈ escapeText s, c ≠ '<' := by
  intro c hc
  obtain ⟨a, _, h⟩ := List.mem_flatMap.1 hc
  split at h
  · exact (by decide : ∀ c ∈ "&amp;".toList, c ≠ '<') c h
  split at h
  · exact (by decide : ∀ c ∈ "&lt;".toList, c ≠ '<') c h
  split at h
  · exact (by decide : ∀ c ∈ "&gt;".toList, c ≠ '<') c h
  · rw [List.mem_singleton] at h
    subst h
    assumption

theorem escapeAttr_lt (s : List Char) : ∀ c ∈ escapeAttr s, c ≠ '<' ∧ c ≠ '"' := by
  intro c hc
  obtain ⟨a, _, h⟩ := List.mem_flatMap.1 hc
  split at h
  · exact (by decide : ∀ c ∈ "&amp;".toList, c ≠ '<' ∧ c ≠ '"') c h
  split at h
  · exact (by decide : ∀ c ∈ "&lt;".toList, c ≠ '<' ∧ c ≠ '"') c h
  split at h
  · exact (by decide : ∀ c ∈ "&gt;".toList, c ≠ '<' ∧ c ≠ '"') c h
  split at h
  · exact (by decide : ∀ c ∈ "&quot;".toList, c ≠ '<' ∧ c ≠ '"') c h
  split at h
  · exact (by decide : ∀ c ∈ "&#10;".toList, c ≠ '<' ∧ c ≠ '"') c h
  · rw [List.mem_singleton] at h
    subst h
    exact ⟨by assumption, by assumption⟩

theorem escapeText_ne {s : List Char} (h : s ≠ []) : escapeText s ≠ [] := by
  obtain ⟨c, s', rfl⟩ := List.exists_cons_of_ne_nil h
  intro e
  have e1 : escapeText (c :: s') = (if c = '&' then "&amp;".toList else if c = '<' then "&lt;".toList else if c = '>' then "&gt;".toList else [c]) ++
    escapeText s' := rfl
  rw [e1] at e
  have := (List.append_eq_nil_iff.1 e).1
  split_ifs at this <;> simp at this

theorem escapeText_space {s : List Char} (h : s.all space = true) : escapeText s = s := by
  induction s with
  | nil => rfl
  | cons c s ih =>
    rw [List.all_cons, Bool.and_eq_true] at h
    have e : escapeText (c :: s) = (if c = '&' then "&amp;".toList else if c = '<' then "&lt;".toList else if c = '>' then "&gt;".toList else [c]) ++
      escapeText s := rfl
    have hc : c ≠ '&' ∧ c ≠ '<' ∧ c ≠ '>' := by
      have := h.1
      simp only [space, List.mem_cons, List.not_mem_nil, or_false, decide_eq_true_eq] at this
      rcases this with rfl | rfl | rfl | rfl <;> decide
    rw [e, if_neg hc.1, if_neg hc.2.1, if_neg hc.2.2, ih h.2]
    rfl

/-! ### Tags -/

theorem lexAttrs_ok (attrs : List (List Char × List Char)) (hn : ∀ a ∈ attrs, Name a.1) (rest : List Char)
    (hr : (rest.dropWhile space).takeWhile nameChar = []) (n : Nat) (h : attrs.length < n) :
    lexAttrs n (attrsText attrs ++ rest) = .ok (attrs, rest.dropWhile space) := by
  induction attrs generalizing n with
  | nil =>
    obtain ⟨n, rfl⟩ : ∃ m, n = m + 1 := ⟨n - 1, by simp at h; omega⟩
    show lexAttrs (n + 1) rest = _
    rw [lexAttrs]
    simp only [hr, if_true]
    rfl
  | cons a attrs ih =>
    obtain ⟨name, value⟩ := a
    obtain ⟨n, rfl⟩ : ∃ m, n = m + 1 := ⟨n - 1, by simp at h; omega⟩
    have hname := hn (name, value) (by simp)
    obtain ⟨hne, hall⟩ := hname
    have e : attrsText ((name, value) :: attrs) ++ rest = ' ' :: (name ++ ('=' :: '"' :: (escapeAttr value ++ '"' :: (attrsText attrs ++ rest)))) := by
      simp [attrsText]
    have e1 : (attrsText ((name, value) :: attrs) ++ rest).dropWhile space =
        name ++ ('=' :: '"' :: (escapeAttr value ++ '"' :: (attrsText attrs ++ rest))) := by
      rw [e, List.dropWhile_cons_of_pos (by decide)]
      obtain ⟨c, name', rfl⟩ := List.exists_cons_of_ne_nil hne
      rw [List.cons_append, List.dropWhile_cons_of_neg]
      have hc := hall c (by simp)
      intro hs
      simp only [space, List.mem_cons, List.not_mem_nil, or_false, decide_eq_true_eq] at hs
      rcases hs with rfl | rfl | rfl | rfl <;> exact absurd hc (by decide)
    have e2 : (name ++ ('=' :: '"' :: (escapeAttr value ++ '"' :: (attrsText attrs ++ rest)))).takeWhile nameChar = name := by
      rw [List.takeWhile_append_of_pos hall, List.takeWhile_cons_of_neg (by decide), List.append_nil]
    have e3 : (name ++ ('=' :: '"' :: (escapeAttr value ++ '"' :: (attrsText attrs ++ rest)))).dropWhile nameChar =
        '=' :: '"' :: (escapeAttr value ++ '"' :: (attrsText attrs ++ rest)) := by
      rw [List.dropWhile_append_of_pos hall, List.dropWhile_cons_of_neg (by decide)]
    have hq : ∀ c ∈ escapeAttr value, decide (c ≠ '"') = true := fun c hc => by simpa using (escapeAttr_lt value c hc).2
    have e4 : (escapeAttr value ++ '"' :: (attrsText attrs ++ rest)).dropWhile (· ≠ '"') = '"' :: (attrsText attrs ++ rest) := by
      rw [List.dropWhile_append_of_pos hq, List.dropWhile_cons_of_neg (by decide)]
    have e5 : (escapeAttr value ++ '"' :: (attrsText attrs ++ rest)).takeWhile (· ≠ '"') = escapeAttr value := by
      rw [List.takeWhile_append_of_pos hq, List.takeWhile_cons_of_neg (by decide), List.append_nil]
    rw [lexAttrs]
    simp only [e1, e2, e3, e4, e5, if_neg hne, unescape_attr]
    rw [if_neg (fun hm => (escapeAttr_lt value _ hm).1 rfl), ih (fun a ha => hn a (by simp [ha])) n (by simpa using h)]
    rfl

theorem attrsText_length (attrs : List (List Char × List Char)) : attrs.length ≤ (attrsText attrs).length := by
  induction attrs with
  | nil => exact Nat.le_refl _
  | cons a attrs ih =>
    have : attrsText (a :: attrs) = (' ' :: a.1 ++ ['=', '"'] ++ escapeAttr a.2 ++ ['"']) ++ attrsText attrs := rfl
    rw [this, List.length_append]
    simp only [List.length_cons, List.length_append]
    omega

/-- `lex` gives these tags and texts, with enough fuel. -/
def Lexes (s : List Char) (ts : List Token) : Prop := ∀ n, s.length < n → lex n s = .ok ts

theorem lexes_nil : Lexes [] [] := by
  intro n h
  obtain ⟨n, rfl⟩ : ∃ m, n = m + 1 := ⟨n - 1, by simp at h; omega⟩
  rfl

/-- A text between tags. -/
def dataTok (s : List Char) : List Token := if s = [] then [] else [.data (escapeText s)]

theorem lexes_data {rest : List Char} {ts : List Token} (h : Lexes rest ts) (hr : rest = [] ∨ ∃ r, rest = '<' :: r) (s : List Char) :
    Lexes (escapeText s ++ rest) (dataTok s ++ ts) := by
  unfold dataTok
  split
  · rename_i hs
    subst hs
    exact h
  · rename_i hs
    intro n hn
    obtain ⟨n, rfl⟩ : ∃ m, n = m + 1 := ⟨n - 1, by omega⟩
    obtain ⟨c, s', e⟩ := List.exists_cons_of_ne_nil (escapeText_ne hs)
    have hlt := escapeText_lt s
    rw [e] at hlt hn ⊢
    have hall : ∀ a ∈ s', decide (a ≠ '<') = true := fun a ha => by simpa using hlt a (by simp [ha])
    have hd : (s' ++ rest).dropWhile (· ≠ '<') = rest := by
      rw [List.dropWhile_append_of_pos hall]
      rcases hr with rfl | ⟨r, rfl⟩
      · rfl
      · rw [List.dropWhile_cons_of_neg (by decide)]
    have ht : (s' ++ rest).takeWhile (· ≠ '<') = s' := by
      rw [List.takeWhile_append_of_pos hall]
      rcases hr with rfl | ⟨r, rfl⟩
      · simp
      · rw [List.takeWhile_cons_of_neg (by decide), List.append_nil]
    show lex (n + 1) (c :: (s' ++ rest)) = _
    rw [lex, if_neg (hlt c (by simp)), hd, ht, h n (by simp at hn; omega)]
    rfl

theorem name_slash {tag : List Char} (h : Name tag) : ∃ c t, tag = c :: t ∧ c ≠ '/' := by
  obtain ⟨c, t, rfl⟩ := List.exists_cons_of_ne_nil h.1
  refine ⟨c, t, rfl, ?_⟩
  rintro rfl
  exact absurd (h.2 '/' (by simp)) (by decide)

theorem lexes_finish {tag rest : List Char} {ts : List Token} (hn : Name tag) (h : Lexes rest ts) :
    Lexes ('<' :: '/' :: (tag ++ '>' :: rest)) (.finish tag :: ts) := by
  intro n hl
  obtain ⟨n, rfl⟩ : ∃ m, n = m + 1 := ⟨n - 1, by omega⟩
  have e1 : (tag ++ '>' :: rest).takeWhile nameChar = tag := by
    rw [List.takeWhile_append_of_pos hn.2, List.takeWhile_cons_of_neg (by decide), List.append_nil]
  have e2 : ((tag ++ '>' :: rest).dropWhile nameChar).dropWhile space = '>' :: rest := by
    rw [List.dropWhile_append_of_pos hn.2, List.dropWhile_cons_of_neg (by decide), List.dropWhile_cons_of_neg (by decide)]
  have e3 : tagAt ('/' :: (tag ++ '>' :: rest)) = .ok ([.finish tag], rest) := by
    unfold tagAt closeTag
    simp only [e1, e2]
    rfl
  rw [lex, if_pos rfl, e3]
  simp only [bind, Except.bind]
  rw [h n (by simp at hl; omega)]
  rfl

/-- An opening tag. -/
theorem lex_open {tag : List Char} {attrs : List (List Char × List Char)} (hn : Name tag) (ha : ∀ a ∈ attrs, Name a.1)
    (hd : (attrs.map (·.1)).Nodup) (rest : List Char) (hr : (rest.dropWhile space).takeWhile nameChar = [])
    (hr' : rest.takeWhile nameChar = []) :
    tagAt (tag ++ (attrsText attrs ++ rest)) = openEnd tag attrs (rest.dropWhile space) := by
  have hhead : (attrsText attrs ++ rest).takeWhile nameChar = [] := by
    cases attrs with
    | nil => exact hr'
    | cons a attrs => rfl
  have hhead' : (attrsText attrs ++ rest).dropWhile nameChar = attrsText attrs ++ rest := by
    cases attrs with
    | nil =>
      show rest.dropWhile nameChar = rest
      cases rest with
      | nil => rfl
      | cons c r =>
        rw [List.dropWhile_cons_of_neg]
        intro hc
        rw [List.takeWhile_cons_of_pos hc] at hr'
        cases hr'
    | cons a attrs => rfl
  have e1 : (tag ++ (attrsText attrs ++ rest)).takeWhile nameChar = tag := by
    rw [List.takeWhile_append_of_pos hn.2, hhead, List.append_nil]
  have e2 : (tag ++ (attrsText attrs ++ rest)).dropWhile nameChar = attrsText attrs ++ rest := by
    rw [List.dropWhile_append_of_pos hn.2, hhead']
  obtain ⟨c, t, htag, hc⟩ := name_slash hn
  have hlen := attrsText_length attrs
  have hx := lexAttrs_ok attrs ha rest hr ((tag ++ (attrsText attrs ++ rest)).length + 1) (by simp; omega)
  have ho : tagAt (tag ++ (attrsText attrs ++ rest)) = openTag (tag ++ (attrsText attrs ++ rest)) := by
    unfold tagAt
    split
    · rename_i r he
      rw [htag, List.cons_append] at he
      exact absurd (List.cons.inj he).1 hc
    · rfl
  rw [ho]
  unfold openTag
  simp only [e1, e2, if_neg hn.1, hx, bind, Except.bind, hd, not_true, if_false]

/-! ### Elements -/

mutual
/-- The tags and texts of an element and of its tail. -/
def tokens : Elem → List Token
  | .mk tag attrs text tail children =>
    .start tag attrs :: (dataTok (textOf text) ++ (tokensList children ++ (.finish tag :: dataTok (textOf tail))))

def tokensList : List Elem → List Token
  | [] => []
  | e :: es => tokens e ++ tokensList es
end

theorem serialize_lt (e : Elem) : ∃ r, serialize e = '<' :: r := by
  obtain ⟨tag, attrs, text, tail, children⟩ := e
  rw [serialize]
  exact ⟨_, rfl⟩

theorem serializeList_lt (es : List Elem) : serializeList es = [] ∨ ∃ r, serializeList es = '<' :: r := by
  cases es with
  | nil => exact Or.inl (by rw [serializeList])
  | cons e es =>
    obtain ⟨r, h⟩ := serialize_lt e
    exact Or.inr ⟨_, by rw [serializeList, h]; rfl⟩

mutual
theorem lexes_elem {rest : List Char} {ts : List Token} (h : Lexes rest ts) (hr : rest = [] ∨ ∃ r, rest = '<' :: r) :
    ∀ e : Elem, ValidElem e → Lexes (serialize e ++ rest) (tokens e ++ ts)
  | .mk tag attrs text tail children, hv => by
    rw [ValidElem] at hv
    obtain ⟨hn, ha, hd, hc⟩ := hv
    have htail := lexes_data h hr (textOf tail)
    rw [serialize, tokens]
    split
    · rename_i hcase
      have hfin := lexes_finish (rest := escapeText (textOf tail) ++ rest) hn htail
      have hch := lexes_list (rest := '<' :: '/' :: (tag ++ '>' :: (escapeText (textOf tail) ++ rest))) hfin ⟨_, rfl⟩ children hc
      have hstart : serializeList children ++ '<' :: '/' :: (tag ++ '>' :: (escapeText (textOf tail) ++ rest)) = [] ∨
          ∃ r, serializeList children ++ '<' :: '/' :: (tag ++ '>' :: (escapeText (textOf tail) ++ rest)) = '<' :: r := by
        rcases serializeList_lt children with e | ⟨r, e⟩
        · rw [e]; exact Or.inr ⟨_, rfl⟩
        · rw [e]; exact Or.inr ⟨_, rfl⟩
      have htext := lexes_data hch hstart (textOf text)
      intro n hl
      obtain ⟨n, rfl⟩ : ∃ m, n = m + 1 := ⟨n - 1, by omega⟩
      have e : '<' :: tag ++ attrsText attrs ++ ('>' :: escapeText (textOf text) ++ serializeList children ++ ['<', '/'] ++ tag ++ ['>']) ++
          escapeText (textOf tail) ++ rest = '<' :: (tag ++ (attrsText attrs ++ ('>' :: (escapeText (textOf text) ++ (serializeList children ++
            '<' :: '/' :: (tag ++ '>' :: (escapeText (textOf tail) ++ rest))))))) := by simp
      rw [e] at hl ⊢
      have hopen : tagAt (tag ++ (attrsText attrs ++ ('>' :: (escapeText (textOf text) ++ (serializeList children ++
            '<' :: '/' :: (tag ++ '>' :: (escapeText (textOf tail) ++ rest))))))) = .ok ([.start tag attrs], escapeText (textOf text) ++
            (serializeList children ++ '<' :: '/' :: (tag ++ '>' :: (escapeText (textOf tail) ++ rest)))) :=
        lex_open hn ha hd ('>' :: (escapeText (textOf text) ++ (serializeList children ++
            '<' :: '/' :: (tag ++ '>' :: (escapeText (textOf tail) ++ rest))))) rfl rfl
      rw [lex, if_pos rfl, hopen]
      simp only [bind, Except.bind]
      rw [htext n (by simp only [List.length_cons, List.length_append] at hl ⊢; omega)]
      simp [pure, Except.pure]
    · rename_i hcase
      have h1 : textOf text = [] := Classical.byContradiction fun hne => hcase (Or.inl hne)
      have h2 : children = [] := Classical.byContradiction fun hne => hcase (Or.inr hne)
      subst h2
      intro n hl
      obtain ⟨n, rfl⟩ : ∃ m, n = m + 1 := ⟨n - 1, by omega⟩
      have e : '<' :: tag ++ attrsText attrs ++ [' ', '/', '>'] ++ escapeText (textOf tail) ++ rest =
          '<' :: (tag ++ (attrsText attrs ++ (' ' :: '/' :: '>' :: (escapeText (textOf tail) ++ rest)))) := by simp
      rw [e] at hl ⊢
      have hopen : tagAt (tag ++ (attrsText attrs ++ (' ' :: '/' :: '>' :: (escapeText (textOf tail) ++ rest)))) =
          .ok ([.start tag attrs, .finish tag], escapeText (textOf tail) ++ rest) :=
        lex_open hn ha hd (' ' :: '/' :: '>' :: (escapeText (textOf tail) ++ rest)) rfl rfl
      rw [lex, if_pos rfl, hopen]
      simp only [bind, Except.bind]
      rw [htail n (by simp only [List.length_cons, List.length_append] at hl ⊢; omega), h1, tokensList]
      simp [pure, Except.pure, dataTok]

theorem lexes_list {rest : List Char} {ts : List Token} (h : Lexes rest ts) (hr : ∃ r, rest = '<' :: r) :
    ∀ es : List Elem, ValidElems es → Lexes (serializeList es ++ rest) (tokensList es ++ ts)
  | [], _ => by
    rw [serializeList, tokensList]
    exact h
  | e :: es, hv => by
    rw [ValidElems] at hv
    have h2 := lexes_list h hr es hv.2
    have hs : serializeList es ++ rest = [] ∨ ∃ r, serializeList es ++ rest = '<' :: r := by
      obtain ⟨r, rfl⟩ := hr
      rcases serializeList_lt es with e | ⟨r, e⟩
      · rw [e]; exact Or.inr ⟨_, rfl⟩
      · rw [e]; exact Or.inr ⟨_, rfl⟩
    have h1 := lexes_elem h2 hs e hv.1
    rw [serializeList, tokensList, List.append_assoc, List.append_assoc]
    exact h1
end

/-! ### The tree builder -/

theorem build_cons (b : Builder) (t : Token) (ts : List Token) :
    build b (t :: ts) = (do let (b, es) ← buildStep b t; let es' ← build b ts; pure (es ++ es')) := rfl

theorem build_step {b b' : Builder} {t : Token} {es : List Event} (h : buildStep b t = .ok (b', es)) (ts : List Token) :
    build b (t :: ts) = (build b' ts).map (es ++ ·) := by
  rw [build_cons, h]
  simp only [bind, Except.bind]
  cases build b' ts <;> rfl

theorem except_map_map {α β γ ε : Type} (x : Except ε α) (f : α → β) (g : β → γ) : (x.map f).map g = x.map (fun a => g (f a)) := by
  cases x <;> rfl

theorem build_tail {o : Open} (ho : o.child = true) (st : List Open) (r : Bool) (s : List Char) (ts : List Token) :
    build ⟨o :: st, r⟩ (dataTok s ++ ts) = build ⟨o :: st, r⟩ ts := by
  unfold dataTok
  split
  · rfl
  · have : buildStep ⟨o :: st, r⟩ (.data (escapeText s)) = .ok (⟨o :: st, r⟩, []) := by
      simp only [buildStep, unescape_text, Open.add, ho, if_true]
      rfl
    rw [List.singleton_append, build_step this]
    cases build ⟨o :: st, r⟩ ts <;> rfl

theorem build_text (tag : List Char) (st : List Open) (r : Bool) (t : Option (List Char)) (ts : List Token) :
    build ⟨⟨tag, none, false⟩ :: st, r⟩ (dataTok (textOf t) ++ ts) = build ⟨⟨tag, content t, false⟩ :: st, r⟩ ts := by
  unfold dataTok content
  split
  · rfl
  · have : buildStep ⟨⟨tag, none, false⟩ :: st, r⟩ (.data (escapeText (textOf t))) = .ok (⟨⟨tag, some (textOf t), false⟩ :: st, r⟩, []) := by
      simp only [buildStep, unescape_text, Open.add]
      rfl
    rw [List.singleton_append, build_step this]
    cases build ⟨⟨tag, some (textOf t), false⟩ :: st, r⟩ ts <;> rfl

/-- What building the children of an element gives. -/
def ListOk (es : List Elem) : Prop := ∀ (o : Open) (st : List Open) (r : Bool) (ts : List Token),
  build ⟨o :: st, r⟩ (tokensList es ++ ts) =
    (build ⟨{ o with child := o.child || decide (es ≠ []) } :: st, r⟩ ts).map (elemsEvents es ++ ·)

/-- The inside of an element, up to its end. -/
theorem build_inside {children : List Elem} (h : ListOk children) (tag : List Char) (text : Option (List Char)) (st : List Open) (r : Bool)
    (ts : List Token) :
    build ⟨⟨tag, none, false⟩ :: st, r⟩ (dataTok (textOf text) ++ (tokensList children ++ (.finish tag :: ts))) =
      (build ⟨st, r⟩ ts).map ((elemsEvents children ++ [.finish tag (content text)]) ++ ·) := by
  rw [build_text, h ⟨tag, content text, false⟩ st r (.finish tag :: ts)]
  have : buildStep ⟨⟨tag, content text, (decide (children ≠ []))⟩ :: st, r⟩ (.finish tag) = .ok (⟨st, r⟩, [.finish tag (content text)]) := by
    simp only [buildStep, if_true]
    rfl
  have hb : ((⟨tag, content text, false⟩ : Open).child || decide (children ≠ [])) = decide (children ≠ []) := by simp
  rw [hb, build_step this, except_map_map]
  congr 1
  funext x
  simp

mutual
theorem build_elem : ∀ (e : Elem) (o : Open) (st : List Open) (r : Bool) (ts : List Token),
    build ⟨o :: st, r⟩ (tokens e ++ ts) = (build ⟨{ o with child := true } :: st, r⟩ ts).map (elemEvents e ++ ·)
  | .mk tag attrs text tail children, o, st, r, ts => by
    have hs : buildStep ⟨o :: st, r⟩ (.start tag attrs) = .ok (⟨⟨tag, none, false⟩ :: { o with child := true } :: st, r⟩, [.start tag attrs]) := rfl
    have e : tokens (.mk tag attrs text tail children) ++ ts = .start tag attrs :: (dataTok (textOf text) ++ (tokensList children ++
        (.finish tag :: (dataTok (textOf tail) ++ ts)))) := by
      rw [tokens]
      simp
    rw [e, build_step hs, build_inside (build_list children), build_tail rfl, except_map_map, elemEvents]
    congr 1

theorem build_list : ∀ es : List Elem, ListOk es
  | [] => by
    intro o st r ts
    rw [tokensList, elemsEvents]
    obtain ⟨a, b, c⟩ := o
    simp only [List.nil_append, ne_eq, not_true, decide_false, Bool.or_false]
    cases build ⟨⟨a, b, c⟩ :: st, r⟩ ts <;> rfl
  | e :: es => by
    intro o st r ts
    have h := build_list es
    rw [tokensList, List.append_assoc, build_elem e, h { o with child := true } st r ts, except_map_map, elemsEvents]
    simp only [Bool.true_or, ne_eq, reduceCtorEq, not_false_eq_true, decide_true, Bool.or_true]
    congr 1
    funext x
    simp
end

/-- What is written is read back. -/
theorem parse_serialize {e : Elem} (hv : ValidElem e) (ht : (tailOf e).all space = true) : parse (serialize e) = .ok (elemEvents e) := by
  have hl := lexes_elem lexes_nil (Or.inl rfl) e hv
  rw [List.append_nil, List.append_nil] at hl
  unfold parse
  rw [hl _ (Nat.lt_succ_self _)]
  simp only [bind, Except.bind]
  obtain ⟨tag, attrs, text, tail, children⟩ := e
  have hs : buildStep ⟨[], false⟩ (.start tag attrs) = .ok (⟨[⟨tag, none, false⟩], true⟩, [.start tag attrs]) := rfl
  rw [tokens, build_step hs, build_inside (build_list children)]
  have hend : build ⟨[], true⟩ (dataTok (textOf tail)) = .ok [] := by
    unfold dataTok
    split
    · rfl
    · change (textOf tail).all space = true at ht
      have : buildStep ⟨[], true⟩ (.data (escapeText (textOf tail))) = .ok (⟨[], true⟩, []) := by
        simp only [buildStep, escapeText_space ht, ht, if_true]
        rfl
      rw [build_step this]
      rfl
  rw [hend, elemEvents]
  simp [Except.map]

/-! ### Parts of documents -/

theorem dropWhile_append_ne {α : Type} {p : α → Bool} {s t : List α} (h : s.dropWhile p ≠ []) : (s ++ t).dropWhile p = s.dropWhile p ++ t := by
  induction s with
  | nil => exact absurd rfl h
  | cons c s ih =>
    rw [List.cons_append, List.dropWhile_cons, List.dropWhile_cons] at *
    split
    · rename_i hc
      rw [if_pos hc] at h
      exact ih h
    · rfl

theorem takeWhile_append_ne {α : Type} {p : α → Bool} {s t : List α} (h : s.dropWhile p ≠ []) : (s ++ t).takeWhile p = s.takeWhile p := by
  induction s with
  | nil => exact absurd rfl h
  | cons c s ih =>
    rw [List.dropWhile_cons] at h
    rw [List.cons_append, List.takeWhile_cons, List.takeWhile_cons]
    split
    · rename_i hc
      rw [if_pos hc] at h
      rw [ih h]
    · rfl

theorem lexAttrs_prefix {n : Nat} : ∀ {m : Nat} {s t rest : List Char} {attrs : List (List Char × List Char)}, n ≤ m → rest ≠ [] →
    lexAttrs n s = .ok (attrs, rest) → lexAttrs m (s ++ t) = .ok (attrs, rest ++ t) := by
  induction n with
  | zero => intro m s t rest attrs _ _ h; cases h
  | succ n ih =>
    intro m s t rest attrs hm hne h
    obtain ⟨m, rfl⟩ : ∃ k, m = k + 1 := ⟨m - 1, by omega⟩
    rw [lexAttrs] at h ⊢
    simp only at h ⊢
    by_cases h0 : s.dropWhile space = []
    · rw [h0] at h
      simp only [List.takeWhile_nil, if_true] at h
      cases h
      exact absurd rfl hne
    rw [dropWhile_append_ne h0]
    by_cases h1 : (s.dropWhile space).takeWhile nameChar = []
    · rw [if_pos h1] at h
      cases h
      have : (s.dropWhile space ++ t).takeWhile nameChar = [] := by
        obtain ⟨c, r, e⟩ := List.exists_cons_of_ne_nil h0
        rw [e] at h1 ⊢
        rw [List.cons_append, List.takeWhile_cons]
        rw [List.takeWhile_cons] at h1
        split at h1
        · cases h1
        · rename_i hc
          rw [if_neg hc]
      rw [if_pos this]
      rfl
    rw [if_neg h1] at h
    have h2 : (s.dropWhile space).dropWhile nameChar ≠ [] := by
      intro e
      rw [e] at h
      cases h
    rw [takeWhile_append_ne h2, dropWhile_append_ne h2, if_neg h1]
    split at h
    · rename_i v ev
      rw [ev]
      simp only [List.cons_append]
      split at h
      · rename_i rest' er
        have h3 : v.dropWhile (· ≠ '"') ≠ [] := by rw [er]; simp
        rw [dropWhile_append_ne h3, takeWhile_append_ne h3, er]
        simp only [List.cons_append]
        cases hu : unescape (v.takeWhile (· ≠ '"')) with
        | none => rw [hu] at h; cases h
        | some value =>
          rw [hu] at h
          simp only at h ⊢
          split at h
          · cases h
          · rename_i hlt
            rw [if_neg hlt]
            cases hr : lexAttrs n rest' with
            | error e => rw [hr] at h; cases h
            | ok p =>
              obtain ⟨as, r⟩ := p
              rw [hr] at h
              have h' : ((s.dropWhile space).takeWhile nameChar, value) :: as = attrs ∧ r = rest := by
                cases h
                exact ⟨rfl, rfl⟩
              obtain ⟨rfl, rfl⟩ := h'
              rw [ih (by omega) hne hr]
              rfl
      · cases h
    · cases h

theorem openEnd_prefix {name : List Char} {attrs : List (List Char × List Char)} {s t rest : List Char} {ts : List Token}
    (h : openEnd name attrs s = .ok (ts, rest)) : openEnd name attrs (s ++ t) = .ok (ts, rest ++ t) := by
  unfold openEnd at h
  split at h
  · cases h; rfl
  · cases h; rfl
  · cases h

theorem openEnd_ne {name : List Char} {attrs : List (List Char × List Char)} {s rest : List Char} {ts : List Token}
    (h : openEnd name attrs s = .ok (ts, rest)) : s ≠ [] := by
  rintro rfl
  cases h

theorem tagAt_prefix {s t rest : List Char} {ts : List Token} (h : tagAt s = .ok (ts, rest)) : tagAt (s ++ t) = .ok (ts, rest ++ t) := by
  unfold tagAt at h
  split at h
  · rename_i r
    show closeTag (r ++ t) = _
    unfold closeTag at h ⊢
    split at h
    · rename_i rest' er
      have h1 : r.dropWhile nameChar ≠ [] := by
        intro e
        rw [e] at er
        cases er
      have h2 : (r.dropWhile nameChar).dropWhile space ≠ [] := by rw [er]; simp
      rw [dropWhile_append_ne h1, dropWhile_append_ne h2, er, takeWhile_append_ne h1]
      cases h
      rfl
    · cases h
  · rename_i hslash
    have hs : s ≠ [] := by
      rintro rfl
      cases h
    have e : tagAt (s ++ t) = openTag (s ++ t) := by
      unfold tagAt
      obtain ⟨c, s', rfl⟩ := List.exists_cons_of_ne_nil hs
      split
      · rename_i r he
        rw [List.cons_append] at he
        obtain ⟨rfl, -⟩ := List.cons.inj he
        exact absurd rfl (hslash s')
      · rfl
    rw [e]
    unfold openTag at h ⊢
    simp only at h ⊢
    split at h
    · cases h
    rename_i hname
    cases ha : lexAttrs (s.length + 1) (s.dropWhile nameChar) with
    | error e => rw [ha] at h; cases h
    | ok p =>
      obtain ⟨attrs, r⟩ := p
      rw [ha] at h
      simp only [bind, Except.bind] at h
      split at h
      · cases h
      rename_i hd
      have h1 : s.dropWhile nameChar ≠ [] := by
        intro e1
        rw [e1, lexAttrs] at ha
        simp only [List.dropWhile_nil, List.takeWhile_nil, if_true] at ha
        cases ha
        exact openEnd_ne h rfl
      rw [takeWhile_append_ne h1, dropWhile_append_ne h1, if_neg hname]
      rw [lexAttrs_prefix (m := (s ++ t).length + 1) (by simp) (openEnd_ne h) ha]
      simp only [bind, Except.bind]
      rw [if_neg hd]
      exact openEnd_prefix h

theorem lex_nil {m : Nat} {ts : List Token} (h : lex m [] = .ok ts) : ts = [] := by
  cases m with
  | zero => cases h
  | succ m => cases h; rfl

/-- The tags and texts of the beginning of a document are those of the document, except that the last text may go on. -/
theorem lex_prefix {n : Nat} : ∀ {m : Nat} {s t : List Char} {ts ts' : List Token}, lex n s = .ok ts → lex m (s ++ t) = .ok ts' →
    (∃ us k, ts' = ts ++ us ∧ lex k t = .ok us) ∨
    (∃ ts0 d d2 t2 us k, ts = ts0 ++ [.data d] ∧ ts' = ts0 ++ .data (d ++ d2) :: us ∧ t = d2 ++ t2 ∧ lex k t2 = .ok us) := by
  induction n with
  | zero => intro m s t ts ts' h; cases h
  | succ n ih =>
    intro m s t ts ts' h h'
    cases s with
    | nil => cases h; exact Or.inl ⟨ts', m, rfl, h'⟩
    | cons c s =>
      cases m with
      | zero => cases h'
      | succ m =>
        rw [List.cons_append] at h'
        rw [lex] at h h'
        by_cases hc : c = '<'
        · rw [if_pos hc] at h h'
          cases hg : tagAt s with
          | error e => rw [hg] at h; cases h
          | ok p =>
            obtain ⟨t1, rest⟩ := p
            rw [hg] at h
            rw [tagAt_prefix hg] at h'
            simp only [bind, Except.bind] at h h'
            cases h1 : lex n rest with
            | error e => rw [h1] at h; cases h
            | ok ts1 =>
              cases h2 : lex m (rest ++ t) with
              | error e => rw [h2] at h'; cases h'
              | ok ts2 =>
                rw [h1] at h
                rw [h2] at h'
                cases h
                cases h'
                rcases ih h1 h2 with ⟨us, k, rfl, hk⟩ | ⟨ts0, d, d2, t2, us, k, rfl, rfl, rfl, hk⟩
                · exact Or.inl ⟨us, k, by simp, hk⟩
                · exact Or.inr ⟨t1 ++ ts0, d, d2, t2, us, k, by simp, by simp, rfl, hk⟩
        · rw [if_neg hc] at h h'
          by_cases h0 : s.dropWhile (· ≠ '<') = []
          · have hall : ∀ a ∈ s, decide (a ≠ '<') = true := List.dropWhile_eq_nil_iff.1 h0
            rw [h0] at h
            rw [List.dropWhile_append_of_pos hall, List.takeWhile_append_of_pos hall] at h'
            have ht : s.takeWhile (· ≠ '<') = s := List.takeWhile_eq_self_iff.2 hall
            rw [ht] at h
            cases h1 : lex n [] with
            | error e => rw [h1] at h; cases h
            | ok ts1 =>
              cases h2 : lex m (t.dropWhile (· ≠ '<')) with
              | error e => rw [h2] at h'; cases h'
              | ok ts2 =>
                rw [h1] at h
                rw [h2] at h'
                cases h
                cases h'
                have := lex_nil h1
                subst this
                exact Or.inr ⟨[], c :: s, t.takeWhile (· ≠ '<'), t.dropWhile (· ≠ '<'), ts2, m, rfl, rfl, (List.takeWhile_append_dropWhile).symm, h2⟩
          · rw [dropWhile_append_ne h0, takeWhile_append_ne h0] at h'
            cases h1 : lex n (s.dropWhile (· ≠ '<')) with
            | error e => rw [h1] at h; cases h
            | ok ts1 =>
              cases h2 : lex m (s.dropWhile (· ≠ '<') ++ t) with
              | error e => rw [h2] at h'; cases h'
              | ok ts2 =>
                rw [h1] at h
                rw [h2] at h'
                cases h
                cases h'
                rcases ih h1 h2 with ⟨us, k, rfl, hk⟩ | ⟨ts0, d, d2, t2, us, k, rfl, rfl, rfl, hk⟩
                · exact Or.inl ⟨us, k, by simp, hk⟩
                · exact Or.inr ⟨.data (c :: s.takeWhile (· ≠ '<')) :: ts0, d, d2, t2, us, k, by simp, by simp, rfl, hk⟩

/-- White space between tags. -/
def Blank (t : Token) : Prop := ∃ s, t = .data s ∧ s.all space = true

theorem lex_blank {n : Nat} : ∀ {s : List Char} {ts : List Token}, lex n s = .ok ts → (∀ t ∈ ts, Blank t) → s.all space = true := by
  induction n with
  | zero => intro s ts h; cases h
  | succ n ih =>
    intro s ts h hb
    cases s with
    | nil => rfl
    | cons c s =>
      rw [lex] at h
      by_cases hc : c = '<'
      · rw [if_pos hc] at h
        cases hg : tagAt s with
        | error e => rw [hg] at h; cases h
        | ok p =>
          obtain ⟨t1, rest⟩ := p
          rw [hg] at h
          simp only [bind, Except.bind] at h
          cases h1 : lex n rest with
          | error e => rw [h1] at h; cases h
          | ok ts1 =>
            rw [h1] at h
            cases h
            have hex : ∃ tok ∈ t1, ¬ Blank tok := by
              unfold tagAt at hg
              split at hg
              · unfold closeTag at hg
                split at hg
                · cases hg
                  exact ⟨_, List.mem_cons_self, by rintro ⟨s, h, -⟩; cases h⟩
                · cases hg
              · unfold openTag at hg
                simp only at hg
                split at hg
                · cases hg
                · cases ha : lexAttrs (s.length + 1) (s.dropWhile nameChar) with
                  | error e => rw [ha] at hg; cases hg
                  | ok p =>
                    rw [ha] at hg
                    simp only [bind, Except.bind] at hg
                    split at hg
                    · cases hg
                    · unfold openEnd at hg
                      split at hg
                      · cases hg
                        exact ⟨_, List.mem_cons_self, by rintro ⟨s, h, -⟩; cases h⟩
                      · cases hg
                        exact ⟨_, List.mem_cons_self, by rintro ⟨s, h, -⟩; cases h⟩
                      · cases hg
            obtain ⟨tok, hm, hn⟩ := hex
            exact absurd (hb tok (List.mem_append_left _ hm)) hn
      · rw [if_neg hc] at h
        cases h1 : lex n (s.dropWhile (· ≠ '<')) with
        | error e => rw [h1] at h; cases h
        | ok ts1 =>
          rw [h1] at h
          cases h
          obtain ⟨d, hd, hs⟩ := hb _ List.mem_cons_self
          cases hd
          have h2 := ih h1 (fun t ht => hb t (by simp [ht]))
          have : c :: s = (c :: s.takeWhile (· ≠ '<')) ++ s.dropWhile (· ≠ '<') := by
            rw [List.cons_append, List.takeWhile_append_dropWhile]
          rw [this, List.all_append, hs, h2]
          rfl

theorem build_done {us : List Token} : ∀ {es : List Event}, build ⟨[], true⟩ us = .ok es → es = [] ∧ ∀ t ∈ us, Blank t := by
  induction us with
  | nil => intro es h; cases h; exact ⟨rfl, by simp⟩
  | cons t us ih =>
    intro es h
    rw [build_cons] at h
    cases t with
    | start tag attrs => cases h
    | finish tag => cases h
    | data s =>
      by_cases hs : s.all space = true
      · have : buildStep ⟨[], true⟩ (.data s) = .ok (⟨[], true⟩, []) := by
          simp only [buildStep, hs, if_true]
          rfl
        rw [this] at h
        simp only [bind, Except.bind] at h
        cases h1 : build ⟨[], true⟩ us with
        | error e => rw [h1] at h; cases h
        | ok es1 =>
          rw [h1] at h
          cases h
          obtain ⟨rfl, h2⟩ := ih h1
          refine ⟨rfl, fun t ht => ?_⟩
          rcases List.mem_cons.1 ht with rfl | ht
          · exact ⟨s, rfl, hs⟩
          · exact h2 t ht
      · have : buildStep ⟨[], true⟩ (.data s) = .error .parseError := by
          simp only [buildStep, hs]
          rfl
        rw [this] at h
        cases h

/-- Building the same beginning: either fails, or goes on from the same state with the same events. -/
theorem build_append (ts : List Token) : ∀ (b : Builder), (∃ e, ∀ us, build b (ts ++ us) = .error e) ∨
    ∃ b' es, ∀ us, build b (ts ++ us) = (build b' us).map (es ++ ·) := by
  induction ts with
  | nil =>
    intro b
    refine Or.inr ⟨b, [], fun us => ?_⟩
    rw [List.nil_append]
    cases build b us <;> rfl
  | cons t ts ih =>
    intro b
    cases hs : buildStep b t with
    | error e =>
      refine Or.inl ⟨e, fun us => ?_⟩
      rw [List.cons_append, build_cons, hs]
      rfl
    | ok p =>
      obtain ⟨b1, es1⟩ := p
      rcases ih b1 with ⟨e, h⟩ | ⟨b', es, h⟩
      · refine Or.inl ⟨e, fun us => ?_⟩
        rw [List.cons_append, build_step hs, h us]
        rfl
      · refine Or.inr ⟨b', es1 ++ es, fun us => ?_⟩
        rw [List.cons_append, build_step hs, h us, except_map_map]
        congr 1
        funext x
        simp

theorem build_nil {b : Builder} {es : List Event} (h : build b [] = .ok es) : b = ⟨[], true⟩ ∧ es = [] := by
  unfold build at h
  split at h
  · rename_i hc
    cases h
    obtain ⟨st, r⟩ := b
    exact ⟨by simp only at hc; rw [hc.1, hc.2], rfl⟩
  · cases h

/-- If a document and its beginning can both be read, the rest is white space and the events are the same. -/
theorem parse_prefix {s t : List Char} {es es' : List Event} (h : parse s = .ok es) (h' : parse (s ++ t) = .ok es') :
    es' = es ∧ t.all space = true := by
  unfold parse at h h'
  cases h1 : lex (s.length + 1) s with
  | error e => rw [h1] at h; cases h
  | ok ts =>
    cases h2 : lex ((s ++ t).length + 1) (s ++ t) with
    | error e => rw [h2] at h'; cases h'
    | ok ts' =>
      rw [h1] at h
      rw [h2] at h'
      simp only [bind, Except.bind] at h h'
      rcases lex_prefix h1 h2 with ⟨us, k, rfl, hk⟩ | ⟨ts0, d, d2, t2, us, k, rfl, rfl, rfl, hk⟩
      · rcases build_append ts ⟨[], false⟩ with ⟨e, hb⟩ | ⟨b', es0, hb⟩
        · have := hb []
          rw [List.append_nil, h] at this
          cases this
        · have h3 := hb []
          rw [List.append_nil, h] at h3
          have h4 := hb us
          rw [h'] at h4
          cases h5 : build b' [] with
          | error e => rw [h5] at h3; cases h3
          | ok es1 =>
            obtain ⟨rfl, rfl⟩ := build_nil h5
            rw [h5] at h3
            cases h6 : build ⟨[], true⟩ us with
            | error e => rw [h6] at h4; cases h4
            | ok es2 =>
              rw [h6] at h4
              obtain ⟨rfl, hbl⟩ := build_done h6
              cases h3
              cases h4
              exact ⟨rfl, lex_blank hk hbl⟩
      · rcases build_append ts0 ⟨[], false⟩ with ⟨e, hb⟩ | ⟨b', es0, hb⟩
        · rw [hb] at h
          cases h
        · rw [hb] at h h'
          obtain ⟨st, r⟩ := b'
          cases st with
          | cons o st =>
            exfalso
            rw [build_cons] at h
            simp only [buildStep] at h
            cases hu : unescape d with
            | none => rw [hu] at h; cases h
            | some x =>
              rw [hu] at h
              cases h
          | nil =>
            rw [build_cons] at h h'
            simp only [buildStep] at h h'
            by_cases hd : d.all space = true
            · rw [if_pos hd] at h
              by_cases hd2 : (d ++ d2).all space = true
              · rw [if_pos hd2] at h'
                simp only [bind, Except.bind, pure, Except.pure] at h h'
                cases h5 : build ⟨[], r⟩ [] with
                | error e => rw [h5] at h; cases h
                | ok es1 =>
                  obtain ⟨hr, rfl⟩ := build_nil h5
                  injection hr with _ hr
                  subst hr
                  rw [h5] at h
                  cases h6 : build ⟨[], true⟩ us with
                  | error e => rw [h6] at h'; cases h'
                  | ok es2 =>
                    rw [h6] at h'
                    obtain ⟨rfl, hbl⟩ := build_done h6
                    cases h
                    cases h'
                    rw [List.all_append, Bool.and_eq_true] at hd2
                    exact ⟨rfl, by rw [List.all_append, hd2.2, lex_blank hk hbl]; rfl⟩
              · rw [if_neg hd2] at h'
                cases h'
            · rw [if_neg hd] at h
              cases h

/-! ### Errors -/

theorem length_dropWhile {α : Type} (p : α → Bool) (s : List α) : (s.dropWhile p).length ≤ s.length := (List.dropWhile_sublist p).length_le

theorem lexAttrs_length {n : Nat} : ∀ {s rest : List Char} {attrs : List (List Char × List Char)}, lexAttrs n s = .ok (attrs, rest) →
    rest.length ≤ s.length := by
  induction n with
  | zero => intro s rest attrs h; cases h
  | succ n ih =>
    intro s rest attrs h
    rw [lexAttrs] at h
    simp only at h
    have h0 := length_dropWhile space s
    split at h
    · cases h; exact h0
    · split at h
      · rename_i v ev
        have h1 := length_dropWhile nameChar (s.dropWhile space)
        rw [ev] at h1
        simp only [List.length_cons] at h1
        split at h
        · rename_i r er
          have h2 := length_dropWhile (· ≠ '"') v
          rw [er] at h2
          simp only [List.length_cons] at h2
          cases hu : unescape (v.takeWhile (· ≠ '"')) with
          | none => rw [hu] at h; cases h
          | some value =>
            rw [hu] at h
            simp only at h
            split at h
            · cases h
            · cases hr : lexAttrs n r with
              | error e => rw [hr] at h; cases h
              | ok p =>
                obtain ⟨as, r'⟩ := p
                rw [hr] at h
                have := ih hr
                cases h
                show r'.length ≤ s.length
                omega
        · cases h
      · cases h

theorem lexAttrs_error {n : Nat} : ∀ {s : List Char} {e : PyErr}, s.length < n → lexAttrs n s = .error e → e = .parseError := by
  induction n with
  | zero => intro s e h; omega
  | succ n ih =>
    intro s e hl h
    rw [lexAttrs] at h
    simp only at h
    have h0 := length_dropWhile space s
    split at h
    · cases h
    · split at h
      · rename_i v ev
        have h1 := length_dropWhile nameChar (s.dropWhile space)
        rw [ev] at h1
        simp only [List.length_cons] at h1
        split at h
        · rename_i r er
          have h2 := length_dropWhile (· ≠ '"') v
          rw [er] at h2
          simp only [List.length_cons] at h2
          cases hu : unescape (v.takeWhile (· ≠ '"')) with
          | none => rw [hu] at h; cases h; rfl
          | some value =>
            rw [hu] at h
            simp only at h
            split at h
            · cases h; rfl
            · cases hr : lexAttrs n r with
              | error e' =>
                rw [hr] at h
                have := ih (by omega) hr
                cases h
                exact this
              | ok p => rw [hr] at h; cases h
        · cases h; rfl
      · cases h; rfl

theorem openEnd_length {name : List Char} {attrs : List (List Char × List Char)} {s rest : List Char} {ts : List Token}
    (h : openEnd name attrs s = .ok (ts, rest)) : rest.length ≤ s.length := by
  unfold openEnd at h
  split at h
  · cases h; simp
  · cases h; simp; omega
  · cases h

theorem openEnd_error {name : List Char} {attrs : List (List Char × List Char)} {s : List Char} {e : PyErr}
    (h : openEnd name attrs s = .error e) : e = .parseError := by
  unfold openEnd at h
  split at h
  · cases h
  · cases h
  · cases h; rfl

theorem tagAt_cases (s : List Char) : (∃ r, s = '/' :: r ∧ tagAt s = closeTag r) ∨ tagAt s = openTag s := by
  unfold tagAt
  split
  · exact Or.inl ⟨_, rfl, rfl⟩
  · exact Or.inr rfl

theorem tagAt_length {s rest : List Char} {ts : List Token} (h : tagAt s = .ok (ts, rest)) : rest.length ≤ s.length := by
  rcases tagAt_cases s with ⟨r, rfl, e⟩ | e
  · rw [e] at h
    unfold closeTag at h
    split at h
    · rename_i r' er
      cases h
      have h1 := length_dropWhile nameChar r
      have h2 := length_dropWhile space (r.dropWhile nameChar)
      rw [er] at h2
      simp only [List.length_cons] at h2 ⊢
      omega
    · cases h
  · rw [e] at h
    unfold openTag at h
    simp only at h
    split at h
    · cases h
    · cases ha : lexAttrs (s.length + 1) (s.dropWhile nameChar) with
      | error e => rw [ha] at h; cases h
      | ok p =>
        obtain ⟨attrs, r⟩ := p
        rw [ha] at h
        simp only [bind, Except.bind] at h
        split at h
        · cases h
        · have h1 := lexAttrs_length ha
          have h2 := length_dropWhile nameChar s
          have h3 := openEnd_length h
          omega

theorem tagAt_error {s : List Char} {e : PyErr} (h : tagAt s = .error e) : e = .parseError := by
  rcases tagAt_cases s with ⟨r, rfl, e1⟩ | e1
  · rw [e1] at h
    unfold closeTag at h
    split at h
    · cases h
    · cases h; rfl
  · rw [e1] at h
    unfold openTag at h
    simp only at h
    split at h
    · cases h; rfl
    · cases ha : lexAttrs (s.length + 1) (s.dropWhile nameChar) with
      | error e2 =>
        rw [ha] at h
        have h2 := length_dropWhile nameChar s
        have := lexAttrs_error (by omega) ha
        cases h
        exact this
      | ok p =>
        obtain ⟨attrs, r⟩ := p
        rw [ha] at h
        simp only [bind, Except.bind] at h
        split at h
        · cases h; rfl
        · exact openEnd_error h

theorem lex_error {n : Nat} : ∀ {s : List Char} {e : PyErr}, s.length < n → lex n s = .error e → e = .parseError := by
  induction n with
  | zero => intro s e h; omega
  | succ n ih =>
    intro s e hl h
    cases s with
    | nil => cases h
    | cons c s =>
      simp only [List.length_cons] at hl
      rw [lex] at h
      split at h
      · cases hg : tagAt s with
        | error e1 =>
          rw [hg] at h
          have := tagAt_error hg
          cases h
          exact this
        | ok p =>
          obtain ⟨t, rest⟩ := p
          have h1 := tagAt_length hg
          rw [hg] at h
          simp only [bind, Except.bind] at h
          cases h2 : lex n rest with
          | error e1 =>
            rw [h2] at h
            have := ih (by omega) h2
            cases h
            exact this
          | ok ts => rw [h2] at h; cases h
      · cases h2 : lex n (s.dropWhile (· ≠ '<')) with
        | error e1 =>
          rw [h2] at h
          have := length_dropWhile (· ≠ '<') s
          have := ih (by omega) h2
          cases h
          exact this
        | ok ts => rw [h2] at h; cases h

theorem buildStep_error {b : Builder} {t : Token} {e : PyErr} (h : buildStep b t = .error e) : e = .parseError := by
  obtain ⟨st, r⟩ := b
  cases t with
  | start tag attrs =>
    cases st with
    | nil =>
      simp only [buildStep] at h
      split at h
      · cases h; rfl
      · cases h
    | cons o st => cases h
  | finish tag =>
    cases st with
    | nil => cases h; rfl
    | cons o st =>
      simp only [buildStep] at h
      split at h
      · cases h
      · cases h; rfl
  | data s =>
    cases st with
    | nil =>
      simp only [buildStep] at h
      split at h
      · cases h
      · cases h; rfl
    | cons o st =>
      simp only [buildStep] at h
      cases hu : unescape s with
      | none => rw [hu] at h; cases h; rfl
      | some x => rw [hu] at h; cases h

theorem build_error {ts : List Token} : ∀ {b : Builder} {e : PyErr}, build b ts = .error e → e = .parseError := by
  induction ts with
  | nil =>
    intro b e h
    unfold build at h
    split at h
    · cases h
    · cases h; rfl
  | cons t ts ih =>
    intro b e h
    cases hs : buildStep b t with
    | error e1 =>
      rw [build_cons, hs] at h
      have := buildStep_error hs
      cases h
      exact this
    | ok p =>
      obtain ⟨b', es⟩ := p
      rw [build_step hs] at h
      cases h1 : build b' ts with
      | error e1 =>
        rw [h1] at h
        have := ih h1
        cases h
        exact this
      | ok es' => rw [h1] at h; cases h

/-- The only error is `ParseError`. -/
theorem parse_error {s : List Char} {e : PyErr} (h : parse s = .error e) : e = .parseError := by
  unfold parse at h
  cases h1 : lex (s.length + 1) s with
  | error e1 =>
    rw [h1] at h
    have := lex_error (Nat.lt_succ_self _) h1
    cases h
    exact this
  | ok ts =>
    rw [h1] at h
    exact build_error h

end Verif.Etree
