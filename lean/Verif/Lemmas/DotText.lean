/-
Lemmas about the reader of DOT texts and the writer.
-/
import Verif.Model.DotText
import Verif.Spec.DotText
import Verif.Lemmas.SvmlightText
import Verif.Lemmas.Graphviz

namespace Verif.Spec.DotText
open Dot

theorem run_append (m : Mode) (a b : List Char) :
    run m (a ++ b) = (run m a).bind (fun r => (run r.2 b).map (fun q => (r.1 ++ q.1, q.2))) := by
  induction a generalizing m with
  | nil => simp [run]
  | cons c a ih =>
    simp only [List.cons_append, run]
    cases step m c with
    | none => rfl
    | some p =>
      simp only [ih]
      cases run p.2 a with
      | none => rfl
      | some q =>
        simp only [Option.bind_some, Option.map_some, Option.map_map]
        congr 1
        funext x
        simp

/-- A text made of whole tokens. -/
def Lexes (s : List Char) (ts : List Token) : Prop := run .out s = some (ts, .out)

instance (s : List Char) (ts : List Token) : Decidable (Lexes s ts) := inferInstanceAs (Decidable (run .out s = some (ts, .out)))

theorem Lexes.append {a b : List Char} {s t : List Token} (h : Lexes a s) (h' : Lexes b t) : Lexes (a ++ b) (s ++ t) := by
  unfold Lexes at *
  rw [run_append, h, Option.bind_some, h']
  rfl

theorem Lexes.nil : Lexes [] [] := rfl

theorem Lexes.flatten {A : Type} {f : A → List Char} {g : A → List Token} {l : List A} (h : ∀ a ∈ l, Lexes (f a) (g a)) :
    Lexes (l.flatMap f) (l.flatMap g) := by
  induction l with
  | nil => exact Lexes.nil
  | cons a l ih =>
    rw [List.flatMap_cons, List.flatMap_cons]
    exact (h a (List.mem_cons_self ..)).append (ih (fun b hb => h b (List.mem_cons_of_mem _ hb)))

/-- A word. -/
def WordText (s : List Char) : Prop := s ≠ [] ∧ ∀ c ∈ s, isWordChar c = true

theorem run_word {s : List Char} (h : ∀ c ∈ s, isWordChar c = true) (acc : List Char) : run (.word acc) s = some ([], .word (acc ++ s)) := by
  induction s generalizing acc with
  | nil => simp [run]
  | cons c s ih =>
    have hc := h c (List.mem_cons_self ..)
    simp only [run, step, hc, if_true]
    rw [ih (fun d hd => h d (List.mem_cons_of_mem _ hd))]
    simp

theorem outside_word {c : Char} (hc : isWordChar c = true) : outside c = some ([], .word [c]) := by
  unfold outside
  rw [if_neg, if_pos hc]
  rintro (rfl | rfl | rfl | rfl) <;> exact absurd hc (by decide)

/-- A word followed by other tokens. -/
theorem Lexes.word {s : List Char} (h : WordText s) {c : Char} {r : List Char} {ts : List Token} (hc : isWordChar c = false) (h' : Lexes (c :: r) ts) :
    Lexes (s ++ c :: r) (.word s :: ts) := by
  obtain ⟨hne, hs⟩ := h
  cases s with
  | nil => exact absurd rfl hne
  | cons d s =>
    have e1 : run .out (d :: s) = some ([], .word (d :: s)) := by
      simp only [run, step, outside_word (hs d (List.mem_cons_self ..))]
      rw [run_word (fun e he => hs e (List.mem_cons_of_mem _ he))]
      simp
    unfold Lexes at *
    rw [run_append, e1, Option.bind_some]
    simp only [run, step] at h' ⊢
    rw [if_neg (by simp [hc])]
    cases ho : outside c with
    | none => rw [ho] at h'; cases h'
    | some p =>
      rw [ho] at h'
      simp only [Option.map_some] at h' ⊢
      cases hr : run p.2 r with
      | none => rw [hr] at h'; cases h'
      | some q =>
        rw [hr] at h'
        simp only [Option.map_some, Option.some.injEq, Prod.mk.injEq] at h' ⊢
        simp [h']

/-- Text that stays inside quotes. -/
def InQuotes (s : List Char) : Prop := ∀ acc, run (.quoted acc) s = some ([], .quoted (acc ++ s))

theorem InQuotes.append {a b : List Char} (h : InQuotes a) (h' : InQuotes b) : InQuotes (a ++ b) := by
  intro acc
  rw [run_append, h, Option.bind_some, h']
  simp

theorem InQuotes.plain {s : List Char} (h : ∀ c ∈ s, c ≠ '"' ∧ c ≠ '\\') : InQuotes s := by
  induction s with
  | nil => intro acc; simp [run]
  | cons c s ih =>
    intro acc
    have := h c (List.mem_cons_self ..)
    simp only [run, step, this.1, this.2, if_false]
    rw [ih (fun d hd => h d (List.mem_cons_of_mem _ hd))]
    simp

theorem InQuotes.newline : InQuotes "\\n".toList := by
  intro acc
  simp [run, step]

theorem Lexes.quoted {s : List Char} (h : InQuotes s) : Lexes ('"' :: s ++ ['"']) [.quoted s] := by
  unfold Lexes
  have e : run .out ['"'] = some ([], .quoted []) := by decide
  rw [show '"' :: s ++ ['"'] = ['"'] ++ (s ++ ['"']) by simp, run_append, e, Option.bind_some, run_append, h]
  simp [run, step]

/-- Text that stays inside an HTML string. -/
def InHtml (s : List Char) : Prop := ∀ d acc, run (.html d acc) s = some ([], .html d (acc ++ s))

theorem InHtml.append {a b : List Char} (h : InHtml a) (h' : InHtml b) : InHtml (a ++ b) := by
  intro d acc
  rw [run_append, h, Option.bind_some, h']
  simp

theorem InHtml.plain {s : List Char} (h : ∀ c ∈ s, c ≠ '<' ∧ c ≠ '>') : InHtml s := by
  induction s with
  | nil => intro d acc; simp [run]
  | cons c s ih =>
    intro d acc
    have := h c (List.mem_cons_self ..)
    simp only [run, step, this.1, this.2, if_false]
    rw [ih (fun d hd => h d (List.mem_cons_of_mem _ hd))]
    simp

/-- A tag. -/
theorem InHtml.tag {s : List Char} (h : ∀ c ∈ s, c ≠ '<' ∧ c ≠ '>') : InHtml ('<' :: s ++ ['>']) := by
  intro d acc
  have e : run (.html d acc) ['<'] = some ([], .html (d + 1) (acc ++ ['<'])) := by simp [run, step]
  rw [show '<' :: s ++ ['>'] = ['<'] ++ (s ++ ['>']) by simp, run_append, e, Option.bind_some, run_append, InHtml.plain h]
  simp [run, step]

theorem Lexes.html {s : List Char} (h : InHtml s) : Lexes ('<' :: s ++ ['>']) [.html s] := by
  unfold Lexes
  have e : run .out ['<'] = some ([], .html 0 []) := by decide
  rw [show '<' :: s ++ ['>'] = ['<'] ++ (s ++ ['>']) by simp, run_append, e, Option.bind_some, run_append, h]
  simp [run, step]

/-! ### Lines -/

/-- The lines with a text put in front of the first. -/
def before (x : List Char) (ls : List (List Char)) : List (List Char) := (x ++ ls.headD []) :: ls.tail

theorem before_before (x y : List Char) (ls : List (List Char)) : before x (before y ls) = before (x ++ y) ls := by simp [before]

/-- A piece of a quoted label that shows as `x`. -/
def QShows (s x : List Char) : Prop := InQuotes s ∧ ∀ r, quotedLines (s ++ r) = (quotedLines r).map (before x)

theorem QShows.append {a b x y : List Char} (h : QShows a x) (h' : QShows b y) : QShows (a ++ b) (x ++ y) := by
  refine ⟨h.1.append h'.1, fun r => ?_⟩
  rw [List.append_assoc, h.2, h'.2, Option.map_map]
  congr 1
  funext ls
  exact before_before ..

theorem quotedLines_cons {c : Char} (hc : c ≠ '\\') (r : List Char) : quotedLines (c :: r) = (quotedLines r).map (before [c]) := by
  rw [quotedLines]
  · rfl
  · intro r h; exact absurd h hc
  · intro r h; exact absurd h hc
  · intro h; exact hc h

theorem quotedLines_ne {r : List Char} {ls : List (List Char)} (h : quotedLines r = some ls) : ls ≠ [] := by
  unfold quotedLines at h
  split at h
  · cases h; simp
  all_goals first
    | cases h
    | (obtain ⟨_, _, rfl⟩ := Option.map_eq_some_iff.1 h; simp)

theorem QShows.plain {s : List Char} (h : ∀ c ∈ s, c ≠ '"' ∧ c ≠ '\\') : QShows s s := by
  refine ⟨InQuotes.plain h, ?_⟩
  induction s with
  | nil =>
    intro r
    cases hr : quotedLines r with
    | none => simp [hr]
    | some ls =>
      cases ls with
      | nil => exact absurd rfl (quotedLines_ne hr)
      | cons l ls => simp [hr, before]
  | cons c s ih =>
    intro r
    rw [List.cons_append, quotedLines_cons (h c (List.mem_cons_self ..)).2, ih (fun d hd => h d (List.mem_cons_of_mem _ hd)), Option.map_map]
    rfl

theorem quotedLines_newline {a x : List Char} (h : QShows a x) (r : List Char) :
    quotedLines (a ++ "\\n".toList ++ r) = (quotedLines r).map (fun ls => x :: ls) := by
  rw [List.append_assoc, h.2]
  have : quotedLines ("\\n".toList ++ r) = (quotedLines r).map ([] :: ·) := rfl
  rw [this, Option.map_map]
  congr 1
  funext ls
  simp [before]

theorem quotedLines_end {a x : List Char} (h : QShows a x) : quotedLines a = some [x] := by
  have := h.2 []
  rw [List.append_nil] at this
  rw [this]
  simp [quotedLines, before]

/-- A piece of an HTML label that shows as `x`. -/
def HShows (s x : List Char) : Prop := InHtml s ∧ ∀ r, htmlLines .text (s ++ r) = (htmlLines .text r).map (before x)

theorem HShows.append {a b x y : List Char} (h : HShows a x) (h' : HShows b y) : HShows (a ++ b) (x ++ y) := by
  refine ⟨h.1.append h'.1, fun r => ?_⟩
  rw [List.append_assoc, h.2, h'.2, Option.map_map]
  congr 1
  funext ls
  exact before_before ..

theorem htmlLines_ne (r : List Char) : ∀ m ls, htmlLines m r = some ls → ls ≠ [] := by
  induction r with
  | nil =>
    intro m ls h
    cases m <;> simp [htmlLines] at h
    subst h; simp
  | cons c r ih =>
    intro m ls h
    cases m with
    | text =>
      simp only [htmlLines] at h
      split at h
      · exact ih _ _ h
      · split at h
        · exact ih _ _ h
        · split at h
          · cases h
          · obtain ⟨_, _, rfl⟩ := Option.map_eq_some_iff.1 h; simp
    | tag s =>
      simp only [htmlLines] at h
      split at h
      · split at h
        · obtain ⟨_, _, rfl⟩ := Option.map_eq_some_iff.1 h; simp
        · split at h
          · exact ih _ _ h
          · cases h
      · exact ih _ _ h
    | entity s =>
      simp only [htmlLines] at h
      split at h
      · obtain ⟨x, _, h⟩ := Option.bind_eq_some_iff.1 h
        obtain ⟨_, _, rfl⟩ := Option.map_eq_some_iff.1 h; simp
      · exact ih _ _ h

theorem before_nil {o : Option (List (List Char))} (h : ∀ ls, o = some ls → ls ≠ []) : o.map (before []) = o := by
  cases o with
  | none => rfl
  | some ls =>
    cases ls with
    | nil => exact absurd rfl (h _ rfl)
    | cons l ls => simp [before]

theorem HShows.plain {s : List Char} (h : ∀ c ∈ s, c ≠ '<' ∧ c ≠ '>' ∧ c ≠ '&') : HShows s s := by
  refine ⟨InHtml.plain (fun c hc => ⟨(h c hc).1, (h c hc).2.1⟩), ?_⟩
  induction s with
  | nil => intro r; exact (before_nil (htmlLines_ne r _)).symm
  | cons c s ih =>
    intro r
    obtain ⟨h1, h2, h3⟩ := h c (List.mem_cons_self ..)
    rw [List.cons_append, htmlLines, if_neg h1, if_neg h3, if_neg h2, ih (fun d hd => h d (List.mem_cons_of_mem _ hd)), Option.map_map]
    rfl

theorem htmlLines_newline {a x : List Char} (h : HShows a x) (r : List Char) :
    htmlLines .text (a ++ "<br/>".toList ++ r) = (htmlLines .text r).map (fun ls => x :: ls) := by
  rw [List.append_assoc, h.2]
  have : htmlLines .text ("<br/>".toList ++ r) = (htmlLines .text r).map ([] :: ·) := by simp [htmlLines]
  rw [this, Option.map_map]
  congr 1
  funext ls
  simp [before]

theorem htmlLines_end {a x : List Char} (h : HShows a x) : htmlLines .text a = some [x] := by
  have := h.2 []
  rw [List.append_nil] at this
  rw [this]
  simp [htmlLines, before]

theorem HShows.sub : HShows "<FONT POINT-SIZE=\"10\"><SUB>".toList [] := by
  refine ⟨?_, fun r => ?_⟩
  · exact (InHtml.tag (s := "FONT POINT-SIZE=\"10\"".toList) (by decide)).append (InHtml.tag (s := "SUB".toList) (by decide))
  · rw [before_nil (htmlLines_ne r _)]
    simp [htmlLines, fontTag]

theorem HShows.endSub : HShows "</SUB></FONT>".toList [] := by
  refine ⟨?_, fun r => ?_⟩
  · exact (InHtml.tag (s := "/SUB".toList) (by decide)).append (InHtml.tag (s := "/FONT".toList) (by decide))
  · rw [before_nil (htmlLines_ne r _)]
    simp [htmlLines, fontTag]

theorem HShows.hash : HShows "&#35;".toList ['#'] := by
  refine ⟨InHtml.plain (by decide), fun r => ?_⟩
  simp [htmlLines, entity, List.lookup]
  congr 1
  funext ls
  simp [before]

theorem HShows.percent : HShows "&#37;".toList ['%'] := by
  refine ⟨InHtml.plain (by decide), fun r => ?_⟩
  simp [htmlLines, entity, List.lookup]
  congr 1
  funext ls
  simp [before]

theorem HShows.le : HShows "&le;".toList ['≤'] := by
  refine ⟨InHtml.plain (by decide), fun r => ?_⟩
  simp [htmlLines, entity, List.lookup]
  congr 1
  funext ls
  simp [before]

/-! ### Both kinds of labels -/

/-- A piece of a label that shows as `x`. -/
def Piece : Bool → List Char → List Char → Prop
  | true => HShows
  | false => QShows

/-- The lines of a label. -/
def linesOf : Bool → List Char → Option (List (List Char))
  | true => htmlLines .text
  | false => quotedLines

theorem Piece.append {b : Bool} {a a' x x' : List Char} (h : Piece b a x) (h' : Piece b a' x') : Piece b (a ++ a') (x ++ x') := by
  cases b
  · exact QShows.append h h'
  · exact HShows.append h h'

theorem Piece.plain (b : Bool) {s : List Char} (h : ∀ c ∈ s, c ∉ ['"', '\\', '<', '>', '&']) : Piece b s s := by
  cases b
  · exact QShows.plain (fun c hc => by have := h c hc; simp at this; exact ⟨this.1, this.2.1⟩)
  · exact HShows.plain (fun c hc => by have := h c hc; simp at this; exact ⟨this.2.2.1, this.2.2.2.1, this.2.2.2.2⟩)

theorem lines_newline {b : Bool} {a x : List Char} (h : Piece b a x) (r : List Char) :
    linesOf b (a ++ (characters b).newline ++ r) = (linesOf b r).map (fun ls => x :: ls) := by
  cases b
  · exact quotedLines_newline h r
  · exact htmlLines_newline h r

theorem lines_end {b : Bool} {a x : List Char} (h : Piece b a x) : linesOf b a = some [x] := by
  cases b
  · exact quotedLines_end h
  · exact htmlLines_end h

/-- Text inside a label. -/
def Inside : Bool → List Char → Prop
  | true => InHtml
  | false => InQuotes

theorem Piece.inside {b : Bool} {a x : List Char} (h : Piece b a x) : Inside b a := by
  cases b
  · exact h.1
  · exact h.1

theorem Inside.append {b : Bool} {a a' : List Char} (h : Inside b a) (h' : Inside b a') : Inside b (a ++ a') := by
  cases b
  · exact InQuotes.append h h'
  · exact InHtml.append h h'

theorem Inside.newline (b : Bool) : Inside b (characters b).newline := by
  cases b
  · exact InQuotes.newline
  · exact InHtml.tag (s := "br/".toList) (by decide)

/-! ### Numbers -/

theorem digit_eq : ∀ d < 10, Svm.digit d = Nat.digitChar d := by decide

theorem decimal_eq (n : Nat) : Svm.decimal n = (toString n).toList := by
  have key : ∀ n : Nat, Svm.decimal n = Nat.toDigits 10 n := by
    intro n
    induction n using Nat.strong_induction_on with
    | _ n ih =>
      rw [Svm.decimal]
      split
      · next h => rw [Nat.toDigits_of_lt_base h, digit_eq n h]
      · next h => rw [ih (n / 10) (by omega), Nat.toDigits_of_base_le (n := n) (by decide) (by omega), digit_eq _ (Nat.mod_lt _ (by decide))]
  rw [key]
  simp [toString, Nat.repr]

theorem showInt_natCast (n : Nat) : Svm.showInt (n : Int) = Svm.decimal n := by
  unfold Svm.showInt
  rw [if_neg (by omega), Int.natAbs_natCast]

theorem decimal_word (n : Nat) : WordText (Svm.decimal n) := by
  obtain ⟨h1, h2, _⟩ := Svm.numeral_digits (Svm.decimal_numeral n)
  refine ⟨h1, fun c hc => ?_⟩
  obtain ⟨d, hd, rfl⟩ := h2 c hc
  exact (by decide : ∀ d < 10, isWordChar (Svm.digit d) = true) d hd

theorem decimal_plain (n : Nat) : ∀ c ∈ Svm.decimal n, c ∉ ['"', '\\', '<', '>', '&'] := by
  intro c hc
  obtain ⟨d, hd, rfl⟩ := (Svm.numeral_digits (Svm.decimal_numeral n)).2.1 c hc
  exact (by decide : ∀ d < 10, Svm.digit d ∉ ['"', '\\', '<', '>', '&']) d hd

/-! ### `stripEnd` -/

theorem stripEnd_append (e s : List Char) : stripEnd e (s ++ e) = s := by
  unfold stripEnd
  rw [if_pos (by rw [List.isSuffixOf_iff_suffix]; exact List.suffix_append ..)]
  simp

theorem stripEnd_of_last {e s : List Char} {a : Char} (he : e.getLast? = some a) (hs : s.getLast? ≠ some a) : stripEnd e s = s := by
  unfold stripEnd
  rw [if_neg]
  rw [List.isSuffixOf_iff_suffix]
  rintro ⟨r, rfl⟩
  apply hs
  rw [List.getLast?_append, he]
  rfl

/-! ### Parsing -/

/-- Tokens of one statement. -/
def Reads (ts : List Token) (i : Item) : Prop := ts ≠ [] ∧ ∀ rest, item (ts ++ rest) = some (i, rest)

/-- Tokens of several statements. -/
def ReadsAll (ts : List Token) (is : List Item) : Prop :=
  is.length ≤ ts.length ∧ ∀ n rest, items (n + is.length) (ts ++ rest) = (items n rest).map (is ++ ·)

theorem ReadsAll.nil : ReadsAll [] [] := ⟨by simp, fun n rest => by simp⟩

theorem ReadsAll.append {a b : List Token} {is js : List Item} (h : ReadsAll a is) (h' : ReadsAll b js) : ReadsAll (a ++ b) (is ++ js) := by
  refine ⟨by simp only [List.length_append]; have := h.1; have := h'.1; omega, fun n rest => ?_⟩
  rw [List.length_append, show n + (is.length + js.length) = (n + js.length) + is.length by omega, List.append_assoc, h.2, h'.2, Option.map_map]
  congr 1
  funext x
  simp

theorem Reads.all {ts : List Token} {i : Item} (h : Reads ts i) : ReadsAll ts [i] := by
  refine ⟨List.length_pos_iff.2 h.1, fun n rest => ?_⟩
  have h2 := h.2 rest
  show items (n + 1) (ts ++ rest) = _
  rw [items]
  · rw [h2]; rfl
  · intro he
    rw [he] at h2
    cases h2

theorem ReadsAll.flatten {A : Type} {f : A → List Token} {g : A → Item} {l : List A} (h : ∀ a ∈ l, Reads (f a) (g a)) :
    ReadsAll (l.flatMap f) (l.map g) := by
  induction l with
  | nil => exact ReadsAll.nil
  | cons a l ih =>
    rw [List.flatMap_cons, List.map_cons]
    exact ReadsAll.append (h a (List.mem_cons_self ..)).all (ih (fun b hb => h b (List.mem_cons_of_mem _ hb)))

theorem readDot_of {s : List Char} {ts : List Token} {is : List Item} (hs : Lexes s ts) (h : ReadsAll ts is) :
    readDot ("digraph Tree {\n".toList ++ s ++ "}".toList) = some is := by
  have h1 : Lexes "digraph Tree {\n".toList [.word "digraph".toList, .word "Tree".toList, .sym '{'] := by decide
  have h2 : Lexes "}".toList [.sym '}'] := by decide
  have h3 := (h1.append hs).append h2
  unfold readDot tokens
  rw [h3]
  simp only [List.cons_append, List.nil_append, if_true]
  have h4 := h.2 ((ts ++ [Token.sym '}']).length + 1 - is.length) [.sym '}']
  have h5 := h.1
  rw [show (ts ++ [Token.sym '}']).length + 1 - is.length + is.length = (ts ++ [Token.sym '}']).length + 1 by simp; omega] at h4
  rw [h4]
  obtain ⟨n, hn⟩ : ∃ n, (ts ++ [Token.sym '}']).length + 1 - is.length = n + 1 := ⟨(ts ++ [Token.sym '}']).length - is.length, by simp; omega⟩
  rw [hn, items]
  simp

/-! ### The writer -/

section
variable {F : Type} (special : Bool) {pr : Printers F}

theorem idText_eq (n : Nat) : idText (n : Int) = Svm.decimal n := by
  rw [decimal_eq]
  rfl

theorem piece_lit (s : List Char) (h : ∀ c ∈ s, c ∉ ['"', '\\', '<', '>', '&']) : Piece special s s := Piece.plain special h

theorem countChars_none (c : Characters) : countChars c pr none = [] := rfl

theorem countChars_count (c : Characters) (n : Nat) : countChars c pr (some (n, none)) = "counts = ".toList ++ Svm.decimal n ++ c.newline := rfl

theorem countChars_percent (c : Characters) (n : Nat) (q : F) : countChars c pr (some (n, some q)) =
    "counts = ".toList ++ Svm.decimal n ++ " (".toList ++ pr.percent q ++ c.percent ++ ")".toList ++ c.newline := rfl

theorem criterionChars_split (c : Characters) (f : FeatureText) (v : F) : criterionChars c pr (.split f v) =
    featureChars c f ++ " ".toList ++ c.le ++ " ".toList ++ pr.threshold v ++ c.newline := rfl

theorem criterionChars_output (c : Characters) (v : F) : criterionChars c pr (.output v) = "output = ".toList ++ pr.output v ++ c.newline := rfl

theorem criterionShown_output (v : F) : criterionShown special pr (.output v) = "output = ".toList ++ pr.output v := rfl

theorem criterionShown_split (f : FeatureText) (v : F) : criterionShown special pr (.split f v) =
    featureShown special f ++ (if special then " ≤ ".toList else " <= ".toList) ++ pr.threshold v := rfl

theorem piece_id {i : Option Int} (hi : ∀ j, i = some j → 0 ≤ j) (r : List Char) :
    linesOf special (idChars (characters special) i ++ r) = (linesOf special r).map (fun ls => idLine i ++ ls) ∧
    Inside special (idChars (characters special) i) := by
  cases i with
  | none =>
    refine ⟨by simp [idChars, idLine], ?_⟩
    exact (Piece.plain special (s := []) (by simp)).inside
  | some j =>
    obtain ⟨n, rfl⟩ := Int.eq_ofNat_of_zero_le (hi j rfl)
    have h : Piece special ("node ".toList ++ (characters special).hash ++ Svm.showInt n) ("node #".toList ++ idText n) := by
      rw [show "node #".toList = "node ".toList ++ ['#'] by decide, showInt_natCast, idText_eq]
      refine Piece.append (Piece.append (piece_lit _ _ (by decide)) ?_) (Piece.plain _ (decimal_plain n))
      cases special
      · exact QShows.plain (by decide)
      · exact HShows.hash
    rw [idChars, idLine]
    exact ⟨lines_newline h r, h.inside.append (Inside.newline special)⟩

theorem piece_count (hpr : PlainNumbers pr) (t : Option (Nat × Option F)) (r : List Char) :
    linesOf special (countChars (characters special) pr t ++ r) = (linesOf special r).map (fun ls => countLine pr t ++ ls) ∧
    Inside special (countChars (characters special) pr t) := by
  match t with
  | none =>
    rw [countChars_none]
    refine ⟨by simp [countLine], ?_⟩
    exact (Piece.plain special (s := []) (by simp)).inside
  | some (n, none) =>
    have h : Piece special ("counts = ".toList ++ Svm.decimal n) ("counts = ".toList ++ (toString n).toList) := by
      rw [← decimal_eq]
      exact Piece.append (piece_lit _ _ (by decide)) (Piece.plain _ (decimal_plain n))
    rw [countChars_count, countLine]
    exact ⟨lines_newline h r, h.inside.append (Inside.newline special)⟩
  | some (n, some q) =>
    have h : Piece special ("counts = ".toList ++ Svm.decimal n ++ " (".toList ++ pr.percent q ++ (characters special).percent ++ ")".toList)
        ("counts = ".toList ++ (toString n).toList ++ " (".toList ++ pr.percent q ++ "%)".toList) := by
      rw [← decimal_eq, show "%)".toList = ['%'] ++ ")".toList by decide, ← List.append_assoc]
      refine Piece.append (Piece.append (Piece.append (Piece.append (Piece.append (piece_lit _ _ (by decide)) (Piece.plain _ (decimal_plain n)))
        (piece_lit _ _ (by decide))) (Piece.plain _ (hpr q).2.2)) ?_) (piece_lit _ _ (by decide))
      cases special
      · exact QShows.plain (by decide)
      · exact HShows.percent
    rw [countChars_percent, countLine]
    exact ⟨lines_newline h r, h.inside.append (Inside.newline special)⟩

/-- The features of a label are plain. -/
def PlainCriterion : Criterion F → Prop
  | .split (.index i) _ => 0 ≤ i
  | .split (.name s) _ => PlainName special s
  | .output _ => True

/-- The criterion without the newline at its end. -/
theorem piece_criterion (hpr : PlainNumbers pr) {t : Criterion F} (h : PlainCriterion special t) :
    ∃ s w, criterionChars (characters special) pr t = s ++ (characters special).newline ∧ Piece special s (criterionShown special pr t) ∧
      s.getLast? = some w ∧ w ≠ '>' := by
  have last : ∀ (a n : List Char), (∀ c ∈ n, c ∉ ['"', '\\', '<', '>', '&']) → ∃ w, (a ++ " ".toList ++ n).getLast? = some w ∧ w ≠ '>' := by
    intro a n hn
    cases hl : n.getLast? with
    | none =>
      refine ⟨' ', ?_, by decide⟩
      rw [List.getLast?_eq_none_iff] at hl
      subst hl
      simp
    | some w =>
      refine ⟨w, by rw [List.getLast?_append, hl]; rfl, ?_⟩
      intro hw
      exact hn w (List.mem_of_getLast? hl) (by simp [hw])
  cases t with
  | output v =>
    obtain ⟨w, h1, h2⟩ := last "output =".toList (pr.output v) (hpr v).2.1
    have e : "output =".toList ++ " ".toList = "output = ".toList := by decide
    simp only [e] at h1
    rw [criterionChars_output, criterionShown_output]
    refine ⟨_, w, rfl, ?_, h1, h2⟩
    exact Piece.append (piece_lit special "output = ".toList (by decide)) (Piece.plain special (hpr v).2.1)
  | split f v =>
    obtain ⟨w, h1, h2⟩ := last (featureChars (characters special) f ++ " ".toList ++ (characters special).le) (pr.threshold v) (hpr v).1
    rw [criterionChars_split]
    refine ⟨_, w, rfl, ?_, h1, h2⟩
    have hf : Piece special (featureChars (characters special) f) (featureShown special f) := by
      cases f with
      | index i =>
        obtain ⟨n, rfl⟩ := Int.eq_ofNat_of_zero_le (show 0 ≤ i from h)
        cases special
        · have := Piece.plain false (s := "f[".toList ++ Svm.decimal n ++ "] ".toList) (by
            intro c hc
            rcases List.mem_append.1 hc with hc | hc
            · rcases List.mem_append.1 hc with hc | hc
              · exact (by decide : ∀ c ∈ "f[".toList, c ∉ ['"', '\\', '<', '>', '&']) c hc
              · exact decimal_plain n c hc
            · exact (by decide : ∀ c ∈ "] ".toList, c ∉ ['"', '\\', '<', '>', '&']) c hc)
          simp only [featureChars, featureShown, characters, showInt_natCast, idText_eq, Bool.false_eq_true, if_false]
          convert this using 1
          simp
        · simp only [featureChars, featureShown, characters, showInt_natCast, idText_eq, if_true]
          have := HShows.append (HShows.append (HShows.append (HShows.append (HShows.plain (s := "f".toList) (by decide)) HShows.sub)
            (Piece.plain true (decimal_plain n))) HShows.endSub) (HShows.plain (s := " ".toList) (by decide))
          simp only [List.append_nil] at this
          exact this
      | name s =>
        have hs : PlainName special s := h
        cases special
        · exact QShows.plain (fun c hc => by have := hs c hc; simpa using this)
        · exact HShows.plain (fun c hc => by have := hs c hc; simpa using this)
    have hle : Piece special (" ".toList ++ (characters special).le ++ " ".toList) (if special then " ≤ ".toList else " <= ".toList) := by
      cases special
      · exact QShows.plain (s := " <= ".toList) (by decide)
      · exact HShows.append (HShows.append (HShows.plain (s := " ".toList) (by decide)) HShows.le) (HShows.plain (s := " ".toList) (by decide))
    have := Piece.append (Piece.append hf hle) (Piece.plain special (hpr v).1)
    rw [criterionShown_split]
    simpa only [List.append_assoc] using this

/-- The token of a label. -/
def labelToken (s : List Char) : Token := if special then .html s else .quoted s

theorem nodeToStr_shows (hpr : PlainNumbers pr) {t : NodeText F F} (hid : ∀ j, t.id = some j → 0 ≤ j) (h : PlainCriterion special t.criterion) :
    ∃ s, Lexes (nodeToStr special pr t) [labelToken special s] ∧ linesOf special s = some (boxLines special pr t) := by
  obtain ⟨s, w, h1, h2, h3, h4⟩ := piece_criterion special hpr h
  have hi := piece_id special hid (countChars (characters special) pr t.count ++ s)
  have hc := piece_count special hpr t.count s
  have hin : Inside special (idChars (characters special) t.id ++ (countChars (characters special) pr t.count ++ s)) :=
    hi.2.append (hc.2.append h2.inside)
  refine ⟨idChars (characters special) t.id ++ (countChars (characters special) pr t.count ++ s), ?_, ?_⟩
  · have hlast : ((characters special).start ++ idChars (characters special) t.id ++ countChars (characters special) pr t.count ++ s).getLast? = some w := by
      rw [List.getLast?_append, h3]; rfl
    have e : nodeToStr special pr t = (characters special).start ++
        (idChars (characters special) t.id ++ (countChars (characters special) pr t.count ++ s)) ++ (characters special).close := by
      unfold nodeToStr
      simp only [h1]
      rw [← List.append_assoc]
      cases special
      · show stripEnd "<br/>".toList (stripEnd "\\n".toList (_ ++ "\\n".toList)) ++ _ = _
        rw [stripEnd_append, stripEnd_of_last (a := '>') (by decide) (by rw [hlast]; simp [h4])]
        simp
      · show stripEnd "<br/>".toList (stripEnd "\\n".toList (_ ++ "<br/>".toList)) ++ _ = _
        rw [stripEnd_of_last (e := "\\n".toList) (a := 'n') (by decide) (by rw [List.getLast?_append]; simp), stripEnd_append]
        simp
    rw [e]
    cases special
    · exact Lexes.quoted hin
    · exact Lexes.html hin
  · rw [hi.1, hc.1, lines_end h2]
    simp only [Option.map_some, boxLines, List.append_assoc]

end

end Verif.Spec.DotText
