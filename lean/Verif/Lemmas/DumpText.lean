/-
Lemmas for the text of dump files: the regular expressions give back the parts of the lines.
-/
import Verif.Spec.DumpText
import Verif.Lemmas.Regex
import Verif.Lemmas.SvmlightText
import Verif.Model.DumpText

namespace Verif
open Spec Re

/-! ### The first match -/

/-- A match with text put before it. -/
def Re.Hit.after (t : List Char) (g : List (List Char)) (k : Hit) : Hit := ⟨t ++ k.text, k.rest, g ++ k.groups⟩

theorem head?_flatMap' {α β : Type} (l : List α) (f : α → List β) : (l.flatMap f).head? = l.findSome? (fun x => (f x).head?) := by
  induction l with
  | nil => rfl
  | cons x l ih =>
    rw [List.flatMap_cons, List.findSome?_cons, List.head?_append, ih]
    cases (f x).head? <;> rfl

theorem first_seq (a b : Re) (s : List Char) :
    (run (.seq a b) s).head? = (run a s).findSome? (fun h => ((run b h.rest).head?).map (Hit.after h.text h.groups)) := by
  simp only [run, head?_flatMap', List.head?_map]
  rfl

theorem run_lit (cs : List Char) (r : Re) (s : List Char) : (run (lit cs r) (cs ++ s)).head? = ((run r s).head?).map (Hit.after cs []) := by
  induction cs with
  | nil =>
    have : (Hit.after [] [] : Hit → Hit) = id := by funext k; simp [Hit.after]
    simp [lit, this]
  | cons c cs ih =>
    rw [lit, first_seq]
    simp only [List.cons_append, run, BEq.rfl, if_true, List.findSome?_cons, List.findSome?_nil, ih]
    cases (run r s).head? with
    | none => rfl
    | some k => simp [Hit.after]

theorem run_lit_none {c d : Char} (cs : List Char) (r : Re) (s : List Char) (h : d ≠ c) : run (lit (c :: cs) r) (d :: s) = [] := by
  simp [lit, run, h]

theorem starHits_reverse_cons {p : Char → Bool} {c : Char} (hc : p c = true) (cs : List Char) :
    (starHits p (c :: cs)).reverse = ((starHits p cs).reverse.map (fun h => ⟨c :: h.text, h.rest, []⟩)) ++ [⟨[], c :: cs, []⟩] := by
  simp [starHits, hc]

/-- Greedy repetition takes the whole run when what follows matches there. -/
theorem star_greedy {p : Char → Bool} {ds s : List Char} (hds : ∀ c ∈ ds, p c = true) (hs : ∀ c ∈ s.head?, p c = false) :
    (run (.star p true) (ds ++ s)).head? = some ⟨ds, s, []⟩ := by
  simp only [run, if_true]
  induction ds with
  | nil =>
    cases s with
    | nil => rfl
    | cons c cs =>
      have : p c = false := hs c rfl
      simp [starHits, this]
  | cons c ds ih =>
    rw [List.cons_append, starHits_reverse_cons (hds c (by simp)), List.head?_append, List.head?_map, ih (fun x hx => hds x (by simp [hx]))]
    rfl

theorem plus_greedy {p : Char → Bool} {ds s : List Char} (hne : ds ≠ []) (hds : ∀ c ∈ ds, p c = true) (hs : ∀ c ∈ s.head?, p c = false) :
    (run (plus p true) (ds ++ s)).head? = some ⟨ds, s, []⟩ := by
  obtain ⟨c, ds, rfl⟩ := List.exists_cons_of_ne_nil hne
  rw [plus, first_seq]
  simp only [run, List.cons_append, hds c (by simp), if_true, List.findSome?_cons, List.findSome?_nil]
  have := star_greedy (p := p) (s := s) (fun x hx => hds x (List.mem_cons_of_mem c hx)) hs
  simp only [run, if_true] at this
  rw [this]
  rfl

/-- A group that can first match in a way that lets the rest match. -/
theorem first_group_seq {a b : Re} {s : List Char} {t r : List Char} {k : Hit} (ha : (run a s).head? = some ⟨t, r, []⟩)
    (hb : (run b r).head? = some k) : (run (.seq (.group a) b) s).head? = some (k.after t [t]) := by
  rw [first_seq]
  simp only [run]
  obtain ⟨tl, htl⟩ : ∃ tl, run a s = ⟨t, r, []⟩ :: tl := by
    cases h : run a s with
    | nil => rw [h] at ha; simp at ha
    | cons x tl => rw [h] at ha; simp only [List.head?_cons, Option.some.injEq] at ha; exact ⟨tl, by rw [ha]⟩
  rw [htl, List.map_cons, List.findSome?_cons, hb]
  rfl

/-- Greedy `(.*)` before a character takes everything up to the last such character. -/
theorem group_to_last {p : Char → Bool} {q : Char} {ts tail : List Char} (hts : ∀ c ∈ ts, p c = true) (htail : q ∉ tail) :
    (run (.seq (.group (.star p true)) (lit [q] .empty)) (ts ++ q :: tail)).head? = some ⟨ts ++ [q], tail, [ts]⟩ := by
  rw [first_seq]
  simp only [run, if_true, List.findSome?_map]
  have key : ∀ r, q ∉ r → (run (lit [q] .empty) r).head? = none := by
    intro r hr
    cases r with
    | nil => simp [lit, run]
    | cons d r => rw [run_lit_none _ _ _ (by rintro rfl; simp at hr)]; rfl
  have hq : ∀ r, (run (lit [q] .empty) (q :: r)).head? = some ⟨[q], r, []⟩ := by
    intro r
    have := run_lit [q] .empty r
    simpa [run, Hit.after] using this
  have main : ∀ ts' : List Char, (∀ c ∈ ts', p c = true) →
      (starHits p (ts' ++ q :: tail)).reverse.findSome? (fun h => ((run (lit [q] .empty) h.rest).head?).map (fun k => (h.text, k))) =
        some (ts', (⟨[q], tail, []⟩ : Hit)) := by
    intro ts'
    induction ts' with
    | nil =>
      intro _
      by_cases hp : p q = true
      · rw [List.nil_append, starHits_reverse_cons hp, List.findSome?_append, List.findSome?_map]
        rw [List.findSome?_eq_none_iff.2]
        · simp [hq]
        · intro h hh
          have := (mem_starHits.1 (List.mem_reverse.1 hh)).1
          simp only [Function.comp_apply]
          rw [key h.rest (by intro hm; apply htail; rw [← this]; simp [hm])]
          rfl
      · simp [starHits, hp, hq]
    | cons c ts' ih =>
      intro h
      rw [List.cons_append, starHits_reverse_cons (h c (by simp)), List.findSome?_append, List.findSome?_map]
      have := ih (fun x hx => h x (by simp [hx]))
      rw [show (starHits p (ts' ++ q :: tail)).reverse.findSome? ((fun h : Hit => ((run (lit [q] .empty) h.rest).head?).map (fun k => (h.text, k))) ∘
          (fun h : Hit => (⟨c :: h.text, h.rest, []⟩ : Hit))) =
          ((starHits p (ts' ++ q :: tail)).reverse.findSome? (fun h => ((run (lit [q] .empty) h.rest).head?).map (fun k => (h.text, k)))).map
            (fun x => (c :: x.1, x.2)) from ?_, this]
      · rfl
      · rw [List.map_findSome?]
        congr 1
        funext h
        simp only [Function.comp_apply, Option.map_map]
        rfl
  have := main ts hts
  have e : (fun h : Hit => ((run (lit [q] .empty) h.rest).head?).map (Hit.after h.text [h.text])) =
      fun h : Hit => (((run (lit [q] .empty) h.rest).head?).map (fun k => (h.text, k))).map (fun x => x.2.after x.1 [x.1]) := by
    funext h
    simp [Option.map_map, Function.comp_def]
  show (starHits p (ts ++ q :: tail)).reverse.findSome? (fun h => ((run (lit [q] .empty) h.rest).head?).map (Hit.after h.text [h.text])) = _
  rw [e, ← Function.comp_def (Option.map _), ← List.map_findSome?, this]
  rfl

/-- Lazy `.+?` stops as soon as the rest matches. -/
theorem plus_lazy {p : Char → Bool} {b : Re} {vs s : List Char} {k : Hit} (hne : vs ≠ []) (hvs : ∀ c ∈ vs, p c = true)
    (hfail : ∀ u v, vs = u ++ v → u ≠ [] → v ≠ [] → run b (v ++ s) = []) (hb : (run b s).head? = some k) :
    (run (.seq (.group (plus p false)) b) (vs ++ s)).head? = some (k.after vs [vs]) := by
  obtain ⟨c, vs, rfl⟩ := List.exists_cons_of_ne_nil hne
  have main : ∀ (w pre : List Char), pre ++ w = c :: vs → pre ≠ [] →
      (starHits p (w ++ s)).findSome? (fun h => ((run b h.rest).head?).map (Hit.after (pre ++ h.text) [pre ++ h.text])) = some (k.after (c :: vs) [c :: vs]) := by
    intro w
    induction w with
    | nil =>
      intro pre hpre _
      rw [List.append_nil] at hpre
      rw [List.nil_append]
      cases s with
      | nil => simp [starHits, hb, hpre]
      | cons d s => rw [starHits, List.findSome?_cons]; simp [hb, hpre]
    | cons d w ih =>
      intro pre hpre hne'
      have hd : p d = true := hvs d (by rw [← hpre]; simp)
      have h0 := hfail pre (d :: w) hpre.symm hne' (by simp)
      rw [List.cons_append, starHits, List.findSome?_cons]
      simp only [← List.cons_append, h0, List.head?_nil, Option.map_none, if_pos hd, List.findSome?_map]
      have := ih (pre ++ [d]) (by simpa using hpre) (by simp)
      rw [← this]
      congr 1
      funext h
      simp [Function.comp]
  have := main vs [c] (by simp) (by simp)
  rw [first_seq, plus]
  simp only [run, List.cons_append, hvs c (by simp), if_true, List.flatMap_cons, List.flatMap_nil, List.append_nil, Bool.false_eq_true,
    if_false, List.map_map, List.findSome?_map]
  rw [← this]
  congr 1

/-! ### Where nothing matches -/

theorem matches_lit {cs : List Char} {re : Re} {t r : List Char} {g : List (List Char)} (h : Matches (lit cs re) t r g) : cs <+: t := by
  induction cs generalizing t g with
  | nil => simp
  | cons c cs ih =>
    rw [lit] at h
    cases h with
    | @seq _ _ t u _ g g' ha hb =>
      cases ha with
      | @chr _ d _ hp =>
        have : d = c := by simpa using hp
        rw [this, List.singleton_append]
        exact (List.cons_prefix_cons).2 ⟨rfl, ih hb⟩

theorem matches_digits_lit {cs : List Char} {re : Re} {t r : List Char} {g : List (List Char)}
    (h : Matches (.seq (.group (plus Re.isDigit true)) (lit cs re)) t r g) : ∃ d ds u, t = d :: ds ++ cs ++ u ∧ Re.isDigit d = true := by
  cases h with
  | @seq _ _ t u _ g g' ha hb =>
    obtain ⟨v, rfl⟩ := matches_lit hb
    cases ha with
    | group ha =>
      cases ha with
      | @seq _ _ t2 u2 _ _ _ hc hd =>
        cases hc with
        | @chr _ d _ hp => exact ⟨d, u2, v, by simp, hp⟩

theorem match_lit_none {cs : List Char} {re : Re} {s : List Char} (h : ¬ cs <+: s) : (lit cs re).match s = none := by
  rw [match_none]
  intro t r g hs hm
  exact h ((matches_lit hm).trans ⟨r, hs⟩)

/-- Without a colon there is no node and no leaf. -/
theorem search_no_colon {cs : List Char} {re : Re} {s : List Char} (h : ':' ∉ s) :
    Re.search (.seq (.group (plus Re.isDigit true)) (lit (':' :: cs) re)) s = none := by
  rw [search_none]
  intro u t r g hs hm
  obtain ⟨d, ds, v, rfl, -⟩ := matches_digits_lit hm
  apply h
  rw [← hs]
  simp

/-- With one colon, followed by another character than the expression asks for. -/
theorem search_other_colon {c d : Char} {cs : List Char} {re : Re} {a b : List Char} (ha : ':' ∉ a) (hb : ':' ∉ b) (hd : d ≠ ':') (hcd : d ≠ c) :
    Re.search (.seq (.group (plus Re.isDigit true)) (lit (':' :: c :: cs) re)) (a ++ ':' :: d :: b) = none := by
  rw [search_none]
  intro u t r g hs hm
  obtain ⟨x, xs, v, rfl, -⟩ := matches_digits_lit hm
  have : a ++ ':' :: (d :: b) = (u ++ x :: xs) ++ ':' :: (c :: (cs ++ v ++ r)) := by
    rw [← hs]; simp
  rw [List.append_cons_inj_of_notMem ha (by simp [hb, hd.symm])] at this
  exact hcd (List.cons.inj this.2.2).1

theorem search_of_match {re : Re} {s : List Char} {g : List (List Char)} (h : re.match s = some g) : re.search s = some g := by
  cases s with
  | nil => exact h
  | cons c cs => simp [search, h]

theorem search_indent {b : Re} {sp s : List Char} (h : Indent sp) :
    Re.search (.seq (.group (plus Re.isDigit true)) b) (sp ++ s) = Re.search (.seq (.group (plus Re.isDigit true)) b) s := by
  induction sp with
  | nil => rfl
  | cons c sp ih =>
    have hc : Re.isDigit c = false := by
      rcases h c (by simp) with rfl | rfl <;> decide
    have : (Re.seq (.group (plus Re.isDigit true)) b).match (c :: (sp ++ s)) = none := by
      simp [Re.match, run, plus, hc]
    rw [List.cons_append, search, this]
    exact ih (fun x hx => h x (by simp [hx]))

/-! ### Numerals -/

theorem digit_re {d : Nat} (h : d < 10) : Re.isDigit (Svm.digit d) = true ∧ Svm.digit d ∉ [':', ' ', '\t', '\n', '\x0b', '\x0c', '\r', 'b', 'l'] := by
  interval_cases d <;> decide

theorem numeral_isDigit {s : List Char} {n : Nat} (h : Numeral s n) : ∀ c ∈ s, Re.isDigit c = true := by
  intro c hc
  obtain ⟨d, hd, rfl⟩ := (Svm.numeral_digits h).2.1 c hc
  exact (digit_re hd).1

theorem numeral_plain {s : List Char} {n : Nat} (h : Numeral s n) : ∀ c ∈ s, c ∉ [':', ' ', '\t', '\n', '\x0b', '\x0c', '\r', 'b', 'l'] := by
  intro c hc
  obtain ⟨d, hd, rfl⟩ := (Svm.numeral_digits h).2.1 c hc
  exact (digit_re hd).2

theorem pyStrip_plain {s : List Char} (h : ∀ c ∈ s, c ∉ [' ', '\t', '\n', '\x0b', '\x0c', '\r']) : pyStrip s = s := by
  have aux : ∀ t : List Char, (∀ c ∈ t, c ∉ [' ', '\t', '\n', '\x0b', '\x0c', '\r']) →
      t.dropWhile (fun c => decide (c ∈ [' ', '\t', '\n', '\x0b', '\x0c', '\r'])) = t := by
    intro t ht
    cases t with
    | nil => rfl
    | cons c t => rw [List.dropWhile_cons_of_neg]; simpa using ht c (by simp)
  unfold pyStrip
  simp only
  rw [aux s h, aux s.reverse (fun c hc => h c (by simpa using hc)), List.reverse_reverse]

theorem numeral_value {s : List Char} {n : Nat} (h : Numeral s n) : Svm.digitsValue (pyStrip s) = n := by
  rw [pyStrip_plain]
  · exact (Svm.numeral_digits h).2.2
  · intro c hc hm
    apply numeral_plain h c hc
    simp only [List.mem_cons, List.not_mem_nil, or_false] at hm ⊢
    tauto

/-! ### The expressions on the lines of a dump -/

namespace Ensemble
variable {F : Type} {float : List Char → Option F}

theorem treeReg_ok {ds tail : List Char} {i : Nat} (h : Numeral ds i) : treeReg.match ("booster[".toList ++ ds ++ ']' :: tail) = some [ds] := by
  have h1 := plus_greedy (p := Re.isDigit) (s := ']' :: tail) (Svm.numeral_digits h).1 (numeral_isDigit h) (by intro c hc; cases hc; decide)
  have h2 : (run (lit [']'] .empty) (']' :: tail)).head? = some ⟨[']'], tail, []⟩ := by
    have := run_lit [']'] .empty tail
    simpa [run, Hit.after] using this
  have h3 := first_group_seq h1 h2
  have h4 := run_lit "booster[".toList (.seq (.group (plus Re.isDigit true)) (lit [']'] .empty)) (ds ++ ']' :: tail)
  rw [h3] at h4
  unfold Re.match treeReg
  rw [List.append_assoc, h4]
  rfl

theorem nodeReg_ok {lt : List Char} {sp ids fs ts tail : List Char} {id f : Nat} {t : F} (hlt : ∀ c ∈ lt.head?, Re.isDigit c = false) (hne : lt ≠ [])
    (hsp : Indent sp) (hid : Numeral ids id) (hf : Numeral fs f) (ht : NumText float ts t) (htail : ']' ∉ tail) :
    (nodeReg lt).search (sp ++ ids ++ ":[f".toList ++ fs ++ lt ++ ts ++ ']' :: tail) = some [ids, fs, ts] := by
  have hdot : ∀ c ∈ ts, dot c = true := by
    intro c hc
    have := ht.2.2 c hc
    simp only [List.mem_cons, not_or] at this
    simp [dot, this.2.2.2.2.2.1]
  have h1 := group_to_last (p := dot) (q := ']') hdot htail
  have h2 := run_lit lt (.seq (.group (.star dot true)) (lit [']'] .empty)) (ts ++ ']' :: tail)
  rw [h1] at h2
  have h3 := plus_greedy (p := Re.isDigit) (s := lt ++ (ts ++ ']' :: tail)) (Svm.numeral_digits hf).1 (numeral_isDigit hf) (by
    obtain ⟨c, lt, rfl⟩ := List.exists_cons_of_ne_nil hne
    intro d hd
    exact hlt d hd)
  have h4 := first_group_seq h3 h2
  have h5 := run_lit ":[f".toList (.seq (.group (plus Re.isDigit true)) (lit lt (.seq (.group (.star dot true)) (lit [']'] .empty))))
    (fs ++ (lt ++ (ts ++ ']' :: tail)))
  rw [h4] at h5
  have h6 := plus_greedy (p := Re.isDigit) (s := ":[f".toList ++ (fs ++ (lt ++ (ts ++ ']' :: tail)))) (Svm.numeral_digits hid).1 (numeral_isDigit hid) (by
    intro d hd
    rw [show ":[f".toList = [':', '[', 'f'] by decide] at hd
    cases hd; decide)
  have h7 := first_group_seq h6 h5
  have e : sp ++ ids ++ ":[f".toList ++ fs ++ lt ++ ts ++ ']' :: tail = sp ++ (ids ++ (":[f".toList ++ (fs ++ (lt ++ (ts ++ ']' :: tail))))) := by simp
  rw [e, nodeReg, search_indent hsp]
  apply search_of_match
  unfold Re.match
  rw [h7]
  rfl

theorem numText_plain {s : List Char} {v : F} (h : NumText float s v) : ∀ c ∈ s, c ≠ ':' ∧ c ≠ ']' ∧ c ≠ ',' ∧ c ≠ '\n' ∧ dot c = true := by
  intro c hc
  have := h.2.2 c hc
  simp only [List.mem_cons, not_or] at this
  refine ⟨this.1, this.2.1, this.2.2.1, this.2.2.2.2.2.1, ?_⟩
  simp [dot, this.2.2.2.2.2.1]

theorem numText_strip {s : List Char} {v : F} (h : NumText float s v) : pyStrip s = s := by
  apply pyStrip_plain
  intro c hc hm
  apply h.2.2 c hc
  simp only [List.mem_cons, List.not_mem_nil, or_false] at hm ⊢
  tauto

theorem run_eol {e : List Char} (h : LineEnd e) : run .eol e = [⟨[], e, []⟩] := by
  simp only [run]
  exact if_pos h

theorem leafReg_prefix {b : Re} {sp ids s : List Char} {id : Nat} {k : Hit} (hsp : Indent sp) (hid : Numeral ids id)
    (hb : (run b s).head? = some k) :
    Re.search (.seq (.group (plus Re.isDigit true)) (lit ":leaf=".toList b)) (sp ++ ids ++ ":leaf=".toList ++ s) = some (ids :: k.groups) := by
  have h1 := run_lit ":leaf=".toList b s
  rw [hb] at h1
  have h2 := plus_greedy (p := Re.isDigit) (s := ":leaf=".toList ++ s) (Svm.numeral_digits hid).1 (numeral_isDigit hid) (by
    intro d hd
    rw [show ":leaf=".toList = [':', 'l', 'e', 'a', 'f', '='] by decide] at hd
    cases hd; decide)
  have h3 := first_group_seq h2 h1
  rw [List.append_assoc, List.append_assoc, search_indent hsp]
  apply search_of_match
  unfold Re.match
  rw [h3]
  rfl

theorem xgbLeafReg_ok {sp ids vs tail : List Char} {id : Nat} {v : F} (hsp : Indent sp) (hid : Numeral ids id) (hv : NumText float vs v)
    (htail : Attributes tail) : ∃ g, xgbLeafReg.search (sp ++ ids ++ ":leaf=".toList ++ vs ++ tail) = some (ids :: vs :: g) := by
  have hvp := numText_plain hv
  obtain ⟨k, hk⟩ : ∃ k, (run (.seq (.opt (.group (lit [','] (.star dot true)))) .eol) tail).head? = some k := by
    rw [first_seq]
    rcases htail with h | ⟨a, e, rfl, ha, he⟩
    · have : run (.group (lit [','] (.star dot true))) tail = [] := by
        rcases h with rfl | rfl
        · simp [run, lit]
        · simp [run, lit]
      simp only [run] at this ⊢
      rw [this]
      simp only [List.nil_append, List.findSome?_cons]
      rw [if_pos (show tail = [] ∨ tail = ['\n'] from h)]
      exact ⟨_, rfl⟩
    · have h1 := star_greedy (p := dot) (ds := a) (s := e) (by intro c hc; simp [dot, (ha c hc).2]) (by
        intro c hc
        rcases he with rfl | rfl
        · simp at hc
        · cases hc; decide)
      have h2 := run_lit [','] (.star dot true) (a ++ e)
      rw [h1] at h2
      have h3 : (run (.opt (.group (lit [','] (.star dot true)))) (',' :: a ++ e)).head? = some ⟨',' :: a, e, [',' :: a]⟩ := by
        simp only [run, List.head?_append, List.head?_map]
        have : (',' :: a ++ e) = [','] ++ (a ++ e) := by simp
        rw [this, h2]
        simp [Hit.after]
      obtain ⟨tl, htl⟩ : ∃ tl, run (.opt (.group (lit [','] (.star dot true)))) (',' :: a ++ e) = ⟨',' :: a, e, [',' :: a]⟩ :: tl := by
        cases h : run (.opt (.group (lit [','] (.star dot true)))) (',' :: a ++ e) with
        | nil => rw [h] at h3; simp at h3
        | cons x tl => rw [h] at h3; simp only [List.head?_cons, Option.some.injEq] at h3; exact ⟨tl, by rw [h3]⟩
      rw [htl, List.findSome?_cons]
      simp only [run_eol he]
      exact ⟨_, rfl⟩
  have h1 := plus_lazy (p := dot) (b := .seq (.opt (.group (lit [','] (.star dot true)))) .eol) (s := tail) hv.2.1 (fun c hc => (hvp c hc).2.2.2.2) (by
    intro u w huw hu hw
    obtain ⟨c, w, rfl⟩ := List.exists_cons_of_ne_nil hw
    have hc := hvp c (by rw [huw]; simp)
    have e1 : run (.group (lit [','] (.star dot true))) (c :: (w ++ tail)) = [] := by simp [run, lit, hc.2.2.1]
    have e2 : run .eol (c :: (w ++ tail)) = [] := by simp [run, hc.2.2.2.1]
    simp only [List.cons_append]
    rw [run]
    rw [show run (.opt (.group (lit [','] (.star dot true)))) (c :: (w ++ tail)) = [⟨[], c :: (w ++ tail), []⟩] by
      rw [run, e1]; rfl]
    simp [e2]) hk
  have h2 := leafReg_prefix hsp hid h1
  refine ⟨k.groups, ?_⟩
  rw [List.append_assoc _ vs tail, xgbLeafReg, h2]
  rfl

theorem to_end_greedy {vs e : List Char} {v : F} (hv : NumText float vs v) (he : LineEnd e) :
    (run (.seq (.group (plus dot true)) .eol) (vs ++ e)).head? = some ⟨vs, e, [vs]⟩ := by
  have h1 := plus_greedy (p := dot) (ds := vs) (s := e) hv.2.1 (fun c hc => (numText_plain hv c hc).2.2.2.2) (by
    intro c hc
    rcases he with rfl | rfl
    · simp at hc
    · cases hc; decide)
  have h2 := first_group_seq (b := .eol) h1 (by rw [run_eol he]; rfl)
  rw [h2]
  simp [Hit.after]

theorem skLeafReg_ok {sp ids vs e : List Char} {id : Nat} {v : F} (hsp : Indent sp) (hid : Numeral ids id) (hv : NumText float vs v)
    (he : LineEnd e) : skLeafReg.search (sp ++ ids ++ ":leaf=".toList ++ vs ++ e) = some [ids, vs] := by
  have h2 := leafReg_prefix hsp hid (to_end_greedy hv he)
  rw [List.append_assoc _ vs e, skLeafReg, h2]

theorem headerReg_ok {key vs e : List Char} {v : F} (hv : NumText float vs v) (he : LineEnd e) :
    (headerReg key).match (key ++ vs ++ e) = some [vs] := by
  have := run_lit key (.seq (.group (plus dot true)) .eol) (vs ++ e)
  rw [to_end_greedy hv he] at this
  rw [List.append_assoc]
  unfold Re.match headerReg
  rw [this]
  rfl

/-! ### The loops -/

theorem lit_tree : "booster[".toList = ['b', 'o', 'o', 's', 't', 'e', 'r', '['] := by decide
theorem lit_base : "base_score=".toList = ['b', 'a', 's', 'e', '_', 's', 'c', 'o', 'r', 'e', '='] := by decide
theorem lit_rate : "learning_rate=".toList = ['l', 'e', 'a', 'r', 'n', 'i', 'n', 'g', '_', 'r', 'a', 't', 'e', '='] := by decide
theorem lit_node : ":[f".toList = [':', '[', 'f'] := by decide
theorem lit_leaf : ":leaf=".toList = [':', 'l', 'e', 'a', 'f', '='] := by decide

/-- Lines that begin with blanks or digits are not lines of the header, and not the first line of a tree. -/
theorem start_digit {sp ids s : List Char} {id : Nat} (hsp : Indent sp) (hid : Numeral ids id) :
    ¬ "booster[".toList <+: sp ++ ids ++ s ∧ ¬ "base_score=".toList <+: sp ++ ids ++ s ∧ ¬ "learning_rate=".toList <+: sp ++ ids ++ s := by
  obtain ⟨c, cs, he, h1, h2⟩ : ∃ c cs, sp ++ ids ++ s = c :: cs ∧ c ≠ 'b' ∧ c ≠ 'l' := by
    cases sp with
    | cons c sp =>
      refine ⟨c, sp ++ ids ++ s, rfl, ?_, ?_⟩ <;> rcases hsp c (by simp) with rfl | rfl <;> decide
    | nil =>
      obtain ⟨c, cs, rfl⟩ := List.exists_cons_of_ne_nil (Svm.numeral_digits hid).1
      have := numeral_plain hid c (by simp)
      simp only [List.mem_cons, not_or] at this
      exact ⟨c, cs ++ s, rfl, this.2.2.2.2.2.2.2.1, this.2.2.2.2.2.2.2.2.1⟩
  rw [he, lit_tree, lit_base, lit_rate]
  simp only [List.cons_prefix_cons, not_and]
  exact ⟨fun h => absurd h.symm h1, fun h => absurd h.symm h1, fun h => absurd h.symm h2⟩

theorem textHeader_none (cfg : TextCfg F) {key line : List Char} (h : ¬ key <+: line) : textHeader cfg key line = pure none := by
  unfold textHeader
  rw [headerReg, match_lit_none h]
  split <;> rfl

theorem textStep_body (cfg : TextCfg F) (s : DumpState F) {line : List Char} (h1 : ¬ "base_score=".toList <+: line)
    (h2 : ¬ "learning_rate=".toList <+: line) : textStep cfg s line = textBody cfg s line := by
  unfold textStep
  rw [textHeader_none cfg h1, textHeader_none cfg h2]
  rfl

theorem colon_node {sp ids fs lt ts tail : List Char} : sp ++ ids ++ ":[f".toList ++ fs ++ lt ++ ts ++ ']' :: tail =
    (sp ++ ids) ++ ':' :: '[' :: ('f' :: (fs ++ lt ++ ts ++ ']' :: tail)) := by
  rw [lit_node]; simp

theorem colon_leaf {sp ids vs tail : List Char} : sp ++ ids ++ ":leaf=".toList ++ vs ++ tail =
    (sp ++ ids) ++ ':' :: 'l' :: ('e' :: 'a' :: 'f' :: '=' :: (vs ++ tail)) := by
  rw [lit_leaf]; simp

theorem no_colon_start {sp ids : List Char} {id : Nat} (hsp : Indent sp) (hid : Numeral ids id) : ':' ∉ sp ++ ids := by
  intro h
  rcases List.mem_append.1 h with h | h
  · rcases hsp _ h with h | h <;> exact absurd h (by decide)
  · exact numeral_plain hid _ h (by simp)

theorem attributes_no_colon {s : List Char} (h : Attributes s) : ':' ∉ s := by
  rcases h with (rfl | rfl) | ⟨a, e, rfl, ha, (rfl | rfl)⟩
  · simp
  · decide
  · simp only [List.append_nil, List.mem_cons, not_or]
    exact ⟨by decide, fun h => (ha _ h).1 rfl⟩
  · simp only [List.cons_append, List.mem_cons, List.mem_append, List.not_mem_nil, not_or, or_false]
    exact ⟨by decide, fun h => (ha _ h).1 rfl, by decide⟩

/-- What a loader has to do right on the lines of leaves. -/
def ReadsLeaf (cfg : TextCfg F) (line : List Char) (id : Nat) (v : F) : Prop :=
  ∃ ids vs g, cfg.leaf.search line = some (ids :: vs :: g) ∧ Numeral ids id ∧ NumText cfg.float vs v

/-- What is needed of the configuration of a loader. -/
structure CfgOk (cfg : TextCfg F) (lt : List Char) : Prop where
  lt_ne : lt ≠ []
  lt_digit : ∀ c ∈ lt.head?, Re.isDigit c = false
  lt_colon : ':' ∉ lt
  node : cfg.node = nodeReg lt
  leaf : ∃ re, cfg.leaf = .seq (.group (plus Re.isDigit true)) (lit ":leaf=".toList re)

/-- The loops treat a line of the text as the line `d` of the dump. -/
def LineActs (cfg : TextCfg F) (line : List Char) (d : DumpLine F) : Prop :=
  ∀ (s : DumpState F) (n : Nat × Nat), textStep cfg s line = dumpStep cfg.dump s d ∧
    textCount cfg n line = (n.1 + (dumpCount [d]).1, n.2 + (dumpCount [d]).2)

theorem textLine (cfg : TextCfg F) {lt : List Char} (hcfg : CfgOk cfg lt) {line : List Char} {d : DumpLine F} (h : SpellsDump lt cfg.float line d)
    (hleaf : ∀ id v, d = .leaf id v → ReadsLeaf cfg line id v) : LineActs cfg line d := by
  intro s n
  obtain ⟨re, hre⟩ := hcfg.leaf
  cases d with
  | tree i =>
    obtain ⟨ds, tail, rfl, hi⟩ := h
    have ht := treeReg_ok (tail := tail) hi
    constructor
    · rw [textStep_body]
      · unfold textBody
        rw [ht]
        simp only
        rw [(Svm.numeral_digits hi).2.2]
      · rw [lit_tree, lit_base]; simp [List.cons_prefix_cons]
      · rw [lit_tree, lit_rate]; simp [List.cons_prefix_cons]
    · unfold textCount
      rw [ht]
      simp [dumpCount]
  | node id f t =>
    obtain ⟨sp, ids, fs, ts, tail, rfl, hsp, hid, hf, ht, htail⟩ := h
    obtain ⟨s1, s2, s3⟩ := start_digit (s := ":[f".toList ++ fs ++ lt ++ ts ++ ']' :: tail) hsp hid
    simp only [← List.append_assoc] at s1 s2 s3
    have hn := nodeReg_ok (float := cfg.float) (tail := tail) hcfg.lt_digit hcfg.lt_ne hsp hid hf ht (fun h => (htail _ h).2 rfl)
    have hl : cfg.leaf.search (sp ++ ids ++ ":[f".toList ++ fs ++ lt ++ ts ++ ']' :: tail) = none := by
      rw [hre, colon_node, lit_leaf]
      refine search_other_colon (no_colon_start hsp hid) ?_ (by decide) (by decide)
      simp only [List.mem_cons, List.mem_append, not_or]
      exact ⟨by decide, ⟨⟨fun h => numeral_plain hf _ h (by simp), hcfg.lt_colon⟩, fun h => (numText_plain ht _ h).1 rfl⟩, by decide,
        fun h => (htail _ h).1 rfl⟩
    have htree : treeReg.match (sp ++ ids ++ ":[f".toList ++ fs ++ lt ++ ts ++ ']' :: tail) = none := match_lit_none s1
    constructor
    · rw [textStep_body cfg s s2 s3]
      unfold textBody
      rw [htree]
      simp only
      rw [hcfg.node, hn, hl]
      simp only [textNode, textNodeId, numeral_value hid, numeral_value hf, numText_strip ht, toFloat, ht.1, pure_bind, bind_assoc, textLeaf, textLink,
        Option.isSome_some, if_true, dumpStep]
    · unfold textCount
      rw [htree, hcfg.node, hn, hl]
      simp [dumpCount]
  | leaf id v =>
    obtain ⟨ids', vs', g, hl, hid', hv'⟩ := hleaf id v rfl
    obtain ⟨sp, ids, vs, tail, rfl, hsp, hid, hv, htail⟩ := h
    obtain ⟨s1, s2, s3⟩ := start_digit (s := ":leaf=".toList ++ vs ++ tail) hsp hid
    simp only [← List.append_assoc] at s1 s2 s3
    have hn : cfg.node.search (sp ++ ids ++ ":leaf=".toList ++ vs ++ tail) = none := by
      rw [hcfg.node, nodeReg, colon_leaf, lit_node]
      refine search_other_colon (no_colon_start hsp hid) ?_ (by decide) (by decide)
      simp only [List.mem_cons, List.mem_append, not_or]
      exact ⟨by decide, by decide, by decide, by decide, fun h => (numText_plain hv _ h).1 rfl, attributes_no_colon htail⟩
    have htree : treeReg.match (sp ++ ids ++ ":leaf=".toList ++ vs ++ tail) = none := match_lit_none s1
    constructor
    · rw [textStep_body cfg s s2 s3]
      unfold textBody
      rw [htree]
      simp only
      rw [hn, hl]
      simp only [textNode, textNodeId, numeral_value hid', numText_strip hv', toFloat, hv'.1, pure_bind, bind_assoc, textLeaf, textLink,
        Option.isSome_none, Bool.false_eq_true, if_false, dumpStep]
    · unfold textCount
      rw [htree, hn, hl]
      simp [dumpCount]
  | baseScore v =>
    obtain ⟨vs, e, rfl, hv, he⟩ := h
    have hcol : ':' ∉ "base_score=".toList ++ vs ++ e := by
      simp only [List.mem_append, not_or]
      exact ⟨⟨by decide, fun h => (numText_plain hv _ h).1 rfl⟩, by rcases he with rfl | rfl <;> decide⟩
    have htree : treeReg.match ("base_score=".toList ++ vs ++ e) = none :=
      match_lit_none (by rw [lit_tree, lit_base]; simp [List.cons_prefix_cons])
    have hn : cfg.node.search ("base_score=".toList ++ vs ++ e) = none := by
      rw [hcfg.node, nodeReg, lit_node]; exact search_no_colon hcol
    have hl : cfg.leaf.search ("base_score=".toList ++ vs ++ e) = none := by
      rw [hre, lit_leaf]; exact search_no_colon hcol
    constructor
    · unfold textStep textHeader
      by_cases hh : cfg.dump.header = true
      · rw [if_pos hh, headerReg_ok hv he]
        simp only [toFloat, hv.1, pure_bind, dumpStep, if_pos hh]
      · rw [if_neg hh, pure_bind]
        simp only
        rw [if_neg hh, pure_bind]
        simp only
        unfold textBody
        rw [htree]
        simp only
        rw [hn, hl]
        simp only [textNode, textLeaf, textLink, pure_bind, dumpStep, if_neg hh]
    · unfold textCount
      rw [htree, hn, hl]
      simp [dumpCount]
  | learningRate v =>
    obtain ⟨vs, e, rfl, hv, he⟩ := h
    have hcol : ':' ∉ "learning_rate=".toList ++ vs ++ e := by
      simp only [List.mem_append, not_or]
      exact ⟨⟨by decide, fun h => (numText_plain hv _ h).1 rfl⟩, by rcases he with rfl | rfl <;> decide⟩
    have htree : treeReg.match ("learning_rate=".toList ++ vs ++ e) = none :=
      match_lit_none (by rw [lit_tree, lit_rate]; simp [List.cons_prefix_cons])
    have hbase : ¬ "base_score=".toList <+: "learning_rate=".toList ++ vs ++ e := by rw [lit_base, lit_rate]; simp [List.cons_prefix_cons]
    have hn : cfg.node.search ("learning_rate=".toList ++ vs ++ e) = none := by
      rw [hcfg.node, nodeReg, lit_node]; exact search_no_colon hcol
    have hl : cfg.leaf.search ("learning_rate=".toList ++ vs ++ e) = none := by
      rw [hre, lit_leaf]; exact search_no_colon hcol
    constructor
    · unfold textStep
      rw [textHeader_none cfg hbase]
      unfold textHeader
      by_cases hh : cfg.dump.header = true
      · rw [if_pos hh, headerReg_ok hv he]
        simp only [toFloat, hv.1, pure_bind, dumpStep, if_pos hh]
      · rw [if_neg hh, pure_bind]
        simp only [pure_bind]
        unfold textBody
        rw [htree]
        simp only
        rw [hn, hl]
        simp only [textNode, textLeaf, textLink, pure_bind, dumpStep, if_neg hh]
    · unfold textCount
      rw [htree, hn, hl]
      simp [dumpCount]
  | other =>
    obtain ⟨hcol, h1, h2, h3⟩ := h
    have htree : treeReg.match line = none := match_lit_none h1
    have hn : cfg.node.search line = none := by
      rw [hcfg.node, nodeReg, lit_node]; exact search_no_colon hcol
    have hl : cfg.leaf.search line = none := by
      rw [hre, lit_leaf]; exact search_no_colon hcol
    constructor
    · rw [textStep_body cfg s h2 h3]
      unfold textBody
      rw [htree]
      simp only
      rw [hn, hl]
      simp only [textNode, textLeaf, textLink, pure_bind, dumpStep]
    · unfold textCount
      rw [htree, hn, hl]
      simp [dumpCount]

theorem dumpCount_cons (d : DumpLine F) (ds : List (DumpLine F)) :
    dumpCount (d :: ds) = ((dumpCount [d]).1 + (dumpCount ds).1, (dumpCount [d]).2 + (dumpCount ds).2) := by
  simp only [dumpCount, List.countP_cons, List.countP_nil]
  rw [Nat.add_comm, Nat.add_comm (List.countP _ ds)]
  simp

theorem namedLine (cfg : TextCfg F) {lt : List Char} (hcfg : CfgOk cfg lt) {sp ids tail : List Char} {c : Char} {id : Nat} (hsp : Indent sp)
    (hid : Numeral ids id) (hc : c ≠ 'f') (htail : ':' ∉ c :: tail) : LineActs cfg (sp ++ ids ++ ':' :: '[' :: c :: tail) .other := by
  intro s n
  obtain ⟨re, hre⟩ := hcfg.leaf
  obtain ⟨s1, s2, s3⟩ := start_digit (s := ':' :: '[' :: c :: tail) hsp hid
  have htree : treeReg.match (sp ++ ids ++ ':' :: '[' :: c :: tail) = none := match_lit_none s1
  have hl : cfg.leaf.search (sp ++ ids ++ ':' :: '[' :: c :: tail) = none := by
    rw [hre, lit_leaf]
    exact search_other_colon (no_colon_start hsp hid) htail (by decide) (by decide)
  have hn : cfg.node.search (sp ++ ids ++ ':' :: '[' :: c :: tail) = none := by
    rw [hcfg.node, nodeReg, lit_node, search_none]
    intro u t r g hs hm
    obtain ⟨x, xs, v, rfl, -⟩ := matches_digits_lit hm
    have : sp ++ ids ++ ':' :: ('[' :: c :: tail) = (u ++ x :: xs) ++ ':' :: ('[' :: 'f' :: (v ++ r)) := by
      rw [← hs]; simp
    rw [List.append_cons_inj_of_notMem (no_colon_start hsp hid) (by
      rw [List.mem_cons, not_or]; exact ⟨by decide, htail⟩)] at this
    exact hc (List.cons.inj (List.cons.inj this.2.2).2).1
  constructor
  · rw [textStep_body cfg s s2 s3]
    unfold textBody
    rw [htree]
    simp only
    rw [hn, hl]
    simp only [textNode, textLeaf, textLink, pure_bind, dumpStep]
  · unfold textCount
    rw [htree, hn, hl]
    simp [dumpCount]

theorem textLoad_eq (cfg : TextCfg F) (zero minusOne : F) {file : List Char} {ls : List (List Char)} (hfile : IsLines ls file)
    {ds : List (DumpLine F)} (h : List.Forall₂ (LineActs cfg) ls ds) :
    dumpTextLoad cfg zero minusOne file = dumpLoad cfg.dump zero minusOne ds := by
  have h1 : ∀ n, ls.foldl (textCount cfg) n = (n.1 + (dumpCount ds).1, n.2 + (dumpCount ds).2) := by
    clear hfile
    induction h with
    | nil => intro n; simp [dumpCount]
    | @cons l d ls ds hl _ ih =>
      intro n
      rw [List.foldl_cons, (hl ⟨alloc zero minusOne 0 0, zero, none, 0, 0, []⟩ n).2, ih, dumpCount_cons d ds]
      simp only [Nat.add_assoc]
  have h2 : ∀ s, ls.foldlM (textStep cfg) s = ds.foldlM (dumpStep cfg.dump) s := by
    clear hfile h1
    induction h with
    | nil => intro s; rfl
    | @cons l d ls ds hl _ ih =>
      intro s
      rw [List.foldlM_cons, List.foldlM_cons, (hl s (0, 0)).1]
      congr 1
      funext s'
      exact ih s'
  funext lr bs
  unfold dumpTextLoad dumpLoad
  simp only [Svm.linesFrom_ok hfile, h1, h2, Nat.zero_add]

theorem cfgOk_xgboost (strictToLe : F → F) (one : F) (float : List Char → Option F) :
    CfgOk (F := F) ⟨⟨false, strictToLe, false, one⟩, nodeReg ['<'], xgbLeafReg, float⟩ ['<'] where
  lt_ne := by simp
  lt_digit := by intro c hc; cases hc; decide
  lt_colon := by decide
  node := rfl
  leaf := ⟨_, rfl⟩

theorem cfgOk_scikit (one : F) (float : List Char → Option F) :
    CfgOk (F := F) ⟨⟨true, fun t => t, true, one⟩, nodeReg ['<', '='], skLeafReg, float⟩ ['<', '='] where
  lt_ne := by simp
  lt_digit := by intro c hc; cases hc; decide
  lt_colon := by decide
  node := rfl
  leaf := ⟨_, rfl⟩

theorem xgboost_line (strictToLe : F → F) (one : F) {line : List Char} {d : DumpLine F} (h : SpellsDump ['<'] float line d) :
    LineActs ⟨⟨false, strictToLe, false, one⟩, nodeReg ['<'], xgbLeafReg, float⟩ line d := by
  apply textLine _ (cfgOk_xgboost strictToLe one float) h
  rintro id v rfl
  obtain ⟨sp, ids, vs, tail, rfl, hsp, hid, hv, htail⟩ := h
  obtain ⟨g, hg⟩ := xgbLeafReg_ok hsp hid hv htail
  exact ⟨ids, vs, g, hg, hid, hv⟩

theorem scikit_line (one : F) {line : List Char} {d : DumpLine F} (h : SpellsSk float line d) :
    LineActs ⟨⟨true, fun t => t, true, one⟩, nodeReg ['<', '='], skLeafReg, float⟩ line d := by
  apply textLine _ (cfgOk_scikit one float) h.1
  rintro id v rfl
  have hcomma := h.2 id v rfl
  obtain ⟨sp, ids, vs, tail, rfl, hsp, hid, hv, htail⟩ := h.1
  have he : LineEnd tail := by
    rcases htail with h | ⟨a, e, rfl, -, -⟩
    · exact h
    · simp at hcomma
  exact ⟨ids, vs, [], skLeafReg_ok hsp hid hv he, hid, hv⟩

end Ensemble
end Verif
