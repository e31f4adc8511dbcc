/-
Texts with an ampersand that begins no reference.
-/
import Verif.Lemmas.Etree
import Verif.Spec.BareAmp

namespace Verif.Etree

theorem BareAmp.split {s t : List Char} (h : BareAmp (s ++ t)) : BareAmp s ∨ BareAmp t := by
  obtain ⟨pre, b, h1, h2⟩ := h
  rcases List.append_eq_append_iff.1 h1 with ⟨u, rfl, rfl⟩ | ⟨u, rfl, hu⟩
  · exact .inr ⟨u, b, rfl, h2⟩
  · cases u with
    | nil =>
      simp only [List.nil_append] at hu
      exact .inr ⟨[], b, by simpa using hu.symm, h2⟩
    | cons c u =>
      simp only [List.cons_append, List.cons.injEq] at hu
      obtain ⟨rfl, rfl⟩ := hu
      exact .inl ⟨pre, u, rfl, fun r hr hp => h2 r hr (hp.trans (List.prefix_append _ _))⟩

theorem BareAmp.mem {s : List Char} (h : BareAmp s) : '&' ∈ s := by
  obtain ⟨pre, b, rfl, -⟩ := h
  simp

theorem BareAmp.drop {s t : List Char} (h : BareAmp (s ++ t)) (hs : '&' ∉ s) : BareAmp t := h.split.resolve_left (fun h => hs h.mem)

theorem BareAmp.dropWhile {s : List Char} (h : BareAmp s) {p : Char → Bool} (hp : p '&' = false) : BareAmp (s.dropWhile p) := by
  rw [← List.takeWhile_append_dropWhile (p := p) (l := s)] at h
  refine h.drop (fun hm => ?_)
  have := List.mem_takeWhile_imp hm
  rw [hp] at this
  cases this

theorem BareAmp.cons {c : Char} {s : List Char} (h : BareAmp (c :: s)) (hc : c ≠ '&') : BareAmp s :=
  BareAmp.drop (s := [c]) h (by simpa using hc.symm)

theorem BareAmp.after {r s : List Char} (h : BareAmp ('&' :: (r ++ s))) (hr : ∃ q ∈ references, q <+: r) (hn : '&' ∉ r) : BareAmp s := by
  obtain ⟨pre, b, h1, h2⟩ := h
  cases pre with
  | nil =>
    simp only [List.nil_append, List.cons.injEq, true_and] at h1
    obtain ⟨q, hq, hqr⟩ := hr
    exact (h2 q hq (h1 ▸ hqr.trans (List.prefix_append _ _))).elim
  | cons c pre =>
    simp only [List.cons_append, List.cons.injEq] at h1
    exact BareAmp.drop (s := r) ⟨pre, b, h1.2, h2⟩ hn

theorem unescape_bare : ∀ s : List Char, BareAmp s → unescape s = none := by
  intro s
  fun_induction unescape s with
  | case1 =>
    intro h
    have := h.mem
    cases this
  | case2 s ih => intro h; rw [ih (BareAmp.after (r := "amp;".toList) h (by decide) (by decide))]; rfl
  | case3 s ih => intro h; rw [ih (BareAmp.after (r := "lt;".toList) h (by decide) (by decide))]; rfl
  | case4 s ih => intro h; rw [ih (BareAmp.after (r := "gt;".toList) h (by decide) (by decide))]; rfl
  | case5 s ih => intro h; rw [ih (BareAmp.after (r := "quot;".toList) h (by decide) (by decide))]; rfl
  | case6 s ih => intro h; rw [ih (BareAmp.after (r := "apos;".toList) h (by decide) (by decide))]; rfl
  | case7 s ih => intro h; rw [ih (BareAmp.after (r := "#10;".toList) h (by decide) (by decide))]; rfl
  | case8 => intro _; rfl
  | case9 c s _ _ _ _ _ _ hc ih => intro h; rw [ih (h.cons hc)]; rfl

theorem lexAttrs_bare {n : Nat} : ∀ {s rest : List Char} {attrs : List (List Char × List Char)}, lexAttrs n s = .ok (attrs, rest) → BareAmp s →
    BareAmp rest := by
  induction n with
  | zero => intro s rest attrs h; cases h
  | succ n ih =>
    intro s rest attrs h hb
    unfold lexAttrs at h
    have hb1 := hb.dropWhile (p := space) (by decide)
    simp only at h
    split at h
    · cases h
      exact hb1
    · have hb2 := hb1.dropWhile (p := nameChar) (by decide)
      split at h
      · rename_i v hv
        rw [hv] at hb2
        have hb3 := (hb2.cons (by decide)).cons (by decide)
        split at h
        · rename_i r hr
          split at h
          · cases h
          · rename_i value hval
            split at h
            · cases h
            · simp only [bind, Except.bind] at h
              split at h
              · cases h
              · rename_i p hp
                cases h
                refine ih hp ?_
                rw [← List.takeWhile_append_dropWhile (p := (· ≠ '"')) (l := v), hr] at hb3
                rcases hb3.split with hb3 | hb3
                · rw [unescape_bare _ hb3] at hval
                  cases hval
                · exact hb3.cons (by decide)
        · cases h
      · cases h

theorem tagAt_bare {s rest : List Char} {t : List Token} (h : tagAt s = .ok (t, rest)) (hb : BareAmp s) : BareAmp rest := by
  unfold tagAt at h
  split at h
  · rename_i r
    unfold closeTag at h
    have hb1 := ((hb.cons (by decide)).dropWhile (p := nameChar) (by decide)).dropWhile (p := space) (by decide)
    split at h
    · rename_i q hq
      cases h
      rw [hq] at hb1
      exact hb1.cons (by decide)
    · cases h
  · unfold openTag at h
    simp only at h
    split at h
    · cases h
    · simp only [bind, Except.bind] at h
      split at h
      · cases h
      · rename_i p hp
        have hb1 := lexAttrs_bare hp (hb.dropWhile (p := nameChar) (by decide))
        split at h
        · cases h
        · unfold openEnd at h
          split at h
          · rename_i q hq
            cases h
            rw [hq] at hb1
            exact hb1.cons (by decide)
          · rename_i q hq
            cases h
            rw [hq] at hb1
            exact (hb1.cons (by decide)).cons (by decide)
          · cases h

theorem lex_bare {n : Nat} : ∀ {s : List Char} {ts : List Token}, lex n s = .ok ts → BareAmp s → ∃ d, Token.data d ∈ ts ∧ BareAmp d := by
  induction n with
  | zero => intro s ts h; cases h
  | succ n ih =>
    intro s ts h hb
    cases s with
    | nil =>
      have := hb.mem
      cases this
    | cons c s =>
      unfold lex at h
      split at h
      · rename_i hc
        subst hc
        simp only [bind, Except.bind] at h
        split at h
        · cases h
        · rename_i p hp
          split at h
          · cases h
          · rename_i us hus
            cases h
            obtain ⟨d, hd, hbd⟩ := ih hus (tagAt_bare hp (hb.cons (by decide)))
            exact ⟨d, List.mem_append_right _ hd, hbd⟩
      · simp only [bind, Except.bind] at h
        split at h
        · cases h
        · rename_i us hus
          cases h
          rw [← List.takeWhile_append_dropWhile (p := (· ≠ '<')) (l := s), ← List.cons_append] at hb
          rcases hb.split with hb | hb
          · exact ⟨_, List.mem_cons_self, hb⟩
          · obtain ⟨d, hd, hbd⟩ := ih hus hb
            exact ⟨d, List.mem_cons_of_mem _ hd, hbd⟩

theorem build_bare {ts : List Token} {d : List Char} (hb : BareAmp d) : ∀ {b : Builder} {es : List Event}, Token.data d ∈ ts → build b ts ≠ .ok es := by
  induction ts with
  | nil => intro b es h; cases h
  | cons t ts ih =>
    intro b es h he
    unfold build at he
    simp only [bind, Except.bind] at he
    split at he
    · cases he
    · rename_i p hp
      split at he
      · cases he
      · rename_i q hq
        rcases List.mem_cons.1 h with rfl | h
        · simp only [buildStep] at hp
          split at hp
          · split at hp
            · rename_i hall
              have := List.all_eq_true.1 hall '&' hb.mem
              exact absurd this (by decide)
            · cases hp
          · rw [unescape_bare d hb] at hp
            cases hp
        · exact ih h hq

theorem parse_bare {s : List Char} (hb : BareAmp s) : parse s = .error .parseError := by
  cases h : parse s with
  | error e => rw [parse_error h]
  | ok es =>
    exfalso
    unfold parse at h
    simp only [bind, Except.bind] at h
    split at h
    · cases h
    · rename_i ts hts
      obtain ⟨d, hd, hbd⟩ := lex_bare hts hb
      exact build_bare hbd hd h

end Verif.Etree
