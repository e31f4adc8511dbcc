/-
The matcher finds exactly the matches.
-/
import Verif.Spec.Regex

namespace Verif
open Spec Re

theorem mem_starHits {p : Char → Bool} {s : List Char} {h : Hit} :
    h ∈ starHits p s ↔ h.text ++ h.rest = s ∧ (∀ c ∈ h.text, p c = true) ∧ h.groups = [] := by
  induction s generalizing h with
  | nil =>
    obtain ⟨t, r, g⟩ := h
    simp only [starHits, List.mem_singleton, Hit.mk.injEq, List.append_eq_nil_iff]
    constructor
    · rintro ⟨rfl, rfl, rfl⟩; simp
    · rintro ⟨⟨rfl, rfl⟩, -, rfl⟩; simp
  | cons c cs ih =>
    obtain ⟨t, r, g⟩ := h
    simp only [starHits, List.mem_cons, Hit.mk.injEq]
    constructor
    · rintro (⟨rfl, rfl, rfl⟩ | h)
      · simp
      · split at h
        · rename_i hc
          obtain ⟨k, hk, he⟩ := List.mem_map.1 h
          obtain ⟨h1, h2, h3⟩ := ih.1 hk
          simp only [Hit.mk.injEq] at he
          obtain ⟨rfl, rfl, rfl⟩ := he
          refine ⟨by simp [h1], ?_, rfl⟩
          intro x hx
          rcases List.mem_cons.1 hx with rfl | hx
          · exact hc
          · exact h2 x hx
        · simp at h
    · rintro ⟨h1, h2, rfl⟩
      cases t with
      | nil => left; simpa using h1
      | cons x t =>
        right
        simp only [List.cons_append, List.cons.injEq] at h1
        obtain ⟨rfl, h1⟩ := h1
        rw [if_pos (h2 x (by simp))]
        exact List.mem_map.2 ⟨⟨t, r, []⟩, ih.2 ⟨h1, fun c hc => h2 c (by simp [hc]), rfl⟩, rfl⟩

theorem mem_run {re : Re} {s : List Char} {h : Hit} : h ∈ run re s ↔ h.text ++ h.rest = s ∧ Matches re h.text h.rest h.groups := by
  induction re generalizing s h with
  | chr p =>
    obtain ⟨t, r, g⟩ := h
    constructor
    · intro hm
      cases s with
      | nil => simp [run] at hm
      | cons c cs =>
        simp only [run] at hm
        split at hm
        · rename_i hc
          simp only [List.mem_singleton, Hit.mk.injEq] at hm
          obtain ⟨rfl, rfl, rfl⟩ := hm
          exact ⟨rfl, .chr hc⟩
        · simp at hm
    · rintro ⟨rfl, hm⟩
      cases hm with
      | chr hp => simp [run, hp]
  | star p greedy =>
    have : h ∈ run (.star p greedy) s ↔ h ∈ starHits p s := by
      simp only [run]; split <;> simp
    rw [this, mem_starHits]
    obtain ⟨t, r, g⟩ := h
    constructor
    · rintro ⟨h1, h2, rfl⟩; exact ⟨h1, .star h2⟩
    · rintro ⟨h1, hm⟩
      cases hm with
      | star h2 => exact ⟨h1, h2, rfl⟩
  | seq a b iha ihb =>
    obtain ⟨t, r, g⟩ := h
    simp only [run, List.mem_flatMap, List.mem_map]
    constructor
    · rintro ⟨k, hk, l, hl, he⟩
      obtain ⟨h1, h2⟩ := iha.1 hk
      obtain ⟨h3, h4⟩ := ihb.1 hl
      simp only [Hit.mk.injEq] at he
      obtain ⟨rfl, rfl, rfl⟩ := he
      refine ⟨by simp [h3, h1], .seq ?_ h4⟩
      rw [h3]; exact h2
    · rintro ⟨h1, hm⟩
      cases hm with
      | @seq _ _ t u _ g g' ha hb =>
        refine ⟨⟨t, u ++ r, g⟩, iha.2 ⟨by simpa using h1, ha⟩, ⟨u, r, g'⟩, ihb.2 ⟨rfl, hb⟩, rfl⟩
  | opt a ih =>
    obtain ⟨t, r, g⟩ := h
    simp only [run, List.mem_append, List.mem_singleton, Hit.mk.injEq]
    constructor
    · rintro (h | ⟨rfl, rfl, rfl⟩)
      · exact ⟨(ih.1 h).1, .opt (ih.1 h).2⟩
      · exact ⟨rfl, .skip⟩
    · rintro ⟨h1, hm⟩
      cases hm with
      | skip => right; simpa using h1
      | opt hm => left; exact ih.2 ⟨h1, hm⟩
  | group a ih =>
    obtain ⟨t, r, g⟩ := h
    simp only [run, List.mem_map]
    constructor
    · rintro ⟨k, hk, he⟩
      simp only [Hit.mk.injEq] at he
      obtain ⟨rfl, rfl, rfl⟩ := he
      exact ⟨(ih.1 hk).1, .group (ih.1 hk).2⟩
    · rintro ⟨h1, hm⟩
      cases hm with
      | @group _ _ _ g hm => exact ⟨⟨t, r, g⟩, ih.2 ⟨h1, hm⟩, rfl⟩
  | eol =>
    obtain ⟨t, r, g⟩ := h
    simp only [run]
    constructor
    · intro hm
      split at hm
      · rename_i hs
        simp only [List.mem_singleton, Hit.mk.injEq] at hm
        obtain ⟨rfl, rfl, rfl⟩ := hm
        exact ⟨rfl, .eol hs⟩
      · simp at hm
    · rintro ⟨rfl, hm⟩
      cases hm with
      | eol h => simp [h]
  | empty =>
    obtain ⟨t, r, g⟩ := h
    simp only [run, List.mem_singleton, Hit.mk.injEq]
    constructor
    · rintro ⟨rfl, rfl, rfl⟩; exact ⟨rfl, .empty⟩
    · rintro ⟨rfl, hm⟩
      cases hm with
      | empty => simp

/-- No match is found iff there is none. -/
theorem match_none {re : Re} {s : List Char} : re.match s = none ↔ ∀ t r g, t ++ r = s → ¬ Matches re t r g := by
  unfold Re.match
  rw [Option.map_eq_none_iff, List.head?_eq_none_iff]
  constructor
  · intro h t r g hs hm
    have : (⟨t, r, g⟩ : Hit) ∈ run re s := mem_run.2 ⟨hs, hm⟩
    rw [h] at this
    simp at this
  · intro h
    apply List.eq_nil_iff_forall_not_mem.2
    intro k hk
    exact h _ _ _ (mem_run.1 hk).1 (mem_run.1 hk).2

theorem search_none {re : Re} {s : List Char} : re.search s = none ↔ ∀ u t r g, u ++ t ++ r = s → ¬ Matches re t r g := by
  induction s with
  | nil =>
    rw [search, match_none]
    constructor
    · intro h u t r g hs
      simp only [List.append_eq_nil_iff] at hs
      obtain ⟨⟨rfl, rfl⟩, rfl⟩ := hs
      exact h [] [] g rfl
    · intro h t r g hs
      exact h [] t r g (by simpa using hs)
  | cons c cs ih =>
    have : search re (c :: cs) = none ↔ re.match (c :: cs) = none ∧ search re cs = none := by
      simp only [search]
      cases re.match (c :: cs) <;> simp [Option.orElse]
    rw [this, match_none, ih]
    constructor
    · rintro ⟨h1, h2⟩ u t r g hs
      cases u with
      | nil => exact h1 t r g (by simpa using hs)
      | cons x u => exact h2 u t r g (by simp only [List.cons_append, List.cons.injEq] at hs; exact hs.2)
    · intro h
      exact ⟨fun t r g hs => h [] t r g (by simpa using hs), fun u t r g hs => h (c :: u) t r g (by simp [← hs])⟩

end Verif
