/-
Lemmas for the text of LightGBM models.
-/
import Verif.Spec.LightgbmText
import Verif.Lemmas.DumpText
import Verif.Model.LightgbmText
import Verif.Props.LoadArrays
import Mathlib.Data.List.DropRight

namespace Verif
open Spec Re

/-! ### Words -/

theorem wordsFrom_trailing {sp : List Char} (h : AllSpace sp) (s : List Char) : ∀ cur, Svm.wordsFrom cur (s ++ sp) = Svm.wordsFrom cur s := by
  induction s with
  | nil =>
    intro cur
    by_cases hc : cur = []
    · subst hc
      have := Svm.wordsFrom_space h []
      simpa using this
    · have := Svm.wordsFrom_flush hc h [] (.inr rfl)
      simpa [Svm.wordsFrom, hc] using this
  | cons c s ih =>
    intro cur
    rw [List.cons_append, Svm.wordsFrom, Svm.wordsFrom, ih, ih]

theorem pyStrip_split (s : List Char) : ∃ a b, s = a ++ pyStrip s ++ b ∧ AllSpace a ∧ AllSpace b := by
  let sp : Char → Bool := fun c => c ∈ [' ', '\t', '\n', '\x0b', '\x0c', '\r']
  refine ⟨s.takeWhile sp, ((s.dropWhile sp).reverse.takeWhile sp).reverse, ?_, ?_, ?_⟩
  · show s = s.takeWhile sp ++ ((s.dropWhile sp).reverse.dropWhile sp).reverse ++ ((s.dropWhile sp).reverse.takeWhile sp).reverse
    rw [List.append_assoc, ← List.reverse_append, List.takeWhile_append_dropWhile, List.reverse_reverse, List.takeWhile_append_dropWhile]
  · intro c hc
    simpa [sp] using List.mem_takeWhile_imp hc
  · intro c hc
    simpa [sp] using List.mem_takeWhile_imp (List.mem_reverse.1 hc)

theorem words_strip (s : List Char) : Svm.words (pyStrip s) = Svm.words s := by
  obtain ⟨a, b, h, ha, hb⟩ := pyStrip_split s
  conv_rhs => rw [h]
  unfold Svm.words
  rw [wordsFrom_trailing hb, Svm.wordsFrom_space ha]

theorem words_sep {ws : List (List Char)} {s : List Char} (h : SepWords ws s) : Svm.words s = ws := by
  rcases h with ⟨rfl, hs⟩ | ⟨sp, w, ws', s', rfl, rfl, hsp, hw, hs⟩
  · exact Svm.words_spaced (.nil hs)
  · have h1 : Spaced (w :: ws') ((' ' :: sp) ++ w ++ s') := .cons (by
      intro c hc
      rcases List.mem_cons.1 hc with rfl | hc
      · decide
      · exact hsp c hc) (by simp) hw hs
    rw [← Svm.words_spaced h1]
    unfold Svm.words
    rw [List.append_assoc, List.append_assoc, Svm.wordsFrom_space hsp (w ++ s'), Svm.wordsFrom_space (sp := ' ' :: sp) (s := w ++ s')]
    intro c hc
    rcases List.mem_cons.1 hc with rfl | hc
    · decide
    · exact hsp c hc

theorem dropWhile_space {sp s : List Char} (h : AllSpace sp) :
    (sp ++ s).dropWhile (fun c => decide (c ∈ [' ', '\t', '\n', '\x0b', '\x0c', '\r'])) =
      s.dropWhile (fun c => decide (c ∈ [' ', '\t', '\n', '\x0b', '\x0c', '\r'])) := by
  induction sp with
  | nil => rfl
  | cons c sp ih =>
    rw [List.cons_append, List.dropWhile_cons_of_pos (by simpa using h c (by simp)), ih (fun x hx => h x (by simp [hx]))]

theorem pyStrip_word {sp w sp' : List Char} (h : AllSpace sp) (h' : AllSpace sp') (hw : IsWord w) : pyStrip (sp ++ w ++ sp') = w := by
  have hw' : ∀ c ∈ w, c ∉ [' ', '\t', '\n', '\x0b', '\x0c', '\r'] := fun c hc hm => hw.2 c hc (List.mem_cons_of_mem _ hm)
  have hstop : ∀ t u : List Char, t ≠ [] → (∀ c ∈ t, c ∉ [' ', '\t', '\n', '\x0b', '\x0c', '\r']) →
      (t ++ u).dropWhile (fun c => decide (c ∈ [' ', '\t', '\n', '\x0b', '\x0c', '\r'])) = t ++ u := by
    intro t u hne ht
    obtain ⟨x, t, rfl⟩ := List.exists_cons_of_ne_nil hne
    rw [List.cons_append, List.dropWhile_cons_of_neg]
    simpa using ht x (by simp)
  unfold pyStrip
  simp only
  rw [List.append_assoc, dropWhile_space h, hstop w sp' hw.1 hw', List.reverse_append, dropWhile_space (by
    intro c hc; exact h' c (List.mem_reverse.1 hc))]
  have := hstop w.reverse [] (by simpa using hw.1) (by intro c hc; exact hw' c (List.mem_reverse.1 hc))
  rw [List.append_nil] at this
  rw [this, List.reverse_reverse]

namespace Ensemble
variable {F : Type} {float : List Char → Option F} {isZero : F → Bool}

/-! ### Keys -/

theorem keys_apart : ∀ k ∈ lgbKeys, ∀ l ∈ lgbKeys, k ≠ l → ¬ k <+: l := by decide +kernel

theorem key_apart {k l : List Char} (hk : k ∈ lgbKeys) (hl : l ∈ lgbKeys) (hne : k ≠ l) (s : List Char) : ¬ k <+: l ++ s := by
  intro h
  rcases List.prefix_or_prefix_of_prefix h (List.prefix_append l s) with h | h
  · exact keys_apart k hk l hl hne h
  · exact keys_apart l hl k hk (Ne.symm hne) h

theorem num_none {k line : List Char} (h : ¬ k <+: line) : group1 (lgbNumReg k) line = none := by
  unfold group1 lgbNumReg
  rw [match_lit_none h]
  rfl

theorem list_none {k line : List Char} (h : ¬ k <+: line) : group1 (lgbListReg k) line = none := by
  unfold group1 lgbListReg
  rw [match_lit_none h]
  rfl

theorem words_none {k line : List Char} (h : ¬ k <+: line) : lgbWords k line = none := by
  unfold lgbWords
  rw [list_none h]
  rfl

theorem first_group {a : Re} {s t r : List Char} (h : (run a s).head? = some ⟨t, r, []⟩) : (run (.group a) s).head? = some ⟨t, r, [t]⟩ := by
  simp only [run, List.head?_map, h]
  rfl

theorem num_ok {k ds e : List Char} {i : Nat} (hd : Numeral ds i) (he : LineEnd e) : group1 (lgbNumReg k) (k ++ ds ++ e) = some ds := by
  have h1 := first_group (plus_greedy (p := Re.isDigit) (s := e) (Svm.numeral_digits hd).1 (numeral_isDigit hd) (by
    rcases he with rfl | rfl
    · simp
    · intro c hc; cases hc; decide))
  have h2 := run_lit k (.group (plus Re.isDigit true)) (ds ++ e)
  rw [h1] at h2
  unfold group1 lgbNumReg Re.match
  rw [List.append_assoc, h2]
  rfl

theorem list_ok {k body e : List Char} (hb : '\n' ∉ body) (he : LineEnd e) : group1 (lgbListReg k) (k ++ body ++ e) = some body := by
  have h1 := first_group (star_greedy (p := dot) (ds := body) (s := e) (by
    intro c hc
    simp only [dot, bne_iff_ne]
    rintro rfl
    exact hb hc) (by
    rcases he with rfl | rfl
    · simp
    · intro c hc; cases hc; decide))
  have h2 := run_lit k (.group (.star dot true)) (body ++ e)
  rw [h1] at h2
  unfold group1 lgbListReg Re.match
  rw [List.append_assoc, h2]
  rfl

theorem list_prefix {k line : List Char} (h : k <+: line) : ∃ g, group1 (lgbListReg k) line = some g := by
  obtain ⟨t, rfl⟩ := h
  have hsplit : ∀ t : List Char, ∃ body e, t = body ++ e ∧ (∀ c ∈ body, dot c = true) ∧ ∀ c ∈ e.head?, dot c = false := by
    intro t
    refine ⟨t.takeWhile dot, t.dropWhile dot, List.takeWhile_append_dropWhile.symm, fun c hc => List.mem_takeWhile_imp hc, ?_⟩
    intro c hc
    have := List.head?_dropWhile_not dot t
    rw [hc] at this
    exact this
  obtain ⟨body, e, rfl, h1, h2⟩ := hsplit t
  have h3 := first_group (star_greedy h1 h2)
  have h4 := run_lit k (.group (.star dot true)) (body ++ e)
  rw [h3] at h4
  refine ⟨body, ?_⟩
  unfold group1 lgbListReg Re.match
  rw [h4]
  rfl

theorem words_ok {α : Type} {k line : List Char} {text : List Char → α → Prop} {xs : List α} (h : KeyLine k text line xs) :
    ∃ ws, lgbWords k line = some ws ∧ List.Forall₂ text ws xs := by
  obtain ⟨ws, body, e, rfl, hb, he, hw, hx⟩ := h
  refine ⟨ws, ?_, hx⟩
  unfold lgbWords
  rw [list_ok hb he, Option.map_some, words_strip, words_sep hw]

theorem keyLine_prefix {α : Type} {k line : List Char} {text : List Char → α → Prop} {xs : List α} (h : KeyLine k text line xs) :
    ∃ s, line = k ++ s := by
  obtain ⟨ws, body, e, rfl, -⟩ := h
  exact ⟨body ++ e, by simp⟩

/-! ### Numbers -/

theorem pyDigits_ok {ds : List Char} {n : Nat} (h : Numeral ds n) : pyDigits ds = pure n := by
  unfold pyDigits
  rw [if_pos ⟨(Svm.numeral_digits h).1, by simpa using numeral_isDigit h⟩, (Svm.numeral_digits h).2.2]

theorem pyInt_ok {s : List Char} {i : Int} (h : IntText s i) : pyInt s = pure i := by
  obtain ⟨ds, n, hd, h⟩ := h
  have hplain := numeral_plain hd
  have hp : ∀ c ∈ ds, c ∉ [' ', '\t', '\n', '\x0b', '\x0c', '\r'] := by
    intro c hc hm
    apply hplain c hc
    simp only [List.mem_cons, List.not_mem_nil, or_false] at hm ⊢
    tauto
  rcases h with ⟨rfl, rfl⟩ | ⟨rfl, rfl⟩ | ⟨rfl, rfl⟩
  · unfold pyInt
    rw [pyStrip_plain hp]
    have hdig := numeral_isDigit hd
    split
    · rename_i ds' _
      have := hdig '-' (by simp)
      exact absurd this (by decide)
    · rename_i ds' _
      have := hdig '+' (by simp)
      exact absurd this (by decide)
    · rw [pyDigits_ok hd, pure_bind]
  · unfold pyInt
    rw [pyStrip_plain (by
      intro c hc
      rcases List.mem_cons.1 hc with rfl | hc
      · decide
      · exact hp c hc)]
    simp only
    rw [pyDigits_ok hd, pure_bind]
  · unfold pyInt
    rw [pyStrip_plain (by
      intro c hc
      rcases List.mem_cons.1 hc with rfl | hc
      · decide
      · exact hp c hc)]
    simp only
    rw [pyDigits_ok hd, pure_bind]

theorem mapM_ok {α : Type} {f : List Char → Except PyErr α} {text : List Char → α → Prop} (hf : ∀ w x, text w x → f w = pure x)
    {ws : List (List Char)} {xs : List α} (h : List.Forall₂ text ws xs) : ws.mapM f = pure xs := by
  induction h with
  | nil => rfl
  | cons h _ ih => rw [List.mapM_cons, hf _ _ h, pure_bind, ih, pure_bind]

theorem toFloat_ok {w : List Char} {x : F} (h : NumText float w x) : toFloat float w = pure x := by
  unfold toFloat
  rw [h.1]

theorem forall₂_nat_int {ws : List (List Char)} {fs : List Nat} (h : List.Forall₂ Numeral ws fs) : List.Forall₂ IntText ws (fs.map Int.ofNat) := by
  induction h with
  | nil => exact .nil
  | cons h _ ih => exact .cons ⟨_, _, h, .inl ⟨rfl, rfl⟩⟩ ih

theorem writeFrom_map {α β : Type} (g : β → α) (set : Ensemble F → Int → α → Except PyErr (Ensemble F)) (xs : List β) :
    ∀ m base, writeFrom set m base (xs.map g) = writeFrom (fun m i x => set m i (g x)) m base xs := by
  induction xs with
  | nil => intro m base; rfl
  | cons x xs ih =>
    intro m base
    rw [List.map_cons, writeFrom, writeFrom]
    congr 1
    funext m'
    exact ih m' _

/-! ### Lines -/

/-- A line has the effect of the matched line `d`. -/
def LgbActs (one : F) (isZero : F → Bool) (float : List Char → Option F) (line : List Char) (d : LgbLine F) : Prop :=
  ∀ s n, lgbTextStep one isZero float s line = lgbStep one s d ∧
    lgbTextCount n line = (n.1 + (lgbCount [d]).1, n.2 + (lgbCount [d]).2)

/-- Close a goal `key ∈ lgbKeys` or `key ≠ key'`. -/
macro "keys" : tactic => `(tactic| decide +kernel)

theorem lgb_line (one : F) {line : List Char} {d : LgbLine F} (h : SpellsLgb isZero float line d) : LgbActs one isZero float line d := by
  intro s n
  cases d with
  | tree i =>
    obtain ⟨ds, e, rfl, hd, he⟩ := h
    have a1 := key_apart (k := "num_leaves=".toList) (l := "Tree=".toList) (by keys) (by keys) (by keys) (ds ++ e)
    have a2 := key_apart (k := "split_feature=".toList) (l := "Tree=".toList) (by keys) (by keys) (by keys) (ds ++ e)
    rw [← List.append_assoc] at a1 a2
    constructor
    · unfold lgbTextStep
      rw [num_ok hd he]
      simp only [(Svm.numeral_digits hd).2.2, lgbStep]
    · unfold lgbTextCount
      rw [num_none a1, words_none a2, num_ok hd he]
      simp [lgbCount]
  | numLeaves i =>
    obtain ⟨ds, e, rfl, hd, he⟩ := h
    have ap : ∀ k ∈ lgbKeys, k ≠ "num_leaves=".toList → ¬ k <+: "num_leaves=".toList ++ ds ++ e := by
      intro k hk hne
      rw [List.append_assoc]
      exact key_apart hk (by keys) hne _
    constructor
    · unfold lgbTextStep lgbTextSplits lgbTextRest
      rw [num_none (ap _ (by keys) (by keys)), words_none (ap _ (by keys) (by keys)), words_none (ap _ (by keys) (by keys)),
        words_none (ap _ (by keys) (by keys)), words_none (ap _ (by keys) (by keys)), list_none (ap _ (by keys) (by keys)),
        words_none (ap _ (by keys) (by keys)), words_none (ap _ (by keys) (by keys)), words_none (ap _ (by keys) (by keys)),
        list_none (ap _ (by keys) (by keys))]
      simp only [pure_bind, lgbStep]
    · unfold lgbTextCount
      rw [num_ok hd he]
      simp [lgbCount, (Svm.numeral_digits hd).2.2]
  | splitFeature fs =>
    obtain ⟨ws, hws, hx⟩ := words_ok h
    obtain ⟨t, rfl⟩ := keyLine_prefix h
    have ap : ∀ k ∈ lgbKeys, k ≠ "split_feature=".toList → ¬ k <+: "split_feature=".toList ++ t := fun k hk hne => key_apart hk (by keys) hne _
    constructor
    · unfold lgbTextStep lgbTextSplits
      have hm : ws.mapM pyInt = pure (fs.map Int.ofNat) := mapM_ok (fun w x h => pyInt_ok h) (forall₂_nat_int hx)
      rw [num_none (ap _ (by keys) (by keys)), hws]
      simp only
      rw [hm]
      simp only [pure_bind, lgbStep, writeFrom_map, List.length_map, bind_assoc]
      rfl
    · unfold lgbTextCount
      rw [num_none (ap _ (by keys) (by keys)), hws]
      simp [lgbCount, hx.length_eq]
  | threshold ts =>
    obtain ⟨ws, hws, hx⟩ := words_ok h
    obtain ⟨t, rfl⟩ := keyLine_prefix h
    have ap : ∀ k ∈ lgbKeys, k ≠ "threshold=".toList → ¬ k <+: "threshold=".toList ++ t := fun k hk hne => key_apart hk (by keys) hne _
    constructor
    · unfold lgbTextStep lgbTextSplits
      rw [num_none (ap _ (by keys) (by keys)), words_none (ap _ (by keys) (by keys)), hws]
      simp only [mapM_ok (fun w x h => toFloat_ok h) hx, pure_bind, lgbStep, bind_assoc]
    · unfold lgbTextCount
      rw [num_none (ap _ (by keys) (by keys)), words_none (ap _ (by keys) (by keys)), num_none (ap _ (by keys) (by keys))]
      simp [lgbCount]
  | leftChild cs =>
    obtain ⟨ws, hws, hx⟩ := words_ok h
    obtain ⟨t, rfl⟩ := keyLine_prefix h
    have ap : ∀ k ∈ lgbKeys, k ≠ "left_child=".toList → ¬ k <+: "left_child=".toList ++ t := fun k hk hne => key_apart hk (by keys) hne _
    constructor
    · unfold lgbTextStep lgbTextSplits
      rw [num_none (ap _ (by keys) (by keys)), words_none (ap _ (by keys) (by keys)), words_none (ap _ (by keys) (by keys)), hws]
      simp only [mapM_ok (fun w x h => pyInt_ok h) hx, pure_bind, lgbStep, bind_assoc]
    · unfold lgbTextCount
      rw [num_none (ap _ (by keys) (by keys)), words_none (ap _ (by keys) (by keys)), num_none (ap _ (by keys) (by keys))]
      simp [lgbCount]
  | rightChild cs =>
    obtain ⟨ws, hws, hx⟩ := words_ok h
    obtain ⟨t, rfl⟩ := keyLine_prefix h
    have ap : ∀ k ∈ lgbKeys, k ≠ "right_child=".toList → ¬ k <+: "right_child=".toList ++ t := fun k hk hne => key_apart hk (by keys) hne _
    constructor
    · unfold lgbTextStep lgbTextSplits
      rw [num_none (ap _ (by keys) (by keys)), words_none (ap _ (by keys) (by keys)), words_none (ap _ (by keys) (by keys)),
        words_none (ap _ (by keys) (by keys)), hws]
      simp only [mapM_ok (fun w x h => pyInt_ok h) hx, pure_bind, lgbStep, bind_assoc]
    · unfold lgbTextCount
      rw [num_none (ap _ (by keys) (by keys)), words_none (ap _ (by keys) (by keys)), num_none (ap _ (by keys) (by keys))]
      simp [lgbCount]
  | shrinkage =>
    obtain ⟨g, hg⟩ := list_prefix h
    obtain ⟨t, rfl⟩ := h
    have ap : ∀ k ∈ lgbKeys, k ≠ "shrinkage=".toList → ¬ k <+: "shrinkage=".toList ++ t := fun k hk hne => key_apart hk (by keys) hne _
    constructor
    · unfold lgbTextStep lgbTextSplits lgbTextRest
      rw [num_none (ap _ (by keys) (by keys)), words_none (ap _ (by keys) (by keys)), words_none (ap _ (by keys) (by keys)),
        words_none (ap _ (by keys) (by keys)), words_none (ap _ (by keys) (by keys)), hg]
      simp only [pure_bind, lgbStep]
    · unfold lgbTextCount
      rw [num_none (ap _ (by keys) (by keys)), words_none (ap _ (by keys) (by keys)), num_none (ap _ (by keys) (by keys))]
      simp [lgbCount]
  | leafValue vs =>
    obtain ⟨ws, hws, hx⟩ := words_ok h
    obtain ⟨t, rfl⟩ := keyLine_prefix h
    have ap : ∀ k ∈ lgbKeys, k ≠ "leaf_value=".toList → ¬ k <+: "leaf_value=".toList ++ t := fun k hk hne => key_apart hk (by keys) hne _
    constructor
    · unfold lgbTextStep lgbTextSplits lgbTextRest
      rw [num_none (ap _ (by keys) (by keys)), words_none (ap _ (by keys) (by keys)), words_none (ap _ (by keys) (by keys)),
        words_none (ap _ (by keys) (by keys)), words_none (ap _ (by keys) (by keys)), list_none (ap _ (by keys) (by keys)), hws]
      simp only [mapM_ok (fun w x h => toFloat_ok h) hx, pure_bind, lgbStep]
      rfl
    · unfold lgbTextCount
      rw [num_none (ap _ (by keys) (by keys)), words_none (ap _ (by keys) (by keys)), num_none (ap _ (by keys) (by keys))]
      simp [lgbCount]
  | decisionType types =>
    obtain ⟨ws, hws, hx⟩ := words_ok h
    obtain ⟨t, rfl⟩ := keyLine_prefix h
    have ap : ∀ k ∈ lgbKeys, k ≠ "decision_type=".toList → ¬ k <+: "decision_type=".toList ++ t := fun k hk hne => key_apart hk (by keys) hne _
    constructor
    · unfold lgbTextStep lgbTextSplits lgbTextRest
      rw [num_none (ap _ (by keys) (by keys)), words_none (ap _ (by keys) (by keys)), words_none (ap _ (by keys) (by keys)),
        words_none (ap _ (by keys) (by keys)), words_none (ap _ (by keys) (by keys)), list_none (ap _ (by keys) (by keys)),
        words_none (ap _ (by keys) (by keys)), hws]
      simp only [mapM_ok (fun w x h => pyInt_ok h) hx, pure_bind, lgbStep]
    · unfold lgbTextCount
      rw [num_none (ap _ (by keys) (by keys)), words_none (ap _ (by keys) (by keys)), num_none (ap _ (by keys) (by keys))]
      simp [lgbCount]
  | defaultValue b =>
    obtain ⟨vs, h, rfl⟩ := h
    obtain ⟨ws, hws, hx⟩ := words_ok h
    obtain ⟨t, rfl⟩ := keyLine_prefix h
    have ap : ∀ k ∈ lgbKeys, k ≠ "default_value=".toList → ¬ k <+: "default_value=".toList ++ t := fun k hk hne => key_apart hk (by keys) hne _
    constructor
    · unfold lgbTextStep lgbTextSplits lgbTextRest
      rw [num_none (ap _ (by keys) (by keys)), words_none (ap _ (by keys) (by keys)), words_none (ap _ (by keys) (by keys)),
        words_none (ap _ (by keys) (by keys)), words_none (ap _ (by keys) (by keys)), list_none (ap _ (by keys) (by keys)),
        words_none (ap _ (by keys) (by keys)), words_none (ap _ (by keys) (by keys)), hws]
      simp only [mapM_ok (fun w x h => toFloat_ok h) hx, pure_bind, lgbStep]
    · unfold lgbTextCount
      rw [num_none (ap _ (by keys) (by keys)), words_none (ap _ (by keys) (by keys)), num_none (ap _ (by keys) (by keys))]
      simp [lgbCount]
  | hasCategorical b =>
    obtain ⟨i, h, rfl⟩ := h
    have hp := keyLine_prefix h
    obtain ⟨ws, body, e, rfl, hb, he, hsep, hx⟩ := h
    obtain ⟨t, ht⟩ := hp
    have hg := list_ok (k := "has_categorical=".toList) hb he
    rw [ht] at hg ⊢
    have hint : pyInt body = pure i := by
      cases hx with
      | cons hi hnil =>
        cases hnil
        rename_i w
        rcases hsep with ⟨h, -⟩ | ⟨sp, w', ws', s', h, rfl, hsp, hw, hs⟩
        · cases h
        · cases h
          cases hs with
          | nil hs =>
            have h1 := pyInt_ok hi
            unfold pyInt at h1 ⊢
            rw [pyStrip_word hsp hs hw]
            rw [pyStrip_plain (fun c hc hm => hw.2 c hc (List.mem_cons_of_mem _ hm))] at h1
            exact h1
    have ap : ∀ k ∈ lgbKeys, k ≠ "has_categorical=".toList → ¬ k <+: "has_categorical=".toList ++ t := fun k hk hne => key_apart hk (by keys) hne _
    constructor
    · unfold lgbTextStep lgbTextSplits lgbTextRest
      rw [num_none (ap _ (by keys) (by keys)), words_none (ap _ (by keys) (by keys)), words_none (ap _ (by keys) (by keys)),
        words_none (ap _ (by keys) (by keys)), words_none (ap _ (by keys) (by keys)), list_none (ap _ (by keys) (by keys)),
        words_none (ap _ (by keys) (by keys)), words_none (ap _ (by keys) (by keys)), words_none (ap _ (by keys) (by keys)), hg]
      simp only [hint, pure_bind, lgbStep, decide_eq_true_eq]
    · unfold lgbTextCount
      rw [num_none (ap _ (by keys) (by keys)), words_none (ap _ (by keys) (by keys)), num_none (ap _ (by keys) (by keys))]
      simp [lgbCount]
  | other =>
    have ap : ∀ k ∈ lgbKeys, ¬ k <+: line := h
    constructor
    · unfold lgbTextStep lgbTextSplits lgbTextRest
      rw [num_none (ap _ (by keys)), words_none (ap _ (by keys)), words_none (ap _ (by keys)), words_none (ap _ (by keys)),
        words_none (ap _ (by keys)), list_none (ap _ (by keys)), words_none (ap _ (by keys)), words_none (ap _ (by keys)),
        words_none (ap _ (by keys)), list_none (ap _ (by keys))]
      simp only [pure_bind, lgbStep]
    · unfold lgbTextCount
      rw [num_none (ap _ (by keys)), words_none (ap _ (by keys)), num_none (ap _ (by keys))]
      simp [lgbCount]

theorem lgbCount_cons (d : LgbLine F) (ds : List (LgbLine F)) :
    lgbCount (d :: ds) = ((lgbCount [d]).1 + (lgbCount ds).1, (lgbCount [d]).2 + (lgbCount ds).2) := by
  simp [lgbCount]

theorem lgbText_eq (zero one minusOne : F) {file : List Char} {ls : List (List Char)} (hfile : IsLines ls file) {ds : List (LgbLine F)}
    (h : List.Forall₂ (SpellsLgb isZero float) ls ds) : lightgbmTextLoad zero one minusOne isZero float file = lightgbmLoad zero one minusOne ds := by
  have h1 : ∀ n, ls.foldl lgbTextCount n = (n.1 + (lgbCount ds).1, n.2 + (lgbCount ds).2) := by
    clear hfile
    induction h with
    | nil => intro n; simp [lgbCount]
    | @cons l d ls ds hl _ ih =>
      intro n
      rw [List.foldl_cons, (lgb_line one hl ⟨alloc zero minusOne 0 0, 0, 0, 0, 0, none⟩ n).2, ih, lgbCount_cons d ds]
      simp only [Nat.add_assoc]
  have h2 : ∀ s, ls.foldlM (lgbTextStep one isZero float) s = ds.foldlM (lgbStep one) s := by
    clear hfile h1
    induction h with
    | nil => intro s; rfl
    | @cons l d ls ds hl _ ih =>
      intro s
      rw [List.foldlM_cons, List.foldlM_cons, (lgb_line one hl s (0, 0)).1]
      congr 1
      funext s'
      exact ih s'
  funext lr bs
  unfold lightgbmTextLoad lightgbmLoad
  simp only [Svm.linesFrom_ok hfile, h1, h2, Nat.zero_add]

/-! ### Malformed integers -/

theorem numeral_of_digits : ∀ {ds : List Char}, ds ≠ [] → (∀ c ∈ ds, Re.isDigit c = true) → Numeral ds (Svm.digitsValue ds) := by
  have hdig : ∀ c, Re.isDigit c = true → ∃ d < 10, c = Svm.digit d := by
    intro c hc
    have : c ∈ ['0', '1', '2', '3', '4', '5', '6', '7', '8', '9'] := by simpa [Re.isDigit] using hc
    exact (by decide : ∀ c ∈ ['0', '1', '2', '3', '4', '5', '6', '7', '8', '9'], ∃ d < 10, c = Svm.digit d) c this
  intro ds
  induction ds using List.reverseRecOn with
  | nil => intro h; exact absurd rfl h
  | append_singleton ds c ih =>
    intro _ hall
    obtain ⟨d, hd, rfl⟩ := hdig c (hall c (by simp))
    cases ds with
    | nil =>
      have : Svm.digitsValue [Svm.digit d] = d := by simp [Svm.digitsValue, (Svm.digit_isDigit hd).2.1]
      rw [List.nil_append, this]
      exact .one hd
    | cons c' ds =>
      have h1 : Svm.digitsValue ((c' :: ds) ++ [Svm.digit d]) = 10 * Svm.digitsValue (c' :: ds) + d := by
        simp [Svm.digitsValue, (Svm.digit_isDigit hd).2.1]
      rw [h1]
      exact .more (ih (by simp) (fun x hx => hall x (List.mem_append_left _ hx))) hd

theorem pyDigits_bad {ds : List Char} (h : ∀ n, ¬ Numeral ds n) : pyDigits ds = .error .valueError := by
  unfold pyDigits
  rw [if_neg]
  rintro ⟨h1, h2⟩
  exact h _ (numeral_of_digits h1 (by simpa using h2))

theorem pyInt_bad {w : List Char} (hw : IsWord w) (h : ∀ i, ¬ IntText w i) : pyInt w = .error .valueError := by
  unfold pyInt
  rw [pyStrip_plain (fun c hc hm => hw.2 c hc (List.mem_cons_of_mem _ hm))]
  split
  · rw [pyDigits_bad (fun n hn => h _ ⟨_, _, hn, .inr (.inl ⟨rfl, rfl⟩)⟩)]
    rfl
  · rw [pyDigits_bad (fun n hn => h _ ⟨_, _, hn, .inr (.inr ⟨rfl, rfl⟩)⟩)]
    rfl
  · rw [pyDigits_bad (fun n hn => h _ ⟨_, _, hn, .inl ⟨rfl, rfl⟩⟩)]
    rfl

theorem pyInt_error {w : List Char} {e : PyErr} (h : pyInt w = .error e) : e = .valueError := by
  have hd : ∀ ds e', pyDigits ds = .error e' → e' = .valueError := by
    intro ds e' h'
    unfold pyDigits at h'
    split at h'
    · cases h'
    · cases h'; rfl
  have hb : ∀ {ds : List Char} {f : Nat → Int}, (pyDigits ds >>= fun n => (pure (f n) : Except PyErr Int)) = .error e → e = .valueError := by
    intro ds f hx
    cases h1 : pyDigits ds with
    | error e' =>
      rw [h1] at hx
      cases hx
      exact hd _ _ h1
    | ok n => rw [h1] at hx; cases hx
  unfold pyInt at h
  split at h <;> exact hb h

theorem mapM_bad {ws : List (List Char)} {w : List Char} (hw : w ∈ ws) (h : pyInt w = .error .valueError) : ws.mapM pyInt = .error .valueError := by
  induction ws with
  | nil => cases hw
  | cons v ws ih =>
    rw [List.mapM_cons]
    cases hv : pyInt v with
    | error e => rw [pyInt_error hv]; rfl
    | ok i =>
      rcases List.mem_cons.1 hw with rfl | hw
      · rw [h] at hv; cases hv
      · rw [ih hw]; rfl

/-- The keys followed by integers. -/
theorem step_bad (one : F) {key line : List Char} {ws : List (List Char)} {w : List Char}
    (hk : key ∈ ["split_feature=".toList, "left_child=".toList, "right_child=".toList, "decision_type=".toList])
    (h : KeyLine key (· = ·) line ws) (hw : w ∈ ws) (hb : pyInt w = .error .valueError) (s : ArrState F) :
    lgbTextStep one isZero float s line = .error .valueError := by
  obtain ⟨ws', hws, hx⟩ := words_ok h
  rw [List.forall₂_eq_eq_eq] at hx
  subst hx
  obtain ⟨t, rfl⟩ := keyLine_prefix h
  have hm := mapM_bad hw hb
  simp only [List.mem_cons, List.not_mem_nil, or_false] at hk
  rcases hk with rfl | rfl | rfl | rfl
  · have ap : ∀ k ∈ lgbKeys, k ≠ "split_feature=".toList → ¬ k <+: "split_feature=".toList ++ t := fun k hk hne => key_apart hk (by keys) hne _
    unfold lgbTextStep lgbTextSplits
    rw [num_none (ap _ (by keys) (by keys)), hws]
    simp only
    rw [hm]
    rfl
  · have ap : ∀ k ∈ lgbKeys, k ≠ "left_child=".toList → ¬ k <+: "left_child=".toList ++ t := fun k hk hne => key_apart hk (by keys) hne _
    unfold lgbTextStep lgbTextSplits
    rw [num_none (ap _ (by keys) (by keys)), words_none (ap _ (by keys) (by keys)), words_none (ap _ (by keys) (by keys)), hws]
    simp only
    rw [hm]
    rfl
  · have ap : ∀ k ∈ lgbKeys, k ≠ "right_child=".toList → ¬ k <+: "right_child=".toList ++ t := fun k hk hne => key_apart hk (by keys) hne _
    unfold lgbTextStep lgbTextSplits
    rw [num_none (ap _ (by keys) (by keys)), words_none (ap _ (by keys) (by keys)), words_none (ap _ (by keys) (by keys)),
      words_none (ap _ (by keys) (by keys)), hws]
    simp only
    rw [hm]
    rfl
  · have ap : ∀ k ∈ lgbKeys, k ≠ "decision_type=".toList → ¬ k <+: "decision_type=".toList ++ t := fun k hk hne => key_apart hk (by keys) hne _
    unfold lgbTextStep lgbTextSplits lgbTextRest
    rw [num_none (ap _ (by keys) (by keys)), words_none (ap _ (by keys) (by keys)), words_none (ap _ (by keys) (by keys)),
      words_none (ap _ (by keys) (by keys)), words_none (ap _ (by keys) (by keys)), list_none (ap _ (by keys) (by keys)),
      words_none (ap _ (by keys) (by keys)), hws]
    simp only
    rw [hm]
    rfl

theorem foldlM_bad {α β : Type} {f : β → α → Except PyErr β} {xs : List α} {x : α} (hx : x ∈ xs) {e : PyErr} (h : ∀ b, f b x = .error e) :
    ∀ b, ∃ e', xs.foldlM f b = .error e' := by
  induction xs with
  | nil => cases hx
  | cons y ys ih =>
    intro b
    rw [List.foldlM_cons]
    cases hy : f b y with
    | error e' => exact ⟨e', rfl⟩
    | ok b' =>
      rcases List.mem_cons.1 hx with rfl | hx
      · rw [h b] at hy; cases hy
      · exact ih hx b'

end Ensemble
end Verif
