/-
Lemmas for writing SVMlight files.
-/
import Verif.Lemmas.SvmlightText

namespace Verif
namespace Svm
open Spec
variable {F : Type}

theorem isWord_append {a b : List Char} (ha : IsWord a) (hb : ∀ c ∈ b, c ∉ ['#', ' ', '\t', '\n', '\x0b', '\x0c', '\r']) : IsWord (a ++ b) := by
  refine ⟨by simp [ha.1], fun c hc => ?_⟩
  rcases List.mem_append.1 hc with h | h
  · exact ha.2 c h
  · exact hb c h

theorem isWord_decimal (n : Nat) : IsWord (decimal n) := by
  obtain ⟨h1, h2, _⟩ := numeral_digits (decimal_numeral n)
  refine ⟨h1, fun c hc => ?_⟩
  obtain ⟨d, hd, rfl⟩ := h2 c hc
  interval_cases d <;> decide

theorem isWord_showInt (q : Int) : IsWord (showInt q) := by
  unfold showInt
  split
  · have := isWord_decimal q.natAbs
    refine ⟨by simp, fun c hc => ?_⟩
    rcases List.mem_cons.1 hc with rfl | h
    · decide
    · exact this.2 c h
  · exact isWord_decimal _

theorem scanU_showInt {q : Int} (h : IsInt32 q) : scanU (showInt q) = some (q, []) := by
  unfold showInt
  split
  · rename_i hneg
    have := scanDigits_numeral (decimal_numeral q.natAbs) true (rest := []) (by simp)
    rw [List.append_nil] at this
    show scanDigits true (decimal q.natAbs) = _
    rw [this]
    simp only [if_true]
    rw [show -((q.natAbs : Nat) : Int) = q by omega, castInt32_of_range h]
  · rename_i hneg
    have := scanU_numeral (decimal_numeral q.natAbs) (by unfold IsInt32 at h; omega) (rest := []) (by simp)
    rw [List.append_nil] at this
    rw [this, show ((q.natAbs : Nat) : Int) = q by omega]

/-- Words with a space after each. -/
theorem spaced_words (ws : List (List Char)) (h : ∀ w ∈ ws, IsWord w) :
    Spaced ws (' ' :: ((ws.map (· ++ [' '])).flatten ++ ['\n'])) := by
  induction ws with
  | nil => exact .nil (by intro c hc; simp at hc; rcases hc with rfl | rfl <;> decide)
  | cons w ws ih =>
    have := Spaced.cons (sp := [' ']) (by intro c hc; simp at hc; subst hc; decide) (by simp) (h w (by simp))
      (ih (fun x hx => h x (by simp [hx])))
    simpa using this

/-- The word of a cell. -/
def cellWord (showF : F → List Char) (zeroBased : Bool) (jj : Nat) (x : F) : List Char :=
  decimal (if zeroBased then jj else jj + 1) ++ ':' :: showF x

theorem dumpCell_eq (showF : F → List Char) (zeroBased : Bool) (jj : Nat) (x : F) :
    dumpCell showF zeroBased jj x = cellWord showF zeroBased jj x ++ [' '] := by
  simp [dumpCell, cellWord]

theorem cell_pair {sc : Scan F} {showF : F → List Char} {zeroBased : Bool} {jj : Nat} {x : F} (hjj : jj + 1 < 2 ^ 31)
    (hx : ValueText sc (showF x) x) : PairText sc (cellWord showF zeroBased jj x) ((if zeroBased then jj else jj + 1), x) :=
  ⟨_, _, rfl, decimal_numeral _, by simp only; split <;> omega, hx⟩

theorem isWord_cell {sc : Scan F} {showF : F → List Char} {zeroBased : Bool} {jj : Nat} {x : F}
    (hx : ValueText sc (showF x) x) : IsWord (cellWord showF zeroBased jj x) := by
  apply isWord_append (isWord_decimal _)
  intro c hc
  rcases List.mem_cons.1 hc with rfl | h
  · decide
  · exact hx.1.2 c h

/-- The words of the cells of a row. -/
def cellWords (showF : F → List Char) (zeroBased : Bool) (row : List F) (k : Nat) : List (List Char) :=
  (row.zipIdx k).map (fun p => cellWord showF zeroBased p.2 p.1)

theorem cellWords_scan {sc : Scan F} {showF : F → List Char} {zeroBased : Bool} {row : List F} {k : Nat}
    (hx : ∀ x ∈ row, ValueText sc (showF x) x) (hk : k + row.length < 2 ^ 31) :
    ∃ ps, List.Forall₂ (fun t p => scanPair sc t = some p) (cellWords showF zeroBased row k) ps ∧ fillRow sc.zero (k + 1) ps = row := by
  induction row generalizing k with
  | nil => exact ⟨[], .nil, rfl⟩
  | cons x row ih =>
    rw [List.length_cons] at hk
    obtain ⟨ps, h1, h2⟩ := ih (k := k + 1) (fun y hy => hx y (by simp [hy])) (by omega)
    refine ⟨(((if zeroBased then k else k + 1 : Nat) : Int), x) :: ps, ?_, ?_⟩
    · refine .cons ?_ h1
      exact scanPair_text (cell_pair (by omega) (hx x (by simp)))
    · have : ((((if zeroBased then k else k + 1 : Nat) : Int)) - ((k + 1 : Nat) : Int)).toNat = 0 := by
        split <;> omega
      simp only [fillRow, this, List.replicate_zero, List.nil_append, Nat.add_zero, h2]

theorem cellWords_word {sc : Scan F} {showF : F → List Char} {zeroBased : Bool} {row : List F} {k : Nat}
    (hx : ∀ x ∈ row, ValueText sc (showF x) x) : ∀ w ∈ cellWords showF zeroBased row k, IsWord w := by
  intro w hw
  obtain ⟨p, hp, rfl⟩ := List.mem_map.1 hw
  exact isWord_cell (hx p.1 (List.fst_mem_of_mem_zipIdx hp))

/-- What `dump` writes for a row with a query id. -/
def dumpLine (showF : F → List Char) (zeroBased : Bool) (y : F) (qid : Option Int) (row : List F) : List Char :=
  showF y ++ (' ' :: (((qid.elim [] (fun q => [['q', 'i', 'd', ':'] ++ showInt q]) ++ cellWords showF zeroBased row 0).map (· ++ [' '])).flatten ++
    ['\n']))

theorem reads_dumpLine {sc : Scan F} {showF : F → List Char} {zeroBased : Bool} {y : F} {qid : Option Int} {row : List F}
    (hy : LabelText sc (showF y) y) (hx : ∀ x ∈ row, ValueText sc (showF x) x) (hq : ∀ q ∈ qid, IsInt32 q)
    (hlen : row.length < 2 ^ 31) (hne : qid ≠ none ∨ row ≠ []) :
    Reads sc (dumpLine showF zeroBased y qid row) (some (y, qid, row)) := by
  obtain ⟨ps, h1, h2⟩ := cellWords_scan (sc := sc) (zeroBased := zeroBased) (k := 0) hx (by omega)
  have hw := cellWords_word (sc := sc) (zeroBased := zeroBased) (k := 0) hx
  have hmk : ∀ (token : List Char) (tokens : List (List Char)), (∀ w ∈ token :: tokens, IsWord w) →
      qid.elim [] (fun q => [['q', 'i', 'd', ':'] ++ showInt q]) ++ cellWords showF zeroBased row 0 = token :: tokens →
      scanQid token = qid → qid.elim (token :: tokens) (fun _ => tokens) = cellWords showF zeroBased row 0 →
      Reads sc (dumpLine showF zeroBased y qid row) (some (y, qid, row)) := by
    intro token tokens hws heq hsq hcells
    have := reads_text (sp := []) (tail := []) (by intro c hc; cases hc) hy (.inl rfl) (spaced_words (token :: tokens) hws) hsq
      (hcells ▸ h1)
    rw [h2, List.nil_append, List.append_nil, ← heq] at this
    exact this
  cases qid with
  | none =>
    obtain ⟨x, row', rfl⟩ := List.exists_cons_of_ne_nil (hne.resolve_left (by simp))
    refine hmk (cellWord showF zeroBased 0 x) (cellWords showF zeroBased row' 1) hw rfl ?_ rfl
    rw [List.length_cons] at hlen
    exact scanQid_pair (cell_pair (sc := sc) (by omega) (hx x (by simp)))
  | some q =>
    refine hmk (['q', 'i', 'd', ':'] ++ showInt q) (cellWords showF zeroBased row 0) ?_ rfl ?_ rfl
    · intro w hm
      rcases List.mem_cons.1 hm with rfl | hm
      · refine ⟨by simp, fun c hc => ?_⟩
        rcases List.mem_append.1 hc with h | h
        · simp only [List.mem_cons, List.not_mem_nil, or_false] at h
          rcases h with rfl | rfl | rfl | rfl <;> decide
        · exact (isWord_showInt q).2 c h
      · exact hw w hm
    · show (scanU (showInt q)).map (·.1) = some q
      rw [scanU_showInt (hq q rfl)]
      rfl

theorem dumpLine_newline {sc : Scan F} {showF : F → List Char} {zeroBased : Bool} {y : F} {qid : Option Int} {row : List F}
    (hy : LabelText sc (showF y) y) (hx : ∀ x ∈ row, ValueText sc (showF x) x) :
    ∃ l, dumpLine showF zeroBased y qid row = l ++ ['\n'] ∧ '\n' ∉ l := by
  have hword : ∀ {w : List Char}, IsWord w → '\n' ∉ w := fun h hm => h.2 _ hm (by decide)
  refine ⟨showF y ++ (' ' :: ((qid.elim [] (fun q => [['q', 'i', 'd', ':'] ++ showInt q]) ++ cellWords showF zeroBased row 0).map (· ++ [' '])).flatten),
    by simp [dumpLine], ?_⟩
  intro hm
  rcases List.mem_append.1 hm with h | h
  · exact hword hy.1 h
  · rcases List.mem_cons.1 h with h | h
    · exact absurd h (by decide)
    · obtain ⟨l, hl, hml⟩ := List.mem_flatten.1 h
      obtain ⟨w, hw, rfl⟩ := List.mem_map.1 hl
      rcases List.mem_append.1 hml with h | h
      · rcases List.mem_append.1 hw with hw | hw
        · cases qid with
          | none => cases hw
          | some q =>
            simp only [Option.elim, List.mem_singleton] at hw
            subst hw
            rcases List.mem_append.1 h with h | h
            · exact absurd h (by decide)
            · exact hword (isWord_showInt q) h
        · exact hword (cellWords_word (sc := sc) hx w hw) h
      · exact absurd h (by decide)

theorem isLines_flatten {ls : List (List Char)} (h : ∀ l ∈ ls, ∃ b, l = b ++ ['\n'] ∧ '\n' ∉ b) : IsLines ls ls.flatten := by
  induction ls with
  | nil => exact .nil
  | cons l ls ih =>
    obtain ⟨b, rfl, hb⟩ := h l (by simp)
    have := IsLines.cons hb (ih (fun x hx => h x (by simp [hx])))
    simpa using this

end Svm
end Verif
