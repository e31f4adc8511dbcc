/-
Lemmas about the text of the drawing of a tree.
-/
import Verif.Lemmas.DotText
import Mathlib.Algebra.Order.Ring.Defs

namespace Verif.Spec.DotText
open Dot Ensemble

/-! ### Statements -/

theorem lexes_id (n : Nat) {c : Char} {r : List Char} {ts : List Token} (hc : isWordChar c = false) (h : Lexes (c :: r) ts) :
    Lexes (Svm.showInt (n : Int) ++ c :: r) (.word (idText (n : Int)) :: ts) := by
  rw [showInt_natCast, idText_eq]
  exact Lexes.word (decimal_word n) hc h

/-- The tokens of the colour. -/
def fillTokens : Option (List Char) → List Token
  | none => []
  | some c => [.sym ',', .word "fillcolor".toList, .sym '=', .quoted c]

theorem lexes_fill {fill : Option (List Char)} (hf : ∀ c, fill = some c → InQuotes c) : Lexes (fillChars fill) (fillTokens fill) := by
  cases fill with
  | none => exact Lexes.nil
  | some c =>
    have e : fillChars (some c) = ", fillcolor=".toList ++ ('"' :: c ++ ['"']) := by
      have : ", fillcolor=\"".toList = ", fillcolor=".toList ++ ['"'] := by decide
      show ", fillcolor=\"".toList ++ c ++ "\"".toList = _
      rw [this, show "\"".toList = ['"'] by decide]
      simp only [List.append_assoc, List.cons_append, List.nil_append]
    rw [e]
    have h1 : Lexes ", fillcolor=".toList [.sym ',', .word "fillcolor".toList, .sym '='] := by decide
    exact h1.append (Lexes.quoted (hf c rfl))

/-- A box. -/
theorem box_reads (n : Nat) {lab : List Char} {T : Token} {x : Value} (hT : Lexes lab [T]) (hx : value T = some x) {fill : Option (List Char)}
    (hf : ∀ c, fill = some c → InQuotes c) :
    ∃ ts, Lexes (Svm.showInt (n : Int) ++ " [label=".toList ++ lab ++ fillChars fill ++ "] ;\n".toList) ts ∧
      Reads ts (.node (idText (n : Int)) (("label".toList, x) :: fillAttr fill)) := by
  have h1 : Lexes " [label=".toList [.sym '[', .word "label".toList, .sym '='] := by decide
  have h2 : Lexes "] ;\n".toList [.sym ']', .sym ';'] := by decide
  have h3 := ((h1.append hT).append (lexes_fill hf)).append h2
  have e : ∃ r, " [label=".toList = ' ' :: r := ⟨"[label=".toList, by decide⟩
  obtain ⟨r, e⟩ := e
  rw [e] at h3
  simp only [List.append_assoc, List.cons_append] at h3
  have h4 := lexes_id n (by decide) h3
  refine ⟨_, by rw [e]; simpa only [List.append_assoc, List.cons_append] using h4, by simp, ?_⟩
  · intro rest
    cases fill with
    | none => cases T <;> cases hx <;> rfl
    | some c => cases T <;> cases hx <;> rfl

theorem lexes_edge (p n : Nat) {c : Char} {r : List Char} {ts : List Token} (hc : isWordChar c = false) (h : Lexes (c :: r) ts) :
    Lexes (Svm.showInt (p : Int) ++ " -> ".toList ++ Svm.showInt (n : Int) ++ c :: r) (.word (idText (p : Int)) :: .arrow :: .word (idText (n : Int)) :: ts) := by
  have h1 : Lexes " -> ".toList [.arrow] := by decide
  have h2 := h1.append (lexes_id n hc h)
  obtain ⟨s, e⟩ : ∃ s, " -> ".toList = ' ' :: s := ⟨"-> ".toList, by decide⟩
  rw [e] at h2 ⊢
  simp only [List.append_assoc, List.cons_append] at h2 ⊢
  exact lexes_id p (by decide) h2

theorem edge_reads (p n : Nat) :
    ∃ ts, Lexes (Svm.showInt (p : Int) ++ " -> ".toList ++ Svm.showInt (n : Int) ++ " ;\n".toList) ts ∧
      Reads ts (.edge (idText (p : Int)) (idText (n : Int)) []) := by
  have h1 : Lexes (' ' :: ";\n".toList) [.sym ';'] := by decide
  have h2 := lexes_edge p n (by decide) h1
  exact ⟨_, by rw [show " ;\n".toList = ' ' :: ";\n".toList by decide]; exact h2, by simp, fun rest => rfl⟩

theorem edge_reads_true (p n : Nat) :
    ∃ ts, Lexes (Svm.showInt (p : Int) ++ " -> ".toList ++ Svm.showInt (n : Int) ++ " [labeldistance=2.5, labelangle=45, headlabel=\"True\"]".toList ++ " ;\n".toList) ts ∧
      Reads ts (.edge (idText (p : Int)) (idText (n : Int)) (headAttrs (some true))) := by
  have h1 : Lexes (' ' :: "[labeldistance=2.5, labelangle=45, headlabel=\"True\"] ;\n".toList)
    [.sym '[', .word "labeldistance".toList, .sym '=', .word "2.5".toList, .sym ',', .word "labelangle".toList, .sym '=', .word "45".toList, .sym ',',
      .word "headlabel".toList, .sym '=', .quoted "True".toList, .sym ']', .sym ';'] := by decide +kernel
  have h2 := lexes_edge p n (by decide) h1
  exact ⟨_, by rw [List.append_assoc, show " [labeldistance=2.5, labelangle=45, headlabel=\"True\"]".toList ++ " ;\n".toList =
      ' ' :: "[labeldistance=2.5, labelangle=45, headlabel=\"True\"] ;\n".toList by decide +kernel]; exact h2, by simp, fun rest => rfl⟩

theorem edge_reads_false (p n : Nat) :
    ∃ ts, Lexes (Svm.showInt (p : Int) ++ " -> ".toList ++ Svm.showInt (n : Int) ++ " [labeldistance=2.5, labelangle=-45, headlabel=\"False\"]".toList ++ " ;\n".toList) ts ∧
      Reads ts (.edge (idText (p : Int)) (idText (n : Int)) (headAttrs (some false))) := by
  have h1 : Lexes (' ' :: "[labeldistance=2.5, labelangle=-45, headlabel=\"False\"] ;\n".toList)
    [.sym '[', .word "labeldistance".toList, .sym '=', .word "2.5".toList, .sym ',', .word "labelangle".toList, .sym '=', .word "-45".toList, .sym ',',
      .word "headlabel".toList, .sym '=', .quoted "False".toList, .sym ']', .sym ';'] := by decide +kernel
  have h2 := lexes_edge p n (by decide) h1
  exact ⟨_, by rw [List.append_assoc, show " [labeldistance=2.5, labelangle=-45, headlabel=\"False\"]".toList ++ " ;\n".toList =
      ' ' :: "[labeldistance=2.5, labelangle=-45, headlabel=\"False\"] ;\n".toList by decide +kernel]; exact h2, by simp, fun rest => rfl⟩

/-! ### The head -/

/-- `headChars` after the first line. -/
theorem head_reads (look : Look) (filled : Bool) :
    ∃ h ts, headChars look filled = "digraph Tree {\n".toList ++ h ∧ Lexes h ts ∧ ReadsAll ts (settings filled look.rounded look.parallel) := by
  have h0 : "digraph Tree {\nnode [shape=box".toList = "digraph Tree {\n".toList ++ "node [shape=box".toList := by decide +kernel
  have hnode : ∃ ts, Lexes ("node [shape=box".toList ++ (match filled, look.rounded with
      | false, false => []
      | true, false => ", style=\"filled\", color=\"black\"".toList
      | false, true => ", style=\"rounded\", color=\"black\"".toList
      | true, true => ", style=\"filled, rounded\", color=\"black\"".toList) ++
      (if look.rounded then ", fontname=helvetica".toList else []) ++ "] ;\n".toList) ts ∧
      Reads ts (.node "node".toList ([("shape".toList, .text "box".toList)] ++
        (if filled || look.rounded then
          [("style".toList, .text (if filled && look.rounded then "filled, rounded".toList else if filled then "filled".toList else "rounded".toList)),
            ("color".toList, .text "black".toList)] else []) ++
        if look.rounded then [("fontname".toList, .text "helvetica".toList)] else [])) := by
    cases filled <;> cases look.rounded
    · refine ⟨[.word "node".toList, .sym '[', .word "shape".toList, .sym '=', .word "box".toList, .sym ']', .sym ';'], by decide +kernel, by simp, fun rest => rfl⟩
    · refine ⟨[.word "node".toList, .sym '[', .word "shape".toList, .sym '=', .word "box".toList, .sym ',', .word "style".toList, .sym '=',
        .quoted "rounded".toList, .sym ',', .word "color".toList, .sym '=', .quoted "black".toList, .sym ',', .word "fontname".toList, .sym '=',
        .word "helvetica".toList, .sym ']', .sym ';'], by decide +kernel, by simp, fun rest => rfl⟩
    · refine ⟨[.word "node".toList, .sym '[', .word "shape".toList, .sym '=', .word "box".toList, .sym ',', .word "style".toList, .sym '=',
        .quoted "filled".toList, .sym ',', .word "color".toList, .sym '=', .quoted "black".toList, .sym ']', .sym ';'], by decide +kernel, by simp, fun rest => rfl⟩
    · refine ⟨[.word "node".toList, .sym '[', .word "shape".toList, .sym '=', .word "box".toList, .sym ',', .word "style".toList, .sym '=',
        .quoted "filled, rounded".toList, .sym ',', .word "color".toList, .sym '=', .quoted "black".toList, .sym ',', .word "fontname".toList, .sym '=',
        .word "helvetica".toList, .sym ']', .sym ';'], by decide +kernel, by simp, fun rest => rfl⟩
  have hgraph : ∃ ts, Lexes (if look.parallel then "graph [ranksep=equally, splines=polyline] ;\n".toList else []) ts ∧
      ReadsAll ts (if look.parallel then [.node "graph".toList [("ranksep".toList, .text "equally".toList), ("splines".toList, .text "polyline".toList)]] else []) := by
    cases look.parallel
    · exact ⟨_, Lexes.nil, ReadsAll.nil⟩
    · refine ⟨[.word "graph".toList, .sym '[', .word "ranksep".toList, .sym '=', .word "equally".toList, .sym ',', .word "splines".toList, .sym '=',
        .word "polyline".toList, .sym ']', .sym ';'], by decide +kernel, Reads.all ⟨by simp, fun rest => rfl⟩⟩
  have hedge : ∃ ts, Lexes (if look.rounded then "edge [fontname=helvetica] ;\n".toList else []) ts ∧
      ReadsAll ts (if look.rounded then [.node "edge".toList [("fontname".toList, .text "helvetica".toList)]] else []) := by
    cases look.rounded
    · exact ⟨_, Lexes.nil, ReadsAll.nil⟩
    · refine ⟨[.word "edge".toList, .sym '[', .word "fontname".toList, .sym '=', .word "helvetica".toList, .sym ']', .sym ';'], by decide +kernel,
        Reads.all ⟨by simp, fun rest => rfl⟩⟩
  obtain ⟨t1, a1, b1⟩ := hnode
  obtain ⟨t2, a2, b2⟩ := hgraph
  obtain ⟨t3, a3, b3⟩ := hedge
  refine ⟨_, _, ?_, (a1.append a2).append a3, (b1.all.append b2).append b3⟩
  unfold headChars
  rw [h0]
  simp only [List.append_assoc]
  rfl

/-! ### Rank groups -/

/-- Names separated by semicolons. -/
def sepTokens : List (List Char) → List Token
  | [] => []
  | [a] => [.word a]
  | a :: b :: r => .word a :: .sym ';' :: sepTokens (b :: r)

theorem lexes_join {l : List (List Char)} (hne : l ≠ []) (hl : ∀ a ∈ l, WordText a) :
    Lexes (joinSemicolon l ++ "} ;\n".toList) (sepTokens l ++ [.sym '}', .sym ';']) := by
  have h1 : Lexes ('}' :: " ;\n".toList) [.sym '}', .sym ';'] := by decide
  have e1 : "} ;\n".toList = '}' :: " ;\n".toList := by decide
  have h2 : Lexes (';' :: " ".toList) [.sym ';'] := by decide
  have e2 : "; ".toList = ';' :: " ".toList := by decide
  rw [e1]
  induction l with
  | nil => exact absurd rfl hne
  | cons a l ih =>
    cases l with
    | nil => exact Lexes.word (hl a (by simp)) (by decide) h1
    | cons b r =>
      have h3 := ih (by simp) (fun x hx => hl x (List.mem_cons_of_mem _ hx))
      have h4 := h2.append h3
      show Lexes (a ++ "; ".toList ++ joinSemicolon (b :: r) ++ _) (.word a :: .sym ';' :: sepTokens (b :: r) ++ _)
      rw [e2]
      simp only [List.append_assoc, List.cons_append] at h4 ⊢
      exact Lexes.word (hl a (by simp)) (by decide) h4

theorem idList_sep {l : List (List Char)} (hne : l ≠ []) (rest : List Token) : idList (sepTokens l ++ .sym '}' :: rest) = some (l, rest) := by
  induction l with
  | nil => exact absurd rfl hne
  | cons a l ih =>
    cases l with
    | nil => rfl
    | cons b r =>
      show (idList (sepTokens (b :: r) ++ .sym '}' :: rest)).map _ = _
      rw [ih (by simp)]
      rfl

theorem group_reads {l : List (List Char)} (hne : l ≠ []) (hl : ∀ a ∈ l, WordText a) :
    ∃ ts, Lexes ("{rank=same ; ".toList ++ joinSemicolon l ++ "} ;\n".toList) ts ∧ Reads ts (.sameRank l) := by
  have h1 : Lexes "{rank=same ; ".toList [.sym '{', .word "rank".toList, .sym '=', .word "same".toList, .sym ';'] := by decide
  have h2 := h1.append (lexes_join hne hl)
  refine ⟨_, by rw [List.append_assoc]; exact h2, by simp, ?_⟩
  · intro rest
    have h2 := idList_sep hne (.sym ';' :: rest)
    simp only [List.cons_append, List.nil_append, List.append_assoc]
    rw [item]
    rw [if_pos ⟨rfl, rfl⟩, h2]
    rfl

/-- The key of a rank. -/
def keyText : Option Nat → List Char
  | none => "leaves".toList
  | some d => Svm.decimal d

theorem keyText_injective : Function.Injective keyText := by
  have hd : ∀ d, Svm.decimal d ≠ "leaves".toList := by
    intro d h
    have h1 := (Svm.numeral_digits (Svm.decimal_numeral d)).2.1 'l' (by rw [h]; decide)
    obtain ⟨e, he, h2⟩ := h1
    exact (by decide : ∀ e < 10, 'l' ≠ Svm.digit e) e he h2
  intro a b h
  cases a with
  | none =>
    cases b with
    | none => rfl
    | some d => exact absurd h.symm (hd d)
  | some c =>
    cases b with
    | none => exact absurd h (hd c)
    | some d =>
      have h1 := (Svm.numeral_digits (Svm.decimal_numeral c)).2.2
      have h2 := (Svm.numeral_digits (Svm.decimal_numeral d)).2.2
      have h3 : Svm.decimal c = Svm.decimal d := h
      rw [h3, h2] at h1
      rw [h1]

section
variable {F : Type} {m : Ensemble F} {o : Options}

theorem recurseRanks_eq {it : IdTree F} (h : it.Holds m) :
    ∀ (fuel depth : Nat) (p : Option (Nat × Bool)), it.erase.height < fuel → within o.maxDepth (depth - 1) = true →
      recurseRanks m o fuel (it.id : Int) depth =
        .ok (((it.items depth p).filter (fun n => within o.maxDepth (n.depth - 1))).map (fun n => (keyText (rankOf o.maxDepth n), (n.id : Int)))) := by
  induction it with
  | leaf i v =>
    intro fuel depth p hfuel hpar
    obtain ⟨fuel, rfl⟩ := Nat.exists_eq_succ_of_ne_zero (by omega : fuel ≠ 0)
    unfold recurseRanks
    simp only [IdTree.items, List.filter_cons, List.filter_nil, hpar, if_true, List.map_cons, List.map_nil]
    obtain ⟨hl, hr, -, -⟩ := h
    rw [show (IdTree.leaf i v).id = i from rfl, isLeafNode_leaf hl hr, exOk]
    split <;> rfl
  | node i f t l r ihl ihr =>
    intro fuel depth p hfuel hpar
    simp only [IdTree.erase, Spec.Tree.height] at hfuel
    obtain ⟨fuel, rfl⟩ := Nat.exists_eq_succ_of_ne_zero (by omega : fuel ≠ 0)
    unfold recurseRanks
    obtain ⟨hl, hr, -, -, Hl, Hr⟩ := h
    simp only [IdTree.items, List.filter_cons, hpar, if_true, List.map_cons, List.filter_append, List.map_append]
    by_cases hw : within o.maxDepth depth = true
    · rw [if_pos (show Option.all (fun d => decide (depth ≤ d)) o.maxDepth = true from hw)]
      rw [show (IdTree.node i f t l r).id = i from rfl, isLeafNode_node hl, exOk, if_neg (by simp), pyGet_ok hl, exOk,
        ihl Hl fuel (depth + 1) (some (i, true)) (by omega) (by simpa using hw), exOk, pyGet_ok hr, exOk,
        ihr Hr fuel (depth + 1) (some (i, false)) (by omega) (by simpa using hw), exOk]
      have e : rankOf o.maxDepth ⟨depth, i, p, .split f t⟩ = some depth := by
        show (if within o.maxDepth depth then some depth else none) = some depth
        rw [if_pos hw]
      rw [e]
      rfl
    · rw [if_neg (show ¬ Option.all (fun d => decide (depth ≤ d)) o.maxDepth = true from hw)]
      have e : rankOf o.maxDepth ⟨depth, i, p, .split f t⟩ = none := by
        show (if within o.maxDepth depth then some depth else none) = none
        rw [if_neg hw]
      have hno : ∀ (a : IdTree F) q, (a.items (depth + 1) q).filter (fun n => within o.maxDepth (n.depth - 1)) = [] := by
        intro a q
        rw [List.filter_eq_nil_iff]
        intro n hn h0
        exact hw (within_le (by have := items_depth a _ _ n hn; omega) h0)
      rw [hno, hno, e]
      rfl

theorem lift_keys {B C : Type} {f : B → C} : ∀ {l : List C}, (∀ x ∈ l, ∃ b, f b = x) → ∃ bs : List B, bs.map f = l
  | [], _ => ⟨[], rfl⟩
  | x :: l, h => by
    obtain ⟨b, hb⟩ := h x (List.mem_cons_self ..)
    obtain ⟨bs, hbs⟩ := lift_keys (l := l) (fun y hy => h y (List.mem_cons_of_mem _ hy))
    exact ⟨b :: bs, by rw [List.map_cons, hb, hbs]⟩

theorem rank_reads (mx : Option Nat) (ns : List (NodeItem F)) :
    ∃ ts gs, Lexes (rankChars (ns.map (fun n => (keyText (rankOf mx n), (n.id : Int))))) ts ∧ ReadsAll ts gs ∧ Groups mx ns gs := by
  have hmem : ∀ x, x ∈ (((ns.map (fun n => (keyText (rankOf mx n), (n.id : Int)))).map (·.1)).dedup.insertionSort (· ≤ ·)) ↔
      ∃ n ∈ ns, keyText (rankOf mx n) = x := by
    intro x
    rw [(List.perm_insertionSort (· ≤ ·) _).mem_iff, List.mem_dedup, List.map_map, List.mem_map]
    rfl
  obtain ⟨ks, hks⟩ := lift_keys (f := keyText) (l := ((ns.map (fun n => (keyText (rankOf mx n), (n.id : Int)))).map (·.1)).dedup.insertionSort (· ≤ ·))
    (fun x hx => by obtain ⟨n, -, h⟩ := (hmem x).1 hx; exact ⟨_, h⟩)
  have hnd : ks.Nodup := by
    apply List.Nodup.of_map keyText
    rw [hks, (List.perm_insertionSort (· ≤ ·) _).nodup_iff]
    exact List.nodup_dedup _
  have hk : ∀ k, k ∈ ks ↔ ∃ n ∈ ns, rankOf mx n = k := by
    intro k
    rw [← List.mem_map_of_injective keyText_injective, hks, hmem]
    simp only [keyText_injective.eq_iff]
  have hgroup : ∀ k, (((ns.map (fun n => (keyText (rankOf mx n), (n.id : Int)))).filter (fun p => p.1 = keyText k)).map (fun p => Svm.showInt p.2)) =
      (ns.filter (fun n => rankOf mx n = k)).map (fun n => idText n.id) := by
    intro k
    rw [List.filter_map, List.map_map]
    have : ns.filter ((fun p : List Char × Int => decide (p.1 = keyText k)) ∘ fun n => (keyText (rankOf mx n), (n.id : Int))) =
        ns.filter (fun n => rankOf mx n = k) := by
      apply List.filter_congr
      intro n _
      simp only [Function.comp, keyText_injective.eq_iff]
    rw [this]
    apply List.map_congr_left
    intro n _
    show Svm.showInt (n.id : Int) = _
    rw [showInt_natCast, idText_eq]
  have hone : ∀ k ∈ ks, ∃ ts, Lexes ("{rank=same ; ".toList ++ joinSemicolon ((ns.filter (fun n => rankOf mx n = k)).map (fun n => idText n.id)) ++ "} ;\n".toList) ts ∧
      Reads ts (.sameRank ((ns.filter (fun n => rankOf mx n = k)).map (fun n => idText n.id))) := by
    intro k hk'
    obtain ⟨n, hn, hr⟩ := (hk k).1 hk'
    apply group_reads
    · intro h0
      rw [List.map_eq_nil_iff, List.filter_eq_nil_iff] at h0
      exact h0 n hn (by simpa using hr)
    · intro a ha
      obtain ⟨n, -, rfl⟩ := List.mem_map.1 ha
      rw [idText_eq]
      exact decimal_word _
  choose! g hg using hone
  refine ⟨ks.flatMap g, ks.map _, ?_, ReadsAll.flatten (fun k hk' => (hg k hk').2), ks, hnd, hk, rfl⟩
  unfold rankChars
  rw [← hks, List.flatMap_map]
  have h2 := Lexes.flatten (fun k hk' => (hg k hk').1)
  convert h2 using 2
  funext k
  rw [hgroup]

end

/-! ### Colours -/

section
variable {F : Type} [Field F] [LinearOrder F] [IsStrictOrderedRing F]

theorem hexPair_eq : ∀ b < 256, hexPair ((b : Nat) : Int) = .ok (hexByte b) := by decide +kernel

theorem hexByte_plain : ∀ b < 256, ∀ c ∈ hexByte b, c ≠ '"' ∧ c ≠ '\\' := by decide +kernel

/-- Four bytes. -/
def Bytes (c : Nat × Nat × Nat × Nat) : Prop := c.1 < 256 ∧ c.2.1 < 256 ∧ c.2.2.1 < 256 ∧ c.2.2.2 < 256

/-- The list given by the colour map. -/
def asList (c : Nat × Nat × Nat × Nat) : List Int := [c.1, c.2.1, c.2.2.1, c.2.2.2]

theorem colourText_plain {c : Nat × Nat × Nat × Nat} (h : Bytes c) : InQuotes (colourText c) := by
  apply InQuotes.plain
  intro x hx
  unfold colourText at hx
  rcases List.mem_cons.1 hx with rfl | hx
  · decide
  · rw [List.mem_append, List.mem_append, List.mem_append] at hx
    rcases hx with ((hx | hx) | hx) | hx
    · exact hexByte_plain _ h.1 _ hx
    · exact hexByte_plain _ h.2.1 _ hx
    · exact hexByte_plain _ h.2.2.1 _ hx
    · exact hexByte_plain _ (by have := h.2.2.2; omega) _ hx

theorem colorRatio_eq (lo hi v : F) : colorRatio lo hi v = position lo hi v := by
  unfold colorRatio position
  by_cases h : lo = hi
  · rw [if_neg (by simp [h]), if_pos h]
    by_cases h' : v = lo
    · rw [if_pos (by simp [h']), if_pos h']
    · rw [if_neg (by rwa [sub_eq_zero]), if_neg h']
      simp only [sub_neg]
  · rw [if_pos (by rw [sub_ne_zero]; exact fun h0 => h h0.symm), if_neg h]

theorem getColor_eq {rgba : Ratio F → Nat × Nat × Nat × Nat} (h : ∀ q, Bytes (rgba q)) (lo hi v : F) :
    getColor (fun q => asList (rgba q)) (lo, hi) v = .ok (colourText (rgba (position lo hi v))) := by
  unfold getColor
  simp only [colorRatio_eq]
  obtain ⟨h1, h2, h3, h4⟩ := h (position lo hi v)
  generalize rgba (position lo hi v) = c at *
  obtain ⟨r, g, b, a⟩ := c
  have e : dimLast (asList (r, g, b, a)) = [(r : Int), (g : Int), (b : Int), ((a * 3 / 4 : Nat) : Int)] := by
    show [(r : Int), (g : Int), (b : Int), min 255 (((a : Int) * 3).tdiv 4)] = _
    have : ((a : Int) * 3).tdiv 4 = ((a * 3 / 4 : Nat) : Int) := by
      rw [show ((a : Int) * 3) = ((a * 3 : Nat) : Int) by push_cast; rfl]
      rfl
    rw [this, min_eq_right]
    simp only at h4
    omega
  rw [e]
  simp only [List.mapM_cons, List.mapM_nil]
  rw [hexPair_eq r h1, hexPair_eq g h2, hexPair_eq b h3, hexPair_eq (a * 3 / 4) (by simp only at h4; omega)]
  simp only [exOk]
  show Except.ok _ = Except.ok _
  simp [colourText]

/-! ### The boxes of a tree -/

omit [Field F] [LinearOrder F] [IsStrictOrderedRing F] in
theorem item_value {m : Ensemble F} {it : IdTree F} (h : it.Holds m) : ∀ d p, ∀ n ∈ it.items d p, ∀ v, n.info = .output v → m.value[n.id]? = some v := by
  induction it with
  | leaf i v =>
    intro d p n hn u hu
    simp only [IdTree.items, List.mem_singleton] at hn
    subst hn
    cases hu
    exact h.2.2.2
  | node i f t l r ihl ihr =>
    intro d p n hn u hu
    simp only [IdTree.items, List.mem_cons, List.mem_append] at hn
    rcases hn with rfl | hn | hn
    · cases hu
    · exact ihl h.2.2.2.2.1 _ _ n hn u hu
    · exact ihr h.2.2.2.2.2 _ _ n hn u hu

variable {m : Ensemble F} {o : Options} {look : Look} {rgba : Ratio F → Nat × Nat × Nat × Nat} {pr : Printers F} {counts : Option Counts} {lo hi : F}
  {round : F → F} {name : Nat → FeatureText}

theorem fill_eq (hb : ∀ q, Bytes (rgba q)) {n : NodeItem F} (hv : ∀ v, n.info = .output v → m.value[n.id]? = some v)
    (hw : within o.maxDepth n.depth = true) :
    fillColor (fun q => asList (rgba q)) look m o (counts, (lo, hi)) (criterion round name n.info).isOutput (n.id : Int) =
      .ok (boxFill rgba look.highlight o.labelAll (counts.map (fun c j => cnt c (j : Int))) lo hi o.maxDepth n) := by
  obtain ⟨depth, i, parent, info⟩ := n
  simp only at hw hv
  unfold fillColor boxFill
  simp only [hw, if_true]
  cases info with
  | output v =>
    have hv' := hv v rfl
    cases counts with
    | some c =>
      simp only [criterion, Criterion.isOutput, Bool.true_or, if_true, Option.map_some]
      rw [getColor_eq hb]
      rfl
    | none =>
      simp only [criterion, Criterion.isOutput, if_true, Option.map_none]
      by_cases hh : look.highlight = true
      · simp only [hh, if_true]
        rw [pyGet_ok hv', exOk, getColor_eq hb]
        rfl
      · simp only [hh]
        rfl
  | split f t =>
    cases counts with
    | some c =>
      simp only [criterion, Criterion.isOutput, Bool.false_or, Option.map_some]
      by_cases hh : o.labelAll = true
      · simp only [hh, if_true]
        rw [getColor_eq hb]
        rfl
      · simp only [hh]
        rfl
    | none =>
      simp only [criterion, Criterion.isOutput, Option.map_none]
      by_cases hh : look.highlight = true
      · simp only [hh, if_true]
        rfl
      · simp only [hh]
        rfl

omit [IsStrictOrderedRing F] in
theorem boxFill_plain (hb : ∀ q, Bytes (rgba q)) {hl la : Bool} {cs : Option (Nat → Nat)} {mx : Option Nat} {n : NodeItem F} :
    ∀ c, boxFill rgba hl la cs lo hi mx n = some c → InQuotes c := by
  have h1 : InQuotes "#ffffffff".toList := InQuotes.plain (by decide)
  have h2 : InQuotes "#C0C0C0".toList := InQuotes.plain (by decide)
  intro c hc
  unfold boxFill at hc
  split at hc
  · split at hc
    · cases hc; exact colourText_plain (hb _)
    · split at hc
      · cases hc; exact colourText_plain (hb _)
      · cases hc; exact h1
    · split at hc
      · cases hc; exact colourText_plain (hb _)
      · cases hc
    · split at hc
      · cases hc; exact h1
      · cases hc
  · split at hc
    · cases hc; exact h2
    · cases hc

theorem labelLines_token (special : Bool) (s : List Char) {x : Value} (hx : value (labelToken special s) = some x) (l : Attrs) :
    labelLines (("label".toList, x) :: l) = linesOf special s := by
  have e : List.lookup "label".toList (("label".toList, x) :: l) = some x := by rw [List.lookup_cons]; simp
  unfold labelLines
  rw [e]
  cases special
  · cases hx; rfl
  · cases hx; rfl

theorem node_reads (hb : ∀ q, Bytes (rgba q)) (hpr : PlainNumbers pr) {n : NodeItem F} (hv : ∀ v, n.info = .output v → m.value[n.id]? = some v)
    (hplain : PlainCriterion look.special (criterion round name n.info)) (count : NodeItem F → Option (Nat × Option F)) :
    ∃ css ts is, (drawItem round name o.nodeIds count o.maxDepth n).mapM (stmtChars (fun q => asList (rgba q)) pr look m o (counts, (lo, hi))) = .ok css ∧
      Lexes css.flatten ts ∧ ReadsAll ts is ∧
      List.Forall₂ (Shows look.special pr (boxFill rgba look.highlight o.labelAll (counts.map (fun c j => cnt c (j : Int))) lo hi o.maxDepth n))
        (drawItem round name o.nodeIds count o.maxDepth n) is := by
  -- the box
  have hbox : ∃ cs ts i, stmtChars (fun q => asList (rgba q)) pr look m o (counts, (lo, hi))
      (if within o.maxDepth n.depth then .node n.id ⟨if o.nodeIds then some (n.id : Int) else none, count n, criterion round name n.info⟩ else .cropped n.id) = .ok cs ∧
      Lexes cs ts ∧ Reads ts i ∧ Shows look.special pr (boxFill rgba look.highlight o.labelAll (counts.map (fun c j => cnt c (j : Int))) lo hi o.maxDepth n)
        (if within o.maxDepth n.depth then .node n.id ⟨if o.nodeIds then some (n.id : Int) else none, count n, criterion round name n.info⟩ else .cropped n.id) i := by
    by_cases hw : within o.maxDepth n.depth = true
    · simp only [hw, if_true]
      obtain ⟨s, h1, h2⟩ := nodeToStr_shows look.special hpr
        (t := ⟨if o.nodeIds then some (n.id : Int) else none, count n, criterion round name n.info⟩)
        (by
          intro j hj
          simp only at hj
          split at hj
          · cases hj; omega
          · cases hj) hplain
      obtain ⟨x, hx⟩ : ∃ x, value (labelToken look.special s) = some x := by
        unfold labelToken
        split <;> exact ⟨_, rfl⟩
      obtain ⟨ts, h3, h4⟩ := box_reads n.id h1 hx (boxFill_plain hb (cs := counts.map (fun c j => cnt c (j : Int))) (hl := look.highlight) (la := o.labelAll)
        (lo := lo) (hi := hi) (mx := o.maxDepth) (n := n))
      refine ⟨_, ts, _, ?_, h3, h4, rfl, ?_, ?_, rfl⟩
      · unfold stmtChars
        simp only
        rw [fill_eq hb hv hw]
        rfl
      · rw [labelLines_token look.special s hx, h2]
      · rw [List.length_cons, Nat.add_comm]
    · have hw' : within o.maxDepth n.depth = false := by simpa using hw
      simp only [hw', Bool.false_eq_true, if_false]
      have e : boxFill rgba look.highlight o.labelAll (counts.map (fun c j => cnt c (j : Int))) lo hi o.maxDepth n =
          if look.highlight || counts.isSome then some "#C0C0C0".toList else none := by
        unfold boxFill
        rw [if_neg (by rw [hw']; decide), Option.isSome_map]
      have hl : Lexes "\"(...)\"".toList [.quoted "(...)".toList] := by decide
      obtain ⟨ts, h3, h4⟩ := box_reads n.id hl rfl (boxFill_plain hb (cs := counts.map (fun c j => cnt c (j : Int))) (hl := look.highlight) (la := o.labelAll)
        (lo := lo) (hi := hi) (mx := o.maxDepth) (n := n))
      refine ⟨_, ts, _, rfl, ?_, h4, rfl, rfl⟩
      rw [e] at h3
      have e2 : " [label=\"(...)\"".toList = " [label=".toList ++ "\"(...)\"".toList := by decide
      rw [e2]
      simpa only [List.append_assoc] using h3
  obtain ⟨cs, ts, i, h1, h2, h3, h4⟩ := hbox
  unfold drawItem
  cases hp : n.parent with
  | none =>
    refine ⟨[cs], ts, [i], ?_, ?_, h3.all, List.Forall₂.cons h4 List.Forall₂.nil⟩
    · simp only [List.mapM_cons, List.mapM_nil]
      rw [h1]
      rfl
    · simpa using h2
  | some q =>
    obtain ⟨p, isLeft⟩ := q
    simp only
    have hedge : ∀ b : Option Bool, ∃ cs ts, stmtChars (fun q => asList (rgba q)) pr look m o (counts, (lo, hi)) (.edge (p : Int) (n.id : Int) b) = .ok cs ∧
        Lexes cs ts ∧ Reads ts (.edge (idText (p : Int)) (idText (n.id : Int)) (headAttrs b)) := by
      intro b
      match b with
      | none => obtain ⟨ts, a1, a2⟩ := edge_reads p n.id; exact ⟨_, ts, rfl, a1, a2⟩
      | some true => obtain ⟨ts, a1, a2⟩ := edge_reads_true p n.id; exact ⟨_, ts, rfl, a1, a2⟩
      | some false => obtain ⟨ts, a1, a2⟩ := edge_reads_false p n.id; exact ⟨_, ts, rfl, a1, a2⟩
    obtain ⟨cs', ts', h5, h6, h7⟩ := hedge (if n.depth = 1 ∧ within o.maxDepth n.depth then some isLeft else none)
    refine ⟨[cs, cs'], ts ++ ts', [i, _], ?_, ?_, h3.all.append h7.all, List.Forall₂.cons h4 (List.Forall₂.cons ⟨rfl, rfl, rfl⟩ List.Forall₂.nil)⟩
    · simp only [List.mapM_cons, List.mapM_nil]
      rw [h1, exOk, h5]
      rfl
    · simpa using h2.append h6

theorem nodes_read (hb : ∀ q, Bytes (rgba q)) (hpr : PlainNumbers pr) (count : NodeItem F → Option (Nat × Option F)) :
    ∀ {ns : List (NodeItem F)}, (∀ n ∈ ns, (∀ v, n.info = .output v → m.value[n.id]? = some v) ∧ PlainCriterion look.special (criterion round name n.info)) →
    ∃ css ts iss, (ns.flatMap (drawItem round name o.nodeIds count o.maxDepth)).mapM
        (stmtChars (fun q => asList (rgba q)) pr look m o (counts, (lo, hi))) = .ok css ∧
      Lexes css.flatten ts ∧ ReadsAll ts (List.flatten iss) ∧
      List.Forall₂ (fun n is => List.Forall₂
        (Shows look.special pr (boxFill rgba look.highlight o.labelAll (counts.map (fun c j => cnt c (j : Int))) lo hi o.maxDepth n))
        (drawItem round name o.nodeIds count o.maxDepth n) is) ns iss
  | [], _ => ⟨[], [], [], rfl, Lexes.nil, ReadsAll.nil, List.Forall₂.nil⟩
  | n :: ns, h => by
    obtain ⟨a1, a2, a3, h1, h2, h3, h4⟩ := node_reads (o := o) (look := look) (counts := counts) (lo := lo) (hi := hi) (name := name) (round := round)
      hb hpr (h n (List.mem_cons_self ..)).1 (h n (List.mem_cons_self ..)).2 count
    obtain ⟨b1, b2, b3, h5, h6, h7, h8⟩ := nodes_read hb hpr count (ns := ns) (fun x hx => h x (List.mem_cons_of_mem _ hx))
    refine ⟨a1 ++ b1, a2 ++ b2, a3 :: b3, ?_, ?_, ?_, List.Forall₂.cons h4 h8⟩
    · rw [List.flatMap_cons, List.mapM_append, h1, exOk, h5]
      rfl
    · rw [List.flatten_append]
      exact h2.append h6
    · rw [List.flatten_cons]
      exact h3.append h7

end

end Verif.Spec.DotText
