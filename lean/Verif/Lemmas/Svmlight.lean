/-
Lemmas for reading SVMlight files: the matrix.
-/
import Verif.Spec.Svmlight
import Mathlib.Data.List.Flatten

namespace Verif
namespace Svm
variable {F : Type}

/-! ### Moving cells -/

theorem memmove_ok (P r Q T : List F) (mv n : Nat) (hn : r.length = n) (hmv : mv ≤ Q.length) :
    memmove (P ++ (r ++ (Q ++ T))) (P.length : Int) ((P.length : Int) + (mv : Int)) n = .ok (P ++ ((r ++ Q).take mv ++ (r ++ (Q.drop mv ++ T)))) := by
  unfold memmove
  rw [if_pos (by simp only [List.length_append]; omega)]
  congr 1
  have e1 : ((P.length : Int) + (mv : Int)).toNat = P.length + mv := by omega
  have e2 : (P.length : Int).toNat = P.length := by omega
  rw [e1, e2, List.take_length_add_append, List.drop_left, Nat.add_assoc, List.drop_length_add_append, List.append_assoc, List.append_assoc]
  congr 1
  congr 1
  · rw [← List.append_assoc, List.take_append_of_le_length (by simp; omega)]
  · congr 1
    · rw [← hn, List.take_left]
    · rw [Nat.add_comm mv n, ← hn, List.drop_length_add_append, List.drop_append_of_le_length hmv]

theorem fillZero_ok (zero : F) (P Q T : List F) (per : Nat) (hQ : Q.length = per) :
    fillZero zero (P ++ (Q ++ T)) (P.length : Int) per = .ok (P ++ (List.replicate per zero ++ T)) := by
  unfold fillZero
  rw [if_pos (by simp only [List.length_append]; omega)]
  congr 1
  have e2 : (P.length : Int).toNat = P.length := by omega
  rw [e2, List.take_left, List.drop_length_add_append, ← hQ, List.drop_left, List.append_assoc]

theorem moveBlock_ok (P r Q T : List F) (mv n : Nat) (hn : r.length = n) (hmv : mv ≤ Q.length) :
    moveBlock (P ++ (r ++ (Q ++ T))) (P.length : Int) (mv : Int) n = .ok (P ++ ((r ++ Q).take mv ++ (r ++ (Q.drop mv ++ T)))) := by
  unfold moveBlock
  by_cases h : (mv : Int) > 0
  · rw [if_pos h]
    exact memmove_ok P r Q T mv n hn hmv
  · rw [if_neg h]
    obtain rfl : mv = 0 := by omega
    simp [pure, Except.pure]

theorem reshape_loop (zero : F) (old new per : Nat) (hper : per = new - old) (hlt : old < new) (rs : List (List F))
    (hrs : ∀ r ∈ rs, r.length = old) :
    ∀ (i : Nat) (junk T : List F), junk.length = rs.length * per → 0 < i →
      ∃ it mv, (List.range' i rs.length).foldlM (reshapeStep zero old new per)
        (rs.flatten ++ (junk ++ T), (rs.length : Int) * old - old, (rs.length : Int) * per - per) =
        .ok ((rs.map (· ++ List.replicate per zero)).flatten ++ T, it, mv) := by
  induction rs using List.reverseRecOn with
  | nil =>
    intro i junk T hj hi
    have : junk = [] := by
      apply List.length_eq_zero_iff.1
      simpa using hj
    subst this
    exact ⟨_, _, rfl⟩
  | append_singleton rs r ih =>
    intro i junk T hj hi
    have hr : r.length = old := hrs r (by simp)
    have hrs' : ∀ x ∈ rs, x.length = old := fun x hx => hrs x (by simp [hx])
    have hflat : rs.flatten.length = rs.length * old := by
      rw [List.length_flatten]
      have : rs.map List.length = rs.map (fun _ => old) := List.map_congr_left hrs'
      rw [this]
      simp
    rw [List.length_append, List.length_singleton, Nat.add_mul, Nat.one_mul] at hj
    obtain ⟨it, mv, e⟩ := ih hrs' (i + 1) ((r ++ junk).take (rs.length * per)) (r ++ List.replicate per zero ++ T) (by
      rw [List.length_take, List.length_append]; omega) (by omega)
    refine ⟨it, mv, ?_⟩
    rw [List.length_append, List.length_singleton, List.range'_succ, List.foldlM_cons]
    have hstep : reshapeStep zero old new per
        ((rs ++ [r]).flatten ++ (junk ++ T), ((rs.length + 1 : Nat) : Int) * old - old, ((rs.length + 1 : Nat) : Int) * per - per) i =
        .ok (rs.flatten ++ ((r ++ junk).take (rs.length * per) ++ (r ++ List.replicate per zero ++ T)),
          (rs.length : Int) * old - old, (rs.length : Int) * per - per) := by
      have e1 : ((rs.length + 1 : Nat) : Int) * old - old = ((rs.flatten.length : Nat) : Int) := by
        rw [hflat]; push_cast; ring
      have e2 : ((rs.length + 1 : Nat) : Int) * per - per = ((rs.length * per : Nat) : Int) := by
        push_cast; ring
      have e3 : (rs ++ [r]).flatten ++ (junk ++ T) = rs.flatten ++ (r ++ (junk ++ T)) := by simp
      unfold reshapeStep
      simp only
      rw [e1, e2, e3, if_neg (by omega), moveBlock_ok rs.flatten r junk T (rs.length * per) old hr (by omega)]
      simp only [bind, Except.bind]
      have e4 : rs.flatten ++ ((r ++ junk).take (rs.length * per) ++ (r ++ (junk.drop (rs.length * per) ++ T))) =
          (rs.flatten ++ (r ++ junk).take (rs.length * per) ++ r) ++ (junk.drop (rs.length * per) ++ T) := by simp
      have e5 : ((rs.flatten.length : Nat) : Int) + ((rs.length * per : Nat) : Int) + (old : Int) =
          (((rs.flatten ++ (r ++ junk).take (rs.length * per) ++ r).length : Nat) : Int) := by
        simp only [List.length_append, List.length_take]
        rw [hr]
        push_cast
        have : min (rs.length * per) (old + junk.length) = rs.length * per := by omega
        have h2 : ((min (rs.length * per) (old + junk.length) : Nat) : Int) = ((rs.length * per : Nat) : Int) := by rw [this]
        push_cast at h2
        rw [h2]
      unfold fillBlock
      rw [e4, e5, if_pos hi, fillZero_ok zero _ (junk.drop (rs.length * per)) T per (by rw [List.length_drop]; omega)]
      simp only [pure, Except.pure, Except.ok.injEq, Prod.mk.injEq]
      refine ⟨by simp, ?_, ?_⟩
      · rw [hflat]; push_cast; ring
      · push_cast; ring
    rw [hstep]
    simp only [bind, Except.bind]
    rw [e]
    simp

theorem flatten_length_const {rs : List (List F)} {n : Nat} (h : ∀ r ∈ rs, r.length = n) : rs.flatten.length = rs.length * n := by
  rw [List.length_flatten]
  have : rs.map List.length = rs.map (fun _ => n) := List.map_congr_left h
  rw [this]
  simp

/-- `reshape_data` gives every old row the new width. -/
theorem reshape_ok (zero : F) (old : Nat) (rs : List (List F)) (hrs : ∀ r ∈ rs, r.length = old) (hne : rs ≠ []) (R : List F)
    (hlt : old < R.length) (hold : 0 < old) :
    reshape zero (rs.flatten ++ R) old R.length = .ok ((rs.map (· ++ List.replicate (R.length - old) zero)).flatten ++ R) := by
  have hflat := flatten_length_const hrs
  have hpos : 0 < rs.length := List.length_pos_iff.2 hne
  have hrows : ((rs.flatten ++ R).length - R.length) / old = rs.length := by
    rw [List.length_append, Nat.add_sub_cancel, hflat, Nat.mul_div_cancel _ hold]
  unfold reshape
  rw [if_neg (by rw [List.length_append]; omega), hrows]
  simp only
  rw [if_neg (by omega), Nat.mul_div_cancel_left _ hpos]
  rw [List.range_eq_range', List.range'_succ, List.foldlM_cons]
  obtain ⟨it, mv, e⟩ := reshape_loop zero old R.length (R.length - old) rfl hlt rs hrs 1
    ((R ++ List.replicate (rs.length * (R.length - old)) zero).take (rs.length * (R.length - old))) R (by simp) (by omega)
  have hstep : reshapeStep zero old R.length (R.length - old)
      (rs.flatten ++ R ++ List.replicate (rs.length * (R.length - old)) zero, ((rs.flatten ++ R).length : Int) - R.length,
        ((rs.length * (R.length - old) : Nat) : Int)) 0 =
      .ok (rs.flatten ++ ((R ++ List.replicate (rs.length * (R.length - old)) zero).take (rs.length * (R.length - old)) ++ R),
          (rs.length : Int) * old - old, (rs.length : Int) * ((R.length - old : Nat) : Int) - ((R.length - old : Nat) : Int)) := by
    have e1 : ((rs.flatten ++ R).length : Int) - R.length = (rs.flatten.length : Int) := by simp
    have e3 : rs.flatten ++ R ++ List.replicate (rs.length * (R.length - old)) zero =
        rs.flatten ++ (R ++ (List.replicate (rs.length * (R.length - old)) zero ++ [])) := by simp
    unfold reshapeStep
    simp only
    rw [e1, e3, if_pos True.intro, moveBlock_ok _ R _ [] _ _ rfl (by simp)]
    simp only [bind, Except.bind, fillBlock, if_neg (by omega : ¬ (0 > 0)), pure, Except.pure, Except.ok.injEq, Prod.mk.injEq]
    refine ⟨by simp, ?_, ?_⟩
    · rw [hflat]; push_cast; ring
    · push_cast; ring
  rw [hstep]
  simp only [bind, Except.bind, pure, Except.pure]
  rw [Nat.zero_add, e]

/-! ### The matrix after some rows -/

/-- A row filled up with zeros. -/
def padTo (zero : F) (w : Nat) (c : List F) : List F := c ++ List.replicate (w - c.length) zero

/-- The width of the widest row. -/
def maxLen (cs : List (List F)) : Nat := (cs.map List.length).foldl max 0

theorem foldl_max_append (l : List Nat) (a x : Nat) : (l ++ [x]).foldl max a = max (l.foldl max a) x := by
  rw [List.foldl_append]; rfl

theorem maxLen_append (cs : List (List F)) (c : List F) : maxLen (cs ++ [c]) = max (maxLen cs) c.length := by
  unfold maxLen
  rw [List.map_append, List.map_singleton, foldl_max_append]

theorem le_maxLen {cs : List (List F)} {c : List F} (h : c ∈ cs) : c.length ≤ maxLen cs := by
  induction cs using List.reverseRecOn with
  | nil => cases h
  | append_singleton cs x ih =>
    rw [maxLen_append]
    rcases List.mem_append.1 h with h | h
    · have := ih h; omega
    · rw [List.mem_singleton] at h; subst h; omega

theorem dropWhile_nil {α : Type} {p : α → Bool} {l : List α} (h : ∀ a ∈ l, p a = true) : l.dropWhile p = [] := by
  induction l with
  | nil => rfl
  | cons a l ih =>
    rw [List.dropWhile_cons, if_pos (h a (by simp)), ih (fun b hb => h b (by simp [hb]))]

theorem of_dropWhile_nil {α : Type} {p : α → Bool} {l : List α} (h : l.dropWhile p = []) : ∀ a ∈ l, p a = true := by
  induction l with
  | nil => simp
  | cons a l ih =>
    rw [List.dropWhile_cons] at h
    split at h
    · rename_i hp
      intro b hb
      rcases List.mem_cons.1 hb with rfl | hb
      · exact hp
      · exact ih h b hb
    · cases h

theorem maxLen_eq_zero {cs : List (List F)} : maxLen cs = 0 ↔ cs.dropWhile List.isEmpty = [] := by
  constructor
  · intro h
    apply dropWhile_nil
    intro c hc
    have := le_maxLen hc
    rw [List.isEmpty_iff]
    exact List.length_eq_zero_iff.1 (by omega)
  · intro h
    replace h := of_dropWhile_nil h
    induction cs using List.reverseRecOn with
    | nil => rfl
    | append_singleton cs x ih =>
      rw [maxLen_append, ih (fun c hc => h c (by simp [hc]))]
      have := h x (by simp)
      rw [List.isEmpty_iff] at this
      simp [this]

theorem dropWhile_append_of_ne {cs : List (List F)} (h : cs.dropWhile List.isEmpty ≠ []) (l : List (List F)) :
    (cs ++ l).dropWhile List.isEmpty = cs.dropWhile List.isEmpty ++ l := by
  rw [List.dropWhile_append, if_neg]
  rwa [List.isEmpty_iff]

/-- The cells after the rows `cs`: rows in front without any feature leave nothing. -/
def layout (zero : F) (cs : List (List F)) : List F := ((cs.dropWhile List.isEmpty).map (padTo zero (maxLen cs))).flatten

theorem endRow_ok (zero : F) (cs : List (List F)) (c : List F) :
    endRow zero (maxLen cs) (layout zero cs ++ c, c.length + 1) = .ok (layout zero (cs ++ [c]), maxLen (cs ++ [c])) := by
  have hmax := maxLen_append cs c
  have hpadlen : ∀ r ∈ (cs.dropWhile List.isEmpty).map (padTo zero (maxLen cs)), r.length = maxLen cs := by
    intro r hr
    obtain ⟨x, hx, rfl⟩ := List.mem_map.1 hr
    have := le_maxLen (List.dropWhile_subset _ hx)
    simp only [padTo, List.length_append, List.length_replicate]
    omega
  unfold endRow
  simp only
  by_cases hW : maxLen cs = 0
  · have hd := maxLen_eq_zero.1 hW
    have hl : layout zero cs = [] := by simp [layout, hd]
    rw [if_neg (by omega), hW, hl]
    simp only [Nat.zero_add, Nat.sub_self, pure, Except.pure, Except.ok.injEq, Prod.mk.injEq]
    have h1 : 1 - (c.length + 1) = 0 := by omega
    rw [h1, hmax, hW]
    simp only [List.replicate_zero, List.append_nil, Nat.add_zero, Nat.add_sub_cancel, List.nil_append, Nat.zero_max]
    refine ⟨?_, by show max _ _ = _; omega⟩
    unfold layout
    rw [hmax, hW, Nat.zero_max, List.dropWhile_append, hd]
    cases c with
    | nil => rfl
    | cons x c => simp [List.dropWhile, padTo]
  · have hd : cs.dropWhile List.isEmpty ≠ [] := fun h => hW (maxLen_eq_zero.2 h)
    by_cases hc : c.length ≤ maxLen cs
    · rw [if_neg (by omega)]
      simp only [pure, Except.pure, Except.ok.injEq, Prod.mk.injEq]
      have hmax' : maxLen (cs ++ [c]) = maxLen cs := by omega
      refine ⟨?_, ?_⟩
      · unfold layout
        rw [hmax', dropWhile_append_of_ne hd]
        have : maxLen cs + 1 - (c.length + 1) = maxLen cs - c.length := by omega
        simp [padTo, this]
      · rw [hmax']
        show max _ _ = _
        omega
    · have hpad : maxLen cs + 1 - (c.length + 1) = 0 := by omega
      rw [hpad, if_pos (by omega)]
      simp only [List.replicate_zero, List.append_nil, Nat.add_zero, Nat.add_sub_cancel]
      rw [show layout zero cs = ((cs.dropWhile List.isEmpty).map (padTo zero (maxLen cs))).flatten from rfl,
        reshape_ok zero (maxLen cs) _ hpadlen (by simpa using hd) c (by omega) (by omega)]
      simp only [bind, Except.bind, pure, Except.pure, Except.ok.injEq, Prod.mk.injEq]
      have hmax' : maxLen (cs ++ [c]) = c.length := by omega
      refine ⟨?_, ?_⟩
      · unfold layout
        rw [hmax', dropWhile_append_of_ne hd, List.map_append, List.flatten_append, List.map_map]
        congr 1
        · congr 1
          apply List.map_congr_left
          intro r hr
          have hle := le_maxLen (List.dropWhile_subset _ hr)
          simp only [Function.comp, padTo, List.append_assoc, List.replicate_append_replicate]
          congr 2
          omega
        · simp [padTo]
      · rw [hmax']
        show max _ _ = _
        omega

/-! ### One row -/

/-- The cells of a row whose tokens are `ps`, from feature `next` on. -/
def fillRow (zero : F) : Nat → List (Int × F) → List F
  | _, [] => []
  | next, (idx, x) :: ps => List.replicate (idx - next).toNat zero ++ x :: fillRow zero (next + (idx - next).toNat + 1) ps

theorem addFeatures_ok (sc : Scan F) {toks : List (List Char)} {ps : List (Int × F)}
    (h : List.Forall₂ (fun t p => scanPair sc t = some p) toks ps) (data : List F) (next : Nat) :
    toks.foldlM (addFeature sc) (data, next) =
      .ok (data ++ fillRow sc.zero next ps, next + (fillRow sc.zero next ps).length) := by
  induction h generalizing data next with
  | nil => simp [fillRow, pure, Except.pure]
  | @cons t p toks ps ht _ ih =>
    obtain ⟨idx, x⟩ := p
    have hstep : addFeature sc (data, next) t =
        .ok (data ++ List.replicate (idx - next).toNat sc.zero ++ [x], next + (idx - next).toNat + 1) := by
      unfold addFeature
      rw [ht]
    rw [List.foldlM_cons, hstep]
    simp only [bind, Except.bind]
    rw [ih]
    simp only [fillRow, List.length_append, List.length_replicate, List.length_cons, Except.ok.injEq, Prod.mk.injEq]
    exact ⟨by simp, by omega⟩

/-- The result of reading a line. -/
inductive Reads (sc : Scan F) : List Char → Option (F × Option Int × List F) → Prop where
  | comment (c : List Char) : Reads sc ('#' :: c) none
  | row {line rest token : List Char} {tokens : List (List Char)} {y : F} {q : Option Int} {ps : List (Int × F)} (hne : line ≠ [])
      (hc : ∀ c, line ≠ '#' :: c)
      (hl : sc.label ((line.takeWhile (· ≠ '#')).dropWhile isSpace) = some (y, rest)) (hw : words rest = token :: tokens)
      (hq : scanQid token = q)
      (hp : List.Forall₂ (fun t p => scanPair sc t = some p) (q.elim (token :: tokens) (fun _ => tokens)) ps) :
      Reads sc line (some (y, q, fillRow sc.zero 1 ps))

/-- The state after some rows. -/
def stateOf (zero : F) (rows : List (F × Option Int × List F)) : State F :=
  ⟨layout zero (rows.map (·.2.2)), rows.map (·.1), rows.filterMap (·.2.1), maxLen (rows.map (·.2.2))⟩

theorem parseLine_row {sc : Scan F} {line : List Char} (hne : line ≠ []) (hc : ∀ c, line ≠ '#' :: c) {s : State F} :
    parseLine sc s line = parseRow sc s line := by
  cases line with
  | nil => exact absurd rfl hne
  | cons c cs =>
    unfold parseLine
    simp only
    rw [if_neg]
    rintro rfl
    exact hc cs rfl

theorem parseLine_ok (sc : Scan F) {line : List Char} {r : Option (F × Option Int × List F)} (h : Reads sc line r)
    (rows : List (F × Option Int × List F)) :
    parseLine sc (stateOf sc.zero rows) line = .ok (stateOf sc.zero (rows ++ r.toList)) := by
  cases h with
  | comment c => simp [parseLine]
  | @row line rest token tokens y q ps hne hc hl hw hq hp =>
    rw [parseLine_row hne hc]
    unfold parseRow
    rw [hl]
    simp only
    rw [hw]
    unfold parseTokens
    have hfold := addFeatures_ok sc hp (layout sc.zero (rows.map (·.2.2))) 1
    have hend := endRow_ok sc.zero (rows.map (·.2.2)) (fillRow sc.zero 1 ps)
    rw [Nat.add_comm 1] at hfold
    cases q with
    | none =>
      simp only [splitQid, hq]
      simp only [Option.elim] at hfold
      simp only [stateOf, hfold, hend, bind, Except.bind, pure, Except.pure, Option.toList, List.map_append, List.filterMap_append,
        List.map_cons, List.map_nil, List.filterMap_cons, List.filterMap_nil, List.append_nil]
    | some q =>
      simp only [splitQid, hq]
      simp only [Option.elim] at hfold
      simp only [stateOf, hfold, hend, bind, Except.bind, pure, Except.pure, Option.toList, List.map_append, List.filterMap_append,
        List.map_cons, List.map_nil, List.filterMap_cons, List.filterMap_nil]

theorem parseLines_ok (sc : Scan F) {lines : List (List Char)} {rs : List (Option (F × Option Int × List F))}
    (h : List.Forall₂ (Reads sc) lines rs) (rows : List (F × Option Int × List F)) :
    lines.foldlM (parseLine sc) (stateOf sc.zero rows) = .ok (stateOf sc.zero (rows ++ rs.filterMap id)) := by
  induction h generalizing rows with
  | nil => simp [pure, Except.pure]
  | @cons l r lines rs hl _ ih =>
    rw [List.foldlM_cons, parseLine_ok sc hl]
    simp only [bind, Except.bind]
    rw [ih, List.append_assoc]
    congr 3
    cases r <;> rfl

/-- Every line that is not read as above is rejected. -/
theorem addFeatures_error (sc : Scan F) {toks : List (List Char)} (h : ∃ t ∈ toks, scanPair sc t = none) (s : List F × Nat) :
    toks.foldlM (addFeature sc) s = .error .runtimeError := by
  induction toks generalizing s with
  | nil => obtain ⟨t, ht, _⟩ := h; cases ht
  | cons t toks ih =>
    rw [List.foldlM_cons]
    cases hs : scanPair sc t with
    | none =>
      have : addFeature sc s t = .error .runtimeError := by unfold addFeature; rw [hs]
      rw [this]
      rfl
    | some p =>
      obtain ⟨s', hs'⟩ : ∃ s', addFeature sc s t = .ok s' := by unfold addFeature; rw [hs]; exact ⟨_, rfl⟩
      rw [hs']
      simp only [bind, Except.bind]
      apply ih
      obtain ⟨u, hu, hn⟩ := h
      rcases List.mem_cons.1 hu with rfl | hu
      · rw [hs] at hn; cases hn
      · exact ⟨u, hu, hn⟩

theorem forall₂_of_all_some {α β : Type} {f : α → Option β} (l : List α) (h : ∀ a ∈ l, f a ≠ none) :
    ∃ ps, List.Forall₂ (fun t p => f t = some p) l ps := by
  induction l with
  | nil => exact ⟨[], .nil⟩
  | cons a l ih =>
    obtain ⟨ps, hps⟩ := ih (fun b hb => h b (by simp [hb]))
    obtain ⟨p, hp⟩ := Option.ne_none_iff_exists'.1 (h a (by simp))
    exact ⟨p :: ps, .cons hp hps⟩

theorem parseLine_cases (sc : Scan F) (line : List Char) :
    (∃ r, Reads sc line r) ∨ ∀ s, parseLine sc s line = .error .runtimeError := by
  by_cases hne : line = []
  · right; intro s; subst hne; rfl
  by_cases hc : ∃ c, line = '#' :: c
  · left; obtain ⟨c, rfl⟩ := hc; exact ⟨none, .comment c⟩
  have hunf : ∀ s, parseLine sc s line = parseRow sc s line := fun s => parseLine_row hne (fun c h => hc ⟨c, h⟩)
  cases hl : sc.label ((line.takeWhile (· ≠ '#')).dropWhile isSpace) with
  | none => right; intro s; rw [hunf]; unfold parseRow; rw [hl]
  | some p =>
    obtain ⟨y, rest⟩ := p
    have hunf2 : ∀ s, parseLine sc s line = parseTokens sc s y (words rest) := by
      intro s; rw [hunf]; unfold parseRow; rw [hl]
    cases hw : words rest with
    | nil => right; intro s; rw [hunf2, hw]; rfl
    | cons token tokens =>
      by_cases hall : ∀ t ∈ (scanQid token).elim (token :: tokens) (fun _ => tokens), scanPair sc t ≠ none
      · left
        obtain ⟨ps, hps⟩ := forall₂_of_all_some _ hall
        exact ⟨_, .row hne (fun c h => hc ⟨c, h⟩) hl hw rfl hps⟩
      · right
        push Not at hall
        intro s
        rw [hunf2, hw]
        unfold parseTokens splitQid
        cases hq : scanQid token with
        | none =>
          rw [hq] at hall
          simp only [Option.elim] at hall
          simp only [hq, addFeatures_error sc hall, bind, Except.bind]
        | some q =>
          rw [hq] at hall
          simp only [Option.elim] at hall
          simp only [hq, addFeatures_error sc hall, bind, Except.bind]

theorem parseLines_cases (sc : Scan F) (lines : List (List Char)) :
    (∃ rs, List.Forall₂ (Reads sc) lines rs) ∨
      ((∃ line ∈ lines, ∀ s, parseLine sc s line = .error .runtimeError) ∧
        ∀ rows, lines.foldlM (parseLine sc) (stateOf sc.zero rows) = .error .runtimeError) := by
  induction lines with
  | nil => exact .inl ⟨[], .nil⟩
  | cons l lines ih =>
    rcases parseLine_cases sc l with ⟨r, hr⟩ | herr
    · rcases ih with ⟨rs, hrs⟩ | ⟨⟨line, hline, h1⟩, h2⟩
      · exact .inl ⟨r :: rs, .cons hr hrs⟩
      · refine .inr ⟨⟨line, by simp [hline], h1⟩, fun rows => ?_⟩
        rw [List.foldlM_cons, parseLine_ok sc hr]
        simp only [bind, Except.bind]
        exact h2 _
    · refine .inr ⟨⟨l, by simp, herr⟩, fun rows => ?_⟩
      rw [List.foldlM_cons, herr]
      rfl

end Svm
end Verif
