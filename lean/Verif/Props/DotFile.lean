/-
Property C121: the file written by `export_graphviz`, also when the call fails.
-/
import Verif.Model.DotFile
import Verif.Props.DotText
import Verif.Props.Recursion
import Verif.Spec.DotFile

namespace Verif.Props
open Spec Ensemble Dot
variable {F : Type} {A B : Type}

/-! ### Pieces of code -/

theorem written_ok {a : Written A} {x : A} (h : a.result = .ok x) (f : A → Written B) : a >>= f = ⟨a.text ++ (f x).text, (f x).result⟩ := by
  show Written.andThen a f = _
  unfold Written.andThen
  rw [h]

theorem written_error {a : Written A} {e : PyErr} (h : a.result = .error e) (f : A → Written B) : a >>= f = ⟨a.text, .error e⟩ := by
  show Written.andThen a f = _
  unfold Written.andThen
  rw [h]

theorem quiet_ok (x : A) (f : A → Written B) : quiet (.ok x) >>= f = f x := by
  rw [written_ok rfl]
  rfl

theorem quiet_error (e : PyErr) (f : A → Written B) : quiet (.error e) >>= f = ⟨[], .error e⟩ := written_error rfl f

theorem write_bind (s : List Char) (f : Unit → Written B) : write s >>= f = ⟨s ++ (f ()).text, (f ()).result⟩ := written_ok rfl f

theorem nested_ok {n frames : Nat} (h : n ≤ frames) (f : Unit → Written B) : nested n frames >>= f = f () := by
  rw [written_ok (x := ()) (by unfold nested; exact if_pos h)]
  rfl

theorem nested_error {n frames : Nat} (h : ¬n ≤ frames) (f : Unit → Written B) : nested n frames >>= f = ⟨[], .error .runtimeError⟩ :=
  written_error (e := .runtimeError) (by unfold nested; exact if_neg h) f

/-- The same, or cut off by `RecursionError`. -/
def Cut (a b : Written A) : Prop := a = b ∨ (a.result = .error .runtimeError ∧ a.text <+: b.text)

theorem Cut.refl (a : Written A) : Cut a a := .inl rfl

theorem Cut.bind {a b : Written A} {f g : A → Written B} (h : Cut a b) (h' : ∀ x, Cut (f x) (g x)) : Cut (a >>= f) (b >>= g) := by
  rcases h with rfl | ⟨h1, h2⟩
  · cases hr : a.result with
    | error e => rw [written_error hr, written_error hr]; exact .refl _
    | ok x =>
      rw [written_ok hr, written_ok hr]
      rcases h' x with h3 | ⟨h3, h4⟩
      · rw [h3]; exact .refl _
      · exact .inr ⟨h3, (List.prefix_append_right_inj _).2 h4⟩
  · rw [written_error h1]
    refine .inr ⟨rfl, ?_⟩
    cases hr : b.result with
    | error e => rw [written_error hr]; exact h2
    | ok x => rw [written_ok hr]; exact h2.trans (List.prefix_append _ _)

theorem Cut.nested {n a b : Nat} (h : a ≤ b) : Cut (nested n a) (nested n b) := by
  unfold Dot.nested
  by_cases h1 : n ≤ a
  · rw [if_pos h1, if_pos (by omega)]; exact .refl _
  · rw [if_neg h1]; exact .inr ⟨rfl, List.nil_prefix⟩

section
variable [Field F] [LinearOrder F]
variable (cmap : Ratio F → List Int) (pr : Printers F) (look : Look) (round : F → F) (m : Ensemble F) (o : Options) (k : Nat)

omit [Field F] [LinearOrder F] in
/-- A limit only stops the counting. -/
theorem count_cut : ∀ (a b : Nat) (d : Counts) (i : Int), a ≤ b →
    recursiveCountR m a d i = recursiveCountR m b d i ∨ recursiveCountR m a d i = .error .runtimeError
  | 0, _, _, _, _ => .inr rfl
  | a + 1, 0, _, _, h => by omega
  | a + 1, b + 1, d, i, h => by
    unfold recursiveCountR
    by_cases ha : a = 0
    · exact .inr (if_pos ha)
    rw [if_neg ha, if_neg (by omega)]
    cases isLeafNode m i with
    | error e => exact .inl rfl
    | ok leaf =>
      cases leaf with
      | true => exact .inl rfl
      | false =>
        simp only [bind, Except.bind, Bool.false_eq_true, if_false]
        cases pyGet m.left i with
        | error e => exact .inl rfl
        | ok l =>
          simp only
          rcases count_cut a b d l (by omega) with h1 | h1
          · rw [h1]
            cases recursiveCountR m b d l with
            | error e => exact .inl rfl
            | ok p =>
              simp only
              cases pyGet m.right i with
              | error e => exact .inl rfl
              | ok r =>
                simp only
                rcases count_cut a b p.2 r (by omega) with h2 | h2
                · rw [h2]; exact .inl rfl
                · rw [h2]; exact .inr rfl
          · rw [h1]; exact .inr rfl

theorem prepare_cut {a b : Nat} (h : a ≤ b) (badLabel : Bool) (leaves : Option (List (List Int))) :
    prepare m o k a badLabel leaves = prepare m o k b badLabel leaves ∨ prepare m o k a badLabel leaves = .error .runtimeError := by
  cases leaves with
  | none =>
    unfold prepare
    by_cases h1 : a = 0
    · exact .inr (if_pos h1)
    · rw [if_neg h1, if_neg (by omega)]; exact .inl rfl
  | some leaves =>
    unfold prepare
    simp only [bind, Except.bind]
    cases leaves.mapM (fun row => pyGet row (k : Int)) with
    | error e => exact .inl rfl
    | ok col =>
      simp only
      cases pyGet m.root (k : Int) with
      | error e => exact .inl rfl
      | ok root =>
        simp only
        rcases count_cut m a b (leafCounts col) root h with h1 | h1
        · rw [h1]; exact .inl rfl
        · rw [h1]; exact .inr rfl

theorem box_cut (colour : Nat) (counts : Option (Counts × Nat)) (setup : Option Counts × (F × F)) (i : Int) (parent : Option Int) {a b : Nat} (h : a ≤ b) :
    Cut (boxW cmap pr look round m o k colour counts setup a i parent) (boxW cmap pr look round m o k colour counts setup b i parent) := by
  unfold boxW
  exact (Cut.nested h).bind (fun _ => (Cut.refl _).bind (fun leaf => (Cut.nested h).bind (fun _ => (Cut.refl _).bind (fun t =>
    (Cut.refl _).bind (fun _ => (Cut.nested h).bind (fun _ => .refl _))))))

theorem recurse_cut (colour : Nat) (counts : Option (Counts × Nat)) (setup : Option Counts × (F × F)) :
    ∀ (a b : Nat) (i : Int) (parent : Option Int) (depth : Nat), a ≤ b →
      Cut (recurseW cmap pr look round m o k colour counts setup a i parent depth) (recurseW cmap pr look round m o k colour counts setup b i parent depth)
  | 0, _, _, _, _, _ => .inr ⟨rfl, List.nil_prefix⟩
  | a + 1, 0, _, _, _, h => by omega
  | a + 1, b + 1, i, parent, depth, h => by
    have hab : a ≤ b := by omega
    unfold recurseW
    refine (Cut.nested hab).bind (fun _ => (Cut.refl _).bind (fun bad => ?_))
    split
    · exact .refl _
    split
    · refine (box_cut cmap pr look round m o k colour counts setup i parent hab).bind (fun leaf => ?_)
      split
      · exact .refl _
      · exact (Cut.refl _).bind (fun l => (recurse_cut colour counts setup a b l _ _ hab).bind (fun x => (Cut.refl _).bind (fun r =>
          (recurse_cut colour counts setup a b r _ _ hab).bind (fun y => .refl _))))
    · exact .refl _

/-- C121, any arrays and arguments: with a lower limit on nested calls the call either does the same or raises `RecursionError`, having written the
beginning of what it would have written. -/
theorem C121_prefix (colour : Nat) {a b : Nat} (h : a ≤ b) (badLabel : Bool) (leaves : Option (List (List Int))) (old : List Char) :
    exportFile cmap pr look round m o k .path old colour a badLabel leaves = exportFile cmap pr look round m o k .path old colour b badLabel leaves ∨
    ((exportFile cmap pr look round m o k .path old colour a badLabel leaves).1 = .error .runtimeError ∧
      (exportFile cmap pr look round m o k .path old colour a badLabel leaves).2 <+:
        (exportFile cmap pr look round m o k .path old colour b badLabel leaves).2) := by
  have key : Cut (exportWritten cmap pr look round m o k colour a badLabel leaves) (exportWritten cmap pr look round m o k colour b badLabel leaves) := by
    unfold exportWritten
    split
    · exact .refl _
    refine (Cut.refl _).bind (fun _ => ?_)
    split
    · exact .refl _
    refine Cut.bind ?_ (fun p => (Cut.refl _).bind (fun _ => (Cut.refl _).bind (fun root =>
      (recurse_cut cmap pr look round m o k colour p.1 p.2 a b root none 0 h).bind (fun ranks => .refl _))))
    rcases prepare_cut m o k h badLabel leaves with h1 | h1
    · rw [h1]; exact .refl _
    · rw [h1]; exact .inr ⟨rfl, List.nil_prefix⟩
  unfold exportFile
  rcases key with h1 | ⟨h1, h2⟩
  · rw [h1]; exact .inl rfl
  · exact .inr ⟨by simp only [h1]; rfl, h2⟩

/-- C121, any arrays: the string, the open file and the file at a path get the same text; an exception loses the string and leaves the text in the
files. -/
theorem C121_targets (colour frames : Nat) (badLabel : Bool) (leaves : Option (List (List Int))) (old : List Char) :
    ∃ (res : Except PyErr Unit) (text : List Char), ∀ out, exportFile cmap pr look round m o k out old colour frames badLabel leaves =
      match out with
      | .path => (res.map (fun _ => none), text)
      | .handle => (res.map (fun _ => none), old ++ text)
      | .none => (res.map (fun _ => some text), old) := by
  refine ⟨(exportWritten cmap pr look round m o k colour frames badLabel leaves).result,
    (exportWritten cmap pr look round m o k colour frames badLabel leaves).text, fun out => ?_⟩
  cases out <;> rfl

/-- Cut off by `RecursionError` before the end of the text. -/
def Stops (w : Written A) (full : List Char) : Prop := ∃ rest, rest ≠ [] ∧ w.text ++ rest = full ∧ w.result = .error .runtimeError

theorem Stops.bind {w : Written A} {full : List Char} (h : Stops w full) (f : A → Written B) (r : List Char) : Stops (w >>= f) (full ++ r) := by
  obtain ⟨rest, h1, h2, h3⟩ := h
  rw [written_error h3]
  exact ⟨rest ++ r, by simp [h1], by rw [← h2, List.append_assoc], rfl⟩

theorem Stops.after {a : Written A} {x : A} {s : List Char} (ha : a = ⟨s, .ok x⟩) {f : A → Written B} {full : List Char} (h : Stops (f x) full) :
    Stops (a >>= f) (s ++ full) := by
  obtain ⟨rest, h1, h2, h3⟩ := h
  subst ha
  rw [written_ok rfl]
  exact ⟨rest, h1, by rw [← h2, List.append_assoc], h3⟩

theorem stops_nil {e : Written A} (h : e = ⟨[], .error .runtimeError⟩) {full : List Char} (hf : full ≠ []) : Stops e full := by
  subst h
  exact ⟨full, hf, rfl, rfl⟩

variable {cmap pr look round m o k}

theorem box_chars {setup : Option Counts × (F × F)} {i : Int} {t : NodeText F F} {s1 : List Char}
    (h : stmtChars cmap pr look m o setup (.node i t) = .ok s1) : ∃ fill, fillColor cmap look m o setup t.criterion.isOutput i = .ok fill ∧
      s1 = Svm.showInt i ++ " [label=".toList ++ nodeToStr look.special pr t ++ (fillChars fill ++ "] ;\n".toList) := by
  simp only [stmtChars] at h
  cases hf : fillColor cmap look m o setup t.criterion.isOutput i with
  | error e => rw [hf] at h; cases h
  | ok fill =>
    rw [hf] at h
    simp only [bind, Except.bind, pure, Except.pure, Except.ok.injEq] at h
    exact ⟨fill, rfl, by rw [← h]; simp only [List.append_assoc]⟩

theorem isOutput_of {counts : Option (Counts × Nat)} {i : Int} {t : NodeText F F} {b : Bool} (hb : isLeafNode m i = .ok b)
    (h : nodeText round m o counts i = .ok t) : t.criterion.isOutput = b := by
  unfold nodeText at h
  rw [hb] at h
  simp only [bind, Except.bind] at h
  cases hv : pyGet m.value i with
  | error e => rw [hv] at h; cases h
  | ok v =>
    rw [hv] at h
    cases b with
    | true =>
      simp only [if_true, pure, Except.pure, Except.ok.injEq] at h
      rw [← h]; rfl
    | false =>
      simp only [Bool.false_eq_true, if_false] at h
      cases hf : pyGet m.feature i with
      | error e => rw [hf] at h; cases h
      | ok f =>
        rw [hf] at h
        simp only at h
        cases hx : featureText o f with
        | error e => rw [hx] at h; cases h
        | ok x =>
          rw [hx] at h
          simp only [pure, Except.pure, Except.ok.injEq] at h
          rw [← h]; rfl

theorem box_spec {colour : Nat} {counts : Option (Counts × Nat)} {setup : Option Counts × (F × F)} {i : Int} {parent : Option Int} {b : Bool}
    {t : NodeText F F} {e : List (Stmt F F)} {s1 : List Char} {s2 : List (List Char)} (hb : isLeafNode m i = .ok b)
    (ht : nodeText round m o counts i = .ok t) (h1 : stmtChars cmap pr look m o setup (.node i t) = .ok s1)
    (he : edgeTo m k parent i = .ok e) (h2 : e.mapM (stmtChars cmap pr look m o setup) = .ok s2) (frames : Nat) :
    (boxCalls (asksColour look o setup.1.isSome b) colour ≤ frames + 1 →
      boxW cmap pr look round m o k colour counts setup frames i parent = ⟨s1 ++ s2.flatten, .ok b⟩) ∧
    (frames + 1 < boxCalls (asksColour look o setup.1.isSome b) colour →
      Stops (boxW cmap pr look round m o k colour counts setup frames i parent) (s1 ++ s2.flatten)) := by
  obtain ⟨fill, hfill, hs1⟩ := box_chars h1
  rw [isOutput_of hb ht] at hfill
  have hne : s1 ≠ [] := by rw [hs1]; simp
  unfold boxCalls
  generalize hask : asksColour look o setup.1.isSome b = ask
  constructor
  · intro h
    have hc : (if ask then colour else 0) ≤ frames := by
      cases ask
      · simp
      · simp only [if_true] at h ⊢; omega
    have h3 : 2 ≤ frames := by cases ask <;> simp at h <;> omega
    unfold boxW
    rw [nested_ok (by omega), hb, quiet_ok, nested_ok h3, ht, quiet_ok, write_bind, hask, nested_ok hc, hfill, quiet_ok, write_bind, he, quiet_ok, h2,
      quiet_ok, write_bind, hs1]
    simp [pure, List.append_assoc]
  · intro h
    unfold boxW
    by_cases h3 : 1 ≤ frames
    · rw [nested_ok h3, hb, quiet_ok]
      by_cases h4 : 2 ≤ frames
      · rw [nested_ok h4, ht, quiet_ok, hask, hs1, List.append_assoc _ _ s2.flatten]
        refine Stops.after rfl (stops_nil (nested_error ?_ _) (by simp))
        cases ask
        · simp at h; omega
        · simp only [if_true] at h ⊢; omega
      · exact stops_nil (nested_error h4 _) (by simp [hne])
    · exact stops_nil (nested_error h3 _) (by simp [hne])

theorem mapM_append_ok {f : A → Except PyErr B} : ∀ {l l' : List A} {r : List B}, (l ++ l').mapM f = .ok r →
    ∃ a b, l.mapM f = .ok a ∧ l'.mapM f = .ok b ∧ r = a ++ b
  | [], l', r, h => ⟨[], r, rfl, h, rfl⟩
  | x :: l, l', r, h => by
    rw [List.cons_append, List.mapM_cons] at h
    cases hx : f x with
    | error e => rw [hx] at h; cases h
    | ok y =>
      rw [hx] at h
      simp only [bind, Except.bind] at h
      cases hr : (l ++ l').mapM f with
      | error e => rw [hr] at h; cases h
      | ok r' =>
        rw [hr] at h
        simp only [pure, Except.pure, Except.ok.injEq] at h
        obtain ⟨a, b, h1, h2, h3⟩ := mapM_append_ok hr
        refine ⟨y :: a, b, ?_, h2, by rw [← h, h3]; rfl⟩
        rw [List.mapM_cons, hx, h1]
        rfl

theorem mapM_cons_ok {f : A → Except PyErr B} {x : A} {l : List A} {r : List B} (h : (x :: l).mapM f = .ok r) :
    ∃ y r', f x = .ok y ∧ l.mapM f = .ok r' ∧ r = y :: r' := by
  rw [List.mapM_cons] at h
  cases hx : f x with
  | error e => rw [hx] at h; cases h
  | ok y =>
    rw [hx] at h
    simp only [bind, Except.bind] at h
    cases hr : l.mapM f with
    | error e => rw [hr] at h; cases h
    | ok r' =>
      rw [hr] at h
      simp only [pure, Except.pure, Except.ok.injEq] at h
      exact ⟨y, r', rfl, rfl, h.symm⟩

theorem boxCalls_ge (c : Bool) (n : Nat) : 3 ≤ boxCalls c n := by unfold boxCalls; split <;> omega

theorem drawCalls_ge (d : Option Nat) {a b : Nat} (ha : 3 ≤ a) (hb : 3 ≤ b) (t : Spec.Tree F) (depth : Nat) : 2 ≤ drawCalls d a b t depth := by
  cases t <;> unfold drawCalls <;> split <;> omega

set_option maxHeartbeats 1000000 in
/-- Drawing a subtree. -/
theorem recurseW_spec {colour : Nat} {counts : Option (Counts × Nat)} {setup : Option Counts × (F × F)} {i : Nat} {t : Spec.Tree F} {ids : List Nat}
    (hen : Encodes m i t ids) : ∀ (fuel : Nat) (parent : Option Int) (depth : Nat) (stmts : List (Stmt F F)) (body : List (List Char)),
      (parent = none → within o.maxDepth depth = true) → recurse round m o k counts fuel i parent depth = .ok stmts →
      stmts.mapM (stmtChars cmap pr look m o setup) = .ok body →
      ∃ ranks, recurseRanks m o fuel i depth = .ok ranks ∧ ∀ frames,
        (drawCalls o.maxDepth (boxCalls (asksColour look o setup.1.isSome true) colour) (boxCalls (asksColour look o setup.1.isSome false) colour) t depth ≤ frames →
          recurseW cmap pr look round m o k colour counts setup frames i parent depth = ⟨body.flatten, .ok ranks⟩) ∧
        (frames < drawCalls o.maxDepth (boxCalls (asksColour look o setup.1.isSome true) colour) (boxCalls (asksColour look o setup.1.isSome false) colour) t depth →
          Stops (recurseW cmap pr look round m o k colour counts setup frames i parent depth) body.flatten) := by
  have hB1 := boxCalls_ge (asksColour look o setup.1.isSome true) colour
  have hB2 := boxCalls_ge (asksColour look o setup.1.isSome false) colour
  have crop : ∀ (fuel : Nat) (i : Nat) (t : Spec.Tree F) (parent : Option Int) (depth : Nat) (stmts : List (Stmt F F)) (body : List (List Char)),
      (parent = none → within o.maxDepth depth = true) → within o.maxDepth depth = false →
      recurse round m o k counts fuel i parent depth = .ok stmts → stmts.mapM (stmtChars cmap pr look m o setup) = .ok body →
      ∃ ranks, recurseRanks m o fuel i depth = .ok ranks ∧ ∀ frames,
        (2 ≤ frames → recurseW cmap pr look round m o k colour counts setup frames i parent depth = ⟨body.flatten, .ok ranks⟩) ∧
        (frames < 2 → Stops (recurseW cmap pr look round m o k colour counts setup frames i parent depth) body.flatten) := by
    intro fuel i t parent depth stmts body hp hw h1 h2
    cases fuel with
    | zero => cases h1
    | succ fuel =>
      obtain ⟨p, rfl⟩ : ∃ p, parent = some p := by
        cases parent with
        | none => rw [hp rfl] at hw; cases hw
        | some p => exact ⟨p, rfl⟩
      unfold within at hw
      unfold recurse at h1
      cases hbad : parentIsLeaf m (some p) with
      | error e => rw [hbad] at h1; cases h1
      | ok bad =>
        rw [hbad] at h1
        simp only [bind, Except.bind] at h1
        cases bad with
        | true => cases h1
        | false =>
          simp only [Bool.false_eq_true, if_false, hw, pure, Except.pure, Except.ok.injEq] at h1
          refine ⟨[("leaves".toList, (i : Int))], by unfold recurseRanks; rw [hw]; rfl, fun frames => ⟨fun hf => ?_, fun hf => ?_⟩⟩
          · cases frames with
            | zero => omega
            | succ frames =>
              unfold recurseW
              rw [nested_ok (by simp; omega), hbad, quiet_ok, if_neg (by simp), hw, if_neg (by simp), h1, h2, quiet_ok, write_bind]
              simp [pure]
          · have hne : body.flatten ≠ [] := by
              rw [← h1] at h2
              obtain ⟨y, r', h3, h4, h5⟩ := mapM_cons_ok h2
              simp only [stmtChars, pure, Except.pure, Except.ok.injEq] at h3
              rw [h5, ← h3]
              simp
            refine stops_nil ?_ hne
            cases frames with
            | zero => rfl
            | succ frames =>
              unfold recurseW
              exact nested_error (by simp; omega) _
  induction hen with
  | @leaf i v hl hr hf hv =>
    intro fuel parent depth stmts body hp h1 h2
    unfold drawCalls
    cases hw : within o.maxDepth depth with
    | false => simpa using crop fuel i (.leaf v) parent depth stmts body hp hw h1 h2
    | true =>
      simp only [if_true]
      have hleaf : isLeafNode m (i : Int) = .ok true := by
        unfold isLeafNode
        simp [pyGet_ok hl, pyGet_ok hr, bind, Except.bind, pure, Except.pure]
      unfold within at hw
      cases fuel with
      | zero => cases h1
      | succ fuel =>
        unfold recurse at h1
        cases hbad : parentIsLeaf m parent with
        | error e => rw [hbad] at h1; cases h1
        | ok bad =>
          rw [hbad] at h1
          simp only [bind, Except.bind] at h1
          cases bad with
          | true => cases h1
          | false =>
            simp only [Bool.false_eq_true, if_false, hw, if_true, hleaf] at h1
            cases ht : nodeText (K := F) round m o counts i with
            | error e => rw [ht] at h1; cases h1
            | ok x =>
              rw [ht] at h1
              cases he : edgeTo (K := F) m k parent i with
              | error e => rw [he] at h1; cases h1
              | ok e =>
                rw [he] at h1
                simp only [if_true, pure, Except.pure, Except.ok.injEq] at h1
                rw [← h1] at h2
                obtain ⟨s1, s2, h3, h4, h5⟩ := mapM_cons_ok h2
                refine ⟨[("leaves".toList, (i : Int))], by unfold recurseRanks; simp [hw, hleaf, bind, Except.bind, pure, Except.pure], fun frames => ?_⟩
                cases frames with
                | zero =>
                  refine ⟨fun h => by omega, fun _ => stops_nil rfl ?_⟩
                  obtain ⟨fill, _, hs⟩ := box_chars h3
                  rw [h5, hs]
                  simp
                | succ frames =>
                  obtain ⟨hb1, hb2⟩ := box_spec (colour := colour) hleaf ht h3 he h4 frames
                  rw [h5, List.flatten_cons]
                  constructor
                  · intro hf
                    unfold recurseW
                    rw [nested_ok (by split <;> omega), hbad, quiet_ok, if_neg (by simp), hw, if_pos rfl, hb1 hf, written_ok rfl]
                    simp [pure]
                  · intro hf
                    unfold recurseW
                    by_cases hn : (if parent.isSome then 1 else 0) ≤ frames
                    · rw [nested_ok hn, hbad, quiet_ok, if_neg (by simp), hw, if_pos rfl]
                      have := (hb2 hf).bind (fun leaf : Bool => if leaf then pure [("leaves".toList, (i : Int))] else (do
                        let l ← quiet (pyGet m.left i)
                        let a ← recurseW cmap pr look round m o k colour counts setup frames l (some (i : Int)) (depth + 1)
                        let r ← quiet (pyGet m.right i)
                        let b ← recurseW cmap pr look round m o k colour counts setup frames r (some (i : Int)) (depth + 1)
                        pure ((Svm.decimal depth, (i : Int)) :: a ++ b))) []
                      simpa using this
                    · refine stops_nil (nested_error hn _) ?_
                      obtain ⟨fill, _, hs⟩ := box_chars h3
                      rw [hs]
                      simp
  | @node i f l r v tl tr sl sr hl hr hf hv _ _ ihl ihr =>
    intro fuel parent depth stmts body hp h1 h2
    unfold drawCalls
    cases hw : within o.maxDepth depth with
    | false => simpa using crop fuel i (.node f v tl tr) parent depth stmts body hp hw h1 h2
    | true =>
      simp only [if_true]
      have hleaf : isLeafNode m (i : Int) = .ok false := by
        unfold isLeafNode
        simp only [pyGet_ok hl, bind, Except.bind]
        rw [if_neg (by omega)]
        rfl
      unfold within at hw
      cases fuel with
      | zero => cases h1
      | succ fuel =>
        unfold recurse at h1
        cases hbad : parentIsLeaf m parent with
        | error e => rw [hbad] at h1; cases h1
        | ok bad =>
          rw [hbad] at h1
          simp only [bind, Except.bind] at h1
          cases bad with
          | true => cases h1
          | false =>
            simp only [Bool.false_eq_true, if_false, hw, if_true, hleaf, pyGet_ok hl, pyGet_ok hr] at h1
            cases ht : nodeText (K := F) round m o counts i with
            | error e => rw [ht] at h1; cases h1
            | ok x =>
              rw [ht] at h1
              cases he : edgeTo (K := F) m k parent i with
              | error e => rw [he] at h1; cases h1
              | ok e =>
                rw [he] at h1
                simp only at h1
                cases hA : recurse (K := F) round m o k counts fuel (l : Int) (some (i : Int)) (depth + 1) with
                | error e => rw [hA] at h1; cases h1
                | ok sa =>
                  rw [hA] at h1
                  simp only at h1
                  cases hB : recurse (K := F) round m o k counts fuel (r : Int) (some (i : Int)) (depth + 1) with
                  | error e => rw [hB] at h1; cases h1
                  | ok sb =>
                    rw [hB] at h1
                    simp only [pure, Except.pure, Except.ok.injEq] at h1
                    rw [← h1] at h2
                    obtain ⟨ab, b3, h2', h6, h7⟩ := mapM_append_ok h2
                    obtain ⟨a1, b2, h2'', h8, h9⟩ := mapM_append_ok h2'
                    obtain ⟨s1, s2, h3, h4, h5⟩ := mapM_cons_ok h2''
                    obtain ⟨ra, hra, hla⟩ := ihl fuel (some (i : Int)) (depth + 1) sa b2 (by simp) hA h8
                    obtain ⟨rb, hrb, hlb⟩ := ihr fuel (some (i : Int)) (depth + 1) sb b3 (by simp) hB h6
                    refine ⟨(Svm.decimal depth, (i : Int)) :: ra ++ rb, by
                      unfold recurseRanks
                      simp [hw, hleaf, pyGet_ok hl, pyGet_ok hr, hra, hrb, bind, Except.bind, pure, Except.pure], fun frames => ?_⟩
                    have hbody : body.flatten = (s1 ++ s2.flatten) ++ (b2.flatten ++ b3.flatten) := by
                      rw [h7, h9, h5]
                      simp [List.append_assoc]
                    rw [hbody]
                    have hne : s1 ≠ [] := by
                      obtain ⟨fill, _, hs⟩ := box_chars h3
                      rw [hs]
                      simp
                    cases frames with
                    | zero => exact ⟨fun h => by omega, fun _ => stops_nil rfl (by simp [hne])⟩
                    | succ frames =>
                      obtain ⟨hb1, hb2⟩ := box_spec (colour := colour) hleaf ht h3 he h4 frames
                      obtain ⟨hla1, hla2⟩ := hla frames
                      obtain ⟨hlb1, hlb2⟩ := hlb frames
                      constructor
                      · intro hfr
                        unfold recurseW
                        rw [nested_ok (by split <;> omega), hbad, quiet_ok, if_neg (by simp), hw, if_pos rfl, hb1 (by omega), written_ok rfl]
                        simp only [Bool.false_eq_true, if_false, pyGet_ok hl, pyGet_ok hr, quiet_ok]
                        rw [hla1 (by omega), written_ok rfl]
                        simp only
                        rw [hlb1 (by omega), written_ok rfl]
                        simp [pure, List.append_assoc]
                      · intro hfr
                        unfold recurseW
                        by_cases hn : (if parent.isSome then 1 else 0) ≤ frames
                        · rw [nested_ok hn, hbad, quiet_ok, if_neg (by simp), hw, if_pos rfl]
                          by_cases hbox : boxCalls (asksColour look o setup.1.isSome false) colour ≤ frames + 1
                          · refine Stops.after (hb1 hbox) ?_
                            simp only [Bool.false_eq_true, if_false, pyGet_ok hl, pyGet_ok hr, quiet_ok]
                            by_cases hL : drawCalls o.maxDepth (boxCalls (asksColour look o setup.1.isSome true) colour)
                                (boxCalls (asksColour look o setup.1.isSome false) colour) tl (depth + 1) ≤ frames
                            · refine Stops.after (hla1 hL) ?_
                              have := (hlb2 (by omega)).bind (fun b => (pure ((Svm.decimal depth, (i : Int)) :: ra ++ b) : Written _)) []
                              simpa using this
                            · exact (hla2 (by omega)).bind _ _
                          · exact (hb2 (by omega)).bind _ _
                        · exact stops_nil (nested_error hn _) (by simp [hne])

omit [Field F] [LinearOrder F] in
/-- Counting nests a call for each level, and one more. -/
theorem count_needs {i : Nat} {t : Spec.Tree F} {s : List Nat} (h : Encodes m i t s) :
    ∀ (fuel : Nat) (d : Counts) (x : Nat × Counts), recursiveCount m fuel d i = .ok x → ∀ frames, recursiveCountR m frames d i = needs (t.height + 2) x frames := by
  induction h with
  | leaf hl hr hf hv =>
    intro fuel d x hx frames
    cases fuel with
    | zero => cases hx
    | succ fuel =>
      cases frames with
      | zero => rw [needs_neg _ (by omega)]; rfl
      | succ n =>
        unfold recursiveCountR
        by_cases hn : n = 0
        · rw [if_pos hn, needs_neg _ (by omega)]
        · unfold recursiveCount isLeafNode at hx
          unfold isLeafNode
          rw [if_neg hn, needs_pos _ (by simp only [Spec.Tree.height]; omega)]
          simp only [pyGet_ok hl, pyGet_ok hr, bind, Except.bind, pure, Except.pure] at hx ⊢
          exact hx
  | @node i f l r v tl tr sl sr hl hr hf hv _ _ ihl ihr =>
    intro fuel d x hx frames
    cases fuel with
    | zero => cases hx
    | succ fuel =>
      cases frames with
      | zero => rw [needs_neg _ (by omega)]; rfl
      | succ n =>
        have hleaf : isLeafNode m (i : Int) = .ok false := by
          unfold isLeafNode
          simp only [pyGet_ok hl, bind, Except.bind]
          rw [if_neg (by omega)]
          rfl
        unfold recursiveCount at hx
        unfold recursiveCountR
        by_cases hn : n = 0
        · rw [if_pos hn, needs_neg _ (by simp only [Spec.Tree.height]; omega)]
        rw [if_neg hn]
        simp only [hleaf, pyGet_ok hl, pyGet_ok hr, bind, Except.bind, Bool.false_eq_true, if_false, Spec.Tree.height] at hx ⊢
        cases ha : recursiveCount m fuel d (l : Int) with
        | error e => rw [ha] at hx; cases hx
        | ok p =>
          rw [ha] at hx
          simp only at hx
          cases hb : recursiveCount m fuel p.2 (r : Int) with
          | error e => rw [hb] at hx; cases hx
          | ok q =>
            rw [hb] at hx
            rw [ihl fuel d p ha n]
            by_cases h1 : tl.height + 2 ≤ n
            · rw [needs_pos _ h1]
              simp only
              rw [ihr fuel p.2 q hb n]
              by_cases h2 : tr.height + 2 ≤ n
              · rw [needs_pos _ h2, needs_pos _ (by omega)]
                exact hx
              · rw [needs_neg _ h2, needs_neg _ (by omega)]
            · rw [needs_neg _ h1, needs_neg (n := 1 + max tl.height tr.height + 2) _ (by omega)]

variable {fo : Forest F} {t : Spec.Tree F} {w : F}

/-- Lines 413-439 on a tree, with a limit. -/
theorem prepare_needs (h : Represents m fo) (hk : fo[k]? = some (t, w)) {badLabel : Bool} {leaves : Option (List (List Int))}
    (hbad : (badLabel && leaves.isSome) = false) {counts : Option (Counts × Nat)} {setup : Option Counts × (F × F)}
    (hc : counting m o k leaves = .ok counts) (hs : colorSetup m o k leaves = .ok setup) (frames : Nat) :
    setup.1.isSome = leaves.isSome ∧
    prepare m o k frames badLabel leaves = needs (if leaves.isSome then t.height + 2 else 1) (counts, setup) frames := by
  cases leaves with
  | none =>
    unfold counting at hc
    unfold colorSetup at hs
    unfold prepare
    cases h1 : outputBounds m k with
    | error e => rw [h1] at hc; cases hc
    | ok u =>
      rw [h1] at hc
      cases h2 : valueBounds m k with
      | error e => rw [h2] at hs; cases hs
      | ok b =>
        rw [h2] at hs
        simp only [bind, Except.bind, pure, Except.pure, Except.ok.injEq] at hc hs
        subst hc hs
        refine ⟨rfl, ?_⟩
        by_cases hf : frames = 0
        · rw [if_pos hf, needs_neg _ (by simp; omega)]
        · rw [if_neg hf, needs_pos _ (by simp; omega)]
          rfl
  | some leaves =>
    have hb : badLabel = false := by simpa using hbad
    subst hb
    obtain ⟨ids, hen, _⟩ := h.trees k t w hk
    have hroot := pyGet_ok (h.root_get hk)
    unfold counting countAll at hc
    unfold colorSetup countAll at hs
    unfold prepare
    simp only [hroot, bind, Except.bind] at hc hs ⊢
    cases h1 : leaves.mapM (fun row => pyGet row (k : Int)) with
    | error e => rw [h1] at hc; cases hc
    | ok col =>
      rw [h1] at hc hs
      simp only at hc hs ⊢
      cases h2 : recursiveCount m (m.left.length + 1) (leafCounts col) (treeStart fo k : Int) with
      | error e => rw [h2] at hc; cases hc
      | ok p =>
        rw [h2] at hc hs
        simp only at hc hs ⊢
        cases h3 : maxCount (if o.labelAll then p.2.map (·.2) else (leafCounts col).map (·.2)) with
        | error e => rw [h3] at hc; cases hc
        | ok bound =>
          rw [h3] at hc hs
          simp only [pure, Except.pure, Except.ok.injEq] at hc hs
          cases h4 : countBounds (F := F) o k p.2 leaves with
          | error e => rw [h4] at hs; cases hs
          | ok b =>
            rw [h4] at hs
            simp only [Except.ok.injEq] at hs
            subst hc hs
            refine ⟨rfl, ?_⟩
            rw [count_needs hen _ _ _ h2 frames]
            by_cases hf : t.height + 2 ≤ frames
            · rw [needs_pos _ hf, needs_pos _ (by simpa using hf)]
              simp only [Bool.false_eq_true, if_false, h3, h4, pure, Except.pure]
            · rw [needs_neg _ hf, needs_neg _ (by simpa using hf)]

omit [Field F] [LinearOrder F] in
theorem headChars_ne (look : Look) (filled : Bool) : headChars look filled ≠ [] := by
  unfold headChars
  simp only [List.append_assoc]
  exact List.append_ne_nil_of_left_ne_nil (by decide) _

set_option maxHeartbeats 1000000 in
/-- C121: the call that gives the string `text` (C104) when calls can be nested without limit writes all of it if enough calls can be nested, and
otherwise raises `RecursionError` having written its beginning only: the file at a path then has neither the old text nor the drawing. `drawCalls` says
how many calls have to be nested for the drawing; the counting of documents needs them for all levels, whatever the maximal depth of the drawing is. -/
theorem C121_file (h : Represents m fo) (hk : fo[k]? = some (t, w)) {badLabel : Bool} {leaves : Option (List (List Int))} {text : List Char}
    (ht : exportText cmap pr look round m o k badLabel leaves = .ok text) (old : List Char) (colour frames : Nat) :
    let draw := drawCalls o.maxDepth (boxCalls (leaves.isSome || look.highlight) colour) (boxCalls (leaves.isSome && o.labelAll) colour) t 0
    let count := if leaves.isSome then t.height + 2 else 1
    (max draw count ≤ frames →
      exportFile cmap pr look round m o k .path old colour frames badLabel leaves = (.ok none, text) ∧
      exportFile cmap pr look round m o k .handle old colour frames badLabel leaves = (.ok none, old ++ text) ∧
      exportFile cmap pr look round m o k .none old colour frames badLabel leaves = (.ok (some text), old)) ∧
    (frames < max draw count → ∃ s rest, s ++ rest = text ∧ rest ≠ [] ∧ (s = [] ↔ frames < count) ∧
      exportFile cmap pr look round m o k .path old colour frames badLabel leaves = (.error .runtimeError, s) ∧
      exportFile cmap pr look round m o k .handle old colour frames badLabel leaves = (.error .runtimeError, old ++ s) ∧
      exportFile cmap pr look round m o k .none old colour frames badLabel leaves = (.error .runtimeError, old)) := by
  intro draw count
  unfold exportText at ht
  by_cases hprec : look.precision < 0
  · rw [if_pos hprec] at ht; cases ht
  rw [if_neg hprec] at ht
  cases hbad : badLabel && leaves.isSome with
  | true => rw [hbad] at ht; cases ht
  | false =>
  rw [hbad] at ht
  simp only [Bool.false_eq_true, if_false, bind, Except.bind] at ht
  cases hg : exportGraphviz (K := F) round m o k leaves with
  | error e => rw [hg] at ht; cases ht
  | ok stmts =>
  rw [hg] at ht
  cases hs : colorSetup m o k leaves with
  | error e => rw [hs] at ht; cases ht
  | ok setup =>
  rw [hs] at ht
  simp only at ht
  cases hb : stmts.mapM (stmtChars cmap pr look m o setup) with
  | error e => rw [hb] at ht; cases ht
  | ok body =>
  rw [hb] at ht
  simp only at ht
  unfold exportGraphviz at hg
  simp only [bind, Except.bind] at hg
  cases hn : namesCheck m o.featureNames with
  | error e => rw [hn] at hg; cases hg
  | ok u =>
  rw [hn] at hg
  simp only at hg
  by_cases hid : (k : Int) > m.nTrees - 1
  · rw [if_pos hid] at hg; cases hg
  rw [if_neg hid] at hg
  have hroot := pyGet_ok (h.root_get hk)
  cases hc : counting m o k leaves with
  | error e => rw [hc] at hg; cases hg
  | ok counts =>
  rw [hc, hroot] at hg
  simp only at hg
  obtain ⟨ids, hen, _⟩ := h.trees k t w hk
  obtain ⟨ranks, hranks, hrec⟩ := recurseW_spec (colour := colour) hen _ none 0 stmts body
    (fun _ => by unfold within; cases o.maxDepth <;> simp) hg hb
  obtain ⟨hsome, hprep⟩ := prepare_needs h hk hbad hc hs frames
  obtain ⟨hr1, hr2⟩ := hrec frames
  have e1 : asksColour look o setup.1.isSome true = (leaves.isSome || look.highlight) := by
    unfold asksColour; rw [hsome]; cases leaves <;> simp
  have e2 : asksColour look o setup.1.isSome false = (leaves.isSome && o.labelAll) := by
    unfold asksColour; rw [hsome]; cases leaves <;> simp
  rw [e1, e2] at hr1 hr2
  have ht' : headChars look (look.highlight || leaves.isSome) ++ body.flatten ++ ((if look.parallel then rankChars ranks else []) ++ "}".toList) = text := by
    unfold tailChars at ht
    cases hp : look.parallel with
    | false =>
      rw [hp] at ht
      simpa [pure, Except.pure] using ht
    | true =>
      rw [hp] at ht
      simp only [if_true, hroot, hranks, bind, Except.bind, pure, Except.pure, Except.ok.injEq] at ht
      simpa using ht
  have hhead := headChars_ne look (look.highlight || leaves.isSome)
  have hw : exportWritten cmap pr look round m o k colour frames badLabel leaves =
      (quiet (needs count (counts, setup) frames) >>= fun p => (do
        write (headChars look (look.highlight || leaves.isSome))
        let root ← quiet (pyGet m.root (k : Int))
        let ranks ← recurseW cmap pr look round m o k colour p.1 p.2 frames root none 0
        write ((if look.parallel then rankChars ranks else []) ++ "}".toList))) := by
    unfold exportWritten
    rw [if_neg hprec, hn, quiet_ok, if_neg hid, hprep]
  constructor
  · intro hf
    have key : exportWritten cmap pr look round m o k colour frames badLabel leaves = ⟨text, .ok ()⟩ := by
      rw [hw, needs_pos _ (by omega), quiet_ok, write_bind, hroot, quiet_ok, hr1 (by omega), written_ok rfl, ← ht']
      simp [write, List.append_assoc]
    unfold exportFile
    rw [key]
    exact ⟨rfl, rfl, rfl⟩
  · intro hf
    have key : ∃ s rest, s ++ rest = text ∧ rest ≠ [] ∧ (s = [] ↔ frames < count) ∧
        exportWritten cmap pr look round m o k colour frames badLabel leaves = ⟨s, .error .runtimeError⟩ := by
      by_cases hcn : count ≤ frames
      · rw [hw, needs_pos _ hcn, quiet_ok, write_bind, hroot, quiet_ok]
        obtain ⟨rest, h1, h2, h3⟩ := hr2 (by omega)
        refine ⟨_, rest ++ ((if look.parallel then rankChars ranks else []) ++ "}".toList), ?_, ?_, ?_, by rw [written_error h3]⟩
        · rw [← ht', ← h2]
          simp only [List.append_assoc]
        · simp
        · constructor
          · intro h4
            exact absurd (List.append_eq_nil_iff.1 h4).1 hhead
          · omega
      · refine ⟨[], text, rfl, ?_, by simp; omega, ?_⟩
        · rw [← ht']; simp
        · rw [hw, needs_neg _ hcn, quiet_error]
    obtain ⟨s, rest, h1, h2, h3, h4⟩ := key
    refine ⟨s, rest, h1, h2, h3, ?_⟩
    unfold exportFile
    rw [h4]
    exact ⟨rfl, rfl, rfl⟩

variable (cmap pr look round m o k)

/-- C121 is violated by wrong arguments: a negative precision, too many names, a tree that does not exist. The exception is raised after the file has
been emptied. -/
theorem C121_emptied (colour frames : Nat) (badLabel : Bool) (leaves : Option (List (List Int))) (old : List Char)
    (h : look.precision < 0 ∨ namesCheck m o.featureNames = .error .valueError ∨ (namesCheck m o.featureNames = .ok () ∧ m.nTrees ≤ k)) :
    exportFile cmap pr look round m o k .path old colour frames badLabel leaves = (.error .valueError, []) ∧
    exportFile cmap pr look round m o k .handle old colour frames badLabel leaves = (.error .valueError, old) ∧
    exportFile cmap pr look round m o k .none old colour frames badLabel leaves = (.error .valueError, old) := by
  have key : exportWritten cmap pr look round m o k colour frames badLabel leaves = ⟨[], .error .valueError⟩ := by
    unfold exportWritten
    split
    · rfl
    · rename_i hp
      rcases h with h | h | ⟨h, h'⟩
      · exact absurd h hp
      · rw [h, quiet_error]
      · rw [h, quiet_ok, if_pos (by omega)]
        rfl
  unfold exportFile
  rw [key]
  exact ⟨rfl, by simp [Except.map], rfl⟩

/-- C121 is violated by a wrong label: a drawing with document counts that succeeds with a label that exists raises a `ValueError` with one that does
not, after the file has been emptied. -/
theorem C121_label (colour frames : Nat) (leaves : List (List Int)) (old : List Char)
    (h : (exportFile cmap pr look round m o k .path old colour frames false (some leaves)).1 = .ok none) :
    exportFile cmap pr look round m o k .path old colour frames true (some leaves) = (.error .valueError, []) := by
  have key : exportWritten cmap pr look round m o k colour frames true (some leaves) = ⟨[], .error .valueError⟩ := by
    have h' : ∃ u, (exportWritten cmap pr look round m o k colour frames false (some leaves)).result = .ok u := by
      cases hr : (exportWritten cmap pr look round m o k colour frames false (some leaves)).result with
      | error e => simp [exportFile, hr, Except.map] at h
      | ok u => exact ⟨u, rfl⟩
    obtain ⟨u, hu⟩ := h'
    unfold exportWritten at hu ⊢
    split at hu
    · cases hu
    · rename_i hp
      rw [if_neg hp]
      cases hn : namesCheck m o.featureNames with
      | error e => rw [hn, quiet_error] at hu; cases hu
      | ok x =>
        rw [hn, quiet_ok] at hu
        rw [quiet_ok]
        split at hu
        · cases hu
        · rename_i hk
          rw [if_neg hk]
          have hprep : prepare (F := F) m o k frames true (some leaves) = .error .valueError := by
            cases hq : prepare (F := F) m o k frames false (some leaves) with
            | error e => rw [hq, quiet_error] at hu; cases hu
            | ok p =>
              unfold prepare at hq ⊢
              simp only [bind, Except.bind] at hq ⊢
              cases h1 : leaves.mapM (fun row => pyGet row (k : Int)) with
              | error e => rw [h1] at hq; cases hq
              | ok col =>
                rw [h1] at hq
                simp only [] at hq ⊢
                cases h2 : pyGet m.root (k : Int) with
                | error e => rw [h2] at hq; cases hq
                | ok root =>
                  rw [h2] at hq
                  simp only [] at hq ⊢
                  cases h3 : recursiveCountR m frames (leafCounts col) root with
                  | error e => rw [h3] at hq; cases hq
                  | ok c => rfl
          rw [hprep, quiet_error]
  unfold exportFile
  rw [key]
  rfl

end

/-- C121, the number of nested calls: without colours a drawing needs three more calls than it has levels below the first one. With documents counted
at all nodes it needs as many more as a box with a colour. If only leaves have a colour the same holds for drawings that are not cropped. -/
theorem C121_calls (t : Spec.Tree F) {box inner : Nat} (hb : 3 ≤ box) (hi : inner ≤ box) (d : Nat) :
    drawCalls none box inner t 0 = t.height + box ∧ drawCalls (some d) box box t 0 = min t.height d + box := by
  have h1 : ∀ (t : Spec.Tree F) depth, drawCalls none box inner t depth = t.height + box := by
    intro t
    induction t with
    | leaf v => intro depth; simp [drawCalls, within, Spec.Tree.height]
    | node f v l r ihl ihr =>
      intro depth
      unfold drawCalls
      rw [ihl, ihr]
      simp only [within, Option.all_none, if_true, Spec.Tree.height]
      omega
  have h2 : ∀ (t : Spec.Tree F) depth, drawCalls (some d) box box t depth = if depth ≤ d then min t.height (d - depth) + box else 2 := by
    intro t
    induction t with
    | leaf v => intro depth; simp [drawCalls, within, Spec.Tree.height]
    | node f v l r ihl ihr =>
      intro depth
      unfold drawCalls
      rw [ihl, ihr]
      simp only [within, Option.all_some, decide_eq_true_eq, Spec.Tree.height]
      by_cases h3 : depth ≤ d
      · rw [if_pos h3, if_pos h3]
        by_cases h4 : depth + 1 ≤ d
        · rw [if_pos h4, if_pos h4]; omega
        · rw [if_neg h4, if_neg h4]; omega
      · rw [if_neg h3, if_neg h3]
  refine ⟨h1 t 0, ?_⟩
  rw [h2 t 0, if_pos (Nat.zero_le _), Nat.sub_zero]

open Spec.DotText in
/-- C121 is violated, whatever the limit is: there is a QuickRank document that is loaded without an error, and whose tree `export_graphviz` cannot draw
with the default arguments. The file that was there before is lost, and has the beginning of the drawing. -/
theorem C121_violated (frames colour : Nat) (old : List Char) :
    ∃ (doc : Xml ℚ) (l : Loaded ℚ) (text s rest : List Char), rtEnsemble (1 / 2) .quickRank (quickrankLoad 1 1 doc) 1 none none = .ok l ∧
      exportText (fun q => asList (reds q)) percentDigits {} id l.arrays {} 0 false none = .ok text ∧ s ++ rest = text ∧ rest ≠ [] ∧
      exportFile (fun q => asList (reds q)) percentDigits {} id l.arrays {} 0 .path old colour frames false none = (.error .runtimeError, s) := by
  obtain ⟨m, h1, h2⟩ := C37_load (1 : ℚ) 1 (1 / 2) [(chain 1 frames, 1)] (by
    intro p hp f hf
    simp only [List.mem_singleton] at hp
    subst hp
    exact chain_features 1 frames f hf) 1 1 1 1 none none
  have h3 : Represents m [(chain 1 frames, 1)] := by simpa using h2
  obtain ⟨_, _, _, text, _, _, -, -, -, -, -, h4, -⟩ := C104_text_partial (k := 0) (t := chain 1 frames) (w := 1) h3 rfl id
    {} rfl {} (by decide) (name := fun f => .index f) (fun f _ => ⟨fun _ => rfl, fun l h => by cases h⟩) fractions_plain reds_bytes false
  obtain ⟨s, rest, h5, h6, -, h7, -⟩ := (C121_file (k := 0) h3 rfl h4 old colour frames).2 (by
    refine lt_of_lt_of_le ?_ (le_max_left _ _)
    rw [(C121_calls _ (boxCalls_ge _ _) (by simp [boxCalls]) 0).1, chain_height]
    have := boxCalls_ge ((none : Option (List (List Int))).isSome || ({} : Look).highlight) colour
    omega)
  exact ⟨_, ⟨m, 1, none⟩, text, s, rest, h1, h4, h5, h6, h7⟩

open Spec.DotText in
/-- C121 is violated by too few names for the features: the call raises `IndexError` in the middle of the drawing. The file has a text that is not a
drawing any more. -/
theorem C121_violated_names :
    (exportFile (fun q => asList (reds q)) percentDigits {} id ens0 { featureNames := some ["a"] } 0 .path "old".toList 9 100 false none) =
      (.error .indexError, "digraph Tree {\nnode [shape=box] ;\n0 [label=\"a <= 1/2\"] ;\n1 [label=\"output = 1/1\"] ;\n0 -> 1 [labeldistance=2.5, labelangle=45, headlabel=\"True\"] ;\n".toList) ∧
    (readDot (exportFile (fun q => asList (reds q)) percentDigits {} id ens0 { featureNames := some ["a"] } 0 .path "old".toList 9 100 false none).2) = none := by
  decide +kernel

open Spec.DotText in
/-- The first tree of the ensemble of C29, of height 2: five nested calls are enough, and four are not. -/
example : (exportFile (fun q => asList (reds q)) percentDigits {} id ens0 {} 0 .path "old".toList 9 5 false none).1 = .ok none ∧
    (exportFile (fun q => asList (reds q)) percentDigits {} id ens0 {} 0 .path "old".toList 9 4 false none).1 = .error .runtimeError ∧
    (exportFile (fun q => asList (reds q)) percentDigits {} id ens0 {} 0 .path "old".toList 9 4 false none).2 =
      "digraph Tree {\nnode [shape=box] ;\n0 [label=\"f[0]  <= 1/2\"] ;\n1 [label=\"output = 1/1\"] ;\n0 -> 1 [labeldistance=2.5, labelangle=45, headlabel=\"True\"] ;\n2 [label=\"f[1]  <= 3/1\"] ;\n0 -> 2 [labeldistance=2.5, labelangle=-45, headlabel=\"False\"] ;\n".toList := by
  decide +kernel

open Spec.DotText in
/-- Highlighted leaves need the calls of `get_color`, at depth 2; a cropped drawing does not show them. -/
example : (exportFile (fun q => asList (reds q)) percentDigits { highlight := true } id ens0 {} 0 .path [] 9 12 false none).1 = .ok none ∧
    (exportFile (fun q => asList (reds q)) percentDigits { highlight := true } id ens0 {} 0 .path [] 9 11 false none).1 = .error .runtimeError ∧
    (exportFile (fun q => asList (reds q)) percentDigits { highlight := true } id ens0 { maxDepth := some 0 } 0 .path [] 9 3 false none).1 = .ok none := by
  decide +kernel

open Spec.DotText in
/-- With counts: cropped at the root, but counting needs four nested calls. With fewer the file is empty. -/
example : (exportFile (fun q => asList (reds q)) percentDigits {} id ens0 { maxDepth := some 0 } 0 .path "old".toList 1 4 false (some [[1, 5], [4, 5]])).1 = .ok none ∧
    exportFile (fun q => asList (reds q)) percentDigits {} id ens0 { maxDepth := some 0 } 0 .path "old".toList 1 3 false (some [[1, 5], [4, 5]]) =
      (.error .runtimeError, []) := by
  decide +kernel

end Verif.Props
