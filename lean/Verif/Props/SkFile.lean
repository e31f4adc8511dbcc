/-
Property C122: the file written by `export_scikit_model`, also when the call fails.
-/
import Verif.Model.SkFile
import Verif.Props.DotFile
import Verif.Props.DumpText
import Verif.Spec.SkFile

namespace Verif.Props
open Spec Ensemble Dot SkFile
variable {F : Type} {A B : Type}

/-! ### Models that are refused -/

/-- C122: without `estimators_`, without `init_`, or with neither `quantile` nor `mean` in `init_`, the call raises a `TypeError` and the file
stays as it was. -/
theorem C122_refused (pr : Printer F) (c : Calls) (frames : Nat) (model : SkModel F) (old : List Char)
    (h : model.estimators = none ∨ model.init = none ∨ model.init = some (none, none)) :
    exportSkFile pr c frames model old = (.error .typeError, old) := by
  obtain ⟨e, i, l⟩ := model
  rcases h with h | h | h <;> simp only at h <;> subst h
  · rfl
  · cases e <;> rfl
  · cases e <;> rfl

/-- C122: for all other models nothing is left of the text the file had before; the base score is `quantile`, and `mean` only without it. -/
theorem C122_emptied (pr : Printer F) (c : Calls) (frames : Nat) (trees : List (Option (SkArrays F))) (q mean : Option F) (l b : F)
    (hb : (q.or mean) = some b) (old : List Char) :
    exportSkFile pr c frames ⟨some trees, some (q, mean), l⟩ old = exportSkFile pr c frames ⟨some trees, some (some b, none), l⟩ [] ∧
      ("base_score=".toList ++ pr.showF b ++ ['\n'] ++ "learning_rate=".toList ++ pr.showF l ++ ['\n']) <+:
        (exportSkFile pr c frames ⟨some trees, some (q, mean), l⟩ old).2 := by
  have h1 : exportSkFile pr c frames ⟨some trees, some (q, mean), l⟩ old = exportSkFile pr c frames ⟨some trees, some (some b, none), l⟩ [] := by
    cases q with
    | some q => cases hb; rfl
    | none =>
      cases mean with
      | none => cases hb
      | some m => cases hb; rfl
  refine ⟨h1, ?_⟩
  rw [h1]
  show _ <+: (exportSkW pr c frames b l trees).text
  unfold exportSkW
  rw [write_bind, write_bind]
  exact ⟨(exportTreesW pr c frames 0 trees).text, by simp⟩

/-! ### Fewer nested calls -/

theorem recurseSk_cut (pr : Printer F) (c : Calls) (t : SkArrays F) : ∀ (a b : Nat) (i : Int) (d : Nat), a ≤ b →
    Cut (recurseSk pr c t a i d) (recurseSk pr c t b i d)
  | 0, _, _, _, _ => .inr ⟨rfl, List.nil_prefix⟩
  | a + 1, 0, _, _, h => by omega
  | a + 1, b + 1, i, d, h => by
    unfold recurseSk
    refine .bind (.refl _) (fun f => ?_)
    split
    · refine .bind (.refl _) (fun th => .bind (.refl _) (fun _ => .bind (.refl _) (fun l => .bind ?_ (fun _ => .bind (.refl _) (fun r => ?_)))))
      · exact recurseSk_cut pr c t a b l (d + 1) (by omega)
      · exact recurseSk_cut pr c t a b r (d + 1) (by omega)
    · exact .bind (.refl _) (fun vs => .bind (.nested (by omega)) (fun _ => .refl _))

theorem exportTreesW_cut (pr : Printer F) (c : Calls) {a b : Nat} (h : a ≤ b) (trees : List (Option (SkArrays F))) : ∀ k,
    Cut (exportTreesW pr c a k trees) (exportTreesW pr c b k trees) := by
  induction trees with
  | nil => intro k; exact .refl _
  | cons t ts ih =>
    intro k
    unfold exportTreesW
    refine .bind ?_ (fun _ => ih (k + 1))
    unfold exportTreeW
    refine .bind (.nested h) (fun _ => ?_)
    cases t with
    | none => exact .refl _
    | some t => exact .bind (.nested h) (fun _ => .bind (.refl _) (fun _ => recurseSk_cut pr c t _ _ _ _ (by omega)))

/-- C122: with fewer calls left the outcome is the same, or the call raises `RecursionError` and the file holds a beginning of what it would hold. -/
theorem C122_prefix (pr : Printer F) (c : Calls) {a b : Nat} (h : a ≤ b) (model : SkModel F) (old : List Char) :
    exportSkFile pr c a model old = exportSkFile pr c b model old ∨
      ((exportSkFile pr c a model old).1 = .error .runtimeError ∧ (exportSkFile pr c a model old).2 <+: (exportSkFile pr c b model old).2) := by
  have key : ∀ base l trees, Cut (exportSkW pr c a base l trees) (exportSkW pr c b base l trees) := fun base l trees => by
    unfold exportSkW
    exact .bind (.refl _) (fun _ => .bind (.refl _) (fun _ => exportTreesW_cut pr c h trees 0))
  obtain ⟨e, i, l⟩ := model
  cases e with
  | none => exact .inl rfl
  | some trees =>
    cases i with
    | none => exact .inl rfl
    | some i =>
      obtain ⟨q, mean⟩ := i
      have fin : ∀ base, (((exportSkW pr c a base l trees).result, (exportSkW pr c a base l trees).text) =
          ((exportSkW pr c b base l trees).result, (exportSkW pr c b base l trees).text)) ∨
          ((exportSkW pr c a base l trees).result = .error .runtimeError ∧
            (exportSkW pr c a base l trees).text <+: (exportSkW pr c b base l trees).text) := fun base => by
        rcases key base l trees with h | h
        · exact .inl (by rw [h])
        · exact .inr h
      cases q with
      | some q => exact fin q
      | none =>
        cases mean with
        | none => exact .inl rfl
        | some m => exact fin m

/-! ### Whole lines -/

theorem wholeLines_append {s t : List Char} (hs : WholeLines s) (ht : WholeLines t) : WholeLines (s ++ t) := by
  rcases ht with rfl | ht
  · simpa using hs
  · right
    rw [List.getLast?_append, ht]
    rfl

theorem whole_bind {w : Written A} {f : A → Written B} (h : WholeLines w.text) (h' : ∀ x, WholeLines (f x).text) : WholeLines (w >>= f).text := by
  cases hr : w.result with
  | error e => rw [written_error hr]; exact h
  | ok x => rw [written_ok hr]; exact wholeLines_append h (h' x)

theorem whole_quiet (x : Except PyErr A) : WholeLines (quiet x).text := .inl rfl

theorem whole_nested (n frames : Nat) : WholeLines (nested n frames).text := .inl rfl

theorem whole_write {s : List Char} (h : s.getLast? = some '\n') : WholeLines (write s).text := .inr h

theorem recurseSk_whole (pr : Printer F) (c : Calls) (t : SkArrays F) : ∀ (n : Nat) (i : Int) (d : Nat), WholeLines (recurseSk pr c t n i d).text
  | 0, _, _ => .inl rfl
  | n + 1, i, d => by
    unfold recurseSk
    refine whole_bind (whole_quiet _) (fun f => ?_)
    split
    · exact whole_bind (whole_quiet _) (fun _ => whole_bind (whole_write (by rw [List.getLast?_append]; rfl)) (fun _ => whole_bind (whole_quiet _) (fun l =>
        whole_bind (recurseSk_whole pr c t n l _) (fun _ => whole_bind (whole_quiet _) (fun r => recurseSk_whole pr c t n r _)))))
    · exact whole_bind (whole_quiet _) (fun _ => whole_bind (whole_nested _ _) (fun _ => whole_bind (whole_quiet _) (fun _ =>
        whole_write (by rw [List.getLast?_append]; rfl))))

theorem treeHeader_last (k : Nat) (t : SkArrays F) : (treeHeader k t).getLast? = some '\n' := by
  unfold treeHeader
  rw [List.getLast?_append, show "]:\n".toList = [']', ':', '\n'] by decide]
  rfl

theorem exportSkW_whole (pr : Printer F) (c : Calls) (frames : Nat) (b l : F) (trees : List (Option (SkArrays F))) :
    WholeLines (exportSkW pr c frames b l trees).text := by
  have key : ∀ k, WholeLines (exportTreesW pr c frames k trees).text := by
    induction trees with
    | nil => intro k; exact .inl rfl
    | cons t ts ih =>
      intro k
      unfold exportTreesW
      refine whole_bind ?_ (fun _ => ih (k + 1))
      unfold exportTreeW
      refine whole_bind (whole_nested _ _) (fun _ => ?_)
      cases t with
      | none => exact .inl rfl
      | some t => exact whole_bind (whole_nested _ _) (fun _ => whole_bind (whole_write (treeHeader_last k t)) (fun _ => recurseSk_whole pr c t _ _ _))
  exact whole_bind (whole_write (by rw [List.getLast?_append]; rfl)) (fun _ => whole_bind (whole_write (by rw [List.getLast?_append]; rfl)) (fun _ => key 0))

/-- C122: the file holds whole lines however the call ends, so that its end does not show that it is not complete. -/
theorem C122_lines (pr : Printer F) (c : Calls) (frames : Nat) (model : SkModel F) (old : List Char) (h : WholeLines old) :
    WholeLines (exportSkFile pr c frames model old).2 := by
  obtain ⟨e, i, l⟩ := model
  cases e with
  | none => exact h
  | some trees =>
    cases i with
    | none => exact h
    | some i =>
      obtain ⟨_ | q, _ | mean⟩ := i
      · exact h
      all_goals exact exportSkW_whole ..

/-! ### When it ends without an exception -/

section
variable (pr : Printer F) (c : Calls)

theorem recurseSk_ok {a : SkTree F} {i : Nat} {t : LTree F} (h : SkEncodes a i t) : ∀ frames depth,
    (t.levels ≤ frames → recurseSk pr c (oneOutput a) frames i depth = ⟨(treeLines pr depth t).flatten, .ok ()⟩) ∧
      (frames < t.levels → Stops (recurseSk pr c (oneOutput a) frames i depth) (treeLines pr depth t).flatten) := by
  induction h with
  | @leaf i v hf hv =>
    intro frames depth
    have hv' : (oneOutput a).values[i]? = some [v] := by simp [oneOutput, hv]
    cases frames with
    | zero => exact ⟨fun h => by simp [LTree.levels] at h, fun _ => stops_nil rfl (by simp [treeLines])⟩
    | succ n =>
      refine ⟨fun _ => ?_, fun h => by simp [LTree.levels] at h⟩
      unfold recurseSk
      rw [show (oneOutput a).feature = a.feature from rfl, pyGet_ok hf, quiet_ok, if_neg (by simp), pyGet_ok hv', quiet_ok]
      rw [nested_ok (by simp), leafText]
      show quiet (.ok _) >>= _ = _
      rw [quiet_ok]
      simp [write, showInt_nat, treeLines]
  | @node i f l r th tl tr hf ht hl hr _ _ ihl ihr =>
    intro frames depth
    cases frames with
    | zero => exact ⟨fun h => by simp only [LTree.levels] at h; omega, fun _ => stops_nil rfl (by simp [treeLines])⟩
    | succ n =>
      have hstart : recurseSk pr c (oneOutput a) (n + 1) i depth =
          (write (List.replicate depth '\t' ++ Svm.decimal i ++ ":[f".toList ++ Svm.decimal f ++ ['<', '='] ++ pr.showF th ++ [']', '\n']) >>= fun _ =>
            recurseSk pr c (oneOutput a) n l (depth + 1) >>= fun _ => recurseSk pr c (oneOutput a) n r (depth + 1)) := by
        conv_lhs => unfold recurseSk
        rw [show (oneOutput a).feature = a.feature from rfl, show (oneOutput a).threshold = a.threshold from rfl,
          show (oneOutput a).childrenLeft = a.childrenLeft from rfl, show (oneOutput a).childrenRight = a.childrenRight from rfl,
          pyGet_ok hf, quiet_ok, if_pos (by omega), pyGet_ok ht, quiet_ok, pyGet_ok hl, pyGet_ok hr]
        simp only [quiet_ok, showInt_nat]
      rw [hstart]
      have hlines : (treeLines pr depth (.node i f th tl tr)).flatten =
          (List.replicate depth '\t' ++ Svm.decimal i ++ ":[f".toList ++ Svm.decimal f ++ ['<', '='] ++ pr.showF th ++ [']', '\n']) ++
            ((treeLines pr (depth + 1) tl).flatten ++ (treeLines pr (depth + 1) tr).flatten) := by
        simp [treeLines]
      rw [hlines]
      constructor
      · intro h
        simp only [LTree.levels] at h
        rw [write_bind, (ihl n (depth + 1)).1 (by omega), written_ok rfl, (ihr n (depth + 1)).1 (by omega)]
      · intro h
        simp only [LTree.levels] at h
        refine Stops.after rfl ?_
        by_cases hl' : n < tl.levels
        · exact Stops.bind ((ihl n (depth + 1)).2 hl') _ _
        · refine Stops.after ((ihl n (depth + 1)).1 (by omega)) ((ihr n (depth + 1)).2 (by omega))

/-- The calls nested for a tree: `_export_tree` and in it the import, lines 204-205, or `recurse`. -/
def treeNeeds (t : LTree F) : Nat := 1 + max (max c.imports c.unique) t.levels

theorem exportTreeW_ok {a : SkTree F} {t : LTree F} (h : SkEncodes a 0 t) (frames k : Nat) :
    (treeNeeds c t ≤ frames → exportTreeW pr c frames k (some (oneOutput a)) = ⟨treeHeader k (oneOutput a) ++ (treeLines pr 1 t).flatten, .ok ()⟩) ∧
      (frames < treeNeeds c t →
        Stops (exportTreeW pr c frames k (some (oneOutput a))) (treeHeader k (oneOutput a) ++ (treeLines pr 1 t).flatten)) := by
  have hne : treeHeader k (oneOutput a) ≠ [] := fun hc => by
    have := treeHeader_last k (oneOutput a)
    rw [hc] at this
    cases this
  have hlev : 1 ≤ t.levels := by cases t <;> simp [LTree.levels]
  have hrec := recurseSk_ok pr c h (frames - 1) 1
  rw [Nat.cast_zero] at hrec
  unfold treeNeeds exportTreeW
  constructor
  · intro hf
    rw [nested_ok (by omega)]
    show (nested (1 + c.unique) frames >>= _) = _
    rw [nested_ok (by omega), write_bind, hrec.1 (by omega)]
  · intro hf
    by_cases h1 : 1 + c.imports ≤ frames
    · rw [nested_ok h1]
      show Stops (nested (1 + c.unique) frames >>= _) _
      by_cases h2 : 1 + c.unique ≤ frames
      · rw [nested_ok h2]
        exact Stops.after rfl (hrec.2 (by omega))
      · rw [nested_error h2]
        exact stops_nil rfl (by simp [hne])
    · rw [nested_error h1]
      exact stops_nil rfl (by simp [hne])

/-- The lines of the trees with their headers. -/
def forestText : Nat → List (SkTree F) → List (LTree F) → List Char
  | k, a :: as, t :: ts => treeHeader k (oneOutput a) ++ (treeLines pr 1 t).flatten ++ forestText (k + 1) as ts
  | _, _, _ => []

theorem exportTreesW_ok {sks : List (SkTree F)} {ts : List (LTree F)} (henc : List.Forall₂ (fun a t => SkEncodes a 0 t) sks ts) (frames : Nat) : ∀ k,
    ((∀ t ∈ ts, treeNeeds c t ≤ frames) → exportTreesW pr c frames k (sks.map (fun a => some (oneOutput a))) = ⟨forestText pr k sks ts, .ok ()⟩) ∧
      ((∃ t ∈ ts, frames < treeNeeds c t) →
        Stops (exportTreesW pr c frames k (sks.map (fun a => some (oneOutput a)))) (forestText pr k sks ts)) := by
  induction henc with
  | nil => exact fun k => ⟨fun _ => rfl, fun ⟨t, ht, _⟩ => absurd ht (by simp)⟩
  | @cons a t as ts h _ ih =>
    intro k
    obtain ⟨h1, h2⟩ := exportTreeW_ok pr c h frames k
    obtain ⟨h3, h4⟩ := ih (k + 1)
    rw [List.map_cons]
    unfold exportTreesW forestText
    constructor
    · intro hall
      rw [h1 (hall t (by simp)), written_ok rfl, h3 (fun u hu => hall u (by simp [hu]))]
    · rintro ⟨u, hu, hlt⟩
      by_cases ht : frames < treeNeeds c t
      · exact Stops.bind (h2 ht) _ _
      · refine Stops.after (h1 (by omega)) (h4 ?_)
        rcases List.mem_cons.1 hu with rfl | hu
        · exact absurd hlt ht
        · exact ⟨u, hu, hlt⟩

theorem exportBodies_text {sks : List (SkTree F)} {ts : List (LTree F)} (henc : List.Forall₂ (fun a t => SkEncodes a 0 t) sks ts)
    (hids : ∀ t ∈ ts, t.ids.Perm (List.range t.ids.length)) : ∀ k,
    ∃ bodies, ((sks.map oneOutput).zipIdx k).mapM (fun p => do
        let body ← exportTextNode pr p.1 (p.1.feature.length + 1) 0 1
        pure (treeHeader p.2 p.1 ++ body)) = Except.ok bodies ∧ bodies.flatten = forestText pr k sks ts := by
  induction henc with
  | nil => exact fun k => ⟨[], rfl, rfl⟩
  | @cons a t as ts h _ ih =>
    intro k
    obtain ⟨bodies, h1, h2⟩ := ih (fun t ht => hids t (by simp [ht])) (k + 1)
    have hlen : t.ids.length ≤ a.feature.length + 1 := by
      by_contra hcon
      have hmem : t.ids.length - 1 ∈ t.ids := (hids t (by simp)).mem_iff.2 (List.mem_range.2 (by omega))
      have := (skEncodes_ids h).2 _ hmem
      omega
    have hbody := exportTextNode_ok pr h _ 1 hlen
    simp only [Nat.cast_zero] at hbody
    refine ⟨(treeHeader k (oneOutput a) ++ (treeLines pr 1 t).flatten) :: bodies, ?_, by simp [h2, forestText]⟩
    rw [List.map_cons, List.zipIdx_cons, List.mapM_cons, h1]
    show (do
      let body ← (do
        let body ← exportTextNode pr (oneOutput a) (a.feature.length + 1) 0 1
        pure (treeHeader k (oneOutput a) ++ body))
      let bs ← Except.ok bodies
      pure (body :: bs)) = _
    rw [hbody]
    rfl

/-- C122: for fitted trees with one output the call succeeds exactly if for each tree one call, and in it the calls of the library functions or
as many calls as there are nodes on the longest path, can be nested. Then the file is that of C71. Otherwise the call raises `RecursionError` and
the file holds a beginning of that text without its end. -/
theorem C122_file {sks : List (SkTree F)} {ts : List (LTree F)} (henc : List.Forall₂ (fun a t => SkEncodes a 0 t) sks ts)
    (hids : ∀ t ∈ ts, t.ids.Perm (List.range t.ids.length)) (b l : F) (frames : Nat) (old : List Char) :
    ∃ text, Ensemble.exportText pr b l (sks.map oneOutput) = .ok text ∧
      ((∀ t ∈ ts, 1 + max (max c.imports c.unique) t.levels ≤ frames) →
        exportSkFile pr c frames ⟨some (sks.map (fun a => some (oneOutput a))), some (some b, none), l⟩ old = (.ok (), text)) ∧
      ((∃ t ∈ ts, frames < 1 + max (max c.imports c.unique) t.levels) → ∃ part rest, rest ≠ [] ∧ part ++ rest = text ∧
        exportSkFile pr c frames ⟨some (sks.map (fun a => some (oneOutput a))), some (some b, none), l⟩ old = (.error .runtimeError, part)) := by
  obtain ⟨bodies, h1, h2⟩ := exportBodies_text pr henc hids 0
  obtain ⟨h3, h4⟩ := exportTreesW_ok pr c henc frames 0
  refine ⟨_, by unfold Ensemble.exportText; rw [h1]; rfl, fun hall => ?_, fun hex => ?_⟩
  · show ((exportSkW pr c frames b l _).result, (exportSkW pr c frames b l _).text) = _
    unfold exportSkW
    rw [write_bind, write_bind, h3 hall, h2]
    simp
  · obtain ⟨rest, r1, r2, r3⟩ := h4 hex
    refine ⟨(exportSkW pr c frames b l (sks.map (fun a => some (oneOutput a)))).text, rest, r1, ?_, ?_⟩
    · unfold exportSkW
      rw [write_bind, write_bind, h2, ← r2]
      simp
    · show ((exportSkW pr c frames b l _).result, (exportSkW pr c frames b l _).text) = _
      have : (exportSkW pr c frames b l (sks.map (fun a => some (oneOutput a)))).result = .error .runtimeError := by
        unfold exportSkW
        rw [write_bind, write_bind, r3]
      rw [this]

end

/-- C122: a model with an element of `estimators_` that is not a tree is always refused. -/
theorem C122_not_tree (pr : Printer F) (c : Calls) (frames : Nat) (trees : List (Option (SkArrays F))) (h : none ∈ trees) (init : Option (Option F × Option F))
    (l : F) (old : List Char) : ∃ e, (exportSkFile pr c frames ⟨some trees, init, l⟩ old).1 = .error e := by
  have key : ∀ k, ∃ e, (exportTreesW pr c frames k trees).result = .error e := by
    induction trees with
    | nil => simp at h
    | cons t ts ih =>
      intro k
      unfold exportTreesW
      cases hr : (exportTreeW pr c frames k t).result with
      | error e => exact ⟨e, by rw [written_error hr]⟩
      | ok x =>
        rw [written_ok hr]
        rcases List.mem_cons.1 h with rfl | h
        · exfalso
          unfold exportTreeW at hr
          by_cases hf : 1 + c.imports ≤ frames
          · rw [nested_ok hf] at hr
            cases hr
          · rw [nested_error hf] at hr
            cases hr
        · exact ih h (k + 1)
  obtain ⟨e, he⟩ := key 0
  have hw : ∀ b, ∃ e, (exportSkW pr c frames b l trees).result = .error e := fun b => ⟨e, by
    unfold exportSkW
    rw [write_bind, write_bind, he]⟩
  match init with
  | none => exact ⟨_, rfl⟩
  | some (none, none) => exact ⟨_, rfl⟩
  | some (some b, _) => exact hw b
  | some (none, some b) => exact hw b

/-- C122: a leaf with several outputs (a classifier) needs the calls of `np.argmax` too. -/
theorem C122_outputs (pr : Printer F) (c : Calls) (th b l v w : F) (vs : List F) (frames : Nat) (old : List Char)
    (hi : 1 + c.imports ≤ frames) (hu : 1 + c.unique ≤ frames) :
    exportSkFile pr c frames ⟨some [some ⟨[-2], [th], [-1], [-1], [v :: w :: vs]⟩], some (some b, none), l⟩ old =
      if 2 + c.argmax ≤ frames then
        (.ok (), "base_score=".toList ++ pr.showF b ++ "\nlearning_rate=".toList ++ pr.showF l ++ "\nbooster[0] []:\n\t0:leaf=c".toList ++
          Svm.decimal (pr.argmax (v :: w :: vs)) ++ ['\n'])
      else (.error .runtimeError, "base_score=".toList ++ pr.showF b ++ "\nlearning_rate=".toList ++ pr.showF l ++
        "\nbooster[0] []:\n".toList) := by
  have hh : treeHeader 0 (⟨[-2], [th], [-1], [-1], [v :: w :: vs]⟩ : SkArrays F) = "booster[0] []:\n".toList := by
    have : treeHeader 0 (⟨[-2], [th], [-1], [-1], [v :: w :: vs]⟩ : SkArrays F) = treeHeader 0 (⟨[-2], [], [], [], []⟩ : SkArrays Unit) := rfl
    rw [this]
    decide +kernel
  have e0 : Svm.showInt 0 = ['0'] := by decide +kernel
  have e1 : "\nlearning_rate=".toList = '\n' :: "learning_rate=".toList := by decide
  have e2 : "\nbooster[0] []:\n\t0:leaf=c".toList = '\n' :: ("booster[0] []:\n".toList ++ "\t0:leaf=c".toList) := by decide
  have e3 : "\nbooster[0] []:\n".toList = '\n' :: "booster[0] []:\n".toList := by decide
  have e4 : "\t0:leaf=c".toList = '\t' :: '0' :: (":leaf=".toList ++ ['c']) := by decide
  show ((exportSkW pr c frames b l _).result, (exportSkW pr c frames b l _).text) = _
  have key : exportTreesW pr c frames 0 [some (⟨[-2], [th], [-1], [-1], [v :: w :: vs]⟩ : SkArrays F)] =
      if 2 + c.argmax ≤ frames then ⟨"booster[0] []:\n".toList ++ "\t0:leaf=c".toList ++ Svm.decimal (pr.argmax (v :: w :: vs)) ++ ['\n'], .ok ()⟩
      else ⟨"booster[0] []:\n".toList, .error .runtimeError⟩ := by
    unfold exportTreesW exportTreesW exportTreeW
    rw [nested_ok hi]
    show ((nested (1 + c.unique) frames >>= _) >>= _) = _
    rw [nested_ok hu, write_bind, hh]
    cases hf : frames - 1 with
    | zero =>
      rw [if_neg (by omega), recurseSk]
      rfl
    | succ n =>
      unfold recurseSk
      rw [show pyGet ([-2] : List Int) 0 = .ok (-2) from rfl, quiet_ok, if_neg (by simp), show pyGet [v :: w :: vs] 0 = .ok (v :: w :: vs) from rfl, quiet_ok]
      rw [if_pos (by simp)]
      by_cases hn : c.argmax ≤ n
      · rw [nested_ok hn, if_pos (by omega)]
        have hleaf : leafText pr (v :: w :: vs) = .ok ('c' :: Svm.decimal (pr.argmax (v :: w :: vs))) := rfl
        rw [hleaf, quiet_ok, e0, e4, written_ok rfl]
        show (⟨_, _⟩ : Written Unit) = ⟨_, _⟩
        congr 1
        simp only [write, List.replicate_one, List.append_assoc, List.cons_append, List.nil_append, List.append_nil, pure]
      · rw [nested_error hn, if_neg (by omega), written_error rfl]
        simp
  unfold exportSkW
  rw [write_bind, write_bind, key, e1, e2, e3]
  split <;> simp only [List.append_assoc, List.cons_append, List.nil_append]

/-- C122: the hypotheses can be met: a tree with a path of three nodes needs four nested calls. -/
example : SkEncodes (⟨[4, -2, 5, -2, -2], [7, 0, 3, 0, 0], [1, -1, 3, -1, -1], [2, -1, 4, -1, -1], [0, 5, 0, 6, 8]⟩ : SkTree ℚ) 0
      (.node 0 4 7 (.leaf 1 5) (.node 2 5 3 (.leaf 3 6) (.leaf 4 8))) ∧
    1 + max (max 1 2) (LTree.levels (.node 0 4 (7 : ℚ) (.leaf 1 5) (.node 2 5 3 (.leaf 3 6) (.leaf 4 8)))) = 4 :=
  ⟨.node rfl rfl rfl rfl (.leaf rfl rfl) (.node rfl rfl rfl rfl (.leaf rfl rfl) (.leaf rfl rfl)), rfl⟩

/-- C122: the outcomes for this tree. -/
example : exportSkFile natPrinter ⟨1, 2, 3⟩ 4 ⟨some [some (oneOutput ⟨[4, -2, 5, -2, -2], [7, 0, 3, 0, 0], [1, -1, 3, -1, -1], [2, -1, 4, -1, -1],
      [0, 5, 0, 6, 8]⟩)], some (none, some 3), 2⟩ "old".toList = (.ok (),
      "base_score=3\nlearning_rate=2\nbooster[0] [f4 f5]:\n\t0:[f4<=7]\n\t\t1:leaf=5\n\t\t2:[f5<=3]\n\t\t\t3:leaf=6\n\t\t\t4:leaf=8\n".toList) ∧
    exportSkFile natPrinter ⟨1, 2, 3⟩ 4 ⟨some [], some (none, none), 2⟩ "old".toList = (.error .typeError, "old".toList) := by
  decide +kernel

/-- C122 is violated: the call fails because the tree is too deep, and the file it leaves is loaded without an error as a model with another tree:
the split that was written last is a leaf whose score is the threshold. -/
theorem C122_violated : ∃ text, exportSkFile natPrinter ⟨1, 2, 3⟩ 3 ⟨some [some (oneOutput ⟨[4, -2, 5, -2, -2], [7, 0, 3, 0, 0], [1, -1, 3, -1, -1],
      [2, -1, 4, -1, -1], [0, 5, 0, 6, 8]⟩)], some (some 3, none), 2⟩ [] = (.error .runtimeError, text) ∧
    text = "base_score=3\nlearning_rate=2\nbooster[0] [f4 f5]:\n\t0:[f4<=7]\n\t\t1:leaf=5\n\t\t2:[f5<=3]\n".toList ∧
    rtEnsemble (1 / 2) .scikitLearn (scikitTextLoad 0 1 (-1) readDecimal text) 1 none none =
      .ok ⟨⟨1, 3, [0], [1], [1, -1, -1], [2, -1, -1], [7, 5, 3], [4, -1, 5]⟩, 2, some 3⟩ :=
  ⟨_, by decide +kernel, rfl, by decide +kernel⟩

/-- C122 is violated: an element of `estimators_` that is not a tree is found only when the file has been emptied and the trees before it written;
the call fails, and the file is loaded as a model of these trees. -/
theorem C122_violated_types : ∃ text, exportSkFile natPrinter ⟨1, 2, 3⟩ 100 ⟨some [some (oneOutput ⟨[-2], [0], [-1], [-1], [5]⟩), none],
      some (some 3, none), 2⟩ "the model of yesterday".toList = (.error .typeError, text) ∧
    text = "base_score=3\nlearning_rate=2\nbooster[0] []:\n\t0:leaf=5\n".toList ∧
    rtEnsemble (1 / 2) .scikitLearn (scikitTextLoad 0 1 (-1) readDecimal text) 1 none none = .ok ⟨⟨1, 1, [0], [1], [-1], [-1], [5], [-1]⟩, 2, some 3⟩ :=
  ⟨_, by decide +kernel, rfl, by decide +kernel⟩

end Verif.Props
