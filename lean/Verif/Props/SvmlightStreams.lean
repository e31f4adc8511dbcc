/-
Property C111: opening, closing and sharing the files of SVMlight data.
-/
import Verif.Spec.SvmlightStreams
import Verif.Props.SvmlightNative
import Verif.Props.SvmlightFiles

namespace Verif.Props.SvmlightStreams
open Spec SvmIO Svm
variable {F : Type}

theorem tidy_refl (w : World) : Tidy w w :=
  ⟨le_refl _, fun r s s' h h' => (by rw [h] at h'; cases h'; rfl), fun r s' h h' => (by rw [h] at h'; cases h'), fun _ => rfl⟩

theorem set_self {α : Type} {l : List α} {r : Nat} {s : α} (h : l[r]? = some s) : l.set r s = l := by
  obtain ⟨hr, rfl⟩ := List.getElem?_eq_some_iff.1 h
  exact List.set_getElem_self hr

theorem tidy_trans {a b c : World} (h : Tidy a b) (h' : Tidy b c) : Tidy a c := by
  refine ⟨h.1.trans h'.1, ?_, ?_, fun n => (h'.2.2.2 n).trans (h.2.2.2 n)⟩
  · intro r s s' hs hs'
    have hr : r < a.streams.length := (List.getElem?_eq_some_iff.1 hs).1
    obtain ⟨s1, h1⟩ : ∃ s1, b.streams[r]? = some s1 := ⟨_, List.getElem?_eq_getElem (lt_of_lt_of_le hr h.1)⟩
    rw [h'.2.1 r s1 s' h1 hs', h.2.1 r s s1 hs h1]
  · intro r s' hs hs'
    cases hb : b.streams[r]? with
    | none => exact h'.2.2.1 r s' hb hs'
    | some s1 => rw [h'.2.1 r s1 s' hb hs', h.2.2.1 r s1 hs hb]

/-- A change of one stream that leaves it open or closed. -/
theorem tidy_set {w w' : World} {r : Nat} {s s1 : Stream} (hs : w.streams[r]? = some s) (ho : s1.isOpen = s.isOpen) (h : w'.streams = w.streams.set r s1)
    (hd : ∀ n, (w'.descs n).isSome = (w.descs n).isSome) : Tidy w w' := by
  refine ⟨by rw [h]; simp, ?_, ?_, hd⟩
  · intro r' a b ha hb
    rw [h, List.getElem?_set] at hb
    split_ifs at hb with e1 e2
    · subst e1
      rw [hs] at ha
      cases ha
      cases hb
      exact ho
    · rw [ha] at hb
      cases hb
      rfl
  · intro r' b ha hb
    rw [h, List.getElem?_set] at hb
    split_ifs at hb with e1 e2
    · subst e1
      rw [hs] at ha
      cases ha
    · rw [ha] at hb
      cases hb

theorem nativeLoad_tidy (sc : Scan F) (r : Nat) (w : World) : Tidy w (nativeLoad sc r w).2 := by
  unfold nativeLoad
  split
  · exact tidy_refl w
  · rename_i s hs
    split
    · exact tidy_set hs (s1 := { s with rest := readRest sc s.rest ⟨[], [], [], 0⟩ }) rfl rfl (fun _ => rfl)
    · exact tidy_refl w

theorem writeText_tidy (r : Nat) (text : List Char) (w : World) : Tidy w (writeText r text w).2 := by
  unfold writeText
  split
  · exact tidy_refl w
  · rename_i s hs
    split
    · split
      · exact tidy_refl w
      · exact tidy_set hs (s1 := { s with written := s.written ++ text }) rfl rfl (fun _ => rfl)
    · exact tidy_refl w

theorem andThen_tidy {α β : Type} {x : Act α} {k : α → Act β} (hx : ∀ w, Tidy w (x w).2) (hk : ∀ a w, Tidy w (k a w).2) (w : World) :
    Tidy w ((x.andThen k) w).2 := by
  unfold Act.andThen
  have := hx w
  split
  · rename_i a w' h
    rw [h] at this
    exact tidy_trans this (hk a w')
  · rename_i e w' h
    rw [h] at this
    exact this

theorem nativeDump_tidy (r : Nat) (rows : List (Except PyErr (List Char))) : ∀ w, Tidy w (nativeDump r rows w).2 := by
  induction rows with
  | nil => exact tidy_refl
  | cons row rows ih =>
    cases row with
    | error e => exact tidy_refl
    | ok text => exact andThen_tidy (writeText_tidy r text) (fun _ => ih)

/-- What opening does: an error without effect on the streams, or one new stream at the end. -/
theorem openTarget_cases (codec : List Char → Codec) (write : Bool) (t : Target) (w : World) :
    (∃ e, (openTarget codec write t w).1 = .error e ∧ (openTarget codec write t w).2 = w) ∨
    ∃ s, (openTarget codec write t w).1 = .ok w.streams.length ∧ (openTarget codec write t w).2.streams = w.streams ++ [s] ∧ s.isOpen = true ∧
      ∀ n, ((openTarget codec write t w).2.descs n).isSome = (w.descs n).isSome := by
  cases t with
  | path p =>
    simp only [openTarget]
    split
    · exact .inr ⟨_, rfl, rfl, rfl, fun _ => rfl⟩
    · split
      · exact .inl ⟨_, rfl, rfl⟩
      · exact .inr ⟨_, rfl, rfl, rfl, fun _ => rfl⟩
  | descriptor n =>
    simp only [openTarget]
    split
    · exact .inl ⟨_, rfl, rfl⟩
    · rename_i rest out hn
      split
      · exact .inr ⟨_, rfl, rfl, rfl, fun _ => rfl⟩
      · refine .inr ⟨_, rfl, rfl, rfl, fun k => ?_⟩
        simp only [newStream]
        split
        · rename_i hk
          rw [hk, hn]
          rfl
        · rfl
  | stream r => exact .inl ⟨_, rfl, rfl⟩
  | other => exact .inl ⟨_, rfl, rfl⟩

theorem closeStream_spec (codec : List Char → Codec) (r : Nat) (w : World) :
    (closeStream codec r w).streams.length = w.streams.length ∧
    (∀ r', r' ≠ r → (closeStream codec r w).streams[r']? = w.streams[r']?) ∧
    (∀ s, (closeStream codec r w).streams[r]? = some s → s.isOpen = false) ∧
    ∀ n, ((closeStream codec r w).descs n).isSome = (w.descs n).isSome := by
  unfold closeStream
  split
  · rename_i h
    exact ⟨rfl, fun _ _ => rfl, fun s hs => (by rw [h] at hs; cases hs), fun _ => rfl⟩
  · rename_i s hs
    split
    · have hr : r < w.streams.length := (List.getElem?_eq_some_iff.1 hs).1
      have h2 : ∀ r', r' ≠ r → (w.streams.set r { s with isOpen := false })[r']? = w.streams[r']? := by
        intro r' hr'
        rw [List.getElem?_set, if_neg (Ne.symm hr')]
      have h3 : ∀ s', (w.streams.set r { s with isOpen := false })[r]? = some s' → s'.isOpen = false := by
        intro s' h
        rw [List.getElem?_set_self hr] at h
        cases h
        rfl
      split
      · exact ⟨by simp, h2, h3, fun _ => rfl⟩
      · exact ⟨by simp [setDisk], h2, h3, fun _ => rfl⟩
      · refine ⟨by simp, h2, h3, fun n => ?_⟩
        simp only
        split
        · simp
        · rfl
    · rename_i ho
      refine ⟨rfl, fun _ _ => rfl, ?_, fun _ => rfl⟩
      intro s' h
      rw [hs] at h
      cases h
      simpa using ho

/-- Opening, doing something tidy, and closing. -/
theorem with_tidy {α : Type} (codec : List Char → Codec) (write : Bool) (t : Target) {body : Nat → Act α} (hb : ∀ r w, Tidy w (body r w).2) (w : World) :
    Tidy w (((openTarget codec write t).andThen (fun r => closing codec r (body r))) w).2 := by
  unfold Act.andThen
  rcases openTarget_cases codec write t w with ⟨e, h1, h2⟩ | ⟨s, h1, h2, h3, h4⟩
  · have : openTarget codec write t w = (.error e, w) := Prod.ext h1 h2
    rw [this]
    exact tidy_refl w
  · obtain ⟨w1, hw1⟩ : ∃ w1, w1 = (openTarget codec write t w).2 := ⟨_, rfl⟩
    have : openTarget codec write t w = (.ok w.streams.length, w1) := Prod.ext h1 hw1.symm
    rw [← hw1] at h2 h4
    rw [this]
    simp only [closing]
    have hbody := hb w.streams.length w1
    generalize (body w.streams.length w1).2 = w2 at hbody ⊢
    obtain ⟨c1, c2, c3, c4⟩ := closeStream_spec codec w.streams.length w2
    have hlen : w1.streams.length = w.streams.length + 1 := by rw [h2]; simp
    refine ⟨by rw [c1]; have := hbody.1; omega, ?_, ?_, fun n => ?_⟩
    · intro r a b ha hb'
      have hr : r < w.streams.length := (List.getElem?_eq_some_iff.1 ha).1
      rw [c2 r (by omega)] at hb'
      have : w1.streams[r]? = some a := by rw [h2, List.getElem?_append_left hr]; exact ha
      exact hbody.2.1 r a b this hb'
    · intro r b ha hb'
      by_cases hr : r = w.streams.length
      · subst hr
        exact c3 b hb'
      · rw [c2 r hr] at hb'
        refine hbody.2.2.1 r b ?_ hb'
        rw [List.getElem?_eq_none_iff] at ha ⊢
        omega
    · rw [c4, hbody.2.2.2, h4]

theorem load_tidy (codec : List Char → Codec) (sc : Scan F) (t : Target) (w : World) : Tidy w (load codec sc t w).2 := by
  unfold load
  refine andThen_tidy ?_ (fun _ => tidy_refl) w
  intro w
  cases t with
  | stream r => exact nativeLoad_tidy sc r w
  | path p => exact with_tidy codec false _ (nativeLoad_tidy sc) w
  | descriptor n => exact with_tidy codec false _ (nativeLoad_tidy sc) w
  | other => exact with_tidy codec false _ (nativeLoad_tidy sc) w

/-- C111: whatever happens, `load_svmlight_file` leaves no file open that it opened, and closes neither a file object nor a descriptor it was given. -/
theorem C111_load_closes (codec : List Char → Codec) (sc : Scan F) (t : Target) (w : World) : Tidy w (load codec sc t w).2 := load_tidy codec sc t w

/-- C111: the same for `dump_svmlight_file`. -/
theorem C111_dump_closes (codec : List Char → Codec) (showF : F → List Char) (args : Except PyErr (List (List F) × List F × List Int)) (zeroBased : Bool)
    (t : Target) (w : World) : Tidy w (dump codec showF args zeroBased t w).2 := by
  unfold dump
  split
  · exact tidy_refl w
  · cases t with
    | stream r => exact nativeDump_tidy r _ w
    | path p => exact with_tidy codec true _ (fun r => nativeDump_tidy r _) w
    | descriptor n => exact with_tidy codec true _ (fun r => nativeDump_tidy r _) w
    | other => exact with_tidy codec true _ (fun r => nativeDump_tidy r _) w

theorem go_tidy (codec : List Char → Codec) (sc : Scan F) (q : Bool) (ts : List Target) : ∀ acc w, Tidy w (loadAll.go codec sc q ts acc w).2 := by
  induction ts with
  | nil => intro acc; exact tidy_refl
  | cons t ts ih =>
    intro acc w
    exact andThen_tidy (andThen_tidy (load_tidy codec sc t) (fun _ => tidy_refl)) (fun _ => ih _) w

/-- C111: the same for `load_svmlight_files`. -/
theorem C111_files_close (codec : List Char → Codec) (sc : Scan F) (q : Bool) (ts : List Target) (w : World) : Tidy w (loadAll codec sc q ts w).2 := by
  cases ts with
  | nil => exact tidy_refl w
  | cons t ts => exact andThen_tidy (andThen_tidy (load_tidy codec sc t) (fun _ => tidy_refl)) (fun x => go_tidy codec sc q ts x) w

/-! ### What is loaded -/

theorem loadFile_shape (sc : Scan F) (text : List Char) : loadFile sc text = (parseFile sc text >>= shape sc) := rfl

theorem shape_of (sc : Scan F) {x : Act (State F)} {w : World} : ((x.andThen (fun s w => (shape sc s, w))) w).1 = ((x w).1 >>= shape sc) := by
  unfold Act.andThen
  cases h : x w with
  | mk a w' => cases a <;> rfl

theorem load_new (codec : List Char → Codec) (sc : Scan F) (t : Target) {w w1 : World} {rest : List (Option (List Char))}
    (h : openTarget codec false t w = (.ok w.streams.length, w1)) (hs : w1.streams = w.streams ++ [⟨true, true, rest, [], .nowhere⟩]) :
    (load codec sc t w).1 = ((readLoop sc rest ⟨[], [], [], 0⟩).1 >>= shape sc) ∧ (load codec sc t w).2.disk = w1.disk ∧
      (load codec sc t w).2.descs = w1.descs := by
  have hget : w1.streams[w.streams.length]? = some ⟨true, true, rest, [], .nowhere⟩ := by rw [hs]; simp
  have key : ((openTarget codec false t).andThen (fun r => closing codec r (nativeLoad sc r)) w).1 = (readLoop sc rest ⟨[], [], [], 0⟩).1 ∧
      ((openTarget codec false t).andThen (fun r => closing codec r (nativeLoad sc r)) w).2.disk = w1.disk ∧
      ((openTarget codec false t).andThen (fun r => closing codec r (nativeLoad sc r)) w).2.descs = w1.descs := by
    unfold Act.andThen
    rw [h]
    simp only [closing, nativeLoad, hget, Bool.and_self, ↓reduceIte, true_and]
    unfold closeStream
    have hl : w.streams.length < w1.streams.length := by rw [hs]; simp
    simp [List.getElem?_set_self hl]
  have hload : load codec sc t = ((openTarget codec false t).andThen (fun r => closing codec r (nativeLoad sc r))).andThen (fun s w => (shape sc s, w)) := by
    cases t with
    | stream r => simp [openTarget] at h
    | path p => rfl
    | descriptor n => rfl
    | other => rfl
  rw [hload]
  refine ⟨by rw [shape_of, key.1], ?_⟩
  generalize (openTarget codec false t).andThen (fun r => closing codec r (nativeLoad sc r)) = x at key ⊢
  unfold Act.andThen
  cases hx : x w with
  | mk a w' =>
    rw [hx] at key
    cases a <;> exact key.2

/-- C111: a file that is given by its path is read as its text, compressed or not, and no file is changed. -/
theorem C111_load_path (codec : List Char → Codec) (sc : Scan F) {p raw text : List Char} {w : World} (h : w.disk p = some raw)
    (hdec : (codec p).dec raw = lineResults text) (hnul : '\x00' ∉ text) :
    (load codec sc (.path p) w).1 = loadFile sc text ∧ (load codec sc (.path p) w).2.disk = w.disk ∧ (load codec sc (.path p) w).2.descs = w.descs := by
  have ho : openTarget codec false (.path p) w = (.ok w.streams.length, { w with streams := w.streams ++ [⟨true, true, (codec p).dec raw, [], .nowhere⟩] }) := by
    simp only [openTarget, h]
    rfl
  obtain ⟨h1, h2, h3⟩ := load_new codec sc (.path p) ho rfl
  refine ⟨?_, h2, h3⟩
  rw [h1, hdec, loadFile_shape, ← C73_lines_partial sc hnul, nativeParse]

theorem writeText_ok {r : Nat} {w : World} {s : Stream} (hs : w.streams[r]? = some s) (ho : s.isOpen = true) (hb : s.binary = false)
    (hroom : w.room ≠ some 0) (text : List Char) :
    writeText r text w = (.ok (), { w with streams := w.streams.set r { s with written := s.written ++ text }, room := w.room.map (· - 1) }) := by
  unfold writeText
  simp only [hs, ho, hb, Bool.not_false, Bool.and_self, ↓reduceIte]

theorem nativeDump_ok {r : Nat} (texts : List (List Char)) : ∀ {w : World} {s : Stream}, w.streams[r]? = some s → s.isOpen = true → s.binary = false →
    (∀ k, w.room = some k → texts.length ≤ k) →
    ∃ room, nativeDump r (texts.map .ok) w = (.ok (), { w with streams := w.streams.set r { s with written := s.written ++ texts.flatten }, room := room }) := by
  induction texts with
  | nil =>
    intro w s hs ho hb _
    refine ⟨w.room, ?_⟩
    simp only [List.map_nil, nativeDump, List.flatten_nil, List.append_nil]
    have : w.streams.set r s = w.streams := set_self hs
    simp [this]
  | cons t texts ih =>
    intro w s hs ho hb hroom
    have hr : r < w.streams.length := (List.getElem?_eq_some_iff.1 hs).1
    have hw := writeText_ok hs ho hb (by intro h; have := hroom 0 h; simp at this) t
    obtain ⟨room, h⟩ := ih (w := { w with streams := w.streams.set r { s with written := s.written ++ t }, room := w.room.map (· - 1) })
      (s := { s with written := s.written ++ t }) (by simp [List.getElem?_set_self hr]) ho hb (by
        intro k hk
        cases hwr : w.room with
        | none => rw [hwr] at hk; cases hk
        | some k' =>
          have := hroom k' hwr
          rw [hwr] at hk
          simp only [Option.map_some, Option.some.injEq] at hk
          simp only [List.length_cons] at this
          omega)
    refine ⟨room, ?_⟩
    simp only [List.map_cons, nativeDump, Act.andThen, hw, h, List.set_set]
    simp

theorem nativeDump_full {r : Nat} (texts : List (List Char)) : ∀ {k : Nat} {w : World} {s : Stream}, w.streams[r]? = some s → s.isOpen = true →
    s.binary = false → w.room = some k → k < texts.length →
    nativeDump r (texts.map .ok) w = (.error .runtimeError,
      { w with streams := w.streams.set r { s with written := s.written ++ (texts.take k).flatten }, room := some 0 }) := by
  induction texts with
  | nil => intro k w s _ _ _ _ hk; simp at hk
  | cons t texts ih =>
    intro k w s hs ho hb hroom hk
    have hr : r < w.streams.length := (List.getElem?_eq_some_iff.1 hs).1
    cases k with
    | zero =>
      have : w.streams.set r s = w.streams := set_self hs
      simp only [List.map_cons, nativeDump, Act.andThen, writeText, hs, ho, hb, hroom, Bool.not_false, Bool.and_self, ↓reduceIte, List.take_zero, List.flatten_nil,
        List.append_nil]
      rw [← ho, ← hb, this, ← hroom]
    | succ k =>
      have hw := writeText_ok hs ho hb (by rw [hroom]; simp) t
      have h := ih (k := k) (w := { w with streams := w.streams.set r { s with written := s.written ++ t }, room := w.room.map (· - 1) })
        (s := { s with written := s.written ++ t }) (by simp [List.getElem?_set_self hr]) ho hb (by simp [hroom]) (by simpa using hk)
      simp only [List.map_cons, nativeDump, Act.andThen, hw, h, List.set_set]
      simp

theorem mapM_rows {α β : Type} {f : α → Except PyErr β} {l : List α} {out : List β} (h : l.mapM f = .ok out) : l.map f = out.map .ok := by
  induction l generalizing out with
  | nil => cases h; rfl
  | cons a l ih =>
    rw [List.mapM_cons] at h
    cases ha : f a with
    | error e => rw [ha] at h; cases h
    | ok b =>
      rw [ha] at h
      cases hl : l.mapM f with
      | error e => rw [hl] at h; cases h
      | ok bs =>
        rw [hl] at h
        cases h
        simp [ha, ih hl]

/-- What a dump to a path leaves: the rows, or those before the device was full. -/
theorem dump_path (codec : List Char → Codec) (showF : F → List Char) {X : List (List F)} {y : List F} {qids : List Int} {zb : Bool} (p : List Char)
    {texts : List (List Char)} (hrows : X.zipIdx.mapM (fun q => dumpRow showF y qids zb q.2 q.1) = .ok texts) (w : World) :
    ((∀ k, w.room = some k → texts.length ≤ k) → (dump codec showF (.ok (X, y, qids)) zb (.path p) w).1 = .ok () ∧
      (dump codec showF (.ok (X, y, qids)) zb (.path p) w).2.disk = fun q => if q = p then some ((codec p).enc texts.flatten) else w.disk q) ∧
    (∀ k, w.room = some k → k < texts.length → (dump codec showF (.ok (X, y, qids)) zb (.path p) w).1 = .error .runtimeError ∧
      (dump codec showF (.ok (X, y, qids)) zb (.path p) w).2.disk = fun q => if q = p then some ((codec p).enc (texts.take k).flatten) else w.disk q) := by
  have hm := mapM_rows hrows
  obtain ⟨w1, hw1⟩ : ∃ w1 : World, w1 = { setDisk w p [] with streams := w.streams ++ [⟨true, false, [], [], .path p⟩] } := ⟨_, rfl⟩
  have hopen : openTarget codec true (.path p) w = (.ok w.streams.length, w1) := by
    rw [hw1]
    rfl
  have hget : w1.streams[w.streams.length]? = some ⟨true, false, [], [], .path p⟩ := by rw [hw1]; simp
  have hl : w.streams.length < w1.streams.length := by rw [hw1]; simp
  have hr : w1.room = w.room := by rw [hw1]; rfl
  have hdisk : w1.disk = fun q => if q = p then some [] else w.disk q := by rw [hw1]; rfl
  constructor
  · intro hroom
    obtain ⟨room, h⟩ := nativeDump_ok texts hget rfl rfl (by rw [hr]; exact hroom)
    simp only [dump, hm, Act.andThen, hopen, closing, h, List.nil_append, true_and]
    unfold closeStream
    simp only [List.getElem?_set_self hl, ↓reduceIte, setDisk, hdisk]
    funext q
    split <;> rfl
  · intro k hk hlt
    have h := nativeDump_full texts hget rfl rfl (by rw [hr]; exact hk) hlt
    simp only [dump, hm, Act.andThen, hopen, closing, h, List.nil_append, true_and]
    unfold closeStream
    simp only [List.getElem?_set_self hl, ↓reduceIte, setDisk, hdisk]
    funext q
    split <;> rfl

/-- C111: what is dumped to a path is what is loaded from it, compressed or not, and other files are not changed. -/
theorem C111_roundtrip (codec : List Char → Codec) (sc : Scan F) (showF : F → List Char) {X : List (List F)} {y : List F} {qids : List Int} {zb : Bool}
    {p text : List Char} (hc : Codec.Faithful (codec p)) (hd : dumpFile showF X y qids zb = .ok text) (hnul : '\x00' ∉ text) {w : World}
    (hroom : w.room = none) :
    (dump codec showF (.ok (X, y, qids)) zb (.path p) w).1 = .ok () ∧
    (load codec sc (.path p) (dump codec showF (.ok (X, y, qids)) zb (.path p) w).2).1 = loadFile sc text ∧
    ∀ q, q ≠ p → (dump codec showF (.ok (X, y, qids)) zb (.path p) w).2.disk q = w.disk q := by
  unfold dumpFile at hd
  cases hrows : X.zipIdx.mapM (fun q => dumpRow showF y qids zb q.2 q.1) with
  | error e => rw [hrows] at hd; cases hd
  | ok texts =>
    rw [hrows] at hd
    cases hd
    obtain ⟨h1, h2⟩ := (dump_path codec showF p hrows w).1 (by rw [hroom]; simp)
    refine ⟨h1, ?_, ?_⟩
    · exact (C111_load_path codec sc (raw := (codec p).enc texts.flatten) (by rw [h2]; simp) (hc _) hnul).1
    · intro q hq
      rw [h2]
      simp [hq]

/-- C111: a dump whose arguments cannot be converted changes nothing. -/
theorem C111_bad_arguments (codec : List Char → Codec) (showF : F → List Char) (e : PyErr) (zb : Bool) (t : Target) (w : World) :
    dump codec showF (.error e) zb t w = (.error e, w) := rfl

/-- C111: what is neither a path nor a descriptor nor file-like, and a path or descriptor that does not exist, are refused without effect. -/
theorem C111_refused (codec : List Char → Codec) (sc : Scan F) {w : World} {p : List Char} (hp : w.disk p = none) {n : Nat} (hn : w.descs n = none) :
    load codec sc .other w = (.error .typeError, w) ∧ load codec sc (.path p) w = (.error .ioError, w) ∧
      load codec sc (.descriptor n) w = (.error .ioError, w) := by
  refine ⟨rfl, ?_, ?_⟩
  · simp [load, Act.andThen, openTarget, hp]
  · simp [load, Act.andThen, openTarget, hn]

/-- C111: several files are loaded as their texts, one after the other. -/
theorem C111_files (codec : List Char → Codec) (sc : Scan F) (q : Bool) {ps : List (List Char)} {texts : List (List Char)} {w : World}
    (h : List.Forall₂ (fun p text => ∃ raw, w.disk p = some raw ∧ (codec p).dec raw = lineResults text ∧ '\x00' ∉ text) ps texts) :
    (loadAll codec sc q (ps.map .path) w).1 = loadFiles sc q texts := by
  have hitems : ∀ {p text : List Char} {w' : World}, w'.disk = w.disk →
      (∃ raw, w.disk p = some raw ∧ (codec p).dec raw = lineResults text ∧ '\x00' ∉ text) →
      (loadAll.items codec sc q (.path p) w').1 = fileItems sc q text ∧ (loadAll.items codec sc q (.path p) w').2.disk = w.disk := by
    rintro p text w' hw' ⟨raw, h1, h2, h3⟩
    obtain ⟨l1, l2, -⟩ := C111_load_path codec sc (w := w') (by rw [hw']; exact h1) h2 h3
    unfold loadAll.items Act.andThen fileItems
    cases hl : load codec sc (.path p) w' with
    | mk a w2 =>
      rw [hl] at l1 l2
      simp only at l1 l2
      rw [← l1]
      cases a with
      | error e => exact ⟨rfl, by rw [l2, hw']⟩
      | ok d =>
        refine ⟨?_, by rw [l2, hw']⟩
        cases q <;> rfl
  have hgo : ∀ {ps texts : List (List Char)}, List.Forall₂ (fun p text => ∃ raw, w.disk p = some raw ∧ (codec p).dec raw = lineResults text ∧ '\x00' ∉ text) ps texts →
      ∀ acc w', w'.disk = w.disk → (loadAll.go codec sc q (ps.map .path) acc w').1 = texts.foldlM (fun result f => do
        let items ← fileItems sc q f
        pure (result ++ items)) acc := by
    intro ps texts h
    induction h with
    | nil => intro acc w' _; rfl
    | @cons p text ps texts hd _ ih =>
      intro acc w' hw'
      obtain ⟨i1, i2⟩ := hitems hw' hd
      rw [List.map_cons, loadAll.go, List.foldlM_cons, ← i1]
      unfold Act.andThen
      cases hl : loadAll.items codec sc q (.path p) w' with
      | mk a w2 =>
        rw [hl] at i2
        cases a with
        | error e => rfl
        | ok x => exact ih _ _ i2
  cases h with
  | nil => rfl
  | @cons p text ps texts hd htl =>
    obtain ⟨i1, i2⟩ := hitems rfl hd
    rw [List.map_cons]
    simp only [loadAll, loadFiles]
    rw [← i1]
    unfold Act.andThen
    cases hl : loadAll.items codec sc q (.path p) w with
    | mk a w2 =>
      rw [hl] at i2
      cases a with
      | error e => rfl
      | ok x => exact hgo htl _ _ i2

/-! ### The extension -/

theorem takeWhile_stop {α : Type} (P : α → Bool) (a b : List α) (ha : ∀ x ∈ a, P x = true) (hb : ∀ x ∈ b.head?, P x = false) : (a ++ b).takeWhile P = a := by
  rw [List.takeWhile_append_of_pos ha]
  cases b with
  | nil => simp
  | cons x b => simp [hb x (by simp)]

theorem extension_eq {d b e : List Char} (hd : d = [] ∨ ∃ d', d = d' ++ ['/']) (hb : '/' ∉ b) (hc : ∃ c ∈ b, c ≠ '.') (he : '/' ∉ e) (he' : '.' ∉ e) :
    extension (d ++ b ++ '.' :: e) = '.' :: e := by
  have h1 : (d ++ b ++ '.' :: e).reverse.takeWhile (· ≠ '/') = (b ++ '.' :: e).reverse := by
    rw [List.append_assoc, List.reverse_append]
    apply takeWhile_stop
    · intro x hx
      rw [List.mem_reverse] at hx
      have : x ≠ '/' := by
        rintro rfl
        simp [hb, he] at hx
      simpa using this
    · intro x hx
      rcases hd with rfl | ⟨d', rfl⟩
      · simp at hx
      · simp at hx
        subst hx
        rfl
  unfold extension
  simp only
  have hne : (b.dropWhile (· = '.')) ≠ [] := by
    intro h
    rw [List.dropWhile_eq_nil_iff] at h
    obtain ⟨c, h2, h3⟩ := hc
    exact h3 (by simpa using h c h2)
  have h2 : (b ++ '.' :: e).dropWhile (· = '.') = b.dropWhile (· = '.') ++ '.' :: e := by
    rw [List.dropWhile_append, if_neg (by rw [List.isEmpty_iff]; exact hne)]
  rw [h1, List.reverse_reverse, h2, if_pos (by simp), List.reverse_append, List.reverse_cons, List.append_assoc]
  rw [takeWhile_stop _ e.reverse _ (by
    intro x hx
    have : x ≠ '.' := by
      rintro rfl
      simp at hx
      exact he' hx
    simpa using this) (by simp)]
  simp

theorem extension_suffix (p : List Char) : extension p <:+ p := by
  unfold extension
  simp only
  split
  · rename_i h
    have h1 : ((p.reverse.takeWhile (· ≠ '/')).reverse) <:+ p := by
      have := List.takeWhile_prefix (l := p.reverse) (fun c => decide (c ≠ '/'))
      rw [← List.reverse_suffix, List.reverse_reverse] at this
      exact this
    refine List.IsSuffix.trans ?_ ((List.dropWhile_suffix (fun x => decide (x = '.'))).trans h1)
    generalize (List.dropWhile (fun x => decide (x = '.')) ((p.reverse.takeWhile (· ≠ '/')).reverse)) = base at h ⊢
    have h2 := List.takeWhile_append_dropWhile (p := fun c => decide (c ≠ '.')) (l := base.reverse)
    have h3 : (base.reverse.dropWhile (fun c => decide (c ≠ '.'))) ≠ [] := by
      intro h4
      rw [List.dropWhile_eq_nil_iff] at h4
      have := h4 '.' (List.mem_reverse.2 h)
      simp at this
    obtain ⟨x, xs, hx⟩ := List.exists_cons_of_ne_nil h3
    have hdot : x = '.' := by
      have := List.head_dropWhile_not (fun c => decide (c ≠ '.')) h3
      simp only [hx, List.head_cons] at this
      simpa using this
    rw [hx, hdot] at h2
    refine ⟨xs.reverse, ?_⟩
    have h5 := congrArg List.reverse h2
    rw [List.reverse_reverse] at h5
    simpa using h5
  · exact List.nil_suffix

/-- C111: a path that ends in `.gz` (after a name that has more than dots) is read with gzip, one that ends in `.bz2` with bz2, and one that ends in
neither as it is. -/
theorem C111_extension (gz bz2 : Codec) {d b : List Char} (hd : d = [] ∨ ∃ d', d = d' ++ ['/']) (hb : '/' ∉ b) (hc : ∃ c ∈ b, c ≠ '.') :
    codecOf gz bz2 (d ++ b ++ ".gz".toList) = gz ∧ codecOf gz bz2 (d ++ b ++ ".bz2".toList) = bz2 ∧
    ∀ p, ¬ ".gz".toList <:+ p → ¬ ".bz2".toList <:+ p → codecOf gz bz2 p = plain := by
  have h1 : extension (d ++ b ++ ".gz".toList) = ".gz".toList := extension_eq (e := "gz".toList) hd hb hc (by decide) (by decide)
  have h2 : extension (d ++ b ++ ".bz2".toList) = ".bz2".toList := extension_eq (e := "bz2".toList) hd hb hc (by decide) (by decide)
  refine ⟨by rw [codecOf, if_pos h1], by rw [codecOf, h2, if_neg (by decide), if_pos rfl], fun p hp hp' => ?_⟩
  have hs := extension_suffix p
  rw [codecOf, if_neg (by intro h; rw [h] at hs; exact hp hs), if_neg (by intro h; rw [h] at hs; exact hp' hs)]

/-- The path `data/train.gz`. -/
example : ("data/".toList = [] ∨ ∃ d', "data/".toList = d' ++ ['/']) ∧ '/' ∉ "train".toList ∧ ∃ c ∈ "train".toList, c ≠ '.' :=
  ⟨.inr ⟨"data".toList, rfl⟩, by decide, 't', by decide, by decide⟩

theorem nativeDump_refused {r : Nat} {w : World} {s : Stream} (hs : w.streams[r]? = some s) (h : s.binary = true ∨ s.isOpen = false) (t : List Char)
    (rows : List (Except PyErr (List Char))) : nativeDump r (.ok t :: rows) w = (.error .runtimeError, w) := by
  have : ¬ (s.isOpen && !s.binary) = true := by rcases h with h | h <;> simp [h]
  simp only [nativeDump, Act.andThen, writeText, hs, if_neg this]

/-- C111: rows are appended to a file object that is open for text, which stays open; files and descriptors are not changed. -/
theorem C111_dump_stream (codec : List Char → Codec) (showF : F → List Char) {X : List (List F)} {y : List F} {qids : List Int} {zb : Bool} {text : List Char}
    (hd : dumpFile showF X y qids zb = .ok text) {r : Nat} {w : World} {s : Stream} (hs : w.streams[r]? = some s) (ho : s.isOpen = true)
    (hb : s.binary = false) (hroom : w.room = none) :
    (dump codec showF (.ok (X, y, qids)) zb (.stream r) w).1 = .ok () ∧
      (dump codec showF (.ok (X, y, qids)) zb (.stream r) w).2.streams = w.streams.set r { s with written := s.written ++ text } ∧
      (dump codec showF (.ok (X, y, qids)) zb (.stream r) w).2.disk = w.disk ∧ (dump codec showF (.ok (X, y, qids)) zb (.stream r) w).2.descs = w.descs := by
  unfold dumpFile at hd
  cases hrows : X.zipIdx.mapM (fun q => dumpRow showF y qids zb q.2 q.1) with
  | error e => rw [hrows] at hd; cases hd
  | ok texts =>
    rw [hrows] at hd
    cases hd
    obtain ⟨room, h⟩ := nativeDump_ok texts hs ho hb (by rw [hroom]; simp)
    have e : X.zipIdx.map (fun p => dumpRow showF y qids zb p.2 p.1) = texts.map .ok := mapM_rows hrows
    simp only [dump, e, h]
    exact ⟨trivial, trivial, trivial, trivial⟩

/-- C111: a file object that is open for bytes, as needed for loading, or closed, is refused by a dump of at least one row, and nothing changes. -/
theorem C111_dump_binary (codec : List Char → Codec) (showF : F → List Char) {X : List (List F)} {y : List F} {qids : List Int} {zb : Bool} {text : List Char}
    (hd : dumpFile showF X y qids zb = .ok text) (hX : X ≠ []) {r : Nat} {w : World} {s : Stream} (hs : w.streams[r]? = some s)
    (h : s.binary = true ∨ s.isOpen = false) : dump codec showF (.ok (X, y, qids)) zb (.stream r) w = (.error .runtimeError, w) := by
  unfold dumpFile at hd
  cases hrows : X.zipIdx.mapM (fun q => dumpRow showF y qids zb q.2 q.1) with
  | error e => rw [hrows] at hd; cases hd
  | ok texts =>
    have e : X.zipIdx.map (fun p => dumpRow showF y qids zb p.2 p.1) = texts.map .ok := mapM_rows hrows
    simp only [dump, e]
    cases texts with
    | nil =>
      have := congrArg List.length e
      simp at this
      exact absurd this hX
    | cons t texts => exact nativeDump_refused hs h t _

theorem readLoop_stop (sc : Scan F) {z : List Char} (hz : cString z = []) (rest : List (Option (List Char))) :
    ∀ (ls : List (List Char)) (s s' : State F), (∀ l ∈ ls, cString l ≠ []) → ls.foldlM (fun s l => parseLine sc s (cString l)) s = .ok s' →
    (readLoop sc (ls.map some ++ some z :: rest) s).1 = .ok s' ∧ readRest sc (ls.map some ++ some z :: rest) s = rest
  | [], s, s', _, h => by
    cases h
    simp [readLoop, readRest, hz]
  | l :: ls, s, s', hl, h => by
    rw [List.foldlM_cons] at h
    cases hp : parseLine sc s (cString l) with
    | error e => rw [hp] at h; cases h
    | ok s1 =>
      rw [hp] at h
      have ih := readLoop_stop sc hz rest ls s1 s' (fun l hm => hl l (List.mem_cons_of_mem _ hm)) h
      simp only [List.map_cons, List.cons_append, readLoop, readRest, if_neg (hl l (by simp)), hp]
      exact ih

/-- C111: loading from a file object stops behind the first line that begins with a NUL character, so that the next load from it goes on with the line
after that one. -/
theorem C111_stops (codec : List Char → Codec) (sc : Scan F) {r : Nat} {w : World} {st : Stream} (hs : w.streams[r]? = some st) (ho : st.isOpen = true)
    (hb : st.binary = true) {ls : List (List Char)} {z : List Char} {rest : List (Option (List Char))} (hrest : st.rest = ls.map some ++ some z :: rest)
    (hz : cString z = []) (hl : ∀ l ∈ ls, cString l ≠ []) {s : State F} (hp : ls.foldlM (fun s l => parseLine sc s (cString l)) ⟨[], [], [], 0⟩ = .ok s) :
    (load codec sc (.stream r) w).1 = shape sc s ∧ (load codec sc (.stream r) w).2.streams = w.streams.set r { st with rest := rest } ∧
      (load codec sc (.stream r) (load codec sc (.stream r) w).2).1 = ((readLoop sc rest ⟨[], [], [], 0⟩).1 >>= shape sc) := by
  have hlt : r < w.streams.length := (List.getElem?_eq_some_iff.1 hs).1
  obtain ⟨h1, h2⟩ := readLoop_stop sc hz rest ls _ _ hl hp
  rw [← hrest] at h1 h2
  have hw : (load codec sc (.stream r) w).2.streams = w.streams.set r { st with rest := rest } := by
    unfold load Act.andThen
    simp only [nativeLoad, hs, ho, hb, Bool.and_self, ↓reduceIte, h1, h2]
  refine ⟨?_, hw, ?_⟩
  · rw [load, shape_of]
    simp only [nativeLoad, hs, ho, hb, Bool.and_self, ↓reduceIte, h1]
    rfl
  · have hg : (load codec sc (.stream r) w).2.streams[r]? = some { st with rest := rest } := by rw [hw, List.getElem?_set_self hlt]
    generalize (load codec sc (.stream r) w).2 = w2 at hg ⊢
    rw [load, shape_of]
    simp only [nativeLoad, hg, ho, hb, Bool.and_self, ↓reduceIte]

/-! ### What goes wrong -/

/-- C111 is violated: a dump that fails has destroyed the file. Whatever was in the file, after a dump that cannot write row `k` it has only the first
`k` of the new rows. -/
theorem C111_violated_truncated (codec : List Char → Codec) (showF : F → List Char) {X : List (List F)} {y : List F} {qids : List Int} {zb : Bool}
    (p : List Char) {texts : List (List Char)} (hrows : X.zipIdx.mapM (fun q => dumpRow showF y qids zb q.2 q.1) = .ok texts) {w : World} {k : Nat}
    (hk : w.room = some k) (hlt : k < texts.length) :
    (dump codec showF (.ok (X, y, qids)) zb (.path p) w).1 = .error .runtimeError ∧
      (dump codec showF (.ok (X, y, qids)) zb (.path p) w).2.disk p = some ((codec p).enc (texts.take k).flatten) := by
  obtain ⟨h1, h2⟩ := (dump_path codec showF p hrows w).2 k hk hlt
  exact ⟨h1, by rw [h2]; simp⟩

theorem readRest_nil (sc : Scan F) : ∀ (ls : List (Option (List Char))) (s s' : State F), (∀ l, some l ∈ ls → cString l ≠ []) →
    (readLoop sc ls s).1 = .ok s' → readRest sc ls s = []
  | [], _, _, _, _ => rfl
  | none :: _, _, _, _, h => by simp [readLoop] at h
  | some line :: rest, s, s', hl, h => by
    have hne := hl line (by simp)
    simp only [readLoop, if_neg hne] at h
    simp only [readRest, if_neg hne]
    cases hp : parseLine sc s (cString line) with
    | error e => rw [hp] at h; cases h
    | ok s1 =>
      rw [hp] at h
      exact readRest_nil sc rest s1 s' (fun l hm => hl l (List.mem_cons_of_mem _ hm)) h

/-- C111 is violated: a file object from which data was loaded cannot be loaded again, because it is at its end: a division by zero is reported. -/
theorem C111_violated_twice (codec : List Char → Codec) (sc : Scan F) {r : Nat} {w : World} {s : Stream} (hs : w.streams[r]? = some s)
    (hl : ∀ l, some l ∈ s.rest → cString l ≠ []) {d : List (List F) × Nat × List F × List Int} (h : (load codec sc (.stream r) w).1 = .ok d) :
    (load codec sc (.stream r) (load codec sc (.stream r) w).2).1 = .error .zeroDivisionError := by
  have hlt : r < w.streams.length := (List.getElem?_eq_some_iff.1 hs).1
  have h' := h
  rw [load, shape_of] at h'
  simp only [nativeLoad, hs] at h'
  by_cases ho : (s.isOpen && s.binary) = true
  · rw [if_pos ho] at h'
    cases hr : (readLoop sc s.rest ⟨[], [], [], 0⟩).1 with
    | error e => rw [hr] at h'; cases h'
    | ok st =>
      have hrest := readRest_nil sc _ _ _ hl hr
      have hw' : (load codec sc (.stream r) w).2.streams[r]? = some { s with rest := [] } := by
        unfold load Act.andThen
        simp only [nativeLoad, hs, if_pos ho, hr, hrest]
        simp [List.getElem?_set_self hlt]
      generalize (load codec sc (.stream r) w).2 = w' at hw' ⊢
      rw [load, shape_of]
      simp only [nativeLoad, hw', if_pos ho]
      rfl
  · rw [if_neg ho] at h'
    cases h'

/-- C111 is violated in the same way for a descriptor. -/
theorem C111_violated_descriptor (codec : List Char → Codec) (sc : Scan F) {n : Nat} {w : World} {rest : List (Option (List Char))} {out : List Char}
    (hn : w.descs n = some (rest, out)) :
    (load codec sc (.descriptor n) (load codec sc (.descriptor n) w).2).1 = .error .zeroDivisionError := by
  have open_ : ∀ {w : World} {rest : List (Option (List Char))} {out : List Char}, w.descs n = some (rest, out) → openTarget codec false (.descriptor n) w =
      (.ok w.streams.length, { w with streams := w.streams ++ [⟨true, true, rest, [], .nowhere⟩], descs := fun k => if k = n then some ([], out) else w.descs k }) := by
    intro w rest out h
    simp only [openTarget, h]
    rfl
  obtain ⟨-, -, h3⟩ := load_new codec sc (.descriptor n) (open_ hn) rfl
  have hn' : (load codec sc (.descriptor n) w).2.descs n = some ([], out) := by rw [h3]; simp
  obtain ⟨h1, -, -⟩ := load_new codec sc (.descriptor n) (open_ hn') rfl
  rw [h1]
  rfl

/-- C111 is violated: a compressed file that is damaged behind readable rows is not reported as an exception; the reader goes through a null pointer. -/
theorem C111_violated_damaged (codec : List Char → Codec) (sc : Scan F) {p raw : List Char} {w : World} (h : w.disk p = some raw) {ls : List (List Char)}
    {rest : List (Option (List Char))} (hdec : (codec p).dec raw = ls.map some ++ none :: rest) (hl : ∀ l ∈ ls, l ≠ [] ∧ '\x00' ∉ l) {s : State F}
    (hp : ls.foldlM (parseLine sc) ⟨[], [], [], 0⟩ = .ok s) : (load codec sc (.path p) w).1 = .error .undefinedBehaviour := by
  have ho : openTarget codec false (.path p) w = (.ok w.streams.length, { w with streams := w.streams ++ [⟨true, true, (codec p).dec raw, [], .nowhere⟩] }) := by
    simp only [openTarget, h]
    rfl
  rw [(load_new codec sc (.path p) ho rfl).1, hdec, C73_violated_read_error sc hl hp]
  rfl

/-- C111 is violated: a file object in text mode, or a closed one, is not refused either. -/
theorem C111_violated_text (codec : List Char → Codec) (sc : Scan F) {r : Nat} {w : World} {s : Stream} (hs : w.streams[r]? = some s)
    (h : s.binary = false ∨ s.isOpen = false) : (load codec sc (.stream r) w).1 = .error .undefinedBehaviour := by
  rw [load, shape_of]
  have : ¬ (s.isOpen && s.binary) = true := by rcases h with h | h <;> simp [h]
  simp only [nativeLoad, hs, if_neg this]
  rfl

/-! ### Examples -/

/-- A stand-in for compression: the text backwards, and an exception in front of what was `!`. -/
def backwards : Codec := ⟨List.reverse, fun raw => if '!' ∈ raw then (linesFrom [] (raw.reverse.takeWhile (· ≠ '!'))).map some ++ [none] else lineResults raw.reverse⟩

/-- No compression. -/
theorem plain_faithful : Codec.Faithful plain := fun _ => rfl

/-- The extension decides. -/
example : extension "data/train.gz".toList = ".gz".toList ∧ extension "data.gz/train".toList = [] ∧ extension ".gz".toList = [] ∧
    extension "a.tar.bz2".toList = ".bz2".toList ∧ extension "...gz".toList = [] ∧ extension "a.".toList = ['.'] := by decide +kernel

/-- A compressed and a plain file, an open file object at its beginning, descriptor 3, and room for one row. -/
def world0 : World where
  disk := fun p => if p = "a.gz".toList then some "1 qid:7 1:5\n".toList.reverse else if p = "b".toList then some "2 qid:8 1:6 2:4\n".toList else none
  descs := fun n => if n = 3 then some (lineResults "1 qid:7 1:5\n".toList, []) else none
  streams := [⟨true, true, lineResults "3 qid:9 1:1\n".toList, [], .nowhere⟩, ⟨true, false, [], [], .nowhere⟩]
  room := some 1

def codec0 : List Char → Codec := codecOf backwards backwards

/-- Loading by path, from the file object, and both at once. -/
example : (load codec0 natScan (.path "a.gz".toList) world0).1 = .ok ([[5]], 1, [1], [7]) ∧
    (load codec0 natScan (.stream 0) world0).1 = .ok ([[1]], 1, [3], [9]) ∧
    (load codec0 natScan (.descriptor 3) world0).1 = .ok ([[5]], 1, [1], [7]) ∧
    (loadAll codec0 natScan false [.path "a.gz".toList, .path "b".toList] world0).1 = .ok [.matrix [[5]] 1, .labels [1], .matrix [[6, 4]] 2, .labels [2]] ∧
    (load codec0 natScan (.stream 1) world0).1 = .error .undefinedBehaviour := by
  refine ⟨by decide +kernel, by decide +kernel, by decide +kernel, by decide +kernel, by decide +kernel⟩

/-- The hypotheses of `C111_load_path` for the two files. -/
example : world0.disk "a.gz".toList = some "1 qid:7 1:5\n".toList.reverse ∧
    (codec0 "a.gz".toList).dec "1 qid:7 1:5\n".toList.reverse = lineResults "1 qid:7 1:5\n".toList ∧ '\x00' ∉ "1 qid:7 1:5\n".toList := by
  decide +kernel

/-- `C111_violated_truncated`: the file has one row; after a dump of two rows with room for one it has the first new row. -/
example : [[(1 : Nat)], [2]].zipIdx.mapM (fun q => dumpRow decimal [3, 4] [5, 6] false q.2 q.1) = .ok ["3 qid:5 1:1 \n".toList, "4 qid:6 1:2 \n".toList] ∧
    (dump codec0 decimal (.ok ([[1], [2]], [3, 4], [5, 6])) false (.path "b".toList) world0).1 = .error .runtimeError ∧
    (dump codec0 decimal (.ok ([[1], [2]], [3, 4], [5, 6])) false (.path "b".toList) world0).2.disk "b".toList = some "3 qid:5 1:1 \n".toList := by
  decide +kernel

/-- `C111_roundtrip`: the hypotheses are met with unlimited room. -/
example : dumpFile decimal [[(1 : Nat)], [2]] [3, 4] [5, 6] false = .ok "3 qid:5 1:1 \n4 qid:6 1:2 \n".toList ∧
    (load codec0 natScan (.path "c".toList) (dump codec0 decimal (.ok ([[1], [2]], [3, 4], [5, 6])) false (.path "c".toList) { world0 with room := none }).2).1 =
      .ok ([[1], [2]], 1, [3, 4], [5, 6]) := by
  decide +kernel

/-- `C111_violated_twice` and `C111_violated_damaged`. -/
example : (∀ l, some l ∈ lineResults "3 qid:9 1:1\n".toList → cString l ≠ []) ∧
    (load codec0 natScan (.stream 0) (load codec0 natScan (.stream 0) world0).2).1 = .error .zeroDivisionError ∧
    backwards.dec "!\n5:1 7:diq 1".toList = ["1 qid:7 1:5\n".toList].map some ++ [none] := by
  refine ⟨?_, by decide +kernel, by decide +kernel⟩
  intro l hl
  have e : lineResults "3 qid:9 1:1\n".toList = [some "3 qid:9 1:1\n".toList] := by decide +kernel
  rw [e] at hl
  cases List.mem_singleton.1 hl
  decide +kernel

/-- `C111_dump_stream` and `C111_dump_binary`: file object 1 takes the rows, file object 0 refuses them. -/
example : dumpFile decimal [[(1 : Nat)], [2]] [3, 4] [5, 6] false = .ok "3 qid:5 1:1 \n4 qid:6 1:2 \n".toList ∧
    (dump codec0 decimal (.ok ([[1], [2]], [3, 4], [5, 6])) false (.stream 1) { world0 with room := none }).2.streams.map (·.written) =
      [[], "3 qid:5 1:1 \n4 qid:6 1:2 \n".toList] ∧
    (dump codec0 decimal (.ok ([[1], [2]], [3, 4], [5, 6])) false (.stream 0) world0).1 = .error .runtimeError := by
  decide +kernel

/-- `C111_stops`: the rows in front of and behind a line that begins with NUL. -/
example : (load codec0 natScan (.stream 0) { world0 with streams := [⟨true, true, lineResults "3 qid:9 1:1\n\x00x\n4 qid:8 1:2\n".toList, [], .nowhere⟩] }).1 =
      .ok ([[1]], 1, [3], [9]) ∧
    (load codec0 natScan (.stream 0) (load codec0 natScan (.stream 0)
      { world0 with streams := [⟨true, true, lineResults "3 qid:9 1:1\n\x00x\n4 qid:8 1:2\n".toList, [], .nowhere⟩] }).2).1 = .ok ([[2]], 1, [4], [8]) ∧
    cString "\x00x\n".toList = [] := by
  decide +kernel

end Verif.Props.SvmlightStreams
