/-
Lemmas on the dataset fetcher.
-/
import Verif.Spec.Fetcher
import Mathlib.Data.List.Infix
import Mathlib.Data.List.Nodup

namespace Verif
open Fetch Spec

section
variable {α β : Type}

/-! ### The monad -/

theorem fPure (a : α) (w : World) : (pure a : M α) w = (.ok a, w) := rfl

theorem fBind (x : M α) (f : α → M β) (w : World) : (x >>= f) w = M.next f (x w) := rfl

theorem fBind_ok {x : M α} {f : α → M β} {w w' : World} {b : β} : (x >>= f) w = (.ok b, w') ↔ ∃ a w1, x w = (.ok a, w1) ∧ f a w1 = (.ok b, w') := by
  rw [fBind]
  rcases h : x w with ⟨r, w1⟩
  cases r with
  | error e => simp [M.next]
  | ok a =>
    constructor
    · intro h'
      exact ⟨a, w1, rfl, h'⟩
    · rintro ⟨a', w1', h1, h2⟩
      simp only [Prod.mk.injEq, Except.ok.injEq] at h1
      obtain ⟨rfl, rfl⟩ := h1
      exact h2

theorem fBind_of {x : M α} {f : α → M β} {w w1 : World} {a : α} (h : x w = (.ok a, w1)) : (x >>= f) w = f a w1 := by
  rw [fBind, h]
  rfl

theorem fWorld (w : World) : world w = (.ok w, w) := rfl

theorem fRaise (e : Err) (w : World) : (raise e : M α) w = (.error e, w) := rfl

theorem fWorldBind (f : World → M β) (w : World) : (world >>= f) w = f w w := rfl

/-- The program does not change the world. -/
def Reads (x : M α) : Prop := ∀ w, (x w).2 = w

theorem Reads.pure (a : α) : Reads (Pure.pure a : M α) := fun _ => rfl
theorem Reads.raise (e : Err) : Reads (Fetch.raise e : M α) := fun _ => rfl
theorem Reads.world : Reads world := fun _ => rfl

theorem Reads.bind {x : M α} {f : α → M β} (hx : Reads x) (hf : ∀ a, Reads (f a)) : Reads (x >>= f) := by
  intro w
  rw [fBind]
  have := hx w
  rcases h : x w with ⟨r, w1⟩
  rw [h] at this
  cases r with
  | error e => exact this
  | ok a => rw [← this]; exact hf a w1

theorem Reads.ok {x : M α} (hx : Reads x) {w w' : World} {r : Except Err α} (h : x w = (r, w')) : w' = w := by
  have := hx w
  rw [h] at this
  exact this

theorem Reads.item (a : Option α) : Reads (item a) := by
  cases a
  · exact Reads.raise _
  · exact Reads.pure _

theorem Reads.pathExists (p : Path) : Reads (pathExists p) := fun _ => rfl

theorem Reads.readLines (p : Path) : Reads (readLines p) := by
  refine Reads.bind Reads.world (fun w => ?_)
  split
  · exact Reads.pure _
  · exact Reads.raise _
  · exact Reads.raise _

theorem Reads.tarOpen (p : Path) : Reads (tarOpen p) := by
  refine Reads.bind Reads.world (fun w => ?_)
  split
  · exact Reads.pure _
  · exact Reads.raise _
  · exact Reads.raise _

theorem Reads.walk (p : Path) : Reads (walk p) := fun _ => rfl

theorem Reads.folderOf (home : Path) (e : Entry) (fold : Option Nat) : Reads (folderOf home e fold) := by
  cases fold
  · exact Reads.pure _
  · exact Reads.bind (Reads.item _) (fun _ => Reads.pure _)

theorem Reads.readLicense (home : Path) (e : Entry) : Reads (readLicense home e) := by
  unfold Fetch.readLicense
  split
  · exact Reads.readLines _
  · exact Reads.bind (Reads.item _) (fun _ => Reads.pure _)

theorem Reads.loadFile {D : Type} (load : List String → Except Err D) (p : Path) : Reads (loadFile load p) := by
  refine Reads.bind (Reads.readLines p) (fun ls => ?_)
  split
  · exact Reads.pure _
  · exact Reads.raise _

theorem Reads.loadOption {D : Type} (load : List String → Except Err D) (p : Option Path) : Reads (loadOption load p) := by
  cases p
  · exact Reads.pure _
  · exact Reads.bind (Reads.loadFile _ _) (fun _ => Reads.pure _)

/-! ### Parts of the file system that are not changed -/

/-- Whatever happens, the paths of `S` are not changed and the servers requested are in `U`. -/
def Keeps (S : Path → Prop) (U : String → Prop) (x : M α) : Prop :=
  ∀ w, (∀ p, S p → (x w).2.fs p = w.fs p) ∧ ∃ new, (x w).2.log = w.log ++ new ∧ ∀ u ∈ new, U u

variable {S : Path → Prop} {U : String → Prop}

theorem Reads.keeps {x : M α} (h : Reads x) : Keeps S U x := fun w => by
  rw [h w]
  exact ⟨fun _ _ => rfl, [], by simp, by simp⟩

theorem Keeps.bind {x : M α} {f : α → M β} (hx : Keeps S U x) (hf : ∀ a, Keeps S U (f a)) : Keeps S U (x >>= f) := by
  intro w
  rw [fBind]
  have h0 := hx w
  rcases h : x w with ⟨r, w1⟩
  rw [h] at h0
  cases r with
  | error e => exact h0
  | ok a =>
    obtain ⟨h1, n1, h2, h3⟩ := h0
    obtain ⟨h1', n2, h2', h3'⟩ := hf a w1
    refine ⟨fun p hp => (h1' p hp).trans (h1 p hp), n1 ++ n2, ?_, ?_⟩
    · show ((f a) w1).2.log = _
      rw [h2', h2, List.append_assoc]
    · intro u hu
      rcases List.mem_append.1 hu with hu | hu
      · exact h3 u hu
      · exact h3' u hu

theorem Keeps.tick : Keeps S U tick := by
  intro w
  unfold Fetch.tick
  split
  · exact ⟨fun _ _ => rfl, [], by simp, by simp⟩
  · exact ⟨fun _ _ => rfl, [], by simp, by simp⟩
  · exact ⟨fun _ _ => rfl, [], by simp, by simp⟩

theorem Keeps.change {f : (Path → Option Node) → Path → Option Node} (h : ∀ fs p, S p → f fs p = fs p) : Keeps S U (change f) := by
  refine Keeps.bind Keeps.tick (fun _ w => ?_)
  exact ⟨fun p hp => h w.fs p hp, [], by simp, by simp⟩

theorem Keeps.setNode {p : Path} {n : Option Node} (h : ¬ S p) : Keeps S U (Fetch.change (setNode p n)) := by
  apply Keeps.change
  intro fs q hq
  unfold Fetch.setNode
  rw [if_neg]
  rintro rfl
  exact h hq

theorem Keeps.addDirs {p : Path} (h : ∀ q, q <+: p → ¬ S q) : Keeps S U (Fetch.change (addDirs p)) := by
  apply Keeps.change
  intro fs q hq
  unfold Fetch.addDirs
  rw [if_neg]
  rintro ⟨h1, _⟩
  exact h q h1 hq

theorem Keeps.makedirs {p : Path} (h : ∀ q, q <+: p → ¬ S q) : Keeps S U (makedirs p) := by
  refine Keeps.bind Reads.world.keeps (fun w => ?_)
  split
  · exact (Reads.raise _).keeps
  · exact Keeps.addDirs h

theorem Keeps.remove {p : Path} (h : ¬ S p) : Keeps S U (remove p) := by
  refine Keeps.bind Reads.world.keeps (fun w => ?_)
  split
  · exact Keeps.setNode h
  · exact (Reads.raise _).keeps

theorem Keeps.urlopen {u : String} (h : U u) : Keeps S U (urlopen u) := by
  refine Keeps.bind Keeps.tick (fun _ w => ?_)
  split
  · exact ⟨fun _ _ => rfl, [u], rfl, by simpa using h⟩
  · exact ⟨fun _ _ => rfl, [u], rfl, by simpa using h⟩

theorem Keeps.writeLines {p : Path} (h : ¬ S p) : ∀ (ls done : List String), Keeps S U (writeLines p done ls)
  | [], _ => (Reads.pure _).keeps
  | _ :: ls, done => Keeps.bind (Keeps.setNode h) (fun _ => Keeps.writeLines h ls _)

theorem Keeps.extractall {home : Path} (h : ∀ q r, q <+: home ++ r → ¬ S q) : ∀ (files : List (Path × List String)), Keeps S U (extractall home files)
  | [] => (Reads.pure _).keeps
  | (r, ls) :: files => by
    refine Keeps.bind Reads.world.keeps (fun w => ?_)
    split
    · exact (Reads.raise _).keeps
    · exact Keeps.bind (Keeps.addDirs (fun q hq => h q r (hq.trans (List.dropLast_prefix _)))) (fun _ =>
        Keeps.bind (Keeps.setNode (h _ r (List.prefix_refl _))) (fun _ =>
          Keeps.bind (Keeps.writeLines (h _ r (List.prefix_refl _)) _ _) (fun _ => Keeps.extractall h files)))

theorem Keeps.fetchArchive {home : Path} {archive : String} {url : Option String} (h : ∀ q r, q <+: home ++ r → ¬ S q) (hu : ∀ u, url = some u → U u) :
    Keeps S U (fetchArchive home archive url) := by
  have ha := h (home ++ [archive]) [archive] (List.prefix_refl _)
  refine Keeps.bind (Reads.pathExists _).keeps (fun b => ?_)
  split
  · exact (Reads.pure _).keeps
  · refine Keeps.bind (Keeps.makedirs (fun q hq => h q [] (by simpa using hq))) (fun _ => ?_)
    cases url with
    | none => exact (Reads.raise (α := Unit) .keyError).keeps
    | some u =>
      refine Keeps.bind (x := Fetch.urlopen u) (Keeps.urlopen (hu u rfl)) (fun files => ?_)
      refine Keeps.bind (Keeps.setNode ha) (fun _ => ?_)
      refine Keeps.bind (Keeps.setNode ha) (fun _ => ?_)
      refine Keeps.bind (Reads.tarOpen _).keeps (fun files => ?_)
      exact Keeps.bind (Keeps.extractall h _) (fun _ => Keeps.remove ha)

/-! ### Programs that end normally -/

/-- The servers and the requests are as before. -/
def SameNet (w w' : World) : Prop := w'.log = w.log ∧ w'.server = w.server

theorem SameNet.refl (w : World) : SameNet w w := ⟨rfl, rfl⟩

theorem SameNet.trans {w w1 w' : World} (h : SameNet w w1) (h' : SameNet w1 w') : SameNet w w' :=
  ⟨h'.1.trans h.1, h'.2.trans h.2⟩

theorem tick_ok {w w' : World} (h : tick w = (.ok (), w')) : w'.fs = w.fs ∧ SameNet w w' := by
  unfold tick at h
  split at h
  · cases h
    exact ⟨rfl, SameNet.refl _⟩
  · cases h
  · cases h
    exact ⟨rfl, rfl, rfl⟩

theorem change_ok {f : (Path → Option Node) → Path → Option Node} {w w' : World} (h : change f w = (.ok (), w')) : w'.fs = f w.fs ∧ SameNet w w' := by
  obtain ⟨_, w1, h1, h2⟩ := fBind_ok.1 h
  obtain ⟨e1, e2⟩ := tick_ok h1
  cases h2
  exact ⟨by simp only [e1], e2⟩

theorem makedirs_ok {p : Path} {w w' : World} (h : makedirs p w = (.ok (), w')) : w.fs p = none ∧ w'.fs = addDirs p w.fs ∧ SameNet w w' := by
  unfold makedirs at h
  rw [fWorldBind] at h
  split at h
  · cases h
  · rename_i hc
    simp only [Bool.or_eq_true, not_or, Option.not_isSome_iff_eq_none, ne_eq] at hc
    exact ⟨by simpa using hc.1, change_ok h⟩

theorem remove_ok {p : Path} {w w' : World} (h : remove p w = (.ok (), w')) : w'.fs = setNode p none w.fs ∧ SameNet w w' := by
  unfold remove at h
  rw [fWorldBind] at h
  cases hp : w.fs p with
  | none => simp [hp, fRaise] at h
  | some n =>
    cases n with
    | dir => simp [hp, fRaise] at h
    | file c =>
      simp only [hp] at h
      exact change_ok h

theorem rmtree_ok {p : Path} {w w' : World} (h : rmtree p w = (.ok (), w')) : (w'.fs = fun q => if p <+: q then none else w.fs q) ∧ SameNet w w' := by
  unfold rmtree at h
  rw [fWorldBind] at h
  split at h
  · exact change_ok h
  · cases h

theorem urlopen_ok {u : String} {w w' : World} {files : List (Path × List String)} (h : urlopen u w = (.ok files, w')) :
    w.server u = some files ∧ w'.fs = w.fs ∧ w'.log = w.log ++ [u] ∧ w'.server = w.server := by
  obtain ⟨_, w1, h1, h2⟩ := fBind_ok.1 h
  obtain ⟨e1, e2, e3⟩ := tick_ok h1
  cases hf : w1.server u with
  | none => simp [hf] at h2
  | some f =>
    simp only [hf, Prod.mk.injEq, Except.ok.injEq] at h2
    obtain ⟨rfl, rfl⟩ := h2
    exact ⟨by rw [← e3, hf], e1, by simp [e2], e3⟩

theorem item_ok {a : Option α} {x : α} {w w' : World} (h : item a w = (.ok x, w')) : a = some x ∧ w' = w := by
  cases a with
  | none => cases h
  | some b =>
    cases h
    exact ⟨rfl, rfl⟩

theorem setNode_setNode (p : Path) (a b : Option Node) (fs : Path → Option Node) : setNode p b (setNode p a fs) = setNode p b fs := by
  funext q
  unfold setNode
  split <;> rfl

theorem setNode_self {p : Path} {a : Option Node} {fs : Path → Option Node} (h : fs p = a) : setNode p a fs = fs := by
  funext q
  unfold setNode
  split
  · rename_i e
    rw [e, h]
  · rfl

theorem writeLines_ok {p : Path} : ∀ (ls done : List String) {w w' : World}, w.fs p = some (.file (.text done)) → writeLines p done ls w = (.ok (), w') →
    w'.fs = setNode p (some (.file (.text (done ++ ls)))) w.fs ∧ SameNet w w'
  | [], done, w, w', hp, h => by
    cases h
    rw [List.append_nil, setNode_self hp]
    exact ⟨rfl, SameNet.refl _⟩
  | l :: ls, done, w, w', hp, h => by
    obtain ⟨_, w1, h1, h2⟩ := fBind_ok.1 h
    obtain ⟨e1, n1⟩ := change_ok h1
    obtain ⟨e2, n2⟩ := writeLines_ok ls (done ++ [l]) (by rw [e1]; simp [setNode]) h2
    refine ⟨?_, n1.trans n2⟩
    rw [e2, e1, setNode_setNode, List.append_assoc, List.singleton_append]

theorem prefix_append_iff {home r s : Path} : home ++ r <+: home ++ s ↔ r <+: s := List.prefix_append_right_inj home

theorem archiveTree_snoc {done : List (Path × List String)} {r0 : Path} {ls : List String} (hn : r0 ∉ done.map (·.1)) (r : Path) :
    archiveTree (done ++ [(r0, ls)]) r =
      if r = r0 then some (.file (.text ls)) else if r <+: r0 ∧ archiveTree done r = none then some .dir else archiveTree done r := by
  unfold archiveTree
  rw [List.find?_append]
  by_cases h : r = r0
  · subst h
    have : done.find? (fun f => decide (f.1 = r)) = none := by
      rw [List.find?_eq_none]
      intro f hf
      simp only [decide_eq_true_eq]
      rintro rfl
      exact hn (List.mem_map.2 ⟨f, hf, rfl⟩)
    simp [this]
  · rw [if_neg h]
    have e : [(r0, ls)].find? (fun f => decide (f.1 = r)) = none := by
      simp [Ne.symm h]
    rw [e, Option.or_none]
    cases hf : done.find? (fun f => decide (f.1 = r)) with
    | some f => simp
    | none =>
      have eq : (r = [] ∨ ∃ f ∈ done ++ [(r0, ls)], r <+: f.1) ↔ (r = [] ∨ ∃ f ∈ done, r <+: f.1) ∨ r <+: r0 := by
        constructor
        · rintro (c | ⟨f, hf, c⟩)
          · exact Or.inl (Or.inl c)
          · rcases List.mem_append.1 hf with hf | hf
            · exact Or.inl (Or.inr ⟨f, hf, c⟩)
            · rw [List.mem_singleton.1 hf] at c
              exact Or.inr c
        · rintro ((c | ⟨f, hf, c⟩) | c)
          · exact Or.inl c
          · exact Or.inr ⟨f, List.mem_append_left _ hf, c⟩
          · exact Or.inr ⟨(r0, ls), by simp, c⟩
      simp only [eq]
      by_cases h1 : r = [] ∨ ∃ f ∈ done, r <+: f.1
      · simp only [h1, true_or, if_true, reduceCtorEq, and_false, if_false]
      · by_cases h2 : r <+: r0
        · simp only [h1, h2, or_true, if_true, if_false, and_self]
        · simp only [h1, h2, or_false, if_false, false_and]

theorem prefix_dropLast_iff {r r0 : Path} (hr : r ≠ r0) : r <+: r0.dropLast ↔ r <+: r0 := by
  constructor
  · exact fun h => h.trans (List.dropLast_prefix _)
  · rintro ⟨t, rfl⟩
    have ht : t ≠ [] := by
      rintro rfl
      simp at hr
    rw [List.dropLast_append_of_ne_nil ht]
    exact List.prefix_append _ _

theorem extractall_ok {home : Path} {archive : String} : ∀ (files done : List (Path × List String)) {w w' : World},
    (∀ r, r ≠ [archive] → w.fs (home ++ r) = archiveTree done r) → (∀ q, q <+: home → w.fs q ≠ none) →
    ((done ++ files).map (·.1)).Nodup → (∀ f ∈ files, f.1 ≠ []) → NameFree archive files → extractall home files w = (.ok (), w') →
    (∀ r, r ≠ [archive] → w'.fs (home ++ r) = archiveTree (done ++ files) r) ∧ w'.fs (home ++ [archive]) = w.fs (home ++ [archive]) ∧
    (∀ p, ¬ home <+: p → w'.fs p = w.fs p) ∧ SameNet w w'
  | [], done, w, w', hd, hpre, hnd, hne, hfree, h => by
    cases h
    rw [List.append_nil]
    exact ⟨hd, rfl, fun _ _ => rfl, SameNet.refl _⟩
  | (r0, ls) :: files, done, w, w', hd, hpre, hnd, hne, hfree, h => by
    rw [extractall, fWorldBind] at h
    split at h
    · cases h
    obtain ⟨_, w1, h1, h⟩ := fBind_ok.1 h
    obtain ⟨_, w2, h2, h⟩ := fBind_ok.1 h
    obtain ⟨_, w3, h3, h⟩ := fBind_ok.1 h
    obtain ⟨e1, n1⟩ := change_ok h1
    obtain ⟨e2, n2⟩ := change_ok h2
    obtain ⟨e3, n3⟩ := writeLines_ok ls [] (by rw [e2]; simp [setNode]) h3
    have hr0 : r0 ≠ [] := hne _ List.mem_cons_self
    have ha0 : ¬ [archive] <+: r0 := hfree _ List.mem_cons_self
    have hr0a : r0 ≠ [archive] := by
      rintro rfl
      exact ha0 (List.prefix_refl _)
    have e : w3.fs = setNode (home ++ r0) (some (.file (.text ls))) (addDirs (home ++ r0).dropLast w.fs) := by
      rw [e3, e2, e1, setNode_setNode, List.nil_append]
    have hdl : (home ++ r0).dropLast = home ++ r0.dropLast := List.dropLast_append_of_ne_nil hr0
    have hnd' : r0 ∉ done.map (·.1) := by
      rw [List.map_append, List.map_cons, List.nodup_append] at hnd
      intro hm
      exact hnd.2.2 _ hm _ List.mem_cons_self rfl
    have i1 : ∀ r, r ≠ [archive] → w3.fs (home ++ r) = archiveTree (done ++ [(r0, ls)]) r := by
      intro r hr
      rw [e, archiveTree_snoc hnd']
      unfold setNode addDirs
      by_cases hrr : r = r0
      · subst hrr
        simp
      · rw [if_neg (by simpa using hrr), if_neg hrr, hd r hr]
        simp only [hdl, prefix_append_iff, prefix_dropLast_iff hrr]
    have i2 : ∀ p, w.fs p ≠ none → p ≠ home ++ r0 → w3.fs p = w.fs p := by
      intro p hp hpr
      rw [e]
      unfold setNode addDirs
      rw [if_neg hpr, if_neg (fun c => hp c.2)]
    have hpre' : ∀ q, q <+: home → w3.fs q ≠ none := by
      intro q hq
      rw [i2 q (hpre q hq)]
      · exact hpre q hq
      · rintro rfl
        have := hq.length_le
        rw [List.length_append] at this
        have : r0.length ≠ 0 := by simpa using hr0
        omega
    have i3 : w3.fs (home ++ [archive]) = w.fs (home ++ [archive]) := by
      rw [e]
      unfold setNode addDirs
      rw [if_neg (by simpa using hr0a.symm), if_neg]
      rintro ⟨c, _⟩
      rw [hdl, prefix_append_iff] at c
      exact ha0 (c.trans (List.dropLast_prefix _))
    have i4 : ∀ p, ¬ home <+: p → w3.fs p = w.fs p := by
      intro p hp
      rw [e]
      unfold setNode addDirs
      rw [if_neg, if_neg]
      · rintro ⟨c, cn⟩
        rcases List.prefix_or_prefix_of_prefix c (show home <+: (home ++ r0).dropLast by rw [hdl]; exact List.prefix_append _ _) with c' | c'
        · exact hpre p c' cn
        · exact hp c'
      · rintro rfl
        exact hp (List.prefix_append _ _)
    obtain ⟨j1, j2, j3, j4⟩ := extractall_ok files (done ++ [(r0, ls)]) i1 hpre' (by simpa using hnd)
      (fun f hf => hne f (List.mem_cons_of_mem _ hf)) (fun f hf => hfree f (List.mem_cons_of_mem _ hf)) h
    refine ⟨?_, j2.trans i3, fun p hp => (j3 p hp).trans (i4 p hp), ((n1.trans n2).trans n3).trans j4⟩
    intro r hr
    rw [j1 r hr, List.append_assoc, List.singleton_append]

theorem extractall_net {home : Path} : ∀ (files : List (Path × List String)) {w w' : World}, extractall home files w = (.ok (), w') → SameNet w w'
  | [], w, w', h => by
    cases h
    exact SameNet.refl _
  | (r0, ls) :: files, w, w', h => by
    rw [extractall, fWorldBind] at h
    split at h
    · cases h
    obtain ⟨_, w1, h1, h⟩ := fBind_ok.1 h
    obtain ⟨_, w2, h2, h⟩ := fBind_ok.1 h
    obtain ⟨_, w3, h3, h⟩ := fBind_ok.1 h
    obtain ⟨e1, n1⟩ := change_ok h1
    obtain ⟨e2, n2⟩ := change_ok h2
    obtain ⟨e3, n3⟩ := writeLines_ok ls [] (by rw [e2]; simp [setNode]) h3
    exact ((n1.trans n2).trans n3).trans (extractall_net files h)

/-- Directory missing: the archive is requested once and extracted. -/
theorem fetchArchive_fresh {home : Path} {archive : String} {url : Option String} {w w' : World} (hm : ∀ r, w.fs (home ++ r) = none)
    (h : fetchArchive home archive url w = (.ok (), w')) :
    ∃ u files, url = some u ∧ w.server u = some files ∧ w'.log = w.log ++ [u] ∧ w'.server = w.server ∧
      (ArchiveOk files → NameFree archive files → (∀ r, w'.fs (home ++ r) = archiveTree files r) ∧ ∀ p, ¬ home <+: p → w'.fs p = addDirs home w.fs p) := by
  have hm0 : w.fs home = none := by simpa using hm []
  unfold fetchArchive at h
  rw [fBind_of (show pathExists home w = (.ok false, w) by rw [pathExists, fWorldBind, hm0]; rfl), if_neg (by simp)] at h
  obtain ⟨_, w1, h1, h⟩ := fBind_ok.1 h
  obtain ⟨u, w2, h2, h⟩ := fBind_ok.1 h
  obtain ⟨files, w3, h3, h⟩ := fBind_ok.1 h
  obtain ⟨_, w4, h4, h⟩ := fBind_ok.1 h
  obtain ⟨_, w5, h5, h⟩ := fBind_ok.1 h
  obtain ⟨files', w6, h6, h⟩ := fBind_ok.1 h
  obtain ⟨_, w7, h7, h8⟩ := fBind_ok.1 h
  obtain ⟨-, e1, n1⟩ := makedirs_ok h1
  obtain ⟨eu, rfl⟩ := item_ok h2
  obtain ⟨es, e3, l3, s3⟩ := urlopen_ok h3
  obtain ⟨e4, n4⟩ := change_ok h4
  obtain ⟨e5, n5⟩ := change_ok h5
  have e6 : w6 = w5 := (Reads.tarOpen _).ok h6
  subst e6
  have ef : files' = files := by
    unfold tarOpen at h6
    rw [fWorldBind, e5] at h6
    simp only [setNode, if_true] at h6
    cases h6
    rfl
  subst ef
  obtain ⟨e8, n8⟩ := remove_ok h8
  have n7 := extractall_net files' h7
  refine ⟨u, files', eu, by rw [← n1.2, es], ?_, ?_, ?_⟩
  · rw [n8.1, n7.1, n5.1, n4.1, l3, n1.1]
  · rw [n8.2, n7.2, n5.2, n4.2, s3, n1.2]
  intro ⟨hnd, hne, _⟩ hfree
  have ew : w6.fs = setNode (home ++ [archive]) (some (.file (.tar files'))) (addDirs home w.fs) := by
    rw [e5, e4, e3, e1, setNode_setNode]
  have i1 : ∀ r, r ≠ [archive] → w6.fs (home ++ r) = archiveTree [] r := by
    intro r hr
    rw [ew]
    unfold setNode addDirs archiveTree
    rw [if_neg (by simpa using hr), hm r]
    by_cases hr0 : r = []
    · subst hr0
      simp
    · have : ¬ home ++ r <+: home := by
        intro c
        have := c.length_le
        rw [List.length_append] at this
        have : r.length ≠ 0 := by simpa using hr0
        omega
      simp [this, hr0]
  have i2 : ∀ q, q <+: home → w6.fs q ≠ none := by
    intro q hq
    rw [ew]
    unfold setNode addDirs
    split
    · simp
    · split
      · simp
      · rename_i c
        intro cn
        exact c ⟨hq, cn⟩
  obtain ⟨j1, j2, j3, _⟩ := extractall_ok files' [] i1 i2 (by simpa using hnd) hne hfree h7
  constructor
  · intro r
    rw [e8]
    unfold setNode
    by_cases hr : r = [archive]
    · subst hr
      rw [if_pos rfl]
      unfold archiveTree
      rw [List.find?_eq_none.2]
      · rw [if_neg]
        rintro (c | ⟨f, hf, c⟩)
        · simp at c
        · exact hfree f hf c
      · intro f hf c
        simp only [decide_eq_true_eq] at c
        exact hfree f hf (by rw [c])
    · rw [if_neg (by simpa using hr), j1 r hr, List.nil_append]
  · intro p hp
    rw [e8]
    unfold setNode
    have : p ≠ home ++ [archive] := by
      rintro rfl
      exact hp (List.prefix_append _ _)
    rw [if_neg this, j3 p hp, ew]
    unfold setNode
    rw [if_neg this]

/-- Directory there: nothing is done. -/
theorem fetchArchive_there {home : Path} {archive : String} {url : Option String} {w : World} (hm : w.fs home ≠ none) :
    fetchArchive home archive url w = (.ok (), w) := by
  unfold fetchArchive
  have : pathExists home w = (.ok true, w) := by
    rw [pathExists, fWorldBind, Option.isSome_iff_ne_none.2 hm]
    rfl
  rw [fBind_of this]
  rfl

/-! ### The whole download -/

theorem folderOf_ok {home : Path} {e : Entry} {fold : Option Nat} {w w' : World} {f : Path} (h : folderOf home e fold w = (.ok f, w')) :
    ∃ fo, foldFolder e fold = some fo ∧ f = home ++ fo := by
  cases fold with
  | none =>
    cases h
    exact ⟨[], rfl, by simp⟩
  | some k =>
    obtain ⟨s, w1, h1, h2⟩ := fBind_ok.1 h
    obtain ⟨e1, rfl⟩ := item_ok h1
    cases h2
    refine ⟨_, ?_, rfl⟩
    unfold foldFolder
    rw [e1]
    rfl

theorem pathExists_eq (p : Path) (w : World) : pathExists p w = (.ok (w.fs p).isSome, w) := rfl

theorem clean_ok {home : Path} {force : Bool} {w w' : World} (h : clean home force w = (.ok (), w')) :
    SameNet w w' ∧ (force = false → w' = w) ∧ (force = true → WfFs w.fs → ∀ r, r ≠ [] → w'.fs (home ++ r) = none) := by
  cases force with
  | false =>
    cases h
    exact ⟨SameNet.refl _, fun _ => rfl, by simp⟩
  | true =>
    unfold clean at h
    rw [if_pos rfl, fBind_of (pathExists_eq _ _)] at h
    by_cases he : (w.fs home).isSome = true
    · rw [if_pos he] at h
      obtain ⟨_, w1, h1, h2⟩ := fBind_ok.1 h
      obtain ⟨e1, n1⟩ := rmtree_ok h1
      obtain ⟨-, e2, n2⟩ := makedirs_ok h2
      refine ⟨n1.trans n2, by simp, fun _ _ r hr => ?_⟩
      rw [e2, e1]
      unfold addDirs
      have : ¬ home ++ r <+: home := by
        intro c
        have := c.length_le
        rw [List.length_append] at this
        have : r.length ≠ 0 := by simpa using hr
        omega
      rw [if_neg (fun c => this c.1)]
      exact if_pos (List.prefix_append _ _)
    · rw [if_neg he] at h
      cases h
      refine ⟨SameNet.refl _, by simp, fun _ hwf r _ => ?_⟩
      exact hwf home _ (List.prefix_append _ _) (by simpa using he)

theorem fetchModels_ok {home : Path} {archive : String} {e : Entry} {fold : Option Nat} {wm : Bool} {w w' : World} {m : Option (Path → Bool)}
    (h : fetchModels home archive e fold wm w = (.ok m, w')) :
    (wm = false ∧ m = none ∧ w' = w) ∨
    (wm = true ∧ fetchArchive home archive e.modelsUrl w = (.ok (), w') ∧ ∃ fo, foldFolder e fold = some fo ∧
      m = some (fun q => decide (home ++ fo <+: q) && isFile (w'.fs q))) := by
  cases wm with
  | false =>
    cases h
    exact Or.inl ⟨rfl, rfl, rfl⟩
  | true =>
    right
    unfold fetchModels at h
    rw [if_pos rfl] at h
    obtain ⟨_, w1, h1, h⟩ := fBind_ok.1 h
    obtain ⟨f, w2, h2, h⟩ := fBind_ok.1 h
    have e2 := (Reads.folderOf _ _ _).ok h2
    subst e2
    obtain ⟨fo, hfo, rfl⟩ := folderOf_ok h2
    cases h
    exact ⟨rfl, h1, fo, hfo, rfl⟩

theorem fetch_ok {e : Entry} {fold : Option Nat} {root : Path} {dl force wm : Bool} {w w' : World} {data : Fetched}
    (h : fetch e fold root dl force wm w = (.ok data, w')) :
    ∃ name a ma fo tr te w0 w1, e.name = some name ∧ e.archiveName = some a ∧ e.modelsArchiveName = some ma ∧ foldFolder e fold = some fo ∧
      e.trainFile = some tr ∧ e.testFile = some te ∧
      clean (root ++ [name]) force w = (.ok (), w0) ∧
      fetchArchive (root ++ [name] ++ ["dataset"]) a e.url w0 = (.ok (), w1) ∧
      readLicense (root ++ [name] ++ ["dataset"]) e w1 = (.ok data.license, w1) ∧
      fetchModels (root ++ [name] ++ ["models"]) ma e fold wm w1 = (.ok data.models, w') ∧
      data.train = root ++ [name] ++ ["dataset"] ++ fo ++ tr ∧ data.test = root ++ [name] ++ ["dataset"] ++ fo ++ te ∧
      data.validation = e.validationFile.map (fun v => root ++ [name] ++ ["dataset"] ++ fo ++ v) := by
  unfold fetch at h
  obtain ⟨name, w2, h2, g⟩ := fBind_ok.1 h
  clear h
  rename' g => h
  obtain ⟨hn, rfl⟩ := item_ok h2
  rw [fBind_of (pathExists_eq _ _)] at h
  split at h
  · cases h
  split at h
  · cases h
  obtain ⟨_, w0, h3, g⟩ := fBind_ok.1 h
  clear h
  rename' g => h
  obtain ⟨a, w4, h4, g⟩ := fBind_ok.1 h
  clear h
  rename' g => h
  obtain ⟨ha, rfl⟩ := item_ok h4
  obtain ⟨ma, w5, h5, g⟩ := fBind_ok.1 h
  clear h
  rename' g => h
  obtain ⟨hma, rfl⟩ := item_ok h5
  obtain ⟨f, w6, h6, g⟩ := fBind_ok.1 h
  clear h
  rename' g => h
  obtain rfl := (Reads.folderOf _ _ _).ok h6
  obtain ⟨fo, hfo, rfl⟩ := folderOf_ok h6
  obtain ⟨tr, w7, h7, g⟩ := fBind_ok.1 h
  clear h
  rename' g => h
  obtain ⟨htr, rfl⟩ := item_ok h7
  obtain ⟨te, w8, h8, g⟩ := fBind_ok.1 h
  clear h
  rename' g => h
  obtain ⟨hte, rfl⟩ := item_ok h8
  obtain ⟨_, w1, h9, g⟩ := fBind_ok.1 h
  clear h
  rename' g => h
  obtain ⟨lic, w10, h10, g⟩ := fBind_ok.1 h
  clear h
  rename' g => h
  obtain rfl := (Reads.readLicense _ _).ok h10
  obtain ⟨ms, w11, h11, g⟩ := fBind_ok.1 h
  clear h
  rename' g => h
  cases h
  exact ⟨name, a, ma, fo, tr, te, w8, w10, hn, ha, hma, hfo, htr, hte, h3, h9, h10, h11, rfl, rfl, rfl⟩

theorem not_under {d : Path} {a b : String} (hab : a ≠ b) : ∀ q r, q <+: d ++ [a] ++ r → ¬ d ++ [b] <+: q := by
  intro q r hq hb
  have := hb.trans hq
  rw [List.append_assoc, prefix_append_iff] at this
  obtain ⟨t, ht⟩ := this
  simp only [List.singleton_append, List.cons.injEq] at ht
  exact hab ht.1.symm

theorem fetchModels_keeps {S : Path → Prop} {U : String → Prop} {home : Path} {archive : String} {e : Entry} {fold : Option Nat} {wm : Bool}
    (h : ∀ q r, q <+: home ++ r → ¬ S q) (hu : ∀ u, e.modelsUrl = some u → U u) : Keeps S U (fetchModels home archive e fold wm) := by
  unfold fetchModels
  split
  · exact Keeps.bind (Keeps.fetchArchive h hu) (fun _ => Keeps.bind (Reads.folderOf _ _ _).keeps (fun _ => (Reads.walk _).keeps.bind (fun _ => (Reads.pure _).keeps)))
  · exact (Reads.pure _).keeps

/-- The steps before the download do not change anything unless forced. -/
theorem fetch_split {e : Entry} {fold : Option Nat} {root : Path} {dl wm : Bool} {w : World} {name : String} (hn : e.name = some name)
    {P : World → Prop} (h0 : P w)
    (h1 : ∀ a, P (fetchArchive (root ++ [name] ++ ["dataset"]) a e.url w).2)
    (h2 : ∀ a ma w1, fetchArchive (root ++ [name] ++ ["dataset"]) a e.url w = (.ok (), w1) →
      P (fetchModels (root ++ [name] ++ ["models"]) ma e fold wm w1).2) : P (fetch e fold root dl false wm w).2 := by
  have step : ∀ {α β : Type} {x : M α} {f : α → M β}, Reads x → (∀ a, x w = (.ok a, w) → P (f a w).2) → P ((x >>= f) w).2 := by
    intro α β x f hx hf
    rw [fBind]
    have e1 := hx w
    rcases h : x w with ⟨r, w1⟩
    rw [h] at e1
    subst e1
    cases r with
    | error e => exact h0
    | ok a => exact hf a h
  unfold fetch
  refine step (Reads.item _) (fun n en => ?_)
  obtain ⟨en, -⟩ := item_ok en
  rw [hn] at en
  cases en
  refine step (Reads.pathExists _) (fun _ _ => ?_)
  split
  · exact h0
  split
  · exact h0
  refine step (Reads.pure ()) (fun _ _ => ?_)
  refine step (Reads.item _) (fun a _ => ?_)
  refine step (Reads.item _) (fun ma _ => ?_)
  refine step (Reads.folderOf _ _ _) (fun f _ => ?_)
  refine step (Reads.item _) (fun tr _ => ?_)
  refine step (Reads.item _) (fun te _ => ?_)
  have k1 := h1 a
  have k2 := h2 a ma
  rw [fBind]
  rcases hx : fetchArchive (root ++ [name] ++ ["dataset"]) a e.url w with ⟨r, w1⟩
  rw [hx] at k1
  cases r with
  | error e => exact k1
  | ok u =>
    have k3 := k2 w1 hx
    show P ((readLicense (root ++ [name] ++ ["dataset"]) e >>= _) w1).2
    rw [fBind]
    have e1 := Reads.readLicense (root ++ [name] ++ ["dataset"]) e w1
    rcases hl : readLicense (root ++ [name] ++ ["dataset"]) e w1 with ⟨r, w2⟩
    rw [hl] at e1
    subst e1
    cases r with
    | error e => exact k1
    | ok lic =>
      show P ((fetchModels (root ++ [name] ++ ["models"]) ma e fold wm >>= _) _).2
      rw [fBind]
      dsimp only at k3
      rcases hm : fetchModels (root ++ [name] ++ ["models"]) ma e fold wm w2 with ⟨r, w3⟩
      rw [hm] at k3
      cases r with
      | error e => exact k3
      | ok m => exact k3

theorem append_length_not_prefix {home r : Path} (hr : r ≠ []) : ¬ home ++ r <+: home := by
  intro c
  have := c.length_le
  rw [List.length_append] at this
  have : r.length ≠ 0 := by simpa using hr
  omega

/-- Dataset missing or forced: it is downloaded. -/
theorem fetch_fresh {e : Entry} {fold : Option Nat} {root : Path} {dl force wm : Bool} {w w' : World} {data : Fetched} {name : String}
    (hwf : WfFs w.fs) (hn : e.name = some name) (h : fetch e fold root dl force wm w = (.ok data, w'))
    (hmiss : force = true ∨ w.fs (root ++ [name] ++ ["dataset"]) = none) :
    ∃ a u files, e.archiveName = some a ∧ e.url = some u ∧ w.server u = some files ∧
      (ArchiveOk files → NameFree a files → ∀ r, w'.fs (root ++ [name] ++ ["dataset"] ++ r) = archiveTree files r) := by
  obtain ⟨name', a, ma, fo, tr, te, w0, w1, hn', ha, hma, hfo, htr, hte, hc, hf, hl, hm, e1, e2, e3⟩ := fetch_ok h
  rw [hn] at hn'
  cases hn'
  obtain ⟨net, c1, c2⟩ := clean_ok hc
  have hfresh : ∀ r, w0.fs (root ++ [name] ++ ["dataset"] ++ r) = none := by
    intro r
    cases force with
    | true => rw [List.append_assoc]; exact c2 rfl hwf _ (by simp)
    | false =>
      rw [c1 rfl]
      exact hwf _ _ (List.prefix_append _ _) (by simpa using hmiss)
  obtain ⟨u, files, hu, hs, _, _, ht⟩ := fetchArchive_fresh hfresh hf
  refine ⟨a, u, files, ha, hu, by rw [← net.2, hs], fun hok hfree r => ?_⟩
  have hk := (fetchModels_keeps (S := fun p => root ++ [name] ++ ["dataset"] <+: p) (U := fun _ => True) (home := root ++ [name] ++ ["models"])
    (archive := ma) (e := e) (fold := fold) (wm := wm) (not_under (by decide)) (fun _ _ => trivial) w1).1 _ (List.prefix_append (root ++ [name] ++ ["dataset"]) r)
  rw [hm] at hk
  exact hk.trans ((ht hok hfree).1 r)

/-- Models missing or forced: they are downloaded. -/
theorem fetch_fresh_models {e : Entry} {fold : Option Nat} {root : Path} {dl force : Bool} {w w' : World} {data : Fetched} {name : String}
    (hwf : WfFs w.fs) (hn : e.name = some name) (h : fetch e fold root dl force true w = (.ok data, w'))
    (hmiss : force = true ∨ w.fs (root ++ [name] ++ ["models"]) = none) :
    ∃ ma u files, e.modelsArchiveName = some ma ∧ e.modelsUrl = some u ∧ w.server u = some files ∧
      (ArchiveOk files → NameFree ma files → ∀ r, w'.fs (root ++ [name] ++ ["models"] ++ r) = archiveTree files r) := by
  obtain ⟨name', a, ma, fo, tr, te, w0, w1, hn', ha, hma, hfo, htr, hte, hc, hf, hl, hm, e1, e2, e3⟩ := fetch_ok h
  rw [hn] at hn'
  cases hn'
  obtain ⟨net, c1, c2⟩ := clean_ok hc
  have hk := fun r => (Keeps.fetchArchive (S := fun p => root ++ [name] ++ ["models"] <+: p) (U := fun _ => True) (home := root ++ [name] ++ ["dataset"])
    (archive := a) (url := e.url) (not_under (by decide)) (fun _ _ => trivial) w0).1 _ (List.prefix_append (root ++ [name] ++ ["models"]) r)
  rw [hf] at hk
  have hfresh : ∀ r, w1.fs (root ++ [name] ++ ["models"] ++ r) = none := by
    intro r
    rw [hk r]
    cases force with
    | true => rw [List.append_assoc]; exact c2 rfl hwf _ (by simp)
    | false =>
      rw [c1 rfl]
      exact hwf _ _ (List.prefix_append _ _) (by simpa using hmiss)
  rcases fetchModels_ok hm with ⟨c, -, -⟩ | ⟨-, hm', -⟩
  · cases c
  obtain ⟨u, files, hu, hs, _, _, ht⟩ := fetchArchive_fresh hfresh hm'
  have hserver : w1.server = w0.server := by
    by_cases hd : w0.fs (root ++ [name] ++ ["dataset"]) = none
    · have hfd : ∀ r, w0.fs (root ++ [name] ++ ["dataset"] ++ r) = none := by
        intro r
        cases force with
        | true => rw [List.append_assoc]; exact c2 rfl hwf _ (by simp)
        | false =>
          rw [c1 rfl] at hd ⊢
          exact hwf _ _ (List.prefix_append _ _) hd
      obtain ⟨_, _, _, _, _, hs', _⟩ := fetchArchive_fresh hfd hf
      exact hs'
    · rw [fetchArchive_there hd] at hf
      cases hf
      rfl
  exact ⟨ma, u, files, hma, hu, by rw [← net.2, ← hserver, hs], fun hok hfree r => (ht hok hfree).1 r⟩

/-- The requests of a download that ends normally. -/
theorem fetch_log {e : Entry} {fold : Option Nat} {root : Path} {dl force wm : Bool} {w w' : World} {data : Fetched} {name : String}
    (hwf : WfFs w.fs) (hn : e.name = some name) (h : fetch e fold root dl force wm w = (.ok data, w')) :
    w'.log = w.log ++ (if force = true ∨ w.fs (root ++ [name] ++ ["dataset"]) = none then e.url.toList else []) ++
      (if wm = true ∧ (force = true ∨ w.fs (root ++ [name] ++ ["models"]) = none) then e.modelsUrl.toList else []) := by
  obtain ⟨name', a, ma, fo, tr, te, w0, w1, hn', ha, hma, hfo, htr, hte, hc, hf, hl, hm, e1, e2, e3⟩ := fetch_ok h
  rw [hn] at hn'
  cases hn'
  obtain ⟨net, c1, c2⟩ := clean_ok hc
  have fresh : ∀ s, (force = true ∨ w.fs (root ++ [name] ++ [s]) = none) → ∀ r, w0.fs (root ++ [name] ++ [s] ++ r) = none := by
    intro s hs r
    cases force with
    | true => rw [List.append_assoc]; exact c2 rfl hwf _ (by simp)
    | false =>
      rw [c1 rfl]
      exact hwf _ _ (List.prefix_append _ _) (by simpa using hs)
  have there : ∀ s, ¬ (force = true ∨ w.fs (root ++ [name] ++ [s]) = none) → w0.fs (root ++ [name] ++ [s]) ≠ none := by
    intro s hs
    rw [not_or] at hs
    rw [c1 (by simpa using hs.1)]
    exact hs.2
  have l1 : w1.log = w.log ++ (if force = true ∨ w.fs (root ++ [name] ++ ["dataset"]) = none then e.url.toList else []) := by
    rw [← net.1]
    split
    · rename_i hc
      obtain ⟨u, _, hu, _, hl, _⟩ := fetchArchive_fresh (fresh _ hc) hf
      rw [hl, hu]
      rfl
    · rename_i hc
      rw [fetchArchive_there (there _ hc)] at hf
      cases hf
      simp
  rw [← l1]
  have hk := fun r => (Keeps.fetchArchive (S := fun p => root ++ [name] ++ ["models"] <+: p) (U := fun _ => True) (home := root ++ [name] ++ ["dataset"])
    (archive := a) (url := e.url) (not_under (by decide)) (fun _ _ => trivial) w0).1 _ (List.prefix_append (root ++ [name] ++ ["models"]) r)
  rw [hf] at hk
  rcases fetchModels_ok hm with ⟨rfl, -, rfl⟩ | ⟨rfl, hm', -⟩
  · simp
  · by_cases hc : force = true ∨ w.fs (root ++ [name] ++ ["models"]) = none
    · rw [if_pos ⟨rfl, hc⟩]
      obtain ⟨u, _, hu, _, hl, _⟩ := fetchArchive_fresh (fun r => (hk r).trans (fresh _ hc r)) hm'
      rw [hl, hu]
      rfl
    · rw [if_neg (fun c => hc c.2)]
      rw [fetchArchive_there] at hm'
      · cases hm'
        simp
      · have := hk []
        rw [List.append_nil] at this
        rw [show w1.fs (root ++ [name] ++ ["models"]) = _ from this]
        exact there _ hc

/-! ### `load_dataset` -/

theorem addDirs_wf {fs : Path → Option Node} (h : WfFs fs) (p : Path) : WfFs (addDirs p fs) := by
  intro q r hqr hq
  unfold addDirs at hq ⊢
  have hq' : ¬ q <+: p ∧ fs q = none := by
    split at hq
    · cases hq
    · rename_i c
      exact ⟨fun c' => c ⟨c', hq⟩, hq⟩
  rw [if_neg (fun c => hq'.1 (hqr.trans c.1))]
  exact h q r hqr hq'.2

theorem getDataHome_ok {env : Option Path} {home p : Path} {w w' : World} (h : getDataHome none env home w = (.ok p, w')) :
    p = expandUser home (env.getD ["~", "rankeval_data"]) ∧ SameNet w w' ∧ (WfFs w.fs → WfFs w'.fs) ∧
      ∀ q, ¬ q <+: p → w'.fs q = w.fs q := by
  unfold getDataHome at h
  rw [fBind_of (pathExists_eq _ _)] at h
  split at h
  · cases h
    exact ⟨rfl, SameNet.refl _, id, fun _ _ => rfl⟩
  · obtain ⟨_, w1, h1, h2⟩ := fBind_ok.1 h
    obtain ⟨-, e1, n1⟩ := makedirs_ok h1
    cases h2
    refine ⟨rfl, n1, fun hw => by rw [e1]; exact addDirs_wf hw _, fun q hq => ?_⟩
    rw [e1]
    unfold addDirs
    exact if_neg (fun c => hq c.1)

theorem readLines_ok {p : Path} {w w' : World} {ls : List String} (h : readLines p w = (.ok ls, w')) : w.fs p = some (.file (.text ls)) ∧ w' = w := by
  refine ⟨?_, (Reads.readLines p).ok h⟩
  unfold readLines at h
  rw [fWorldBind] at h
  cases hp : w.fs p with
  | none => simp [hp, fRaise] at h
  | some n =>
    cases n with
    | dir => simp [hp, fRaise] at h
    | file c =>
      cases c with
      | text l =>
        simp only [hp, fPure, Prod.mk.injEq, Except.ok.injEq] at h
        rw [h.1]
      | tar f => simp [hp, fRaise] at h

theorem loadFile_ok {D : Type} {load : List String → Except Err D} {p : Path} {w w' : World} {d : D} (h : loadFile load p w = (.ok d, w')) :
    ∃ ls, w.fs p = some (.file (.text ls)) ∧ load ls = .ok d := by
  obtain ⟨ls, w1, h1, h2⟩ := fBind_ok.1 h
  refine ⟨ls, (readLines_ok h1).1, ?_⟩
  cases hl : load ls with
  | ok d' =>
    simp only [hl, fPure, Prod.mk.injEq, Except.ok.injEq] at h2
    rw [h2.1]
  | error e => simp [hl, fRaise] at h2

theorem loadOption_ok {D : Type} {load : List String → Except Err D} {p : Option Path} {w w' : World} {d : Option D}
    (h : loadOption load p w = (.ok d, w')) : (p = none ∧ d = none) ∨
      ∃ q ls d', p = some q ∧ d = some d' ∧ w.fs q = some (.file (.text ls)) ∧ load ls = .ok d' := by
  cases p with
  | none =>
    cases h
    exact Or.inl ⟨rfl, rfl⟩
  | some q =>
    right
    obtain ⟨d', w1, h1, h2⟩ := fBind_ok.1 h
    obtain ⟨ls, h3, h4⟩ := loadFile_ok h1
    cases h2
    exact ⟨q, ls, d', rfl, rfl, h3, h4⟩

theorem loadDataset_ok {D : Type} {load : List String → Except Err D} {cat : String → Option Entry} {env : Option Path} {home : Path}
    {dataset : String} {fold : Option Nat} {dl force wm : Bool} {w w' : World} {c : Container D} {e : Entry} (he : cat dataset = some e)
    (h : loadDataset load (some cat) env home dataset fold dl force wm w = (.ok (some c), w')) :
    ∃ root w0 data, getDataHome none env home w = (.ok root, w0) ∧ fetch e fold root dl force wm w0 = (.ok data, w') ∧
      (∃ ls d, w'.fs data.train = some (.file (.text ls)) ∧ load ls = .ok d ∧ c.train = some d) ∧
      (∃ ls d, w'.fs data.test = some (.file (.text ls)) ∧ load ls = .ok d ∧ c.test = some d) ∧
      ((data.validation = none ∧ c.validation = none) ∨
        ∃ q ls d, data.validation = some q ∧ w'.fs q = some (.file (.text ls)) ∧ load ls = .ok d ∧ c.validation = some d) ∧
      c.license = data.license ∧ c.models = data.models := by
  unfold loadDataset at h
  simp only [he] at h
  obtain ⟨root, w0, h1, g⟩ := fBind_ok.1 h
  clear h
  obtain ⟨data, w1, h2, h⟩ := fBind_ok.1 g
  clear g
  obtain ⟨_, w2, h3, g⟩ := fBind_ok.1 h
  clear h
  obtain ⟨-, rfl⟩ := item_ok h3
  obtain ⟨_, w3, h4, h⟩ := fBind_ok.1 g
  clear g
  obtain ⟨-, rfl⟩ := item_ok h4
  obtain ⟨tr, w4, h5, g⟩ := fBind_ok.1 h
  clear h
  obtain rfl := (Reads.loadFile _ _).ok h5
  obtain ⟨te, w5, h6, h⟩ := fBind_ok.1 g
  clear g
  obtain rfl := (Reads.loadFile _ _).ok h6
  obtain ⟨va, w6, h7, g⟩ := fBind_ok.1 h
  clear h
  obtain rfl := (Reads.loadOption _ _).ok h7
  cases g
  obtain ⟨l1, r1, r2⟩ := loadFile_ok h5
  obtain ⟨l2, r3, r4⟩ := loadFile_ok h6
  refine ⟨root, w0, data, h1, h2, ⟨l1, tr, r1, r2, rfl⟩, ⟨l2, te, r3, r4, rfl⟩, ?_, rfl, rfl⟩
  rcases loadOption_ok h7 with ⟨v1, v2⟩ | ⟨q, ls, d', v1, v2, v3, v4⟩
  · exact Or.inl ⟨v1, v2⟩
  · exact Or.inr ⟨q, ls, d', v1, v3, v4, v2⟩

/-- A dataset that is there is not changed and not requested, whatever happens. -/
theorem fetch_keeps {e : Entry} {fold : Option Nat} {root : Path} {dl wm : Bool} {w : World} {name : String} (hn : e.name = some name)
    (hd : w.fs (root ++ [name] ++ ["dataset"]) ≠ none) :
    (∀ p, root ++ [name] ++ ["dataset"] <+: p → (fetch e fold root dl false wm w).2.fs p = w.fs p) ∧
      ∃ new, (fetch e fold root dl false wm w).2.log = w.log ++ new ∧ ∀ u ∈ new, e.modelsUrl = some u := by
  refine fetch_split (P := fun w' => (∀ p, root ++ [name] ++ ["dataset"] <+: p → w'.fs p = w.fs p) ∧
    ∃ new, w'.log = w.log ++ new ∧ ∀ u ∈ new, e.modelsUrl = some u) hn ?_ ?_ ?_
  · exact ⟨fun _ _ => rfl, [], by simp, by simp⟩
  · intro a
    rw [fetchArchive_there hd]
    exact ⟨fun _ _ => rfl, [], by simp, by simp⟩
  · intro a ma w1 h1
    rw [fetchArchive_there hd] at h1
    cases h1
    exact fetchModels_keeps (not_under (by decide)) (fun u hu => hu) w

theorem loadDataset_keeps {D : Type} {load : List String → Except Err D} {cat : Option (String → Option Entry)} {env : Option Path} {home : Path}
    {dataset : String} {fold : Option Nat} {dl wm : Bool} {w : World} {e : Entry} (he : ∀ c e', cat = some c → c dataset = some e' → e' = e) {name : String}
    (hn : e.name = some name) {root : Path} (hroot : root = expandUser home (env.getD ["~", "rankeval_data"]))
    (hd : w.fs (root ++ [name] ++ ["dataset"]) ≠ none) :
    (∀ p, root ++ [name] ++ ["dataset"] <+: p → (loadDataset load cat env home dataset fold dl false wm w).2.fs p = w.fs p) ∧
      ∃ new, (loadDataset load cat env home dataset fold dl false wm w).2.log = w.log ++ new ∧ ∀ u ∈ new, e.modelsUrl = some u := by
  have triv : (∀ p, root ++ [name] ++ ["dataset"] <+: p → w.fs p = w.fs p) ∧ ∃ new, w.log = w.log ++ new ∧ ∀ u ∈ new, e.modelsUrl = some u :=
    ⟨fun _ _ => rfl, [], by simp, by simp⟩
  unfold loadDataset
  cases cat with
  | none => exact triv
  | some c =>
    cases hc : c dataset with
    | none =>
      simp only [hc]
      exact triv
    | some e' =>
      obtain rfl := he c e' rfl hc
      simp only [hc]
      have hup : ∀ q, root ++ [name] ++ ["dataset"] <+: q → ¬ q <+: root := by
        intro q hq c
        have := hq.trans c
        rw [List.append_assoc] at this
        exact append_length_not_prefix (by simp) this
      have hk : Keeps (fun p => root ++ [name] ++ ["dataset"] <+: p) (fun _ => False) (getDataHome none env home) := by
        refine Keeps.bind (Reads.pathExists _).keeps (fun b => ?_)
        split
        · exact (Reads.pure _).keeps
        · refine Keeps.bind (Keeps.makedirs (fun q hq hq' => hup q hq' ?_)) (fun _ => (Reads.pure _).keeps)
          rw [hroot]
          exact hq
      obtain ⟨k1, new, k2, k3⟩ := hk w
      have : new = [] := List.eq_nil_iff_forall_not_mem.2 k3
      subst this
      rw [fBind]
      rcases hr : getDataHome none env home w with ⟨r, w0⟩
      rw [hr] at k1 k2
      simp only [List.append_nil] at k1 k2
      cases r with
      | error er => exact ⟨k1, [], by show w0.log = _; simpa using k2, by simp⟩
      | ok root' =>
        obtain ⟨rr, -, -, -⟩ := getDataHome_ok hr
        rw [← hroot] at rr
        subst rr
        have hd0 : w0.fs (root' ++ [name] ++ ["dataset"]) ≠ none := by rw [k1 _ (List.prefix_refl _)]; exact hd
        have hf := fetch_keeps (e := e') (fold := fold) (dl := dl) (wm := wm) hn hd0
        have hrest : ∀ data w1, fetch e' fold root' dl false wm w0 = (.ok data, w1) → ∀ (f : M (Option (Container D))), Reads f →
            (f w1).2 = (fetch e' fold root' dl false wm w0).2 := by
          intro data w1 h1 f hf
          rw [hf w1, h1]
        have hall : ((fetch e' fold root' dl false wm >>= fun data => do
            let _ ← item e'.name
            let _ ← item e'.format
            let train ← loadFile load data.train
            let test ← loadFile load data.test
            let validation ← loadOption load data.validation
            pure (some (⟨some train, some test, validation, data.license, data.models⟩ : Container D))) w0).2 = (fetch e' fold root' dl false wm w0).2 := by
          rw [fBind]
          rcases h1 : fetch e' fold root' dl false wm w0 with ⟨r, w1⟩
          cases r with
          | error er => rfl
          | ok data =>
            refine (hrest data w1 h1 _ ?_).trans (by rw [h1])
            exact Reads.bind (Reads.item _) (fun _ => Reads.bind (Reads.item _) (fun _ => Reads.bind (Reads.loadFile _ _) (fun _ =>
              Reads.bind (Reads.loadFile _ _) (fun _ => Reads.bind (Reads.loadOption _ _) (fun _ => Reads.pure _)))))
        simp only [M.next]
        rw [hall]
        refine ⟨fun p hp => (hf.1 p hp).trans (k1 p hp), ?_⟩
        obtain ⟨new, n1, n2⟩ := hf.2
        exact ⟨new, by rw [n1, k2], n2⟩

end

end Verif
