/-
Downloads that end normally: the process is not killed, nothing is in the way and the archives are on the servers.
-/
import Verif.Lemmas.Fetcher

namespace Verif.Fetch
open Spec
variable {α β : Type} {w w' : World}

/-- The program ends normally, and the process is never killed. -/
def Runs (x : M α) (w : World) : Prop := ∃ a w', x w = (.ok a, w') ∧ w'.fuel = none

theorem Runs.bind {x : M α} {f : α → M β} (hx : Runs x w) (hf : ∀ a w1, x w = (.ok a, w1) → w1.fuel = none → Runs (f a) w1) : Runs (x >>= f) w := by
  obtain ⟨a, w1, h1, h2⟩ := hx
  obtain ⟨b, w2, h3, h4⟩ := hf a w1 h1 h2
  exact ⟨b, w2, by rw [fBind_of h1, h3], h4⟩

theorem Runs.pure (h : w.fuel = none) (a : α) : Runs (Pure.pure a) w := ⟨a, w, rfl, h⟩

theorem Runs.item (h : w.fuel = none) {a : Option α} (ha : a ≠ none) : Runs (item a) w := by
  cases a with
  | none => exact absurd rfl ha
  | some a => exact Runs.pure h a

theorem tick_run (h : w.fuel = none) : tick w = (.ok (), w) := by
  unfold tick
  rw [h]

theorem Runs.change (h : w.fuel = none) (f : (Path → Option Node) → Path → Option Node) : Runs (change f) w := by
  refine ⟨(), { w with fs := f w.fs }, ?_, h⟩
  show M.next _ (tick w) = _
  rw [tick_run h]
  rfl

theorem not_blocked {fs : Path → Option Node} {p : Path} (h : ∀ q, q <+: p → ∀ c, fs q ≠ some (.file c)) : blocked fs p = false := by
  unfold blocked
  rw [List.any_eq_false]
  intro q hq c
  have h1 := h q ((List.mem_inits q p).1 hq)
  cases hf : fs q with
  | none => simp [hf, isFile] at c
  | some n =>
    cases n with
    | dir => simp [hf, isFile] at c
    | file t => exact h1 t hf

theorem Runs.makedirs (h : w.fuel = none) {p : Path} (hp : w.fs p = none) (hd : ∀ q, q <+: p → ∀ c, w.fs q ≠ some (.file c)) : Runs (makedirs p) w := by
  unfold Fetch.makedirs
  have e : (world >>= fun w => if ((w.fs p).isSome || blocked w.fs p) = true then raise Err.ioError else Fetch.change (addDirs p)) w =
      Fetch.change (addDirs p) w := by
    rw [fWorldBind, hp, not_blocked hd]
    rfl
  unfold Runs
  rw [e]
  exact Runs.change h _

theorem Runs.urlopen (h : w.fuel = none) {u : String} {files : List (Path × List String)} (hs : w.server u = some files) : Runs (urlopen u) w := by
  refine ⟨files, { w with log := w.log ++ [u] }, ?_, h⟩
  show M.next _ (tick w) = _
  rw [tick_run h]
  simp only [M.next, hs]

theorem Runs.writeLines {p : Path} : ∀ (ls done : List String) {w : World}, w.fuel = none → Runs (writeLines p done ls) w
  | [], _, _, h => Runs.pure h ()
  | _ :: ls, _, _, h => Runs.bind (Runs.change h _) (fun _ _ _ h1 => Runs.writeLines ls _ h1)

theorem archiveTree_file {done : List (Path × List String)} {r : Path} {c : Content} (h : archiveTree done r = some (.file c)) : ∃ f ∈ done, f.1 = r := by
  unfold archiveTree at h
  cases hf : done.find? (fun f => decide (f.1 = r)) with
  | some f => exact ⟨f, List.mem_of_find?_eq_some hf, by simpa using List.find?_some hf⟩
  | none =>
    rw [hf] at h
    dsimp only at h
    split at h
    · cases h
    · cases h

theorem archiveTree_dir {done : List (Path × List String)} {r : Path} (h : archiveTree done r = some .dir) : r = [] ∨ ∃ f ∈ done, r <+: f.1 := by
  unfold archiveTree at h
  cases hf : done.find? (fun f => decide (f.1 = r)) with
  | some f =>
    rw [hf] at h
    cases h
  | none =>
    rw [hf] at h
    dsimp only at h
    split at h
    · assumption
    · cases h

/-- A file of the archive is in the tree. -/
theorem archiveTree_mem {files : List (Path × List String)} (hn : (files.map (·.1)).Nodup) {r : Path} {ls : List String} (h : (r, ls) ∈ files) :
    archiveTree files r = some (.file (.text ls)) := by
  unfold archiveTree
  induction files with
  | nil => cases h
  | cons f files ih =>
    rw [List.map_cons, List.nodup_cons] at hn
    rw [List.find?_cons]
    rcases List.mem_cons.1 h with rfl | h
    · simp
    · have : f.1 ≠ r := by
        rintro rfl
        exact hn.1 (List.mem_map.2 ⟨_, h, rfl⟩)
      have hi := ih hn.2 h
      cases hf : files.find? (fun g => decide (g.1 = r)) with
      | some g =>
        rw [hf] at hi
        simp only [this, decide_false]
        exact hi
      | none =>
        rw [hf] at hi
        dsimp only at hi
        split at hi <;> cases hi

theorem Runs.extractall {home : Path} {archive : String} : ∀ (files done : List (Path × List String)) {w : World}, w.fuel = none →
    (∀ r, r ≠ [archive] → w.fs (home ++ r) = archiveTree done r) → (∀ q, q <+: home → w.fs q = some .dir) →
    ArchiveOk (done ++ files) → NameFree archive files → Runs (extractall home files) w
  | [], _, _, h, _, _, _, _ => Runs.pure h ()
  | (r0, ls) :: files, done, w, h, hd, hpre, hok, hfree => by
    obtain ⟨hnd, hne, hpf⟩ := hok
    have hr0 : r0 ≠ [] := hne (r0, ls) (by simp)
    have ha0 : ¬ [archive] <+: r0 := hfree _ List.mem_cons_self
    have hr0a : r0 ≠ [archive] := by
      rintro rfl
      exact ha0 (List.prefix_refl _)
    have hdl : (home ++ r0).dropLast = home ++ r0.dropLast := List.dropLast_append_of_ne_nil hr0
    have hnd' : r0 ∉ done.map (·.1) := by
      rw [List.map_append, List.map_cons, List.nodup_append] at hnd
      intro hm
      exact hnd.2.2 _ hm _ List.mem_cons_self rfl
    have hb : blocked w.fs (home ++ r0).dropLast = false := by
      apply not_blocked
      intro q hq c hc
      rw [hdl] at hq
      rcases List.prefix_or_prefix_of_prefix hq (List.prefix_append home r0.dropLast) with c' | ⟨t, rfl⟩
      · rw [hpre q c'] at hc
        cases hc
      · rw [prefix_append_iff] at hq
        have hta : t ≠ [archive] := by
          rintro rfl
          exact ha0 (hq.trans (List.dropLast_prefix _))
        rw [hd t hta] at hc
        obtain ⟨f, hf, rfl⟩ := archiveTree_file hc
        have := hpf f (List.mem_append_left _ hf) (r0, ls) (by simp) (hq.trans (List.dropLast_prefix _))
        rw [this] at hq
        have hl := hq.length_le
        rw [List.length_dropLast] at hl
        have : r0.length ≠ 0 := by simpa using hr0
        dsimp only at hl
        omega
    have hdir : w.fs (home ++ r0) ≠ some .dir := by
      rw [hd r0 hr0a]
      intro c
      rcases archiveTree_dir c with c | ⟨f, hf, c⟩
      · exact hr0 c
      · have := hpf (r0, ls) (by simp) f (List.mem_append_left _ hf) c
        exact hnd' (List.mem_map.2 ⟨f, hf, this.symm⟩)
    have step : Fetch.extractall home ((r0, ls) :: files) w = (Fetch.change (addDirs (home ++ r0).dropLast) >>= fun _ =>
        Fetch.change (setNode (home ++ r0) (some (.file (.text [])))) >>= fun _ => Fetch.writeLines (home ++ r0) [] ls >>= fun _ =>
        Fetch.extractall home files) w := by
      rw [Fetch.extractall, fWorldBind, hb, decide_eq_false hdir]
      rfl
    unfold Runs
    rw [step]
    refine Runs.bind (Runs.change h _) (fun _ w1 h1 f1 => Runs.bind (Runs.change f1 _) (fun _ w2 h2 f2 =>
      Runs.bind (Runs.writeLines ls [] f2) (fun _ w3 h3 f3 => ?_)))
    obtain ⟨e1, n1⟩ := change_ok h1
    obtain ⟨e2, n2⟩ := change_ok h2
    obtain ⟨e3, n3⟩ := writeLines_ok ls [] (by rw [e2]; simp [setNode]) h3
    have e : w3.fs = setNode (home ++ r0) (some (.file (.text ls))) (addDirs (home ++ r0).dropLast w.fs) := by
      rw [e3, e2, e1, setNode_setNode, List.nil_append]
    refine Runs.extractall files (done ++ [(r0, ls)]) f3 ?_ ?_ ?_ (fun f hf => hfree f (List.mem_cons_of_mem _ hf))
    · intro r hr
      rw [e, archiveTree_snoc hnd']
      unfold setNode addDirs
      by_cases hrr : r = r0
      · subst hrr
        simp
      · rw [if_neg (by simpa using hrr), if_neg hrr, hd r hr]
        simp only [hdl, prefix_append_iff, prefix_dropLast_iff hrr]
    · intro q hq
      rw [e]
      unfold setNode addDirs
      rw [if_neg, if_neg]
      · exact hpre q hq
      · rintro ⟨_, c⟩
        rw [hpre q hq] at c
        cases c
      · rintro rfl
        exact append_length_not_prefix hr0 hq
    · rw [List.append_assoc, List.singleton_append]
      exact ⟨hnd, hne, hpf⟩

/-- Directory missing: the archive is downloaded and extracted. -/
theorem Runs.fetchArchive {home : Path} {archive : String} {url : Option String} {u : String} {files : List (Path × List String)} (h : w.fuel = none)
    (hm : ∀ r, w.fs (home ++ r) = none) (hd : ∀ q, q <+: home → ∀ c, w.fs q ≠ some (.file c)) (hu : url = some u) (hs : w.server u = some files)
    (hok : ArchiveOk files) (hfree : NameFree archive files) : Runs (fetchArchive home archive url) w := by
  have hm0 : w.fs home = none := by simpa using hm []
  unfold Runs Fetch.fetchArchive
  rw [fBind_of (show pathExists home w = (.ok false, w) by rw [pathExists, fWorldBind, hm0]; rfl), if_neg (by simp)]
  refine Runs.bind (Runs.makedirs h hm0 hd) (fun _ w1 h1 f1 => Runs.bind (Runs.item f1 (by rw [hu]; simp)) (fun u' w2 h2 f2 => ?_))
  obtain ⟨-, e1, n1⟩ := makedirs_ok h1
  obtain ⟨eu, rfl⟩ := item_ok h2
  rw [hu] at eu
  cases eu
  refine Runs.bind (Runs.urlopen f2 (by rw [n1.2, hs])) (fun files' w3 h3 f3 => Runs.bind (Runs.change f3 _) (fun _ w4 h4 f4 =>
    Runs.bind (Runs.change f4 _) (fun _ w5 h5 f5 => ?_)))
  obtain ⟨es, e3, l3, s3⟩ := urlopen_ok h3
  rw [n1.2, hs] at es
  cases es
  obtain ⟨e4, n4⟩ := change_ok h4
  obtain ⟨e5, n5⟩ := change_ok h5
  have ew : w5.fs = setNode (home ++ [archive]) (some (.file (.tar files))) (addDirs home w.fs) := by
    rw [e5, e4, e3, e1, setNode_setNode]
  have ht : tarOpen (home ++ [archive]) w5 = (.ok files, w5) := by
    unfold tarOpen
    rw [fWorldBind, ew]
    simp only [setNode, if_true]
    rfl
  refine Runs.bind ⟨files, w5, ht, f5⟩ (fun files' w6 h6 f6 => ?_)
  rw [ht] at h6
  cases h6
  have i1 : ∀ r, r ≠ [archive] → w5.fs (home ++ r) = archiveTree [] r := by
    intro r hr
    rw [ew]
    unfold setNode addDirs archiveTree
    rw [if_neg (by simpa using hr), hm r]
    by_cases hr0 : r = []
    · subst hr0
      simp
    · simp [append_length_not_prefix hr0, hr0]
  have i2 : ∀ q, q <+: home → w5.fs q = some .dir := by
    intro q hq
    rw [ew]
    unfold setNode addDirs
    rw [if_neg]
    · split
      · rfl
      · rename_i c
        cases hf : w.fs q with
        | none => exact absurd ⟨hq, hf⟩ c
        | some n =>
          cases n with
          | dir => rfl
          | file t => exact absurd hf (hd q hq t)
    · rintro rfl
      exact append_length_not_prefix (by simp) hq
  refine Runs.bind (Runs.extractall (archive := archive) files [] f5 i1 i2 hok hfree) (fun _ w7 h7 f7 => ?_)
  obtain ⟨-, j2, -, -⟩ := extractall_ok files [] i1 (fun q hq => by rw [i2 q hq]; simp) (by simpa using hok.1) hok.2.1 hfree h7
  have ea : w7.fs (home ++ [archive]) = some (.file (.tar files)) := by
    rw [j2, ew]
    simp [setNode]
  have er : remove (home ++ [archive]) w7 = Fetch.change (setNode (home ++ [archive]) none) w7 := by
    unfold remove
    rw [fWorldBind, ea]
  show Runs _ w7
  unfold Runs
  rw [er]
  exact Runs.change f7 _

theorem Runs.clean {home : Path} {force : Bool} (h : w.fuel = none) (hd : ∀ q, q <+: home → ∀ c, w.fs q ≠ some (.file c)) : Runs (clean home force) w := by
  cases force with
  | false => exact Runs.pure h ()
  | true =>
    unfold Runs Fetch.clean
    rw [if_pos rfl, fBind_of (pathExists_eq _ _)]
    cases hf : w.fs home with
    | none => exact Runs.pure h ()
    | some n =>
      cases n with
      | file t => exact absurd hf (hd home (List.prefix_refl _) t)
      | dir =>
        have er : rmtree home w = Fetch.change (fun fs q => if home <+: q then none else fs q) w := by
          unfold rmtree
          rw [fWorldBind, if_pos hf]
        have hr : Runs (rmtree home) w := by
          unfold Runs
          rw [er]
          exact Runs.change h _
        refine Runs.bind hr (fun _ w1 h1 f1 => ?_)
        obtain ⟨e1, -⟩ := rmtree_ok h1
        refine Runs.makedirs f1 (by rw [e1]; simp) ?_
        intro q hq c
        rw [e1]
        beta_reduce
        split
        · simp
        · exact hd q hq c

/-- What `clean` leaves of the directories on the way. -/
theorem clean_dirs {home : Path} {force : Bool} (h : clean home force w = (.ok (), w')) (hd : ∀ q, q <+: home → ∀ c, w.fs q ≠ some (.file c)) :
    ∀ q, q <+: home → ∀ c, w'.fs q ≠ some (.file c) := by
  cases force with
  | false =>
    cases h
    exact hd
  | true =>
    unfold Fetch.clean at h
    rw [if_pos rfl, fBind_of (pathExists_eq _ _)] at h
    by_cases he : (w.fs home).isSome = true
    · rw [if_pos he] at h
      obtain ⟨_, w1, h1, h2⟩ := fBind_ok.1 h
      obtain ⟨e1, n1⟩ := rmtree_ok h1
      obtain ⟨-, e2, n2⟩ := makedirs_ok h2
      intro q hq c
      rw [e2, e1]
      unfold addDirs
      split
      · simp
      · beta_reduce
        split
        · simp
        · exact hd q hq c
    · rw [if_neg he] at h
      cases h
      exact hd

theorem readLines_run {p : Path} {ls : List String} (hp : w.fs p = some (.file (.text ls))) : readLines p w = (.ok ls, w) := by
  unfold Fetch.readLines
  rw [fWorldBind, hp]
  rfl

theorem folderOf_run {home fo : Path} {e : Entry} {fold : Option Nat} (h : foldFolder e fold = some fo) : folderOf home e fold w = (.ok (home ++ fo), w) := by
  cases fold with
  | none =>
    cases h
    rw [List.append_nil]
    rfl
  | some k =>
    unfold foldFolder at h
    rw [Option.map_eq_some_iff] at h
    obtain ⟨s, hs, rfl⟩ := h
    unfold folderOf
    simp only [hs]
    rfl

theorem item_run {a : Option α} {x : α} (h : a = some x) : item a w = (.ok x, w) := by
  rw [h]
  rfl

theorem loadFile_run {D : Type} {load : List String → Except Err D} {p : Path} {ls : List String} {d : D} (hp : w.fs p = some (.file (.text ls)))
    (hl : load ls = .ok d) : loadFile load p w = (.ok d, w) := by
  unfold loadFile
  rw [fBind_of (readLines_run hp), hl]
  rfl

theorem readLicense_link {home : Path} {e : Entry} {b : String} (h : e.licenseFile = none) (hb : e.blogPost = some b) : readLicense home e w =
    (.ok ["Please, check the terms of use before using the dataset. Here the link: " ++ b], w) := by
  unfold readLicense
  simp only [h]
  rw [fBind_of (item_run hb)]
  rfl

theorem readLicense_file {home f : Path} {e : Entry} {ls : List String} (h : e.licenseFile = some f) (hf : w.fs (home ++ f) = some (.file (.text ls))) :
    readLicense home e w = (.ok ls, w) := by
  unfold readLicense
  simp only [h]
  exact readLines_run hf

/-- The run of `fetch` from the runs of its parts. -/
theorem fetch_run {e : Entry} {fold : Option Nat} {root : Path} {dl force wm : Bool} {w0 w1 : World} {name a ma : String} {fo tr te : Path}
    {lic : List String} {ms : Option (Path → Bool)} (hn : e.name = some name) (ha : e.archiveName = some a) (hma : e.modelsArchiveName = some ma)
    (hfo : foldFolder e fold = some fo) (htr : e.trainFile = some tr) (hte : e.testFile = some te)
    (hdl : dl = true ∨ w.fs (root ++ [name]) ≠ none) (hc : clean (root ++ [name]) force w = (.ok (), w0))
    (hf : fetchArchive (root ++ [name] ++ ["dataset"]) a e.url w0 = (.ok (), w1))
    (hl : readLicense (root ++ [name] ++ ["dataset"]) e w1 = (.ok lic, w1))
    (hm : fetchModels (root ++ [name] ++ ["models"]) ma e fold wm w1 = (.ok ms, w')) :
    fetch e fold root dl force wm w = (.ok ⟨root ++ [name] ++ ["dataset"] ++ fo ++ tr, root ++ [name] ++ ["dataset"] ++ fo ++ te,
      e.validationFile.map (fun v => root ++ [name] ++ ["dataset"] ++ fo ++ v), lic, ms⟩, w') := by
  unfold fetch
  rw [fBind_of (item_run hn), fBind_of (pathExists_eq _ _), if_neg, if_neg]
  · rw [fBind_of hc, fBind_of (item_run ha), fBind_of (item_run hma), fBind_of (folderOf_run hfo), fBind_of (item_run htr), fBind_of (item_run hte),
      fBind_of hf, fBind_of hl, fBind_of hm]
    rfl
  · cases fold with
    | none => simp
    | some k =>
      unfold foldFolder at hfo
      rw [Option.map_eq_some_iff] at hfo
      obtain ⟨s, hs, -⟩ := hfo
      simp [hs]
  · rcases hdl with rfl | hdl
    · simp
    · simp [Option.isSome_iff_ne_none.2 hdl]

/-- The run of `load_dataset` from the runs of its parts. -/
theorem loadDataset_run {D : Type} {load : List String → Except Err D} {cat : String → Option Entry} {env : Option Path} {home root : Path}
    {dataset : String} {fold : Option Nat} {dl force wm : Bool} {w0 : World} {data : Fetched} {e : Entry} {l1 l2 : List String} {d1 d2 : D} {v : Option D}
    (he : cat dataset = some e) (hn : e.name ≠ none) (hfmt : e.format ≠ none)
    (h1 : getDataHome none env home w = (.ok root, w0)) (h2 : fetch e fold root dl force wm w0 = (.ok data, w'))
    (ht : w'.fs data.train = some (.file (.text l1))) (hd1 : load l1 = .ok d1) (hs : w'.fs data.test = some (.file (.text l2))) (hd2 : load l2 = .ok d2)
    (hv : loadOption load data.validation w' = (.ok v, w')) :
    loadDataset load (some cat) env home dataset fold dl force wm w = (.ok (some ⟨some d1, some d2, v, data.license, data.models⟩), w') := by
  obtain ⟨n, hn'⟩ := Option.ne_none_iff_exists'.1 hn
  obtain ⟨f, hf'⟩ := Option.ne_none_iff_exists'.1 hfmt
  unfold loadDataset
  simp only [he]
  rw [fBind_of h1, fBind_of h2, fBind_of (item_run hn'), fBind_of (item_run hf'), fBind_of (loadFile_run ht hd1), fBind_of (loadFile_run hs hd2), fBind_of hv]
  rfl

theorem getDataHome_run {env : Option Path} {home root : Path} (hr : root = expandUser home (env.getD ["~", "rankeval_data"])) (h : w.fuel = none)
    (hd : ∀ q, q <+: root → ∀ c, w.fs q ≠ some (.file c)) :
    ∃ w', getDataHome none env home w = (.ok root, w') ∧ w'.fuel = none ∧ (∀ q c, w'.fs q = some (.file c) → w.fs q = some (.file c)) ∧
      ∀ q, w.fs q ≠ none → w'.fs q = w.fs q := by
  subst hr
  unfold getDataHome
  rw [fBind_of (pathExists_eq _ _)]
  split
  · exact ⟨w, rfl, h, fun _ _ hq => hq, fun _ _ => rfl⟩
  · rename_i hn
    obtain ⟨_, w1, h1, f1⟩ := Runs.makedirs h (by simpa using hn) hd
    obtain ⟨-, e1, n1⟩ := makedirs_ok h1
    refine ⟨w1, ?_, f1, ?_, ?_⟩
    · show (makedirs (expandUser home (env.getD ["~", "rankeval_data"])) >>= fun _ => pure (expandUser home (env.getD ["~", "rankeval_data"]))) w = _
      rw [fBind_of h1]
      rfl
    · intro q c hq
      rw [e1] at hq
      unfold addDirs at hq
      split at hq
      · cases hq
      · exact hq
    · intro q hq
      rw [e1]
      unfold addDirs
      exact if_neg (fun c => hq c.2)

theorem prefix_snoc {p q : Path} {s : String} (h : q <+: p ++ [s]) : q <+: p ∨ q = p ++ [s] := by
  rcases List.prefix_or_prefix_of_prefix h (List.prefix_append p [s]) with c | ⟨t, rfl⟩
  · exact Or.inl c
  · rw [prefix_append_iff] at h
    cases t with
    | nil => exact Or.inl (by simp)
    | cons x t =>
      obtain ⟨r, hr⟩ := h
      simp only [List.cons_append, List.cons.injEq, List.append_eq_nil_iff] at hr
      obtain ⟨rfl, rfl, -⟩ := hr
      exact Or.inr rfl

/-- The download ends normally if the archives are on the servers and nothing is in the way. -/
theorem fetch_live {e : Entry} {fold : Option Nat} {root : Path} {dl force wm : Bool} {name a ma u : String} {fo tr te : Path}
    {files : List (Path × List String)} (hfuel : w.fuel = none) (hwf : WfFs w.fs) (hn : e.name = some name) (ha : e.archiveName = some a)
    (hma : e.modelsArchiveName = some ma) (hfo : foldFolder e fold = some fo) (htr : e.trainFile = some tr) (hte : e.testFile = some te)
    (hdl : dl = true ∨ w.fs (root ++ [name]) ≠ none) (hd : ∀ q, q <+: root ++ [name] → ∀ c, w.fs q ≠ some (.file c))
    (hmiss : force = true ∨ w.fs (root ++ [name] ++ ["dataset"]) = none) (hu : e.url = some u) (hs : w.server u = some files) (hok : ArchiveOk files)
    (hfree : NameFree a files) (hlic : e.licenseFile = none ∧ e.blogPost ≠ none ∨ ∃ f ls, e.licenseFile = some f ∧ (f, ls) ∈ files)
    (hmod : wm = true → ∃ mu mfiles, e.modelsUrl = some mu ∧ w.server mu = some mfiles ∧ ArchiveOk mfiles ∧ NameFree ma mfiles) :
    ∃ lic ms w', fetch e fold root dl force wm w = (.ok ⟨root ++ [name] ++ ["dataset"] ++ fo ++ tr, root ++ [name] ++ ["dataset"] ++ fo ++ te,
      e.validationFile.map (fun v => root ++ [name] ++ ["dataset"] ++ fo ++ v), lic, ms⟩, w') ∧ w'.fuel = none := by
  obtain ⟨_, w0, hc, f0⟩ := Runs.clean (force := force) hfuel hd
  obtain ⟨net, c1, c2⟩ := clean_ok hc
  have hd0 := clean_dirs hc hd
  have fresh : ∀ s, (force = true ∨ w.fs (root ++ [name] ++ [s]) = none) → ∀ r, w0.fs (root ++ [name] ++ [s] ++ r) = none := by
    intro s hs r
    cases force with
    | true => rw [List.append_assoc]; exact c2 rfl hwf _ (by simp)
    | false =>
      rw [c1 rfl]
      exact hwf _ _ (List.prefix_append _ _) (by simpa using hs)
  have hdd : ∀ q, q <+: root ++ [name] ++ ["dataset"] → ∀ c, w0.fs q ≠ some (.file c) := by
    intro q hq c
    rcases prefix_snoc hq with h | rfl
    · exact hd0 q h c
    · have := fresh "dataset" hmiss []
      rw [List.append_nil] at this
      rw [this]
      simp
  obtain ⟨_, w1, hf, f1⟩ := Runs.fetchArchive (archive := a) f0 (fresh _ hmiss) hdd hu (by rw [net.2, hs]) hok hfree
  obtain ⟨u', files', hu', hs', -, hserver, htree⟩ := fetchArchive_fresh (fresh _ hmiss) hf
  rw [hu] at hu'
  cases hu'
  rw [net.2, hs] at hs'
  cases hs'
  obtain ⟨t1, t2⟩ := htree hok hfree
  -- the license
  have hlic' : ∃ lic, readLicense (root ++ [name] ++ ["dataset"]) e w1 = (.ok lic, w1) := by
    rcases hlic with ⟨l1, l2⟩ | ⟨f, ls, l1, l2⟩
    · obtain ⟨b, hb⟩ := Option.ne_none_iff_exists'.1 l2
      exact ⟨_, readLicense_link l1 hb⟩
    · exact ⟨ls, readLicense_file l1 ((t1 f).trans (archiveTree_mem hok.1 l2))⟩
  obtain ⟨lic, hlic'⟩ := hlic'
  -- the models
  have hmodels : ∃ ms w', fetchModels (root ++ [name] ++ ["models"]) ma e fold wm w1 = (.ok ms, w') ∧ w'.fuel = none := by
    cases wm with
    | false => exact ⟨none, w1, rfl, f1⟩
    | true =>
      obtain ⟨mu, mfiles, m1, m2, m3, m4⟩ := hmod rfl
      have hrun : ∃ w', fetchArchive (root ++ [name] ++ ["models"]) ma e.modelsUrl w1 = (.ok (), w') ∧ w'.fuel = none := by
        by_cases hm : w1.fs (root ++ [name] ++ ["models"]) = none
        · have keep : ∀ r, w1.fs (root ++ [name] ++ ["models"] ++ r) = w0.fs (root ++ [name] ++ ["models"] ++ r) := by
            intro r
            have hnd : ¬ root ++ [name] ++ ["dataset"] <+: root ++ [name] ++ ["models"] ++ r :=
              not_under (by decide) _ r (List.prefix_refl _)
            rw [t2 _ hnd]
            unfold addDirs
            rw [if_neg]
            rintro ⟨c, -⟩
            simp at c
          have hm0 : ∀ r, w1.fs (root ++ [name] ++ ["models"] ++ r) = none := by
            intro r
            rw [keep r]
            cases force with
            | true => exact fresh "models" (Or.inl rfl) r
            | false =>
              have := keep []
              rw [List.append_nil, hm] at this
              rw [c1 rfl] at this ⊢
              exact hwf _ _ (List.prefix_append _ _) this.symm
          have hdm : ∀ q, q <+: root ++ [name] ++ ["models"] → ∀ c, w1.fs q ≠ some (.file c) := by
            intro q hq c
            rcases prefix_snoc hq with h | rfl
            · rw [t2 q (fun c => append_length_not_prefix (by simp) (c.trans h))]
              unfold addDirs
              split
              · simp
              · exact hd0 q h c
            · rw [hm]
              simp
          obtain ⟨_, w2, h2, f2⟩ := Runs.fetchArchive (archive := ma) f1 hm0 hdm m1 (by rw [hserver, net.2, m2]) m3 m4
          exact ⟨w2, h2, f2⟩
        · exact ⟨w1, fetchArchive_there hm, f1⟩
      obtain ⟨w2, h2, f2⟩ := hrun
      refine ⟨some (fun q => decide (root ++ [name] ++ ["models"] ++ fo <+: q) && isFile (w2.fs q)), w2, ?_, f2⟩
      unfold fetchModels
      rw [if_pos rfl, fBind_of h2, fBind_of (folderOf_run hfo)]
      rfl
  obtain ⟨ms, w2, hm, f2⟩ := hmodels
  exact ⟨lic, ms, w2, fetch_run hn ha hma hfo htr hte hdl hc hf hlic' hm, f2⟩

/-! ### After a download -/

/-- Nothing in `S` is deleted. -/
def GrowsAt (S : Path → Prop) (x : M α) : Prop := ∀ w p, S p → w.fs p ≠ none → (x w).2.fs p ≠ none

variable {S : Path → Prop}

theorem GrowsAt.reads {x : M α} (h : Reads x) : GrowsAt S x := by
  intro w p _ hp
  rw [h w]
  exact hp

theorem GrowsAt.bind {x : M α} {f : α → M β} (hx : GrowsAt S x) (hf : ∀ a, GrowsAt S (f a)) : GrowsAt S (x >>= f) := by
  intro w p hp hw
  have h0 := hx w p hp hw
  rw [fBind]
  rcases h : x w with ⟨r, w1⟩
  rw [h] at h0
  cases r with
  | error e => exact h0
  | ok a => exact hf a w1 p hp h0

theorem GrowsAt.change {f : (Path → Option Node) → Path → Option Node} (h : ∀ fs p, S p → fs p ≠ none → f fs p ≠ none) : GrowsAt S (change f) := by
  refine GrowsAt.bind ?_ (fun _ w p hp hw => h w.fs p hp hw)
  intro w p _ hw
  have := (Keeps.tick (S := fun _ => True) (U := fun _ => True) w).1 p trivial
  rw [this]
  exact hw

theorem GrowsAt.addDirs (p : Path) : GrowsAt S (Fetch.change (addDirs p)) := by
  apply GrowsAt.change
  intro fs q _ hq
  unfold Fetch.addDirs
  split
  · simp
  · exact hq

theorem GrowsAt.setNode (p : Path) (n : Node) : GrowsAt S (Fetch.change (setNode p (some n))) := by
  apply GrowsAt.change
  intro fs q _ hq
  unfold Fetch.setNode
  split
  · simp
  · exact hq

theorem GrowsAt.writeLines (p : Path) : ∀ (ls done : List String), GrowsAt S (writeLines p done ls)
  | [], _ => GrowsAt.reads (Reads.pure _)
  | _ :: ls, _ => GrowsAt.bind (GrowsAt.setNode _ _) (fun _ => GrowsAt.writeLines p ls _)

theorem GrowsAt.extractall (home : Path) : ∀ files : List (Path × List String), GrowsAt S (extractall home files)
  | [] => GrowsAt.reads (Reads.pure _)
  | (r, ls) :: files => by
    refine GrowsAt.bind (GrowsAt.reads Reads.world) (fun w => ?_)
    split
    · exact GrowsAt.reads (Reads.raise _)
    · exact GrowsAt.bind (GrowsAt.addDirs _) (fun _ => GrowsAt.bind (GrowsAt.setNode _ _) (fun _ =>
        GrowsAt.bind (GrowsAt.writeLines _ _ _) (fun _ => GrowsAt.extractall home files)))

/-- The part of the download after the directory was made. -/
theorem GrowsAt.download {home : Path} {archive : String} {url : Option String} (hS : ¬ S (home ++ [archive])) : GrowsAt S (do
    let u ← item url
    let files ← urlopen u
    Fetch.change (Fetch.setNode (home ++ [archive]) (some (.file (.text []))))
    Fetch.change (Fetch.setNode (home ++ [archive]) (some (.file (.tar files))))
    let files ← tarOpen (home ++ [archive])
    Fetch.extractall home files
    remove (home ++ [archive])) := by
  refine GrowsAt.bind (GrowsAt.reads (Reads.item _)) (fun u => GrowsAt.bind ?_ (fun files => GrowsAt.bind (GrowsAt.setNode _ _) (fun _ =>
    GrowsAt.bind (GrowsAt.setNode _ _) (fun _ => GrowsAt.bind (GrowsAt.reads (Reads.tarOpen _)) (fun files' => GrowsAt.bind (GrowsAt.extractall _ _) (fun _ => ?_))))))
  · intro w p _ hw
    have := (Keeps.urlopen (S := fun _ => True) (U := fun _ => True) (u := u) trivial w).1 p trivial
    rw [this]
    exact hw
  · refine GrowsAt.bind (GrowsAt.reads Reads.world) (fun w => ?_)
    split
    · apply GrowsAt.change
      intro fs q hq hf
      unfold Fetch.setNode
      rw [if_neg]
      · exact hf
      · rintro rfl
        exact hS hq
    · exact GrowsAt.reads (Reads.raise _)

theorem GrowsAt.fetchArchive {home : Path} {archive : String} {url : Option String} (hS : ¬ S (home ++ [archive])) : GrowsAt S (fetchArchive home archive url) := by
  unfold Fetch.fetchArchive
  refine GrowsAt.bind (GrowsAt.reads (Reads.pathExists _)) (fun b => ?_)
  split
  · exact GrowsAt.reads (Reads.pure _)
  · refine GrowsAt.bind ?_ (fun _ => GrowsAt.download hS)
    refine GrowsAt.bind (GrowsAt.reads Reads.world) (fun w => ?_)
    split
    · exact GrowsAt.reads (Reads.raise _)
    · exact GrowsAt.addDirs _

/-- After a download the directory and those above it are there. -/
theorem fetchArchive_exists {home : Path} {archive : String} {url : Option String} (h : fetchArchive home archive url w = (.ok (), w')) :
    w'.fs home ≠ none ∧ (WfFs w.fs → ∀ q, q <+: home → w'.fs q ≠ none) := by
  by_cases hm : w.fs home = none
  · have key : ∀ q, q <+: home → w'.fs q ≠ none := by
      unfold Fetch.fetchArchive at h
      rw [fBind_of (show pathExists home w = (.ok false, w) by rw [pathExists, fWorldBind, hm]; rfl), if_neg (by simp)] at h
      obtain ⟨_, w1, h1, h2⟩ := fBind_ok.1 h
      obtain ⟨-, e1, -⟩ := makedirs_ok h1
      intro q hq
      have := GrowsAt.download (S := fun p => p <+: home) (archive := archive) (url := url) (append_length_not_prefix (by simp)) w1 q hq (by
        rw [e1]
        unfold addDirs
        split
        · simp
        · rename_i c
          exact fun hn => c ⟨hq, hn⟩)
      rw [h2] at this
      exact this
    exact ⟨key home (List.prefix_refl _), fun _ => key⟩
  · rw [fetchArchive_there hm] at h
    cases h
    exact ⟨hm, fun hwf q hq hn => hm (hwf q home hq hn)⟩

theorem clean_wf {home : Path} {force : Bool} (hwf : WfFs w.fs) (h : clean home force w = (.ok (), w')) : WfFs w'.fs := by
  cases force with
  | false =>
    cases h
    exact hwf
  | true =>
    unfold Fetch.clean at h
    rw [if_pos rfl, fBind_of (pathExists_eq _ _)] at h
    by_cases he : (w.fs home).isSome = true
    · rw [if_pos he] at h
      obtain ⟨_, w1, h1, h2⟩ := fBind_ok.1 h
      obtain ⟨e1, n1⟩ := rmtree_ok h1
      obtain ⟨-, e2, n2⟩ := makedirs_ok h2
      rw [e2]
      apply addDirs_wf
      rw [e1]
      intro q r hqr hq
      by_cases hr : home <+: r
      · exact if_pos hr
      · beta_reduce at hq ⊢
        rw [if_neg hr]
        rw [if_neg (fun c => hr (c.trans hqr))] at hq
        exact hwf q r hqr hq
    · rw [if_neg he] at h
      cases h
      exact hwf

theorem readLicense_congr {home : Path} {e : Entry} {w2 : World} {lic : List String} (h : ∀ f, w2.fs (home ++ f) = w.fs (home ++ f))
    (hl : readLicense home e w = (.ok lic, w')) : readLicense home e w2 = (.ok lic, w2) := by
  cases hf : e.licenseFile with
  | none =>
    cases hb : e.blogPost with
    | none =>
      unfold readLicense at hl
      simp only [hf, hb] at hl
      cases hl
    | some b =>
      rw [readLicense_link hf hb] at hl
      cases hl
      exact readLicense_link hf hb
  | some f =>
    have h1 : readLines (home ++ f) w = (.ok lic, w') := by
      unfold readLicense at hl
      simpa only [hf] using hl
    exact readLicense_file hf ((h f).trans (readLines_ok h1).1)

theorem loadDataset_entry {D : Type} {load : List String → Except Err D} {cat : String → Option Entry} {env : Option Path} {home : Path}
    {dataset : String} {fold : Option Nat} {dl force wm : Bool} {c : Container D} {e : Entry} (he : cat dataset = some e)
    (h : loadDataset load (some cat) env home dataset fold dl force wm w = (.ok (some c), w')) : e.name ≠ none ∧ e.format ≠ none := by
  unfold loadDataset at h
  simp only [he] at h
  obtain ⟨root, w0, h1, g⟩ := fBind_ok.1 h
  clear h
  obtain ⟨data, w1, h2, h⟩ := fBind_ok.1 g
  clear g
  obtain ⟨_, w2, h3, g⟩ := fBind_ok.1 h
  clear h
  obtain ⟨e1, rfl⟩ := item_ok h3
  obtain ⟨_, w3, h4, h⟩ := fBind_ok.1 g
  obtain ⟨e2, rfl⟩ := item_ok h4
  exact ⟨by simp [e1], by simp [e2]⟩

theorem getDataHome_there {env : Option Path} {home root : Path} (hr : root = expandUser home (env.getD ["~", "rankeval_data"])) (h : w.fs root ≠ none) :
    getDataHome none env home w = (.ok root, w) := by
  subst hr
  unfold getDataHome
  rw [fBind_of (pathExists_eq _ _), if_pos]
  · rfl
  · exact Option.isSome_iff_ne_none.2 h

/-- After a call that ended normally everything that a later call looks for is there. -/
theorem fetch_exists {e : Entry} {fold : Option Nat} {root : Path} {dl force wm : Bool} {data : Fetched} {name : String} (hwf : WfFs w.fs)
    (hn : e.name = some name) (h : fetch e fold root dl force wm w = (.ok data, w')) :
    (∀ q, q <+: root ++ [name] ++ ["dataset"] → w'.fs q ≠ none) ∧ (wm = true → w'.fs (root ++ [name] ++ ["models"]) ≠ none) := by
  obtain ⟨name', a, ma, fo, tr, te, w0, w1, hn', ha, hma, hfo, htr, hte, hc, hf, hl, hm, -⟩ := fetch_ok h
  rw [hn] at hn'
  cases hn'
  have h0 := (fetchArchive_exists hf).2 (clean_wf hwf hc)
  rcases fetchModels_ok hm with ⟨rfl, -, rfl⟩ | ⟨rfl, hm', -⟩
  · exact ⟨h0, by simp⟩
  · refine ⟨fun q hq => ?_, fun _ => (fetchArchive_exists hm').1⟩
    have := GrowsAt.fetchArchive (S := fun p => p <+: root ++ [name] ++ ["dataset"]) (home := root ++ [name] ++ ["models"]) (archive := ma) (url := e.modelsUrl)
      (by simp) w1 q hq (h0 q hq)
    rw [hm'] at this
    exact this

/-- A call after a call that ended normally finds everything, whatever the servers have then. -/
theorem fetch_again {e : Entry} {fold : Option Nat} {root : Path} {dl dl' force wm wm' : Bool} {data : Fetched} {w2 : World} (hwf : WfFs w.fs)
    (h : fetch e fold root dl force wm w = (.ok data, w')) (hfs : w2.fs = w'.fs) (hwm : wm' = true → wm = true) :
    fetch e fold root dl' false wm' w2 = (.ok { data with models := if wm' then data.models else none }, w2) := by
  obtain ⟨name, a, ma, fo, tr, te, w0, w1, hn, ha, hma, hfo, htr, hte, hc, hf, hl, hm, e1, e2, e3⟩ := fetch_ok h
  obtain ⟨x1, x2⟩ := fetch_exists hwf hn h
  have hd : w2.fs (root ++ [name] ++ ["dataset"]) ≠ none := by
    rw [hfs]
    exact x1 _ (List.prefix_refl _)
  have hl2 : readLicense (root ++ [name] ++ ["dataset"]) e w2 = (.ok data.license, w2) := by
    refine readLicense_congr (fun f => ?_) hl
    have hk := (fetchModels_keeps (S := fun p => root ++ [name] ++ ["dataset"] <+: p) (U := fun _ => True) (home := root ++ [name] ++ ["models"])
      (archive := ma) (e := e) (fold := fold) (wm := wm) (not_under (by decide)) (fun _ _ => trivial) w1).1 _ (List.prefix_append (root ++ [name] ++ ["dataset"]) f)
    rw [hm] at hk
    rw [hfs]
    exact hk
  have hm2 : fetchModels (root ++ [name] ++ ["models"]) ma e fold wm' w2 = (.ok (if wm' then data.models else none), w2) := by
    cases wm' with
    | false => rfl
    | true =>
      rcases fetchModels_ok hm with ⟨c, -, -⟩ | ⟨-, -, fo', hfo', hms⟩
      · rw [hwm rfl] at c
        cases c
      · unfold fetchModels
        rw [if_pos rfl, fBind_of (fetchArchive_there (by rw [hfs]; exact x2 (hwm rfl))), fBind_of (folderOf_run hfo'), hms, if_pos rfl, ← hfs]
        rfl
  have := fetch_run (dl := dl') (force := false) hn ha hma hfo htr hte (Or.inr (by
    rw [hfs]
    exact x1 _ (List.prefix_append _ _))) (show clean (root ++ [name]) false w2 = (.ok (), w2) from rfl) (fetchArchive_there hd) hl2 hm2
  rw [this]
  rw [← e1, ← e2, ← e3]

end Verif.Fetch
