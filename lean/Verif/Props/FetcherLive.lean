/-
Property C100 (load_dataset succeeds, and later calls return the same).
-/
import Verif.Lemmas.FetcherLive
import Verif.Props.Fetcher

namespace Verif.Props
open Fetch Spec
variable {D : Type} {load : List String → Except Err D} {cat : String → Option Entry} {env : Option Path} {home : Path}
variable {dataset name : String} {fold : Option Nat} {dl dl' force wm wm' : Bool} {w w' w2 : World} {e : Entry} {c : Container D}

/-- C100: if the data are missing or the download is forced, the archives are on the servers and complete, nothing is in the way and the process is not
killed, `load_dataset` ends normally and returns the data in the files of the archive. -/
theorem C100_succeeds {a ma u : String} {fo tr te : Path} {files : List (Path × List String)} {l1 l2 : List String} {d1 d2 : D}
    (hfuel : w.fuel = none) (hwf : WfFs w.fs) (he : cat dataset = some e) (hn : e.name = some name) (hfmt : e.format ≠ none)
    (ha : e.archiveName = some a) (hma : e.modelsArchiveName = some ma) (hfo : foldFolder e fold = some fo) (htr : e.trainFile = some tr)
    (hte : e.testFile = some te) (hu : e.url = some u) (hs : w.server u = some files) (hok : ArchiveOk files) (hfree : NameFree a files)
    (h1 : (fo ++ tr, l1) ∈ files) (hd1 : load l1 = .ok d1) (h2 : (fo ++ te, l2) ∈ files) (hd2 : load l2 = .ok d2)
    (hv : ∀ v, e.validationFile = some v → ∃ ls d, (fo ++ v, ls) ∈ files ∧ load ls = .ok d)
    (hlic : e.licenseFile = none ∧ e.blogPost ≠ none ∨ ∃ f ls, e.licenseFile = some f ∧ (f, ls) ∈ files)
    (hmod : wm = true → ∃ mu mfiles, e.modelsUrl = some mu ∧ w.server mu = some mfiles ∧ ArchiveOk mfiles ∧ NameFree ma mfiles)
    (hdirs : ∀ q, q <+: dataRoot env home ++ [name] → ∀ t, w.fs q ≠ some (.file t))
    (hmiss : force = true ∨ w.fs (dataRoot env home ++ [name] ++ ["dataset"]) = none)
    (hdl : dl = true ∨ w.fs (dataRoot env home ++ [name]) ≠ none) :
    ∃ c w', loadDataset load (some cat) env home dataset fold dl force wm w = (.ok (some c), w') ∧ c.train = some d1 ∧ c.test = some d2 := by
  obtain ⟨w0, g1, g2, g3, g4⟩ := getDataHome_run (env := env) (home := home) (root := dataRoot env home) rfl hfuel
    (fun q hq t => hdirs q (hq.trans (List.prefix_append _ _)) t)
  obtain ⟨-, net, g5, g6⟩ := getDataHome_ok g1
  have hmiss0 : force = true ∨ w0.fs (dataRoot env home ++ [name] ++ ["dataset"]) = none := by
    refine hmiss.imp id (fun hm => ?_)
    rw [g6 _ (by rw [List.append_assoc]; exact append_length_not_prefix (by simp)), hm]
  obtain ⟨lic, ms, w1, hf, f1⟩ := fetch_live (dl := dl) (force := force) (wm := wm) (root := dataRoot env home) g2 (g5 hwf) hn ha hma hfo htr hte
    (hdl.imp id (fun h => by rw [g4 _ h]; exact h)) (fun q hq t ht => hdirs q hq t (g3 q t ht)) hmiss0 hu (by rw [net.2, hs]) hok hfree hlic
    (by rw [net.2]; exact hmod)
  obtain ⟨a', u', files', ha', hu', hs', htree⟩ := fetch_fresh (g5 hwf) hn hf hmiss0
  rw [ha] at ha'
  cases ha'
  rw [hu] at hu'
  cases hu'
  rw [net.2, hs] at hs'
  cases hs'
  have key := fun r => htree hok hfree r
  have file : ∀ r ls, (fo ++ r, ls) ∈ files → w1.fs (dataRoot env home ++ [name] ++ ["dataset"] ++ fo ++ r) = some (.file (.text ls)) := by
    intro r ls hr
    rw [List.append_assoc _ fo r, key]
    exact archiveTree_mem hok.1 hr
  have hval : ∃ v, loadOption load (e.validationFile.map (fun v => dataRoot env home ++ [name] ++ ["dataset"] ++ fo ++ v)) w1 = (.ok v, w1) := by
    cases hvf : e.validationFile with
    | none => exact ⟨none, rfl⟩
    | some v =>
      obtain ⟨ls, d, v1, v2⟩ := hv v hvf
      refine ⟨some d, ?_⟩
      show (loadFile load (dataRoot env home ++ [name] ++ ["dataset"] ++ fo ++ v) >>= fun d => pure (some d)) w1 = _
      rw [fBind_of (loadFile_run (file v ls v1) v2)]
      rfl
  obtain ⟨v, hval⟩ := hval
  exact ⟨_, w1, loadDataset_run he (by simp [hn]) hfmt g1 hf (file tr l1 h1) hd1 (file te l2 h2) hd2 hval, rfl, rfl⟩

/-- C100: after a call that ended normally, every later call without `force_download` returns the same data and changes nothing, whatever the servers have
then and even if it may not download. The models are returned unless the later call does not want them. -/
theorem C100_again (hwf : WfFs w.fs) (he : cat dataset = some e)
    (h : loadDataset load (some cat) env home dataset fold dl force wm w = (.ok (some c), w')) (hfs : w2.fs = w'.fs) (hwm : wm' = true → wm = true) :
    loadDataset load (some cat) env home dataset fold dl' false wm' w2 = (.ok (some { c with models := if wm' then c.models else none }), w2) := by
  obtain ⟨hname, hfmt⟩ := loadDataset_entry he h
  obtain ⟨name, hn⟩ := Option.ne_none_iff_exists'.1 hname
  obtain ⟨root, w0, data, h1, h2, ⟨l1, d1, t1, t2, t3⟩, ⟨l2, d2, s1, s2, s3⟩, hv, hl, hm⟩ := loadDataset_ok he h
  obtain ⟨hr, net, hw0, -⟩ := getDataHome_ok h1
  obtain ⟨x1, -⟩ := fetch_exists (hw0 hwf) hn h2
  have g : getDataHome none env home w2 = (.ok root, w2) := by
    apply getDataHome_there hr
    rw [hfs]
    exact x1 root (by rw [List.append_assoc]; exact List.prefix_append _ _)
  have hf := fetch_again (dl' := dl') (hw0 hwf) h2 hfs hwm
  have hval : loadOption load data.validation w2 = (.ok c.validation, w2) := by
    rcases hv with ⟨v1, v2⟩ | ⟨q, ls, d, v1, v2, v3, v4⟩
    · rw [v1, v2]
      rfl
    · rw [v1, v4]
      show (loadFile load q >>= fun d => pure (some d)) w2 = _
      rw [fBind_of (loadFile_run (by rw [hfs]; exact v2) v3)]
      rfl
  have key := loadDataset_run (dataset := dataset) he hname hfmt g hf (by rw [hfs]; exact t1) t2 (by rw [hfs]; exact s1) s2 hval
  rw [key, ← t3, ← s3, ← hl, ← hm]

/-- C100: the license returned is the text of the license file of the archive, or the link if there is none. -/
theorem C100_license (hwf : WfFs w.fs) (he : cat dataset = some e) (hn : e.name = some name)
    (h : loadDataset load (some cat) env home dataset fold dl force wm w = (.ok (some c), w'))
    (hmiss : force = true ∨ w.fs (dataRoot env home ++ [name] ++ ["dataset"]) = none) :
    (e.licenseFile = none ∧ ∃ b, e.blogPost = some b ∧ c.license = ["Please, check the terms of use before using the dataset. Here the link: " ++ b]) ∨
    ∃ a u files f, e.archiveName = some a ∧ e.url = some u ∧ w.server u = some files ∧ e.licenseFile = some f ∧
      (ArchiveOk files → NameFree a files → (f, c.license) ∈ files) := by
  obtain ⟨root, w0, data, h1, h2, -, -, -, hl, -⟩ := loadDataset_ok he h
  obtain ⟨rfl, net, hw0, hk⟩ := getDataHome_ok h1
  obtain ⟨name', a, ma, fo, tr, te, w0', w1, hn', ha, hma, hfo, htr, hte, hc, hf, hlic, hm, -⟩ := fetch_ok h2
  rw [hn] at hn'
  cases hn'
  rw [hl]
  cases hlf : e.licenseFile with
  | none =>
    refine Or.inl ⟨rfl, ?_⟩
    cases hb : e.blogPost with
    | none =>
      unfold readLicense at hlic
      simp only [hlf, hb] at hlic
      cases hlic
    | some b =>
      rw [readLicense_link hlf hb] at hlic
      simp only [Prod.mk.injEq, Except.ok.injEq, and_true] at hlic
      exact ⟨b, rfl, hlic.symm⟩
  | some f =>
    right
    have hm0 : force = true ∨ w0.fs (dataRoot env home ++ [name] ++ ["dataset"]) = none := by
      refine hmiss.imp id (fun hm => ?_)
      rw [hk _ (by rw [List.append_assoc]; exact append_length_not_prefix (by simp)), ← hm]
    obtain ⟨a', u, files, ha', hu, hs, ht⟩ := fetch_fresh (hw0 hwf) hn h2 hm0
    rw [ha] at ha'
    cases ha'
    refine ⟨a, u, files, f, ha, hu, by rw [← net.2, hs], rfl, fun hok hfree => ?_⟩
    have hr : readLines (dataRoot env home ++ [name] ++ ["dataset"] ++ f) w1 = (.ok data.license, w1) := by
      unfold readLicense at hlic
      simp only [hlf] at hlic
      exact hlic
    have e1 := (readLines_ok hr).1
    have hkeep := (fetchModels_keeps (S := fun p => dataRoot env home ++ [name] ++ ["dataset"] <+: p) (U := fun _ => True)
      (home := dataRoot env home ++ [name] ++ ["models"]) (archive := ma) (e := e) (fold := fold) (wm := wm) (not_under (by decide)) (fun _ _ => trivial) w1).1 _
      (List.prefix_append (dataRoot env home ++ [name] ++ ["dataset"]) f)
    rw [show fetchModels (dataRoot env home ++ [name] ++ ["models"]) ma e fold wm w1 = _ from hm, e1] at hkeep
    have e2 : archiveTree files f = some (.file (.text data.license)) := (ht hok hfree f).symm.trans hkeep
    unfold archiveTree at e2
    cases hfi : files.find? (fun g => decide (g.1 = f)) with
    | none =>
      rw [hfi] at e2
      dsimp only at e2
      split at e2 <;> cases e2
    | some g =>
      rw [hfi] at e2
      simp only [Option.some.injEq, Node.file.injEq, Content.text.injEq] at e2
      have m := List.mem_of_find?_eq_some hfi
      have : g.1 = f := by simpa using List.find?_some hfi
      rw [← e2, ← this]
      exact m

/-- C100: if the data are missing and there is a file where one of their directories should be, `load_dataset` raises `IOError` and changes nothing. -/
theorem C100_in_the_way {a ma : String} {fo tr te q : Path} {t : Content} (hwf : WfFs w.fs) (he : cat dataset = some e) (hn : e.name = some name)
    (ha : e.archiveName = some a) (hma : e.modelsArchiveName = some ma) (hfo : foldFolder e fold = some fo) (htr : e.trainFile = some tr)
    (hte : e.testFile = some te) (hq : q <+: dataRoot env home ++ [name]) (ht : w.fs q = some (.file t))
    (hmiss : w.fs (dataRoot env home ++ [name] ++ ["dataset"]) = none) :
    loadDataset load (some cat) env home dataset fold true false wm w = (.error .ioError, w) := by
  have hb : ∀ p, q <+: p → blocked w.fs p = true := by
    intro p hp
    unfold blocked
    rw [List.any_eq_true]
    exact ⟨q, (List.mem_inits q p).2 hp, by rw [ht]; rfl⟩
  have hmk : ∀ p, q <+: p → w.fs p = none → makedirs p w = (.error .ioError, w) := by
    intro p hp hn
    unfold makedirs
    rw [fWorldBind, hb p hp, Bool.or_true]
    rfl
  have err : ∀ {α β : Type} {x : M α} {f : α → M β} {er : Err}, x w = (.error er, w) → (x >>= f) w = (.error er, w) := by
    intro α β x f er hx
    rw [fBind, hx]
    rfl
  unfold loadDataset
  simp only [he]
  by_cases hr : w.fs (dataRoot env home) = none
  · have hq' : q <+: dataRoot env home := by
      rcases prefix_snoc hq with h | rfl
      · exact h
      · have := hwf _ _ (List.prefix_append (dataRoot env home) [name]) hr
        rw [this] at ht
        cases ht
    apply err
    unfold getDataHome
    rw [fBind_of (pathExists_eq _ _), if_neg]
    · exact err (hmk _ hq' hr)
    · show ¬ (w.fs (dataRoot env home)).isSome = true
      simp [hr]
  · rw [fBind_of (getDataHome_there (root := dataRoot env home) rfl hr)]
    apply err
    unfold fetch
    rw [fBind_of (item_run hn), fBind_of (pathExists_eq _ _), if_neg (by simp), if_neg]
    · rw [fBind_of (show clean (dataRoot env home ++ [name]) false w = (.ok (), w) from rfl), fBind_of (item_run ha), fBind_of (item_run hma),
        fBind_of (folderOf_run hfo), fBind_of (item_run htr), fBind_of (item_run hte)]
      apply err
      unfold fetchArchive
      rw [fBind_of (pathExists_eq _ _), if_neg (by rw [hmiss]; simp)]
      exact err (hmk _ (hq.trans (List.prefix_append _ _)) hmiss)
    · cases fold with
      | none => simp
      | some k =>
        unfold foldFolder at hfo
        rw [Option.map_eq_some_iff] at hfo
        obtain ⟨s, hs, -⟩ := hfo
        simp [hs]

/-! ### Examples -/

/-- The entry with a license in the archive. -/
def licensedCat : String → Option Entry := fun n => if n = "toy" then some { demoEntry with licenseFile := some ["Fold1", "train.txt"] } else none

/-- The hypotheses of `C100_succeeds` hold for the small catalogue, and the result is as claimed. -/
example : (["train.txt"], ["a", "b"]) ∈ [(["train.txt"], ["a", "b"]), (["Fold1", "train.txt"], ["c"]), (["test.txt"], ["d"])] ∧
    ((demoWorld none).fs ["home"] = some .dir ∧ (demoWorld none).fs ["home", "rankeval_data"] = none) ∧
    outcome (loadDataset .ok (some licensedCat) none ["home"] "toy" none true false true (demoWorld none)) = .ok (some (some ["a", "b"], some ["d"])) := by
  decide +kernel

/-- The license is that of the file, and a second call without servers returns the same. -/
example : let r := loadDataset (D := List String) .ok (some licensedCat) none ["home"] "toy" none true false true (demoWorld none)
    r.1.map (Option.map (·.license)) = .ok (some ["c"]) ∧
    (loadDataset .ok (some licensedCat) none ["home"] "toy" none false false true { r.2 with server := fun _ => none }).1.map (Option.map (·.license)) = .ok (some ["c"]) := by
  decide +kernel

/-- A file in place of the directory of the dataset. -/
example : let w : World := ⟨fun p => if p <+: ["home", "rankeval_data"] then some .dir else if p = ["home", "rankeval_data", "toy"] then some (.file (.text [])) else none,
      demoServer, [], none⟩
    outcome (demoLoad false true false w) = .error .ioError := by
  decide +kernel

end Verif.Props
