/-
Property C102: the datasets of the catalogue can be loaded.
-/
import Verif.Model.Catalogue
import Verif.Props.FetcherLive

namespace Verif.Props
open Fetch Spec
variable {D : Type} {load : List String → Except Err D} {env : Option Path} {home : Path} {fold : Option Nat} {dl force wm : Bool} {w w' : World}
variable {c : Container D}

/-- The names of the datasets. -/
def datasetNames : List String := ["istella-full", "istella-sample", "msn10k", "msn30k"]

/-- Where the server has the archives. -/
def archiveUrl (folder file : String) : String := "http://rankeval.isti.cnr.it/rankeval-datasets/" ++ folder ++ "/dataset/" ++ file

/-- Where the server has the archives with the models. -/
def modelsArchiveUrl (folder file : String) : String := "http://rankeval.isti.cnr.it/rankeval-datasets/" ++ folder ++ "/models/" ++ file

theorem mem_datasetNames {n : String} (h : catalogue n ≠ none) : n ∈ datasetNames := by
  by_contra hn
  apply h
  unfold catalogue
  rw [Option.map_eq_none_iff, List.find?_eq_none]
  intro p hp
  have hk : p.1 ∈ datasetNames := (by decide +kernel : ∀ p ∈ catalogueItems, p.1 ∈ datasetNames) p hp
  simp only [decide_eq_true_eq]
  rintro rfl
  exact hn hk

/-- C102: the catalogue has exactly these datasets; each is stored under its name, and everything that `load_dataset` needs is there. -/
theorem C102_keys (n : String) : (n ∈ datasetNames ↔ catalogue n ≠ none) ∧ ∀ e, catalogue n = some e → e.name = some n ∧ e.format = some "svmlight" ∧
    e.archiveName ≠ none ∧ e.modelsArchiveName ≠ none ∧ e.trainFile ≠ none ∧ e.testFile ≠ none ∧ e.url ≠ none ∧ e.modelsUrl ≠ none ∧ e.blogPost ≠ none := by
  have key : ∀ n ∈ datasetNames, catalogue n ≠ none ∧ ∀ e ∈ catalogue n, e.name = some n ∧ e.format = some "svmlight" ∧
      e.archiveName ≠ none ∧ e.modelsArchiveName ≠ none ∧ e.trainFile ≠ none ∧ e.testFile ≠ none ∧ e.url ≠ none ∧ e.modelsUrl ≠ none ∧ e.blogPost ≠ none := by
    decide +kernel
  refine ⟨⟨fun h => (key n h).1, mem_datasetNames⟩, fun e he => ?_⟩
  exact (key n (mem_datasetNames (by rw [he]; simp))).2 e he

/-- C102: different datasets are downloaded from different places. -/
theorem C102_urls {n m : String} {e e' : Entry} (he : catalogue n = some e) (he' : catalogue m = some e') (h : n ≠ m) :
    e.url ≠ e'.url ∧ e.modelsUrl ≠ e'.modelsUrl ∧ e.url ≠ e'.modelsUrl ∧ e.archiveName ≠ e'.archiveName := by
  have key : ∀ n ∈ datasetNames, ∀ m ∈ datasetNames, n ≠ m → ∀ e ∈ catalogue n, ∀ e' ∈ catalogue m,
      e.url ≠ e'.url ∧ e.modelsUrl ≠ e'.modelsUrl ∧ e.url ≠ e'.modelsUrl ∧ e.archiveName ≠ e'.archiveName := by decide +kernel
  exact key n (mem_datasetNames (by rw [he]; simp)) m (mem_datasetNames (by rw [he']; simp)) h e he e' he'

/-- C102: violated for istella-full, for which the file with the validation data is called `None`. If the archive has no file of that name, and the data are not
there before or the download is forced, `load_dataset` never ends normally. -/
theorem C102_violated {files : List (Path × List String)} (hwf : WfFs w.fs)
    (hs : w.server (archiveUrl "istella-letor" "istella-letor.tar.gz") = some files) (hok : ArchiveOk files) (hfree : NameFree "istella-letor.tar.gz" files)
    (hnone : ∀ f ∈ files, f.1 ≠ ["None"]) (hmiss : force = true ∨ w.fs (dataRoot env home ++ ["istella-full"] ++ ["dataset"]) = none) :
    ∀ c w', loadDataset load (some catalogue) env home "istella-full" fold dl force wm w ≠ (.ok (some c), w') := by
  intro c w' h
  have hcat : ∃ e, catalogue "istella-full" = some e ∧ e.name = some "istella-full" ∧ e.archiveName = some "istella-letor.tar.gz" ∧
      e.url = some (archiveUrl "istella-letor" "istella-letor.tar.gz") ∧ e.validationFile = some ["None"] ∧ e.subfolder = none := by
    refine ⟨_, rfl, rfl, rfl, ?_, rfl, rfl⟩
    decide +kernel
  obtain ⟨e, he, hn, ha, hu, hv, hsub⟩ := hcat
  obtain ⟨a, u, files', fo, tr, te, ha', hu', hs', hfo, -, -, key⟩ := C60_fresh hwf he hn h hmiss
  rw [ha] at ha'
  cases ha'
  rw [hu] at hu'
  cases hu'
  rw [hs] at hs'
  cases hs'
  obtain ⟨-, -, -, hval⟩ := key hok hfree
  have hfo' : fo = [] := by
    cases fold with
    | none =>
      simp only [foldFolder, Option.some.injEq] at hfo
      exact hfo.symm
    | some k => simp [foldFolder, hsub] at hfo
  rcases hval with ⟨v1, -⟩ | ⟨v, ls, d, v1, v2, -⟩
  · rw [hv] at v1
    cases v1
  · rw [hv] at v1
    cases v1
    rw [hfo', List.nil_append] at v2
    obtain ⟨f, hf, hfr⟩ := archiveTree_file v2
    exact hnone f hf hfr

/-- C102: violated for msn10k and msn30k with the default arguments: without a fold the files are expected outside the folders of the folds. -/
theorem C102_violated_fold {n : String} (hn : n = "msn10k" ∨ n = "msn30k") {files : List (Path × List String)} (hwf : WfFs w.fs)
    (hs : w.server (archiveUrl n (n ++ ".tar.gz")) = some files) (hok : ArchiveOk files) (hfree : NameFree (n ++ ".tar.gz") files)
    (hnone : ∀ f ∈ files, ∃ k : Nat, ["Fold" ++ toString k] <+: f.1) (hmiss : force = true ∨ w.fs (dataRoot env home ++ [n] ++ ["dataset"]) = none) :
    ∀ c w', loadDataset load (some catalogue) env home n none dl force wm w ≠ (.ok (some c), w') := by
  intro c w' h
  have hcat : ∃ e, catalogue n = some e ∧ e.name = some n ∧ e.archiveName = some (n ++ ".tar.gz") ∧
      e.url = some (archiveUrl n (n ++ ".tar.gz")) ∧ e.trainFile = some ["train.txt"] := by
    rcases hn with rfl | rfl <;> exact ⟨_, rfl, rfl, by decide +kernel, by decide +kernel, rfl⟩
  obtain ⟨e, he, hname, ha, hu, hv⟩ := hcat
  obtain ⟨a, u, files', fo, tr, te, ha', hu', hs', hfo, htr, -, key⟩ := C60_fresh hwf he hname h hmiss
  rw [ha] at ha'
  cases ha'
  rw [hu] at hu'
  cases hu'
  rw [hs] at hs'
  cases hs'
  rw [hv] at htr
  cases htr
  obtain ⟨-, ⟨ls, d, t1, -⟩, -⟩ := key hok hfree
  simp only [foldFolder, Option.some.injEq] at hfo
  rw [← hfo, List.nil_append] at t1
  obtain ⟨f, hf, hfe⟩ := archiveTree_file t1
  obtain ⟨k, hk⟩ := hnone f hf
  rw [hfe, List.cons_prefix_cons] at hk
  have h1 := congrArg String.toList hk.1
  rw [String.toList_append] at h1
  have h2 : "train.txt".toList = ['t', 'r', 'a', 'i', 'n', '.', 't', 'x', 't'] := by decide +kernel
  have h3 : "Fold".toList = ['F', 'o', 'l', 'd'] := by decide +kernel
  rw [h2, h3] at h1
  simp at h1

/-- The files of the data in the archives, for the datasets and folds that can be loaded. -/
inductive Published : String → Option Nat → String → Path → Path → Path → Option Path → Prop where
  | sample : Published "istella-sample" none "istella-s-letor" ["sample", "train.txt"] ["sample", "test.txt"] ["sample", "vali.txt"]
      (some ["istella-letor-LA.txt"])
  | msn10k (k : Nat) : Published "msn10k" (some k) "msn10k" ["Fold" ++ toString k, "train.txt"] ["Fold" ++ toString k, "test.txt"]
      ["Fold" ++ toString k, "vali.txt"] none
  | msn30k (k : Nat) : Published "msn30k" (some k) "msn30k" ["Fold" ++ toString k, "train.txt"] ["Fold" ++ toString k, "test.txt"]
      ["Fold" ++ toString k, "vali.txt"] none

/-- C102: the other datasets can be loaded, and the data are those of the files in the archive. Missing: istella-full, and the two datasets with folds if no fold is
given. -/
theorem C102_loads_partial {n base : String} {tr te va : Path} {li : Option Path} (hp : Published n fold base tr te va li) {files : List (Path × List String)}
    {l1 l2 l3 : List String} {d1 d2 d3 : D} (hfuel : w.fuel = none) (hwf : WfFs w.fs)
    (hs : w.server (archiveUrl base (base ++ ".tar.gz")) = some files) (hok : ArchiveOk files) (hfree : NameFree (base ++ ".tar.gz") files)
    (h1 : (tr, l1) ∈ files) (h2 : (te, l2) ∈ files) (h3 : (va, l3) ∈ files) (hli : ∀ f, li = some f → ∃ ls, (f, ls) ∈ files)
    (e1 : load l1 = .ok d1) (e2 : load l2 = .ok d2) (e3 : load l3 = .ok d3)
    (hmod : wm = true → ∃ mfiles, w.server (modelsArchiveUrl base (base ++ "-models.tar.gz")) = some mfiles ∧ ArchiveOk mfiles ∧
      NameFree (base ++ "-models.tar.gz") mfiles)
    (hdirs : ∀ q, q <+: dataRoot env home ++ [n] → ∀ t, w.fs q ≠ some (.file t))
    (hmiss : force = true ∨ w.fs (dataRoot env home ++ [n] ++ ["dataset"]) = none) (hdl : dl = true ∨ w.fs (dataRoot env home ++ [n]) ≠ none) :
    ∃ c w', loadDataset load (some catalogue) env home n fold dl force wm w = (.ok (some c), w') ∧ c.train = some d1 ∧ c.test = some d2 ∧
      c.validation = some d3 := by
  have main : ∀ (e : Entry) (fo t1 t2 t3 : Path), catalogue n = some e → e.name = some n → e.archiveName = some (base ++ ".tar.gz") →
      e.url = some (archiveUrl base (base ++ ".tar.gz")) → foldFolder e fold = some fo → e.trainFile = some t1 → e.testFile = some t2 →
      e.validationFile = some t3 → fo ++ t1 = tr → fo ++ t2 = te → fo ++ t3 = va → e.licenseFile = li → e.modelsArchiveName = some (base ++ "-models.tar.gz") →
      e.modelsUrl = some (modelsArchiveUrl base (base ++ "-models.tar.gz")) →
      ∃ c w', loadDataset load (some catalogue) env home n fold dl force wm w = (.ok (some c), w') ∧ c.train = some d1 ∧ c.test = some d2 ∧
        c.validation = some d3 := by
    rintro e fo t1 t2 t3 he hn ha hu hfo ht1 ht2 ht3 rfl rfl rfl hli' hma hmu
    obtain ⟨-, hkeys⟩ := C102_keys n
    obtain ⟨-, hfmt, -, -, -, -, -, -, hblog⟩ := hkeys e he
    obtain ⟨c, w', hrun, hc1, hc2⟩ := C100_succeeds (wm := wm) hfuel hwf he hn (by rw [hfmt]; simp) ha hma hfo ht1 ht2 hu hs hok hfree h1 e1 h2 e2
      (fun v hv => by rw [ht3] at hv; cases hv; exact ⟨l3, d3, h3, e3⟩)
      (by
        cases li with
        | none => exact Or.inl ⟨hli', hblog⟩
        | some f =>
          obtain ⟨ls, hls⟩ := hli f rfl
          exact Or.inr ⟨f, ls, hli', hls⟩)
      (fun h => by obtain ⟨mf, k⟩ := hmod h; exact ⟨_, mf, hmu, k⟩) hdirs hmiss hdl
    refine ⟨c, w', hrun, hc1, hc2, ?_⟩
    obtain ⟨a', u', files', fo', tr', te', ha', hu', hs', hfo', -, -, key⟩ := C60_fresh hwf he hn hrun hmiss
    rw [ha] at ha'
    cases ha'
    rw [hu] at hu'
    cases hu'
    rw [hs] at hs'
    cases hs'
    rw [hfo] at hfo'
    cases hfo'
    obtain ⟨-, -, -, hval⟩ := key hok hfree
    rcases hval with ⟨v1, -⟩ | ⟨v, ls, d, v1, v2, v3, v4⟩
    · rw [ht3] at v1
      cases v1
    · rw [ht3] at v1
      cases v1
      rw [archiveTree_mem hok.1 h3] at v2
      cases v2
      rw [e3] at v3
      cases v3
      exact v4
  cases hp with
  | sample => exact main _ [] _ _ _ rfl rfl (by decide +kernel) (by decide +kernel) rfl rfl rfl rfl rfl rfl rfl rfl (by decide +kernel) (by decide +kernel)
  | msn10k k => exact main _ ["Fold" ++ toString k] _ _ _ rfl rfl (by decide +kernel) (by decide +kernel) rfl rfl rfl rfl rfl rfl rfl rfl (by decide +kernel) (by decide +kernel)
  | msn30k k => exact main _ ["Fold" ++ toString k] _ _ _ rfl rfl (by decide +kernel) (by decide +kernel) rfl rfl rfl rfl rfl rfl rfl rfl (by decide +kernel) (by decide +kernel)

/-! ### Examples -/

/-- A server with the archives of two datasets. -/
def mirror : String → Option (List (Path × List String)) := fun u =>
  if u = archiveUrl "istella-letor" "istella-letor.tar.gz" then
    some [(["istella-letor-LA.txt"], ["l"]), (["full", "train.txt"], ["a"]), (["full", "test.txt"], ["b"])]
  else if u = archiveUrl "msn10k" "msn10k.tar.gz" then
    some [(["Fold1", "train.txt"], ["c"]), (["Fold1", "test.txt"], ["d"]), (["Fold1", "vali.txt"], ["e"])]
  else none

/-- The hypotheses of the three theorems hold for these archives. -/
example : ArchiveOk [(["istella-letor-LA.txt"], ["l"]), (["full", "train.txt"], ["a"]), (["full", "test.txt"], ["b"])] ∧
    NameFree "istella-letor.tar.gz" [(["istella-letor-LA.txt"], ["l"]), (["full", "train.txt"], ["a"]), (["full", "test.txt"], ["b"])] ∧
    ArchiveOk [(["Fold1", "train.txt"], ["c"]), (["Fold1", "test.txt"], ["d"]), (["Fold1", "vali.txt"], ["e"])] ∧
    NameFree "msn10k.tar.gz" [(["Fold1", "train.txt"], ["c"]), (["Fold1", "test.txt"], ["d"]), (["Fold1", "vali.txt"], ["e"])] ∧
    "Fold" ++ toString 1 = "Fold1" := by
  unfold ArchiveOk NameFree
  decide +kernel

/-- istella-full fails, msn10k can be loaded only with a fold, istella-full has no folds. -/
example : let w : World := { demoWorld none with server := mirror }
    outcome (loadDataset .ok (some catalogue) none ["home"] "istella-full" none true false false w) = .error .ioError ∧
    outcome (loadDataset .ok (some catalogue) none ["home"] "msn10k" none true false false w) = .error .ioError ∧
    outcome (loadDataset .ok (some catalogue) none ["home"] "msn10k" (some 1) true false false w) = .ok (some (some ["c"], some ["d"])) ∧
    outcome (loadDataset .ok (some catalogue) none ["home"] "istella-full" (some 1) true false false w) = .error .noFold ∧
    outcome (loadDataset .ok (some catalogue) none ["home"] "mslr" none true false false w) = .ok none := by
  refine ⟨?_, ?_, ?_, ?_, ?_⟩ <;> decide +kernel

end Verif.Props
