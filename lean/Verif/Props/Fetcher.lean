/-
Properties C59 (interrupted downloads are retried) and C60 (load_dataset loads what was requested).
-/
import Verif.Lemmas.Fetcher

namespace Verif.Props
open Fetch Spec
variable {D : Type} {load : List String → Except Err D} {cat : String → Option Entry} {env : Option Path} {home : Path}
variable {dataset name : String} {fold : Option Nat} {dl force wm : Bool} {w w' : World} {e : Entry} {c : Container D}

/-- Directory of all datasets. -/
def dataRoot (env : Option Path) (home : Path) : Path := expandUser home (env.getD ["~", "rankeval_data"])

/-- C60: when the data are missing or the download is forced, a call that ends normally has downloaded the archive, there is nothing else in
the directory of the dataset, and the data returned are read from the files of the archive. This holds for every state of the disk before. -/
theorem C60_fresh (hwf : WfFs w.fs) (he : cat dataset = some e) (hn : e.name = some name)
    (h : loadDataset load (some cat) env home dataset fold dl force wm w = (.ok (some c), w'))
    (hmiss : force = true ∨ w.fs (dataRoot env home ++ [name] ++ ["dataset"]) = none) :
    ∃ a u files fo tr te, e.archiveName = some a ∧ e.url = some u ∧ w.server u = some files ∧ foldFolder e fold = some fo ∧
      e.trainFile = some tr ∧ e.testFile = some te ∧
      (ArchiveOk files → NameFree a files →
        (∀ r, w'.fs (dataRoot env home ++ [name] ++ ["dataset"] ++ r) = archiveTree files r) ∧
        (∃ ls d, archiveTree files (fo ++ tr) = some (.file (.text ls)) ∧ load ls = .ok d ∧ c.train = some d) ∧
        (∃ ls d, archiveTree files (fo ++ te) = some (.file (.text ls)) ∧ load ls = .ok d ∧ c.test = some d) ∧
        (e.validationFile = none ∧ c.validation = none ∨
          ∃ v ls d, e.validationFile = some v ∧ archiveTree files (fo ++ v) = some (.file (.text ls)) ∧ load ls = .ok d ∧ c.validation = some d)) := by
  obtain ⟨root, w0, data, h1, h2, ⟨l1, d1, t1, t2, t3⟩, ⟨l2, d2, s1, s2, s3⟩, hv, -, -⟩ := loadDataset_ok he h
  obtain ⟨rfl, net, hw0, hk⟩ := getDataHome_ok h1
  obtain ⟨name', a, ma, fo, tr, te, -, -, hn', ha, -, hfo, htr, hte, -, -, -, -, e1, e2, e3⟩ := fetch_ok h2
  rw [hn] at hn'
  cases hn'
  have hm0 : force = true ∨ w0.fs (dataRoot env home ++ [name] ++ ["dataset"]) = none := by
    refine hmiss.imp id (fun hm => ?_)
    rw [hk _ (by rw [List.append_assoc]; exact append_length_not_prefix (by simp)), ← hm]
  obtain ⟨a', u, files, ha', hu, hs, ht⟩ := fetch_fresh (hw0 hwf) hn h2 hm0
  rw [ha] at ha'
  cases ha'
  refine ⟨a, u, files, fo, tr, te, ha, hu, by rw [← net.2, hs], hfo, htr, hte, fun hok hfree => ?_⟩
  have key : ∀ r, w'.fs (dataRoot env home ++ [name] ++ ["dataset"] ++ r) = archiveTree files r := ht hok hfree
  refine ⟨key, ⟨l1, d1, ?_, t2, t3⟩, ⟨l2, d2, ?_, s2, s3⟩, ?_⟩
  · rw [← key, ← t1, e1]
    simp [dataRoot]
  · rw [← key, ← s1, e2]
    simp [dataRoot]
  · rcases hv with ⟨v1, v2⟩ | ⟨q, ls, d, v1, v2, v3, v4⟩
    · rw [e3, Option.map_eq_none_iff] at v1
      exact Or.inl ⟨v1, v2⟩
    · rw [e3, Option.map_eq_some_iff] at v1
      obtain ⟨v, v0, rfl⟩ := v1
      refine Or.inr ⟨v, ls, d, v0, ?_, v3, v4⟩
      rw [← key, ← v2]
      simp [dataRoot]

/-- C60: the same for the models; the names returned are the files below the models of the fold. -/
theorem C60_fresh_models (hwf : WfFs w.fs) (he : cat dataset = some e) (hn : e.name = some name)
    (h : loadDataset load (some cat) env home dataset fold dl force true w = (.ok (some c), w'))
    (hmiss : force = true ∨ w.fs (dataRoot env home ++ [name] ++ ["models"]) = none) :
    ∃ a u files fo m, e.modelsArchiveName = some a ∧ e.modelsUrl = some u ∧ w.server u = some files ∧ foldFolder e fold = some fo ∧ c.models = some m ∧
      (ArchiveOk files → NameFree a files → ∀ p, m p = true ↔ ∃ r ls, p = dataRoot env home ++ [name] ++ ["models"] ++ (fo ++ r) ∧ (fo ++ r, ls) ∈ files) := by
  obtain ⟨root, w0, data, h1, h2, -, -, -, -, hcm⟩ := loadDataset_ok he h
  obtain ⟨rfl, net, hw0, hk⟩ := getDataHome_ok h1
  obtain ⟨name', a, ma, fo, tr, te, w1, w2, hn', ha, -, hfo, htr, hte, -, -, -, hm, -⟩ := fetch_ok h2
  rw [hn] at hn'
  cases hn'
  have hm0 : force = true ∨ w0.fs (dataRoot env home ++ [name] ++ ["models"]) = none := by
    refine hmiss.imp id (fun hm => ?_)
    rw [hk _ (by rw [List.append_assoc]; exact append_length_not_prefix (by simp)), ← hm]
  obtain ⟨a', u, files, ha', hu, hs, ht⟩ := fetch_fresh_models (hw0 hwf) hn h2 hm0
  rcases fetchModels_ok hm with ⟨c, -, -⟩ | ⟨-, -, fo', hfo', hmd⟩
  · cases c
  rw [hfo] at hfo'
  cases hfo'
  refine ⟨a', u, files, fo, _, ha', hu, by rw [← net.2, hs], hfo, hcm.trans hmd, fun hok hfree p => ?_⟩
  have key : ∀ r, w'.fs (dataRoot env home ++ [name] ++ ["models"] ++ r) = archiveTree files r := ht hok hfree
  rw [Bool.and_eq_true, decide_eq_true_eq]
  have file_iff : ∀ r, isFile (archiveTree files r) = true ↔ ∃ ls, (r, ls) ∈ files := by
    intro r
    unfold archiveTree
    cases hf : files.find? (fun f => decide (f.1 = r)) with
    | some f =>
      have := List.find?_some hf
      simp only [decide_eq_true_eq] at this
      simp only [isFile, true_iff]
      exact ⟨f.2, by rw [← this]; exact List.mem_of_find?_eq_some hf⟩
    | none =>
      rw [List.find?_eq_none] at hf
      constructor
      · intro h
        dsimp only at h
        split at h <;> cases h
      · rintro ⟨ls, hls⟩
        exact absurd (by simp) (hf _ hls)
  constructor
  · rintro ⟨⟨r, rfl⟩, hp⟩
    rw [List.append_assoc] at hp
    have hp' : isFile (archiveTree files (fo ++ r)) = true := by rw [← key]; exact hp
    obtain ⟨ls, hls⟩ := (file_iff _).1 hp'
    exact ⟨r, ls, by simp [dataRoot], hls⟩
  · rintro ⟨r, ls, rfl, hls⟩
    refine ⟨⟨r, by simp [dataRoot]⟩, ?_⟩
    rw [key]
    exact (file_iff _).2 ⟨ls, hls⟩

/-- C60: each resource is requested once if it is missing or forced, and not otherwise. -/
theorem C60_requests {root : Path} {data : Fetched} (hwf : WfFs w.fs) (hn : e.name = some name) (h : fetch e fold root dl force wm w = (.ok data, w')) :
    w'.log = w.log ++ (if force = true ∨ w.fs (root ++ [name] ++ ["dataset"]) = none then e.url.toList else []) ++
      (if wm = true ∧ (force = true ∨ w.fs (root ++ [name] ++ ["models"]) = none) then e.modelsUrl.toList else []) :=
  fetch_log hwf hn h

/-- C60: data that are there are not touched unless the download is forced, however the call ends. -/
theorem C60_untouched {root : Path} (hn : e.name = some name) (hd : w.fs (root ++ [name] ++ ["dataset"]) ≠ none)
    (hm : wm = true → w.fs (root ++ [name] ++ ["models"]) ≠ none) : (fetch e fold root dl false wm w).2 = w := by
  refine fetch_split (P := fun w' => w' = w) hn rfl ?_ ?_
  · intro a
    rw [fetchArchive_there hd]
  · intro a ma w1 h1
    rw [fetchArchive_there hd] at h1
    cases h1
    unfold fetchModels
    split
    · rename_i hwm
      rw [fBind_of (fetchArchive_there (hm hwm))]
      exact Reads.bind (Reads.folderOf _ _ _) (fun _ => Reads.bind (Reads.walk _) (fun _ => Reads.pure _)) w
    · rfl

/-- C60: also when the models are missing, the dataset is not touched. -/
theorem C60_untouched_dataset {root : Path} (hn : e.name = some name) (hd : w.fs (root ++ [name] ++ ["dataset"]) ≠ none) (p : Path)
    (hp : root ++ [name] ++ ["dataset"] <+: p) : (fetch e fold root dl false wm w).2.fs p = w.fs p :=
  (fetch_keeps hn hd).1 p hp

/-- C60: an unknown name gives no result and changes nothing. -/
theorem C60_unknown (he : cat dataset = none) : loadDataset load (some cat) env home dataset fold dl force wm w = (.ok none, w) := by
  unfold loadDataset
  simp only [he]
  rfl

/-- C60: a fold of a dataset without folds is refused before anything is touched. -/
theorem C60_no_fold {root : Path} {k : Nat} (hn : e.name = some name) (hs : e.subfolder = none) (hdl : dl = true) :
    fetch e (some k) root dl force wm w = (.error .noFold, w) := by
  unfold fetch
  rw [fBind_of (show item e.name w = (.ok name, w) by rw [hn]; rfl), fBind_of (pathExists_eq _ _), hdl, hs]
  rfl

/-! A small catalogue, with two files and one model. -/

def demoEntry : Entry :=
  { name := some "toy", format := some "svmlight", archiveName := some "toy.tar.gz", modelsArchiveName := some "models.tar.gz",
    trainFile := some ["train.txt"], testFile := some ["test.txt"], validationFile := none, subfolder := some "Fold",
    url := some "http://d", modelsUrl := some "http://m", licenseFile := none, blogPost := some "http://b" }

def demoCat : String → Option Entry := fun n => if n = "toy" then some demoEntry else none

def demoServer : String → Option (List (Path × List String)) := fun u =>
  if u = "http://d" then some [(["train.txt"], ["a", "b"]), (["Fold1", "train.txt"], ["c"]), (["test.txt"], ["d"])]
  else if u = "http://m" then some [(["m.txt"], ["x"])] else none

def demoWorld (fuel : Option Nat) : World := ⟨fun p => if p <+: ["home"] then some .dir else none, demoServer, [], fuel⟩

def demoLoad (force dl wm : Bool) : M (Option (Container (List String))) := loadDataset .ok (some demoCat) none ["home"] "toy" none dl force wm

/-- The data loaded, or the exception. -/
def outcome (r : Except Err (Option (Container (List String))) × World) : Except Err (Option (Option (List String) × Option (List String))) :=
  r.1.map (fun o => o.map (fun c => (c.train, c.test)))

example : WfFs (demoWorld none).fs := by
  intro p q hpq hp
  simp only [demoWorld, ite_eq_right_iff, reduceCtorEq, imp_false] at hp ⊢
  exact fun c => hp (hpq.trans c)

example : ArchiveOk [(["train.txt"], ["a", "b"]), (["Fold1", "train.txt"], ["c"]), (["test.txt"], ["d"])] ∧
    NameFree "toy.tar.gz" [(["train.txt"], ["a", "b"]), (["Fold1", "train.txt"], ["c"]), (["test.txt"], ["d"])] := by
  unfold ArchiveOk NameFree
  decide

example : outcome (demoLoad false true true (demoWorld none)) = .ok (some (some ["a", "b"], some ["d"])) ∧
    (demoLoad false true true (demoWorld none)).2.log = ["http://d", "http://m"] := by
  decide +kernel

/-! ### Interrupted downloads -/

/-- A later call: what the servers have then, and when the process is killed. -/
structure Call where
  catalogue : Option (String → Option Entry)
  server : String → Option (List (Path × List String))
  fuel : Option Nat
  dataset : String
  fold : Option Nat
  downloadIfMissing : Bool
  withModels : Bool

/-- The world after a call without `force_download`. -/
def Call.after (load : List String → Except Err D) (env : Option Path) (home : Path) (w : World) (k : Call) : World :=
  (loadDataset load k.catalogue env home k.dataset k.fold k.downloadIfMissing false k.withModels { w with server := k.server, fuel := k.fuel }).2

/-- C59 is violated: once the directory is there, complete or not, no sequence of calls without `force_download` changes it or requests the
dataset, whatever the servers offer. -/
theorem C59_violated_never_retried (hn : e.name = some name) (calls : List Call)
    (hcat : ∀ k ∈ calls, ∀ f e', k.catalogue = some f → f k.dataset = some e' → e' = e)
    (hd : w.fs (dataRoot env home ++ [name] ++ ["dataset"]) ≠ none) :
    (∀ p, dataRoot env home ++ [name] ++ ["dataset"] <+: p → (calls.foldl (Call.after load env home) w).fs p = w.fs p) ∧
      ∃ new, (calls.foldl (Call.after load env home) w).log = w.log ++ new ∧ ∀ u ∈ new, e.modelsUrl = some u := by
  induction calls generalizing w with
  | nil => exact ⟨fun _ _ => rfl, [], by simp, by simp⟩
  | cons k calls ih =>
    rw [List.foldl_cons]
    have hk := loadDataset_keeps (load := load) (cat := k.catalogue) (env := env) (home := home) (dataset := k.dataset) (fold := k.fold)
      (dl := k.downloadIfMissing) (wm := k.withModels) (w := { w with server := k.server, fuel := k.fuel }) (hcat k List.mem_cons_self) hn rfl hd
    have hk' : (∀ p, dataRoot env home ++ [name] ++ ["dataset"] <+: p → (Call.after load env home w k).fs p = w.fs p) ∧
        ∃ new, (Call.after load env home w k).log = w.log ++ new ∧ ∀ u ∈ new, e.modelsUrl = some u := hk
    obtain ⟨k1, n1, k2, k3⟩ := hk'
    obtain ⟨j1, n2, j2, j3⟩ := ih (fun k' hk' => hcat k' (List.mem_cons_of_mem _ hk')) (w := Call.after load env home w k)
      (by rw [k1 _ (List.prefix_refl _)]; exact hd)
    refine ⟨fun p hp => (j1 p hp).trans (k1 p hp), n1 ++ n2, by rw [j2, k2, List.append_assoc], ?_⟩
    intro u hu
    rcases List.mem_append.1 hu with hu | hu
    · exact k3 u hu
    · exact j3 u hu

/-- C59 is violated: the first call is killed during the download, the second one does not find the files. -/
theorem C59_violated_missing :
    let r := demoLoad false true false (demoWorld (some 3))
    outcome r = .error .killed ∧ outcome (demoLoad false true false { r.2 with fuel := none }) = .error .ioError := by
  decide +kernel

/-- The archive has the test file first. -/
def lastTrain : String → Option (List (Path × List String)) := fun u => if u = "http://d" then some [(["test.txt"], ["d"]), (["train.txt"], ["a", "b"])] else none

/-- C59 is violated: the first call is killed while the last file is written, the second one returns half of the training data. -/
theorem C59_violated_truncated :
    let r := demoLoad false true false { demoWorld (some 11) with server := lastTrain }
    outcome r = .error .killed ∧ outcome (demoLoad false true false { r.2 with fuel := none }) = .ok (some (some ["a"], some ["d"])) := by
  decide +kernel

/-- C59 is violated: no process is killed, but the server does not answer the first time. -/
theorem C59_violated_server :
    let r := demoLoad false true false { demoWorld none with server := fun _ => none }
    outcome r = .error .urlError ∧ outcome (demoLoad false true false { r.2 with server := demoServer }) = .error .ioError := by
  decide +kernel

/-- C59 with `force_download`: after any history, a call that ends normally returns complete data. -/
theorem C59_forced_partial (hwf : WfFs w.fs) (he : cat dataset = some e) (hn : e.name = some name)
    (h : loadDataset load (some cat) env home dataset fold dl true wm w = (.ok (some c), w')) :
    ∃ a u files, e.archiveName = some a ∧ e.url = some u ∧ w.server u = some files ∧
      (ArchiveOk files → NameFree a files → ∀ r, w'.fs (dataRoot env home ++ [name] ++ ["dataset"] ++ r) = archiveTree files r) := by
  obtain ⟨a, u, files, fo, tr, te, ha, hu, hs, -, -, -, hr⟩ := C60_fresh hwf he hn h (Or.inl rfl)
  exact ⟨a, u, files, ha, hu, hs, fun h1 h2 => (hr h1 h2).1⟩

example : let r := demoLoad false true false { demoWorld (some 11) with server := lastTrain }
    outcome (demoLoad true true false { r.2 with fuel := none }) = .ok (some (some ["a", "b"], some ["d"])) := by
  decide +kernel

/-! ### Options -/

/-- C60 is violated: with `download_if_missing=False` the data are downloaded when only the directory of the dataset is there. -/
theorem C60_violated_download_if_missing :
    let w := { demoWorld none with fs := fun p => if p <+: ["home", "rankeval_data", "toy"] then some .dir else none }
    (demoLoad false false false w).2.log = ["http://d"] := by
  decide +kernel

/-- C60 is violated: forcing the download without models deletes the models that are there. -/
theorem C60_violated_models_deleted :
    let r := demoLoad false true true (demoWorld none)
    r.2.fs ["home", "rankeval_data", "toy", "models", "m.txt"] = some (.file (.text ["x"])) ∧
      (demoLoad true true false r.2).2.fs ["home", "rankeval_data", "toy", "models", "m.txt"] = none := by
  decide +kernel

/-- C60 is violated: for a dataset without models in the catalogue, forcing the download deletes the data and raises `KeyError`. -/
theorem C60_violated_deleted_then_error :
    let cat : String → Option Entry := fun n => if n = "toy" then some { demoEntry with modelsArchiveName := none } else none
    let r := demoLoad false true false (demoWorld none)
    let s := loadDataset (D := List String) .ok (some cat) none ["home"] "toy" none true true false r.2
    r.2.fs ["home", "rankeval_data", "toy", "dataset", "train.txt"] = some (.file (.text ["a", "b"])) ∧
      outcome s = .error .keyError ∧ s.2.fs ["home", "rankeval_data", "toy", "dataset", "train.txt"] = none := by
  decide +kernel

end Verif.Props
