/-
The dataset fetcher of rankeval/dataset/datasets_fetcher.py.

The file system is a function from paths to what is there. Paths are lists of names; `..`, links and permissions are not modelled. The process can be killed before any change of the file
system or any download (`fuel`); files are written line by line. The loader of the data files is a parameter.
-/
import Mathlib.Data.List.Basic

namespace Verif.Fetch

abbrev Path := List String

/-- Content of a file. -/
inductive Content where
  | text (lines : List String)
  | tar (files : List (Path × List String))
  deriving DecidableEq, Repr

inductive Node where
  | dir
  | file (c : Content)
  deriving DecidableEq, Repr

inductive Err where
  | ioError
  | urlError
  | keyError
  | noFold
  | readError
  | killed
  | format
  deriving DecidableEq, Repr

/-- The file system, the archives on the servers, the urls requested so far, and the number of steps before the process is killed. -/
structure World where
  fs : Path → Option Node
  server : String → Option (List (Path × List String))
  log : List String
  fuel : Option Nat

/-- Programs that change the world and can raise an exception. -/
def M (α : Type) := World → Except Err α × World

/-- Continue with the result, or keep the exception. -/
def M.next {α β : Type} (f : α → M β) : Except Err α × World → Except Err β × World
  | (.ok a, w) => f a w
  | (.error e, w) => (.error e, w)

instance : Monad M where
  pure a := fun w => (.ok a, w)
  bind x f := fun w => M.next f (x w)

def raise {α : Type} (e : Err) : M α := fun w => (.error e, w)

def world : M World := fun w => (.ok w, w)

/-- One step of the process. -/
def tick : M Unit := fun w =>
  match w.fuel with
  | none => (.ok (), w)
  | some 0 => (.error .killed, w)
  | some (k + 1) => (.ok (), { w with fuel := some k })

/-- A change of the file system. -/
def change (f : (Path → Option Node) → Path → Option Node) : M Unit := do
  tick
  fun w => (.ok (), { w with fs := f w.fs })

def setNode (p : Path) (n : Option Node) (fs : Path → Option Node) : Path → Option Node := fun q => if q = p then n else fs q

/-- `os.path.exists`. -/
def pathExists (p : Path) : M Bool := do
  let w ← world
  pure (w.fs p).isSome

/-- The directories on the way to `p`, including `p`: those that are missing are created. -/
def addDirs (p : Path) (fs : Path → Option Node) : Path → Option Node := fun q => if q <+: p ∧ fs q = none then some .dir else fs q

def isFile : Option Node → Bool
  | some (.file _) => true
  | _ => false

/-- Some directory on the way to `p`, or `p`, is a regular file. -/
def blocked (fs : Path → Option Node) (p : Path) : Bool := p.inits.any (fun q => isFile (fs q))

/-- `os.makedirs`. -/
def makedirs (p : Path) : M Unit := do
  let w ← world
  if (w.fs p).isSome || blocked w.fs p then raise .ioError else change (addDirs p)

/-- `shutil.rmtree`. -/
def rmtree (p : Path) : M Unit := do
  let w ← world
  if w.fs p = some .dir then change (fun fs q => if p <+: q then none else fs q) else raise .ioError

/-- `os.remove`. -/
def remove (p : Path) : M Unit := do
  let w ← world
  match w.fs p with
  | some (.file _) => change (setNode p none)
  | _ => raise .ioError

/-- `urlopen(url).read()`. -/
def urlopen (url : String) : M (List (Path × List String)) := do
  tick
  fun w =>
    match w.server url with
    | none => (.error .urlError, { w with log := w.log ++ [url] })
    | some files => (.ok files, { w with log := w.log ++ [url] })

/-- Append the lines to the file one by one. -/
def writeLines (p : Path) (done : List String) : List String → M Unit
  | [] => pure ()
  | l :: ls => do
    change (setNode p (some (.file (.text (done ++ [l])))))
    writeLines p (done ++ [l]) ls

/-- `tarfile.extractall`: files are created with their directories, one after the other. -/
def extractall (home : Path) : List (Path × List String) → M Unit
  | [] => pure ()
  | (r, ls) :: files => do
    let w ← world
    if blocked w.fs (home ++ r).dropLast || decide (w.fs (home ++ r) = some .dir) then raise .ioError else do
    change (addDirs (home ++ r).dropLast)
    change (setNode (home ++ r) (some (.file (.text []))))
    writeLines (home ++ r) [] ls
    extractall home files

/-- `tarfile.open`. -/
def tarOpen (p : Path) : M (List (Path × List String)) := do
  let w ← world
  match w.fs p with
  | some (.file (.tar files)) => pure files
  | some (.file (.text _)) => raise .readError
  | _ => raise .ioError

/-- Lines of a file: `open(path, 'r')`. -/
def readLines (p : Path) : M (List String) := do
  let w ← world
  match w.fs p with
  | some (.file (.text ls)) => pure ls
  | some (.file (.tar _)) => raise .format
  | _ => raise .ioError

/-- The properties of a dataset in the catalogue; properties that are missing are `none`. -/
structure Entry where
  name : Option String
  format : Option String
  archiveName : Option String
  modelsArchiveName : Option String
  trainFile : Option Path
  testFile : Option Path
  validationFile : Option Path
  subfolder : Option String
  url : Option String
  modelsUrl : Option String
  licenseFile : Option Path
  blogPost : Option String
  deriving DecidableEq, Repr

/-- `dictionary[key]`. -/
def item {α : Type} : Option α → M α
  | some a => pure a
  | none => raise .keyError

/-- Lines 116-133 and 153-169: download and extract an archive unless the directory exists. -/
def fetchArchive (home : Path) (archive : String) (url : Option String) : M Unit := do
  if ← pathExists home then pure () else do
    makedirs home
    let u ← item url
    let files ← urlopen u
    change (setNode (home ++ [archive]) (some (.file (.text []))))
    change (setNode (home ++ [archive]) (some (.file (.tar files))))
    let files ← tarOpen (home ++ [archive])
    extractall home files
    remove (home ++ [archive])

/-- What `__fetch_dataset_and_models__` returns. The models are the files for which the function is true (`os.walk` gives them in no
particular order). -/
structure Fetched where
  train : Path
  test : Path
  validation : Option Path
  license : List String
  models : Option (Path → Bool)

/-- Files in a directory and its subdirectories. -/
def walk (p : Path) : M (Path → Bool) := do
  let w ← world
  pure (fun q => decide (p <+: q) && isFile (w.fs q))

/-- Lines 100-110: the folder of the data files. -/
def folderOf (home : Path) (e : Entry) (fold : Option Nat) : M Path :=
  match fold with
  | none => pure home
  | some k => do
    let s ← item e.subfolder
    pure (home ++ [s ++ toString k])

/-- Lines 135-140. -/
def readLicense (home : Path) (e : Entry) : M (List String) :=
  match e.licenseFile with
  | some f => readLines (home ++ f)
  | none => do
    let b ← item e.blogPost
    pure ["Please, check the terms of use before using the dataset. Here the link: " ++ b]

/-- Lines 152-182. -/
def fetchModels (home : Path) (archive : String) (e : Entry) (fold : Option Nat) (withModels : Bool) : M (Option (Path → Bool)) := do
  if withModels then do
    fetchArchive home archive e.modelsUrl
    let f ← folderOf home e fold
    let m ← walk f
    pure (some m)
  else pure none

/-- Lines 90-94: delete the data for a forced download. -/
def clean (dataHome : Path) (force : Bool) : M Unit := do
  if force then
    if ← pathExists dataHome then do
      rmtree dataHome
      makedirs dataHome
    else pure ()
  else pure ()

/-- `__fetch_dataset_and_models__`, lines 53-184. -/
def fetch (e : Entry) (fold : Option Nat) (root : Path) (downloadIfMissing force withModels : Bool) : M Fetched := do
  let name ← item e.name
  let dataHome := root ++ [name]
  let datasetHome := dataHome ++ ["dataset"]
  let modelsHome := dataHome ++ ["models"]
  let there ← pathExists dataHome
  if !downloadIfMissing && !there then raise .ioError else do
  if fold.isSome && e.subfolder.isNone then raise .noFold else do
  clean dataHome force
  let archive ← item e.archiveName
  let modelsArchive ← item e.modelsArchiveName
  let folder ← folderOf datasetHome e fold
  let train ← item e.trainFile
  let test ← item e.testFile
  fetchArchive datasetHome archive e.url
  let license ← readLicense datasetHome e
  let models ← fetchModels modelsHome modelsArchive e fold withModels
  pure ⟨folder ++ train, folder ++ test, e.validationFile.map (fun v => folder ++ v), license, models⟩

/-- `DatasetContainer`, dataset_container.py. -/
structure Container (D : Type) where
  train : Option D
  test : Option D
  validation : Option D
  license : List String
  models : Option (Path → Bool)

/-- `expanduser`. -/
def expandUser (home : Path) : Path → Path
  | "~" :: rest => home ++ rest
  | p => p

/-- `__get_data_home__`, lines 33-50; `env` is `RANKEVAL_DATA`, `home` the user folder. -/
def getDataHome (arg env : Option Path) (home : Path) : M Path := do
  let p := expandUser home (arg.getD (env.getD ["~", "rankeval_data"]))
  if ← pathExists p then pure p else do
    makedirs p
    pure p

/-- Reading a data file (`Dataset.load`). -/
def loadFile {D : Type} (load : List String → Except Err D) (p : Path) : M D := do
  let ls ← readLines p
  match load ls with
  | .ok d => pure d
  | .error err => raise err

/-- Reading a data file that need not be given. -/
def loadOption {D : Type} (load : List String → Except Err D) : Option Path → M (Option D)
  | none => pure none
  | some p => do
    let d ← loadFile load p
    pure (some d)

/-- `load_dataset`, lines 187-251. The catalogue is on a server too. -/
def loadDataset {D : Type} (load : List String → Except Err D) (catalogue : Option (String → Option Entry)) (env : Option Path) (home : Path)
    (dataset : String) (fold : Option Nat) (downloadIfMissing force withModels : Bool) : M (Option (Container D)) := do
  match catalogue with
  | none => raise .urlError
  | some cat =>
    match cat dataset with
    | none => pure none
    | some e => do
      let root ← getDataHome none env home
      let data ← fetch e fold root downloadIfMissing force withModels
      let _ ← item e.name
      let _ ← item e.format
      let train ← loadFile load data.train
      let test ← loadFile load data.test
      let validation ← loadOption load data.validation
      pure (some ⟨some train, some test, validation, data.license, data.models⟩)

end Verif.Fetch
