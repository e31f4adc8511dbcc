/-
Model of `rankeval/dataset/write_json_dataset_catalogue.py`: the catalogue that `load_dataset` reads from the server.

Simplified: paths are lists of names; the description of a dataset is left out; the catalogue on the server is the one written by the script.
-/
import Verif.Model.Fetcher

namespace Verif.Fetch

/-- `data[item['DATASET_NAME']] = item`; the dictionary is a list, the first item of a name counts. -/
def addItem (item : Entry) (data : List (String × Entry)) : List (String × Entry) :=
  match item.name with
  | some n => (n, item) :: data
  | none => data

/-- Lines 17-32, `__add_istella_full__`. -/
def addIstellaFull : List (String × Entry) → List (String × Entry) := addItem {
  trainFile := some ["full", "train.txt"]
  testFile := some ["full", "test.txt"]
  validationFile := some ["None"]
  licenseFile := some ["istella-letor-LA.txt"]
  archiveName := some "istella-letor.tar.gz"
  modelsArchiveName := some "istella-letor-models.tar.gz"
  url := some "http://rankeval.isti.cnr.it/rankeval-datasets/istella-letor/dataset/istella-letor.tar.gz"
  modelsUrl := some "http://rankeval.isti.cnr.it/rankeval-datasets/istella-letor/models/istella-letor-models.tar.gz"
  blogPost := some "http://blog.istella.it/istella-learning-to-rank-dataset/"
  name := some "istella-full"
  subfolder := none
  format := some "svmlight" }

/-- Lines 34-49, `__add_istella_sample__`. -/
def addIstellaSample : List (String × Entry) → List (String × Entry) := addItem {
  trainFile := some ["sample", "train.txt"]
  testFile := some ["sample", "test.txt"]
  validationFile := some ["sample", "vali.txt"]
  licenseFile := some ["istella-letor-LA.txt"]
  archiveName := some "istella-s-letor.tar.gz"
  modelsArchiveName := some "istella-s-letor-models.tar.gz"
  url := some "http://rankeval.isti.cnr.it/rankeval-datasets/istella-s-letor/dataset/istella-s-letor.tar.gz"
  modelsUrl := some "http://rankeval.isti.cnr.it/rankeval-datasets/istella-s-letor/models/istella-s-letor-models.tar.gz"
  blogPost := some "http://blog.istella.it/istella-learning-to-rank-dataset/"
  name := some "istella-sample"
  subfolder := none
  format := some "svmlight" }

/-- Lines 51-65, `__add_msn10k__`. -/
def addMsn10k : List (String × Entry) → List (String × Entry) := addItem {
  subfolder := some "Fold"
  trainFile := some ["train.txt"]
  testFile := some ["test.txt"]
  validationFile := some ["vali.txt"]
  licenseFile := none
  archiveName := some "msn10k.tar.gz"
  modelsArchiveName := some "msn10k-models.tar.gz"
  url := some "http://rankeval.isti.cnr.it/rankeval-datasets/msn10k/dataset/msn10k.tar.gz"
  modelsUrl := some "http://rankeval.isti.cnr.it/rankeval-datasets/msn10k/models/msn10k-models.tar.gz"
  blogPost := some "https://www.microsoft.com/en-us/research/project/mslr/"
  name := some "msn10k"
  format := some "svmlight" }

/-- Lines 67-81, `__add_msn30k__`. -/
def addMsn30k : List (String × Entry) → List (String × Entry) := addItem {
  subfolder := some "Fold"
  trainFile := some ["train.txt"]
  testFile := some ["test.txt"]
  validationFile := some ["vali.txt"]
  licenseFile := none
  archiveName := some "msn30k.tar.gz"
  modelsArchiveName := some "msn30k-models.tar.gz"
  url := some "http://rankeval.isti.cnr.it/rankeval-datasets/msn30k/dataset/msn30k.tar.gz"
  modelsUrl := some "http://rankeval.isti.cnr.it/rankeval-datasets/msn30k/models/msn30k-models.tar.gz"
  blogPost := some "https://www.microsoft.com/en-us/research/project/mslr/"
  name := some "msn30k"
  format := some "svmlight" }

/-- Lines 83-90, `main`. -/
def catalogueItems : List (String × Entry) := addMsn30k (addMsn10k (addIstellaSample (addIstellaFull [])))

/-- The dictionary that `__dataset_catalogue__` reads. -/
def catalogue (dataset : String) : Option Entry := (catalogueItems.find? (fun p => decide (p.1 = dataset))).map (·.2)

end Verif.Fetch
