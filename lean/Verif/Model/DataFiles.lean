import Verif.Model.Streamers

/-! Model of `Data.get_data`, `pysad/utils/data.py`, with the file system as a parameter. File
names are lists of characters. -/

namespace Pysad

/-- What `scipy.io.loadmat` finds in a file under the keys `X` and `y`: matrices given by their
rows. -/
structure MatFile (α : Type*) where
  X : Option (List (List α))
  y : Option (List (List α))

/-- The readers applied to a path (external): `scipy.io.loadmat`, and the table which
`np.loadtxt(path, delimiter=",")` reads before squeezing. -/
structure DataReaders (α : Type*) where
  loadmat : List Char → Except PyErr (MatFile α)
  loadtxt : List Char → Except PyErr (List (List α))

namespace Data

/-- `os.path.join(base, name)` for a relative name and a base not ending with a slash, l.70. -/
def join (base name : List Char) : List Char := base ++ '/' :: name

/-- The branch for MATLAB files, l.75-78: a missing key raises `KeyError`; `ravel` concatenates
the rows. -/
def getDataMat {α : Type*} (f : MatFile α) : Except PyErr (List (List α) × List α) :=
  match f.X, f.y with
  | some X, some y => .ok (X, y.flatten)
  | _, _ => .error .keyError

/-- `Data.get_data`, l.60-85: `".mat" in data_file` is a substring test. -/
def getData {α : Type*} (r : DataReaders α) (base name : List Char) :
    Except PyErr (List (List α) × List α) :=
  let path := join base name
  if ['.', 'm', 'a', 't'] <:+: name then (r.loadmat path).bind getDataMat
  else (r.loadtxt path).bind getDataTxt

/-- `Data._get_data_files`, l.16-45. -/
def dataFiles : List (List Char) :=
  ["arrhythmia.mat", "cardio.mat", "glass.mat", "ionosphere.mat", "letter.mat", "lympho.mat",
    "mnist.mat", "musk.mat", "optdigits.mat", "pendigits.mat", "pima.mat", "satellite.mat",
    "satimage-2.mat", "shuttle.mat", "vertebral.mat", "vowels.mat", "wbc.mat",
    "gisette_sampled.txt", "isolet_sampled.txt", "madelon_sampled.txt",
    "pima-indians_sampled.txt", "magic-telescope_sampled.txt"].map String.toList

end Data

end Pysad
