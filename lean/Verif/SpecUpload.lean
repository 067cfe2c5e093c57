import Verif.Model.Upload
import Verif.SpecLists
/-
What uploading is measured by: the keys, and what is to be there.
-/
namespace AdBlock.Spec
open AdBlock

/-- where the data file is downloaded from -/
def productionKey (name : Bytes) : Bytes := bs%"4/" ++ name

/-- where a copy is kept -/
def backupKey (date name : Bytes) : Bytes := bs%"backups/" ++ date ++ bs%"/" ++ name

/-- where it is put for a test -/
def testKey (name : Bytes) : Bytes := bs%"test/4/" ++ name

/-- the file with this name in `out` -/
def outFile (name : Bytes) : Bytes := bs%"out/" ++ name

/-- The path is that of a file with this name. -/
def NamedBy (path name : Bytes) : Prop := name ≠ [] ∧ ch%'/' ∉ name ∧ (path = name ∨ ∃ dir, path = dir ++ bs%"/" ++ name)

/-- The file is to be downloaded from the store, and there is a copy. -/
def Published (contents : Option Bytes) (date name : Bytes) (b : Bucket) : Prop :=
  ∃ c, contents = some c ∧ b (productionKey name) = some c ∧ b (backupKey date name) = some c

/-- a run for production of all files in `out` -/
def WholeRun (u : UploadRun) (names : List Bytes) : Prop := u.options.prod = true ∧ u.options.dat = none ∧ u.out = some names

/-- a run for production of one file -/
def SingleRun (u : UploadRun) (path : Bytes) : Prop := u.options.prod = true ∧ u.options.dat = some path

end AdBlock.Spec
