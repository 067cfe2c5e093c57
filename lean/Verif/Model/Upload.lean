import Verif.Model.Catalogue
/-
scripts/uploadDataFiles.js: copying data files to where they are downloaded from.

The store is a map from keys to contents (one object of the bucket `adblock-data` per key), the files on disk are a map
from paths to contents that does not change during the run.  What is not modelled: credentials, access rights (`ACL`),
retries and the splitting of large files inside `s3-client`, and what is printed.
-/
namespace AdBlock

/-- the objects in the bucket, by their keys -/
abbrev Bucket := Bytes → Option Bytes

/-- an object is replaced as a whole (`putObject`) -/
def Bucket.put (b : Bucket) (key contents : Bytes) : Bucket := fun k => if k = key then some contents else b k

/-- The options of the command line (uploadDataFiles.js:44-47).  `--dat` without a value is not modelled. -/
structure UploadOptions where
  dat : Option Bytes
  prod : Bool

/-- uploadDataFiles.js:21-33 the parameters of `uploadFile`: the local file, and the key `${key}/${filename}` -/
structure UploadJob where
  localFile : Bytes
  key : Bytes
deriving DecidableEq

/-- uploadDataFiles.js:21-28 -/
def uploadJob (key filePath filename : Bytes) : UploadJob := ⟨filePath, key ++ bs%"/" ++ filename⟩

/-- `path.basename` of Node (POSIX): what is behind the last slash, if slashes at the end are left out -/
def pathBasename (path : Bytes) : Bytes :=
  ((path.reverse.dropWhile (· == ch%'/')).takeWhile (· != ch%'/')).reverse

/-- uploadDataFiles.js:9 `dataFileVersion`, in a template -/
def uploadVersion : Bytes := bs%"4"

/-- uploadDataFiles.js:61-70 the jobs for a file in `out` -/
def outJobs (prod : Bool) (date filename : Bytes) : List UploadJob :=
  if prod then
    [ uploadJob uploadVersion (bs%"out/" ++ filename) filename,
      uploadJob (bs%"backups/" ++ date) (bs%"out/" ++ filename) filename ]
  else
    [ uploadJob (bs%"test/" ++ uploadVersion) (bs%"out/" ++ filename) filename ]

/-- uploadDataFiles.js:53-59 the jobs for a file named on the command line -/
def datJobs (prod : Bool) (date dat : Bytes) : List UploadJob :=
  if prod then
    [ uploadJob uploadVersion dat (pathBasename dat),
      uploadJob (bs%"backups/" ++ date) dat (pathBasename dat) ]
  else
    [ uploadJob bs%"test" dat (pathBasename dat) ]

/-- uploadDataFiles.js:53-71 all jobs, in the order in which they are done.  An empty string is the same as no `--dat`.
`out` are the names `readdirSync` gives, in this order; `none` if there is no such directory, which ends the run. -/
def uploadJobs (options : UploadOptions) (date : Bytes) (out : Option (List Bytes)) : Option (List UploadJob) :=
  match options.dat with
  | some (c :: dat) => some (datJobs options.prod date (c :: dat))
  | _ => out.map fun names => names.flatMap (outJobs options.prod date)

/-- What becomes of one upload: it ends, or there is an error.  An error may be reported although the object was stored. -/
inductive UploadEvent where
  | ended
  | error (stored : Bool)
deriving DecidableEq

/-- How a run ends: all was done; exit code 1; or the process was stopped from outside. -/
inductive UploadEnd where
  | finished
  | failed
  | stopped
deriving DecidableEq

/-- uploadDataFiles.js:50-75: one upload at a time, up to the first error.  The run is stopped from outside where there
are no more events.  A file that cannot be read is an error, and nothing is stored. -/
def runUploads (disk : Bytes → Option Bytes) : List UploadJob → List UploadEvent → Bucket → Bucket × UploadEnd
  | [], _, b => (b, .finished)
  | _ :: _, [], b => (b, .stopped)
  | job :: jobs, event :: events, b =>
    match disk job.localFile, event with
    | none, _ => (b, .failed)
    | some contents, .ended => runUploads disk jobs events (b.put job.key contents)
    | some contents, .error true => (b.put job.key contents, .failed)
    | some _, .error false => (b, .failed)

/-- What a run of the script depends on: the options, the time (`toISOString` up to the dot), the names in `out`, the
files on disk, and what becomes of each upload. -/
structure UploadRun where
  options : UploadOptions
  date : Bytes
  out : Option (List Bytes)
  disk : Bytes → Option Bytes
  events : List UploadEvent

/-- uploadDataFiles.js, a whole run -/
def UploadRun.run (u : UploadRun) (b : Bucket) : Bucket × UploadEnd :=
  match uploadJobs u.options u.date u.out with
  | none => (b, .failed)
  | some jobs => runUploads u.disk jobs u.events b

/-- one run after the other -/
def uploadHistory (us : List UploadRun) (b : Bucket) : Bucket := us.foldl (fun b u => (u.run b).1) b

/-- generateDataFiles.js:29-33: the files of a run are written to `out`, over those which were there before -/
def writeOut (files : List (Bytes × DataFile)) (disk : Bytes → Option Bytes) : Bytes → Option Bytes :=
  files.foldl (fun d f p => if p = bs%"out/" ++ f.1 then some f.2.data else d p) disk

end AdBlock
