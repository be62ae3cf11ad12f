import Verif.Model.Dmsp
import Verif.Model.Pysat
import Verif.Model.Supermag

/-!
# Model of the download of the DMSP SSJ boundary files

`fetch_ssj_boundary_files`, `fetch_format_ssj_boundary_files` and the names of the files that
`format_ssj_boundary_files` writes (`ocbpy/boundaries/dmsp_ssj_files.py` 44-172, 279-334, 434-489).  The state is the
set of files and directories and the two output streams; `zenodo_get` and the contents of archives are parameters.
Paths are lists of characters with `/` as separator.
-/

set_option autoImplicit false

namespace Ocb.Fetch

open Ocb.Files Ocb.Dmsp

/-! ## Paths -/

/-- The characters after the last slash and what is before them -/
def splitLast (p : Name) : Name × Name :=
  ((p.reverse.dropWhile (fun c => c != '/')).reverse, (p.reverse.takeWhile (fun c => c != '/')).reverse)

/-- `head.rstrip('/')` unless `head` has only slashes -/
def strip (h : Name) : Name :=
  if h.all (fun c => c == '/') then h else (h.reverse.dropWhile (fun c => c == '/')).reverse

/-- `os.path.split(p)` -/
def splitPath (p : Name) : Name × Name := (strip (splitLast p).1, (splitLast p).2)

/-- `os.path.join(dir, n)` -/
def join (dir n : Name) : Name :=
  if n.head? = some '/' then n
  else if dir = [] ∨ dir.getLast? = some '/' then dir ++ n
  else dir ++ '/' :: n

/-! ## The state -/

/-- Where a stream of the process goes: to the stream of the interpreter (`sys.__stdout__`), to the `StringIO` of a call,
or to a stream set by the user. -/
inductive Stream where
  | console
  | buffer
  | other (n : ℕ)
  deriving DecidableEq

/-- The state: the regular files, the directories, `sys.stdout` and `sys.stderr`. -/
structure Sys where
  files : List Name
  dirs : List Name
  out : Stream
  err : Stream

/-- The end of a call: a value, an exception, or none at all. -/
inductive Run (α : Type) where
  | done (a : α)
  | raised (e : PyErr)
  | forever

/-- What the calls use of their surroundings: the conversions, the boundary directory
(`ocbpy.boundaries.files.get_boundary_directory`, `files.py` 29-36), the effect and the output of
`zenodo_get.zenodo_get([doi, '-o', out_dir])` for the files that are there, and `ZipFile(path).namelist()`. -/
structure World where
  env : Env
  home : Except PyErr Name
  zen : List Name → Name → Name → List Name × Except PyErr Name
  archive : Name → Except PyErr (List Name)

/-- The arguments (`dmsp_ssj_files.py` 44-46). -/
structure Args where
  stime : Option ℤ
  etime : Option ℤ
  dir : Option Name
  sats : Option (List ℤ)
  doi : Name
  rmTemp : Bool

/-- `os.remove(p)` -/
def remove (p : Name) (s : Sys) : Sys × Except PyErr Unit :=
  if p ∈ s.files then ({ s with files := s.files.filter (· ≠ p) }, .ok ()) else (s, .error .ioError)

/-! ## The name of the archive -/

/-- The test of the loop: `zip_name[-1].find(".zip") > 0` (`dmsp_ssj_files.py` 141) -/
def isZip (n : Name) : Bool := decide (0 < Pysat.find n ".zip".toList)

/-- The loop that looks for the archive in a link (`dmsp_ssj_files.py` 140-142), started with the pair that
`os.path.split` gives; `none` if it never ends, which is the case when the path to be split does not become shorter. -/
def zipPart (p : Name × Name) : Option Name :=
  if isZip p.2 then some p.2
  else if (splitPath p.1).1.length < p.1.length then zipPart (splitPath p.1)
  else none
termination_by p.1.length

/-- `zen_split[zen_split.index('Link:') + 1]` (`dmsp_ssj_files.py` 137-140); `none` for the ValueError and the
IndexError. -/
def linkWord (ws : List Name) : Option Name :=
  if "Link:".toList ∈ ws then ws[ws.idxOf "Link:".toList + 1]? else none

/-! ## Unpacking -/

/-- `zref.extract(n, path=dir)`.  Names that end with a slash are directories.  Simplification: `dir` and the names are
normal paths (no `..`, no doubled slashes), and nothing prevents the extraction. -/
def extract (dir n : Name) (s : Sys) : Sys :=
  if n.getLast? = some '/' then { s with dirs := join dir n.dropLast :: s.dirs }
  else { s with files := join dir n :: s.files }

/-- The path that `zref.extract` returns -/
def extracted (dir n : Name) : Name := if n.getLast? = some '/' then join dir n.dropLast else join dir n

/-- `zref.extractall(dir)` (`dmsp_ssj_files.py` 158) -/
def extractAll (dir : Name) (names : List Name) (s : Sys) : Sys := names.foldl (fun s n => extract dir n s) s

/-- The loop that extracts the chosen files (`dmsp_ssj_files.py` 162-166) -/
def extractSome (test : Name → Except PyErr Bool) (dir : Name) : List Name → Sys → Sys × Except PyErr (List Name)
  | [], s => (s, .ok [])
  | n :: ns, s =>
    match test n with
    | .error e => (s, .error e)
    | .ok b =>
      match extractSome test dir ns (if b then extract dir n s else s) with
      | (s, .error e) => (s, .error e)
      | (s, .ok out) => (s, .ok (if b then extracted dir n :: out else out))

/-- The end of the call: the archive is removed, if desired (`dmsp_ssj_files.py` 168-172) -/
def finish (rmTemp : Bool) (arch : Name) (out : List Name) (s : Sys) : Sys × Run (List Name) :=
  if rmTemp then
    match remove arch s with
    | (s, .error e) => (s, .raised e)
    | (s, .ok _) => (s, .done out)
  else (s, .done out)

/-- `get_all` (`dmsp_ssj_files.py` 91-96) -/
def getAll (A : Args) : Bool := decide (A.sats = none ∧ A.stime = none ∧ A.etime = none)

/-- The archive is opened and unpacked (`dmsp_ssj_files.py` 149-172). -/
def unpack (W : World) (A : Args) (dir arch : Name) (s : Sys) : Sys × Run (List Name) :=
  if arch ∈ s.files then
    match W.archive arch with
    | .error e => (s, .raised e)
    | .ok names =>
      if getAll A then finish A.rmTemp arch (names.map (join dir)) (extractAll dir names s)
      else
        match extractSome (fun n => evaluate W.env n A.stime A.etime (A.sats.getD [16, 17, 18])) dir names s with
        | (s, .error e) => (s, .raised e)
        | (s, .ok out) => finish A.rmTemp arch out s
  else (s, .raised .ioError)

/-- The file with the checksums (`dmsp_ssj_files.py` 116) -/
def sumsFile (dir : Name) : Name := join dir "md5sums.txt".toList

/-- `zen_msg` tells of a good download (`dmsp_ssj_files.py` 125-126) -/
def goodMsg (msg : Name) : Bool :=
  contains "Checksum is correct".toList msg || contains "already downloaded correctly".toList msg

/-- What follows the download (`dmsp_ssj_files.py` 122-172) -/
def afterZen (W : World) (A : Args) (dir msg : Name) (s : Sys) : Sys × Run (List Name) :=
  if goodMsg msg then
    match remove (sumsFile dir) s with
    | (s, .error e) => (s, .raised e)
    | (s, .ok _) =>
      match linkWord (Smag.words msg) with
      | none => (s, .raised .ioError)
      | some link =>
        match zipPart (splitPath link) with
        | none => (s, .forever)
        | some z => unpack W A dir (join dir z) s
  else (s, .raised .ioError)

/-- The download, with the output captured (`dmsp_ssj_files.py` 111-172) -/
def download (W : World) (A : Args) (dir : Name) (s : Sys) : Sys × Run (List Name) :=
  match W.zen s.files A.doi dir with
  | (fs, .error e) => ({ s with files := fs, out := .buffer, err := .buffer }, .raised e)
  | (fs, .ok msg) => afterZen W A dir msg { s with files := fs, out := .console, err := .console }

/-- The test of the satellites (`dmsp_ssj_files.py` 88-100) -/
def goodSats (A : Args) : Bool := (A.sats.getD [16, 17, 18]).all (· ∈ [(16 : ℤ), 17, 18])

/-- The output directory (`dmsp_ssj_files.py` 103-104) -/
def outDir (W : World) (A : Args) : Except PyErr Name :=
  match A.dir with
  | some d => .ok d
  | none => W.home

/-- `fetch_ssj_boundary_files` (`dmsp_ssj_files.py` 44-172) -/
def fetchFiles (W : World) (A : Args) (s : Sys) : Sys × Run (List Name) :=
  if goodSats A then
    match outDir W A with
    | .error e => (s, .raised e)
    | .ok dir => if dir ∈ s.dirs then download W A dir s else (s, .raised .valueError)
  else (s, .raised .valueError)

/-! ## The names of the boundary files -/

/-- The longest common beginning of two names -/
def common : Name → Name → Name
  | a :: as, b :: bs => if a = b then a :: common as bs else []
  | _, _ => []

/-- `os.path.commonprefix(l)` -/
def commonPrefix : List Name → Name
  | [] => []
  | n :: ns => ns.foldl common n

/-- `os.path.split(n)[-1].split('dmsp-f')[-1].split('_')` (`dmsp_ssj_files.py` 310-311) -/
def sections (n : Name) : List Name := split ((splitSub "dmsp-f".toList 0 (splitPath n).2).getLastD [])

/-- The hemispheres and boundaries in the order of the dictionaries (`dmsp_ssj_files.py` 299-300) -/
def kinds : List (Name × Name) :=
  [("north".toList, ".ocb".toList), ("north".toList, ".eab".toList), ("south".toList, ".ocb".toList),
   ("south".toList, ".eab".toList)]

/-- The names of the four files that are written (`dmsp_ssj_files.py` 309-321, 427-431).  `csv` is not empty. -/
def boundNames (csv : List Name) : Except PyErr (List Name) := do
  let pre := (splitSub "-f".toList 0 (commonPrefix csv)).headD []
  let sdate ← part (sections (csv.headD [])) 3
  let sec := sections (csv.getLastD [])
  let edate ← part sec 3
  let kind ← part sec 1
  let version ← part sec 4
  return kinds.map fun k =>
    pre ++ '-' :: kind ++ '_' :: k.1 ++ '_' :: sdate ++ '_' :: edate ++ '_' :: version ++ k.2

/-- `format_ssj_boundary_files` as far as files go (`dmsp_ssj_files.py` 279-431): inputs that are no files are left out,
the four files are opened for writing, then filled; `body` is what comes of that.  Simplification: the files can be
opened. -/
def formatFiles (body : List Name → Except PyErr Unit) (csv : List Name) (s : Sys) : Sys × Except PyErr (List Name) :=
  let good := csv.filter fun n => decide (n ∈ s.files)
  if good = [] then (s, .error .valueError)
  else
    match boundNames good with
    | .error e => (s, .error e)
    | .ok names =>
      match body good with
      | .error e => ({ s with files := names ++ s.files }, .error e)
      | .ok _ => ({ s with files := names ++ s.files }, .ok names)

/-- The loop that removes the CSV files (`dmsp_ssj_files.py` 485-487) -/
def removeAll : List Name → Sys → Sys × Except PyErr Unit
  | [], s => (s, .ok ())
  | p :: ps, s =>
    match remove p s with
    | (s, .error e) => (s, .error e)
    | (s, .ok _) => removeAll ps s

/-- `fetch_format_ssj_boundary_files` after the download (`dmsp_ssj_files.py` 475-489) -/
def afterFetch (body : List Name → Except PyErr Unit) (rmTemp : Bool) (csv : List Name) (s : Sys) : Sys × Run (List Name) :=
  if csv = [] then (s, .raised .valueError)
  else
    match formatFiles body csv s with
    | (s, .error e) => (s, .raised e)
    | (s, .ok names) =>
      if rmTemp then
        match removeAll csv s with
        | (s, .error e) => (s, .raised e)
        | (s, .ok _) => (s, .done names)
      else (s, .done names)

/-- `fetch_format_ssj_boundary_files(stime, etime, out_dir, rm_temp)` (`dmsp_ssj_files.py` 434-489); `doi` is the default
of `fetch_ssj_boundary_files`. -/
def fetchFormat (W : World) (body : List Name → Except PyErr Unit) (doi : Name) (stime etime : Option ℤ)
    (dir : Option Name) (rmTemp : Bool) (s : Sys) : Sys × Run (List Name) :=
  match fetchFiles W ⟨stime, etime, dir, none, doi, rmTemp⟩ s with
  | (s, .done csv) => afterFetch body rmTemp csv s
  | (s, .raised e) => (s, .raised e)
  | (s, .forever) => (s, .forever)

end Ocb.Fetch
