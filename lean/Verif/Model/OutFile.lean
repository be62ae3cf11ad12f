import Verif.Model.SmagOut
import Verif.Model.VortOut
import Verif.Model.Ascii

/-!
# Model of the files that the drivers `vort2ascii_ocb` and `supermag2ascii_ocb` read and write

`VortOut` and `SmagOut` give the rows of a call that returns.  Here are the tests of the names at the start, the loops
that write one row after the other, and what is left in the output file when a call raises.
-/

set_option autoImplicit false

namespace Ocb.OutFile

open Ocb.Files (Name)
open Ocb.Cycle (Cycler matchData matchData_ge)
set_option linter.unusedVariables false

open Ocb.Smag (sameTime lastSame le_lastSame sameTime_self)

/-- A file name given by the caller: a text, or a path object (`pathlib`), which cannot be put into `{:s}` nor joined to texts. -/
inductive FName where
  | text (n : Name)
  | path (n : Name)

/-- The name as the system sees it. -/
def FName.name : FName → Name
  | .text n => n
  | .path n => n

/-- Whether the name can be put into a message. -/
def FName.isText : FName → Bool
  | .text _ => true
  | .path _ => false

/-- What the functions see of the disk: which names are files, their size in bytes and their lines. -/
structure Disk where
  isFile : Name → Bool
  size : Name → ℕ
  lines : Name → List Name

/-- `test_file(filename)` (`general.py` 18-51).  Messages to the log are dropped; making one can raise. -/
def testFile (D : Disk) (f : FName) : Except PyErr Bool :=
  if ¬ D.isFile f.name then .ok false
  else if D.size f.name > 2000000000 then .ok false
  else if D.size f.name = 0 then if f.isText then .ok false else .error .typeError
  else .ok true

/-- `load_supermag_ascii_data(filename)` (`supermag.py` 207-308), from the name on. -/
noncomputable def loadSmag (float : Vort.Conv) (D : Disk) (f : FName) : Except PyErr (List Name × Option Smag.Table) := do
  if ← testFile D f then Smag.load float (D.lines f.name) else .ok ([], none)

/-- `load_vorticity_ascii_data(vortfile, save_all)` (`vort.py` 216-363), from the name on; `cut` splits lines into words. -/
noncomputable def loadVort (float : Vort.Conv) (cut : Name → Vort.Line) (saveAll : Bool) (D : Disk) (f : FName) :
    Except PyErr (Option Vort.Table) := do
  if ← testFile D f then Vort.load float saveAll ((D.lines f.name).map cut) else .ok none

/-- What is in the output file: what was there before (or still no file), or the header line and these rows. -/
inductive Left (R : Type) where
  | kept
  | table (rows : List R)

/-- `for x in l: fout.write(f(x))`: what is written, and the exception that ends it. -/
def stream {α β : Type} (f : α → Except PyErr β) : List α → List β × Option PyErr
  | [] => ([], none)
  | a :: l =>
    match f a with
    | .error e => ([], some e)
    | .ok b => (b :: (stream f l).1, (stream f l).2)

/-- The result of a call that has opened the output file: the exception of the loop, if any, and the rows written. -/
def close {R : Type} (r : List R × Option PyErr) : Except PyErr Unit × Left R :=
  (match r.2 with | none => .ok () | some e => .error e, .table r.1)

/-- A call that ends before the output file is opened. -/
def stop {R : Type} (e : PyErr) : Except PyErr Unit × Left R := (.error e, .kept)

/-! ## `vort2ascii_ocb` -/

/-- The loop of `vort2ascii_ocb` (`vort.py` 174-213). -/
def vortLoop (c : Cycler) (dat : List ℤ) (tol : ℤ) {R : Type} (row : ℕ → ℤ → Except PyErr R) (idat : ℕ) (rec : ℤ) :
    List R × Option PyErr :=
  if idat < dat.length ∧ rec < c.records then
    match h : matchData c rec dat idat tol with
    | .error e => ([], some e)
    | .ok (none, _) => ([], some .typeError)
    | .ok (some i, r') =>
      if i < dat.length ∧ r' < c.records then
        match row i r' with
        | .error e => ([], some e)
        | .ok x =>
          let l := vortLoop c dat tol row (i + 1) r'
          (x :: l.1, l.2)
      else ([], none)
  else ([], none)
termination_by dat.length - idat
decreasing_by
  have := matchData_ge _ _ _ _ _ _ _ h
  omega

/-- `vort2ascii_ocb` with the table and the boundary at hand (`vort.py` 132-213); `writable` says whether the output file can
be opened. -/
noncomputable def vortWrite (writable text : Bool) (b : VortOut.Bound) (hem : ℤ) (tol : ℤ) (scale : VortOut.Scale)
    (saveAll : Bool) (t : Vort.Table) : Except PyErr Unit × Left VortOut.Row :=
  if b.cyc.records = 0 then (.ok (), .kept)
  else
    let good := VortOut.igood (t.col "CENTRE_MLAT") hem
    if good.length ≠ (t.col "CENTRE_MLAT").length ∧ good.length = 0 then (if text then .ok () else .error .typeError, .kept)
    else
      let t' := if good.length ≠ (t.col "CENTRE_MLAT").length then VortOut.pickTable good t else t
      if ¬ writable then stop .ioError
      else close (vortLoop b.cyc t'.dtime tol (VortOut.row b scale saveAll t') 0 b.cursor)

/-- `vort2ascii_ocb` (`vort.py` 30-213).  `out` is the output name, `none` if it is no text; `writable` says whether the
file can be opened. -/
noncomputable def vortFile (float : Vort.Conv) (cut : Name → Vort.Line) (D : Disk) (f : FName) (out : Option Name)
    (writable : Name → Bool) (given : Option VortOut.Bound) (make : ℤ → ℤ → ℤ → Except PyErr VortOut.Bound) (hem tol : ℤ)
    (saveAll : Bool) (scale : VortOut.Scale) : Except PyErr Unit × Left VortOut.Row :=
  match testFile D f with
  | .error e => stop e
  | .ok false => stop (if f.isText then .ioError else .typeError)
  | .ok true =>
    match out with
    | none => stop .ioError
    | some o =>
      match loadVort float cut saveAll D f with
      | .error e => stop e
      | .ok none => stop (if f.isText then .valueError else .typeError)
      | .ok (some t) =>
        match VortOut.setup given make hem tol t with
        | .error e => stop e
        | .ok (b, h) => vortWrite (writable o) f.isText b h tol scale saveAll t

/-! ## `supermag2ascii_ocb` -/

/-- The rows of one time (`supermag.py` 158-199): those written, and the exception that ends it. -/
noncomputable def smagGroup (b : SmagOut.Bound) (scale : Option (Scale.F → Scale.F → Scale.F → Scale.F)) (m : SmagOut.Mag)
    (idx : List ℕ) (k : ℤ) : List SmagOut.Row × Option PyErr :=
  match Scale.construct id (SmagOut.vectArgs m scale idx k) with
  | .error e => ([], some e)
  | .ok v =>
    match Scale.setOcb (fun v _ _ => .ok v) { b.bnd with recInd := k } none v with
    | .error e => ([], some e)
    | .ok (w, _) => stream (SmagOut.row m w idx.length) ((List.range idx.length).zip idx)

/-- The loop of `supermag2ascii_ocb` (`supermag.py` 151-202). -/
def smagLoop (c : Cycler) (dat : List ℤ) (tol : ℤ) {R : Type} (group : List ℕ → ℤ → List R × Option PyErr) (idat : ℕ)
    (rec : ℤ) : List R × Option PyErr :=
  if idat < dat.length ∧ rec < c.records then
    match h : matchData c rec dat idat tol with
    | .error e => ([], some e)
    | .ok (none, _) => ([], some .typeError)
    | .ok (some i, r') =>
      if hi : i < dat.length ∧ r' < c.records then
        match group (sameTime dat i) r' with
        | (rows, some e) => (rows, some e)
        | (rows, none) =>
          let l := smagLoop c dat tol group (lastSame dat i + 1) r'
          (rows ++ l.1, l.2)
      else ([], none)
  else ([], none)
termination_by dat.length - idat
decreasing_by
  have h1 := matchData_ge _ _ _ _ _ _ _ h
  have h2 := le_lastSame (sameTime_self hi.1)
  omega

/-- `supermag2ascii_ocb` with the table and the boundary at hand (`supermag.py` 119-204). -/
noncomputable def smagWrite (writable : Bool) (b : SmagOut.Bound) (hem tol : ℤ)
    (scale : Option (Scale.F → Scale.F → Scale.F → Scale.F)) (m : SmagOut.Mag) : Except PyErr Unit × Left SmagOut.Row :=
  if b.cyc.records = 0 then (.ok (), .kept)
  else
    let good := SmagOut.igood m hem
    let m' := if good.length ≠ m.mlt.length then SmagOut.pickMag good m else m
    if ¬ writable then stop .ioError
    else close (smagLoop b.cyc m'.time tol (smagGroup b scale m') 0 b.cursor)

/-- `supermag2ascii_ocb` (`supermag.py` 24-204).  Without a data section the table is the empty dictionary, see
`SmagOut.smag2ascii`. -/
noncomputable def smagFile (float : Vort.Conv) (D : Disk) (f : FName) (out : Option Name) (writable : Name → Bool)
    (given : Option SmagOut.Bound) (make : ℤ → ℤ → ℤ → Except PyErr SmagOut.Bound) (hem tol : ℤ)
    (scale : Option (Scale.F → Scale.F → Scale.F → Scale.F)) : Except PyErr Unit × Left SmagOut.Row :=
  match testFile D f with
  | .error e => stop e
  | .ok false => stop (if f.isText then .ioError else .typeError)
  | .ok true =>
    match out with
    | none => stop .ioError
    | some o =>
      match loadSmag float D f with
      | .error e => stop e
      | .ok (_, none) =>
        match given with
        | none => stop .keyError
        | some b => if b.cyc.records = 0 then (.ok (), .kept) else stop .keyError
      | .ok (_, some t) =>
        match SmagOut.setup given make hem tol (SmagOut.ofTable t) with
        | .error e => stop e
        | .ok (b, h) => smagWrite (writable o) b h tol scale (SmagOut.ofTable t)

end Ocb.OutFile
