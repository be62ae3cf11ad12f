import Verif.Model.OutFile

/-!
# Model of the texts in the files that `vort2ascii_ocb` and `supermag2ascii_ocb` write

`VortOut` and `SmagOut` give the values of the rows; here are the lines made of them.
-/

set_option autoImplicit false

namespace Ocb.OutText

open Ocb.Files (Name)
open Ocb.Vort (F)
open Ocb.Text (dec decInt roundEven civil)

/-- Leading zeros up to a width. -/
def zfill (k : ℕ) (w : Name) : Name := List.replicate (k - w.length) '0' ++ w

/-- `"{:.kf}".format(x)` for a finite number and `k` at least 1: the multiple of the last decimal that is nearest, of two
the one with an even last digit.  Library behaviour of Python.  Simplification: the real number 0 has no sign, so the text
of a negative zero has no minus sign here; other numbers that are written as zero have one. -/
noncomputable def fixed (k : ℕ) (x : ℝ) : Name :=
  let q := (roundEven (|x| * 10 ^ k)).toNat
  (if x < 0 then ['-'] else []) ++ (dec (q / 10 ^ k) ++ '.' :: zfill k (dec (q % 10 ^ k)))

/-- `"{:.kf}".format(x)`, with NaN. -/
noncomputable def fixedF (k : ℕ) : F → Name
  | none => "nan".toList
  | some x => fixed k x

/-- The date of `str(t)` for a `datetime`. -/
def dateStr (t : ℤ) : Name :=
  let c := civil (t / 86400000000).toNat
  zfill 4 (dec c.1) ++ '-' :: (zfill 2 (dec c.2.1) ++ '-' :: zfill 2 (dec c.2.2))

/-- The time of day of `str(t)` for a `datetime`: microseconds are written if there are any. -/
def todStr (t : ℤ) : Name :=
  let s := (t / 1000000 % 86400).toNat
  let f := (t % 1000000).toNat
  zfill 2 (dec (s / 3600)) ++ ':' :: (zfill 2 (dec (s / 60 % 60)) ++ ':' :: (zfill 2 (dec (s % 60)) ++
    if f = 0 then [] else '.' :: zfill 6 (dec f)))

/-- `"{:}".format(t)` of a `datetime`. -/
def timeStr (t : ℤ) : Name := dateStr t ++ ' ' :: todStr t

/-- The header line of `vort2ascii_ocb` (`vort.py` 162-169); the names of the columns that `save_all` adds are given. -/
def vortHead (keys : Option (List Name)) : Name :=
  let l := "#DATE TIME".toList
  let l := match keys with
    | none => l
    | some ks => l ++ ' ' :: List.intercalate [' '] ks
  l ++ ' ' :: "OCB_LAT OCB_MLT NORM_VORT\n".toList

/-- A line of `vort2ascii_ocb` (`vort.py` 199-208); the texts of the columns that `save_all` adds are given. -/
noncomputable def vortLine (extra : List Name) (r : VortOut.Row) : Name :=
  timeStr r.time ++ ' ' :: (extra.flatMap fun w => w ++ [' ']) ++
    (fixedF 2 r.lat ++ ' ' :: (fixedF 6 r.mlt ++ ' ' :: (fixedF 6 r.vort ++ ['\n'])))

/-- The output file of `vort2ascii_ocb` without `save_all`. -/
noncomputable def vortLines (rows : List VortOut.Row) : List Name := vortHead none :: rows.map (vortLine [])

/-- The header line of `supermag2ascii_ocb` (`supermag.py` 137-145).  The optional columns are always in a table that was
read. -/
def smagHead : Name :=
  "#DATE TIME NST STID SML SMU SZA MLAT MLT BMAG BN BE BZ OCB_MLAT OCB_MLT OCB_BMAG OCB_BN OCB_BE OCB_BZ\n".toList

/-- A line of `supermag2ascii_ocb` (`supermag.py` 177-199). -/
noncomputable def smagLine (r : SmagOut.Row) : Name :=
  let l := timeStr r.time ++ ' ' :: (decInt r.nst ++ ' ' :: (r.id ++ [' ']))
  let l := l ++ (decInt r.sml ++ [' '])
  let l := l ++ (decInt r.smu ++ [' '])
  let l := l ++ (fixedF 2 r.sza ++ [' '])
  l ++ (fixedF 2 r.lat ++ ' ' :: (fixedF 2 r.lt ++ ' ' :: (fixedF 2 r.mag ++ ' ' :: (fixedF 2 r.n ++ ' ' :: (fixedF 2 r.e ++
    ' ' :: (fixedF 2 r.z ++ ' ' :: (fixedF 2 r.ocbLat ++ ' ' :: (fixedF 2 r.ocbMlt ++ ' ' :: (fixedF 2 r.ocbMag ++ ' ' ::
    (fixedF 2 r.ocbN ++ ' ' :: (fixedF 2 r.ocbE ++ ' ' :: (fixedF 2 r.ocbZ ++ ['\n']))))))))))))

/-- The output file of `supermag2ascii_ocb`. -/
noncomputable def smagLines (rows : List SmagOut.Row) : List Name := smagHead :: rows.map smagLine

end Ocb.OutText
