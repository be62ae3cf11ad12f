import Verif.Model.Dmsp
import Verif.Model.OutText
import Verif.Model.Supermag

/-!
# Model of the texts in the boundary files that `format_ssj_boundary_files` writes

`Dmsp.format` gives the values of the lines; here are the lines made of them.
-/

set_option autoImplicit false

namespace Ocb.DmspText

open Ocb.Files (Name)
open Ocb.Text (dec decInt roundEven civil pad2)
open Ocb.OutText (fixed)
open Ocb.Dmsp (Line)

/-- The header of the boundary files (`dmsp_ssj_files.py` 306). -/
def ssjHead : Name := "#sc date time r x y fom x_1 y_1 x_2 y_2\n".toList

/-- `mid_time` (`dmsp_ssj_files.py` 389-390): `timedelta` keeps microseconds, of two nearest ones the even one.  The seconds
of the line count from the start of the calendar. -/
noncomputable def midTime (l : Line) : ℤ := roundEven (l.time * 1000000)

/-- `t.strftime('%Y-%m-%d')`.  Library behaviour: the year has no leading zeros here. -/
def strfDate (t : ℤ) : Name :=
  let c := civil (t / 86400000000).toNat
  dec c.1 ++ '-' :: (pad2 c.2.1 ++ '-' :: pad2 c.2.2)

/-- `t.strftime('%H:%M:%S')` -/
def strfClock (t : ℤ) : Name :=
  let s := (t / 1000000 % 86400).toNat
  pad2 (s / 3600) ++ ':' :: (pad2 (s / 60 % 60) ++ ':' :: pad2 (s % 60))

/-- The numbers of a line in the order of the file (`dmsp_ssj_files.py` 414-417). -/
def ssjNums (l : Line) : List ℝ := [l.r, l.x, l.y, l.fom, l.x1, l.y1, l.x2, l.y2]

/-- A line of the file (`dmsp_ssj_files.py` 411-417). -/
noncomputable def ssjLine (l : Line) : Name :=
  List.intercalate [' '] [decInt l.sc, strfDate (midTime l) ++ ' ' :: strfClock (midTime l),
    List.intercalate [' '] ((ssjNums l).map (fixed 3)), ['\n']]

/-- The lines of the file. -/
noncomputable def ssjLines (ls : List Line) : List Name := ssjHead :: ls.map ssjLine

/-- The cells of a line as `genfromtxt` sees them: what follows a `#` is a comment, blanks divide. -/
def cells (l : Name) : List Name := Smag.words (l.takeWhile (· ≠ '#'))

end Ocb.DmspText
