import Verif.Model.OutText

/-!
# Model of the lines that `vort2ascii_ocb` writes with `save_all`

The texts of the numbers in the added columns are those of `"{:}".format`: whole numbers in decimal, floats as the function
`show` writes them, which is a parameter.
-/

set_option autoImplicit false

namespace Ocb.SaveAll

open Ocb.Files (Name)
open Ocb.Vort (F numKeys)
open Ocb.Text (decInt)
open Ocb.VortOut (Row Saved)
open Ocb.OutText (vortHead vortLine)

/-- `vkeys` (`vort.py` 166): the keys of the table in the order in which `load_vorticity_ascii_data` makes them
(`vort.py` 245-254), without the times. -/
def savedNames : List String := ["YEAR", "MONTH", "DAY", "UTH"] ++ numKeys true

/-- `"{:}".format(x)` of a float of numpy. -/
def showF (shw : ℝ → Name) : F → Name
  | none => "nan".toList
  | some x => shw x

/-- The texts that `save_all` adds to a line (`vort.py` 203-205). -/
def savedTexts (shw : ℝ → Name) (s : Saved) : List Name :=
  [decInt s.year, decInt s.month, decInt s.day, showF shw s.uth] ++ (numKeys true).map fun k => showF shw (s.col k)

/-- The output file of `vort2ascii_ocb` with `save_all` (`vort.py` 162-210). -/
noncomputable def allLines (shw : ℝ → Name) (rows : List Row) : List Name :=
  vortHead (some (savedNames.map String.toList)) ::
    rows.map fun r => vortLine ((r.saved.map (savedTexts shw)).getD []) r

end Ocb.SaveAll
