import Verif.Model.SetDual

/-!
# `supermag2ascii_ocb` with a `DualBoundary` (`ocbpy/instruments/supermag.py` 119-204)

The driver of `SmagOut` with the boundary object of `SetDual`.
-/

set_option autoImplicit false

namespace Ocb.SmagOut

open Ocb.Coord (DualObj DStore)
open Ocb.Cycle (Cycler)
open Ocb.Time (Tod)

/-- A `DualBoundary` as the driver uses it: it steps through the pairs with `cyc` (`supermag.py` 142-157), for each group of
stations sets the cursor, and makes one `VectorData` with the number of the pair (`supermag.py` 162-175).  Simplification: the
stored boundary locations are `s` at each of the calls; they have no influence on the result (C36). -/
noncomputable def double (D : DualObj) (s : DStore) (fresh : ℕ) (hem : ℤ) (times : List Tod) (cyc : Cycler) (cursor : ℤ) : Bound where
  cyc := cyc
  cursor := cursor
  bnd := Scale.dualBnd D s fresh hem times

end Ocb.SmagOut
