import Verif.Model.Dual
import Verif.Model.BoundDouble

/-!
# The coordinates of `DualBoundary` with the rounding of double precision

One finite magnetic location, so an array of one.  The records of the two boundaries are the selected ones.
-/

set_option autoImplicit false

namespace Ocb.Dbl

open Ocb.Coord

variable (r : ℝ → ℝ) (L : Lib)

/-- The latitude between the two boundaries (`_boundary.py` 1470-1473). -/
noncomputable def midD (O E : Rec) (la o e : ℝ) : ℝ :=
  r (O.blat - r (r (r (o - la) * r (O.blat - E.blat)) / r (o - e)))

/-- The latitude equatorward of both boundaries (`_boundary.py` 1476-1478). -/
noncomputable def outD (E : Rec) (la e : ℝ) : ℝ := r (E.blat - r (r (e - la) * r (E.blat / e)))

/-- The choice of the region of one location (`_boundary.py` 1451-1478); `none` is NaN.  The locations of no region, and only
they, are overwritten with NaN. -/
noncomputable def dualEntryD (O E : Rec) (la olat : ℝ) (ob eb : Option ℝ) : Option ℝ :=
  let imid := absLt (some la) ob && absGe (some la) eb
  let iout := absLt (some la) eb
  let iocb := absGe (some olat) (some O.blat)
  match ob, eb with
  | some o, some e => if iout then some (outD r E la e) else if imid then some (midD r O E la o e)
    else if iocb then some olat else none
  | none, some e => if iout then some (outD r E la e) else if iocb then some olat else none
  | _, none => if iocb then some olat else none

/-- `DualBoundary.normal_coord` (`_boundary.py` 1425-1492) for one finite magnetic location of the right hemisphere, as a
relation: the dual latitude, NaN as `none`, the local time and the OCB latitude. -/
def DualNormalD (O E : Rec) (lat mlt : ℝ) (out : Option ℝ) (omlt olat : ℝ) : Prop :=
  ∃ ob eb, NormalD r L O lat mlt olat omlt ∧ BoundLatD r L E (wrapMltD r mlt) eb ∧ BoundLatD r L O (wrapMltD r mlt) ob ∧
    out = dualEntryD r O E lat olat ob eb

/-- The magnetic latitude between the two boundaries (`_boundary.py` 1641-1644). -/
noncomputable def revMidD (O E : Rec) (b o e : ℝ) : ℝ :=
  r (o - r (r (r (O.blat - b) * r (o - e)) / r (O.blat - E.blat)))

/-- The magnetic latitude equatorward of both boundaries (`_boundary.py` 1648-1650). -/
noncomputable def revOutD (E : Rec) (b e : ℝ) : ℝ := r (e - r (r (E.blat - b) * r (e / E.blat)))

/-- `DualBoundary.revert_coord` with `is_ocb=False` (`_boundary.py` 1586-1651) for one finite dual location, magnetic
coordinates and a given magnetic local time `amlt`, as a relation: the magnetic latitude, NaN as `none`, and local time. -/
def DualRevertD (O E : Rec) (b bmlt corr amlt : ℝ) (out : Option ℝ) (mlt : ℝ) : Prop :=
  ∃ la m, RevertD r L O b bmlt corr la m ∧
    if |O.blat| ≤ |b| then out = some la ∧ mlt = m
    else ∃ ob eb, BoundLatD r L E (wrapMltD r amlt) eb ∧ BoundLatD r L O (wrapMltD r amlt) ob ∧ mlt = wrapMltD r amlt ∧
      out = if |b| < |E.blat| then eb.map fun e => revOutD r E b e
        else ob.bind fun o => eb.map fun e => revMidD r O E b o e

end Ocb.Dbl
