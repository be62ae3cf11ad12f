import Verif.Model.Load

/-!
# The boundary longitudes stored by `get_aacgm_boundary_lat`

`Model/Load` leaves out the attribute `aacgm_boundary_lon` and the argument `set_lon`.  Here they are added.  The
conversion of local times to longitudes, `aacgmv2.convert_mlt(..., m2a=True)`, is a parameter that may raise; it is given
the position of the record because the code passes the time of the record.
-/

set_option autoImplicit false

namespace Ocb.Coord

/-- The stored attributes with `aacgm_boundary_lon`; `none` when the attribute does not exist (`_boundary.py` 790-797).
Unlike the local times, the longitudes are an array of the object's own. -/
structure LonStore where
  base : Store
  lons : Option (List (Option (List (Option ℝ))))

/-- The conversion of the local times to longitudes at the time of a record (`_boundary.py` 841-843). -/
abbrev LonConv := ℕ → List (Option ℝ) → Except PyErr (List (Option ℝ))

/-- The loop over the requested records with the longitudes (`_boundary.py` 812-847).  Latitudes and local times of the
record are stored before the longitudes are calculated.  Left out: the warning for a record that is not replaced. -/
noncomputable def lonLoop (recs : List Rec) (conv : LonConv) (ref : ℕ) (mlt : List (Option ℝ)) (overwrite setLon : Bool) :
    List ℤ → List (Option (List (Option ℝ))) → List (Option ℕ) → List (Option (List (Option ℝ))) →
    (List (Option (List (Option ℝ))) × List (Option ℕ) × List (Option (List (Option ℝ))) × Option PyErr)
  | [], lats, mlts, lons => (lats, mlts, lons, none)
  | i :: is, lats, mlts, lons =>
    match pyPos lats.length i with
    | none => (lats, mlts, lons, some .indexError)
    | some k =>
      if lats[k]? = some none ∨ overwrite = true then
        match recs[k]? with
        | none => (lats, mlts, lons, some .indexError)
        | some B =>
          match mapE (boundaryEntry B) mlt with
          | .error e => (lats, mlts, lons, some e)
          | .ok v =>
            if setLon = true then
              match conv k mlt with
              | .error e => (lats.set k (some v), mlts.set k (some ref), lons, some e)
              | .ok w => lonLoop recs conv ref mlt overwrite setLon is (lats.set k (some v)) (mlts.set k (some ref))
                  (lons.set k (some w))
            else lonLoop recs conv ref mlt overwrite setLon is (lats.set k (some v)) (mlts.set k (some ref)) lons
      else lonLoop recs conv ref mlt overwrite setLon is lats mlts lons

/-- `get_aacgm_boundary_lat(aacgm_mlt, rec_ind, overwrite, set_lon)` with the float array `ref` (`_boundary.py` 785-849).
Without `set_lon` the attribute with the longitudes is neither made nor changed. -/
noncomputable def getBoundaryLon (recs : List Rec) (conv : LonConv) (s : LonStore) (ref : ℕ) (rinds : Option (List ℤ))
    (overwrite setLon : Bool) : LonStore × Option PyErr :=
  let mlt := (s.base.heap ref).map (Option.map wrapMlt)
  let lats := s.base.lats.getD (List.replicate recs.length none)
  let mlts := s.base.mlts.getD (List.replicate recs.length none)
  let lons := s.lons.getD (List.replicate recs.length none)
  let inds := rinds.getD ((List.range recs.length).map (Int.ofNat ·))
  let r := lonLoop recs conv ref mlt overwrite setLon inds lats mlts lons
  (⟨⟨Function.update s.base.heap ref mlt, some r.1, some r.2.1⟩, if setLon = true then some r.2.2.1 else s.lons⟩, r.2.2.2)

/-- One call of a session. -/
structure LonCall where
  ref : ℕ
  rinds : Option (List ℤ)
  overwrite : Bool
  setLon : Bool

/-- A session of calls; an exception of one call does not end the session. -/
noncomputable def runLon (recs : List Rec) (conv : LonConv) (s : LonStore) (ops : List LonCall) : LonStore :=
  ops.foldl (fun s o => (getBoundaryLon recs conv s o.ref o.rinds o.overwrite o.setLon).1) s

end Ocb.Coord
