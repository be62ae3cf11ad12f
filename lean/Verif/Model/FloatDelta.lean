import Verif.Model.FloatTol
import Verif.Model.Pairs

/-!
# `set_good_ind` with a largest time difference that is not an integer (`ocbpy/_boundary.py` 1211-1310)

`Pairs` models `set_good_ind` with the matching of `Cycle`, which drops the messages; here is the one with the matching of
`FloatTol`.
-/

set_option autoImplicit false

namespace Ocb.Cycle

/-- The pairing loop of `set_good_ind` (`_boundary.py` 1275-1294), see `pairLoop`; `isInt`: `max_delta` is an `int`. -/
def pairLoopT (isInt : Bool) (eab : Bnd) (mn mx : Option (Fl ℚ)) (kw : List Criterion) (dat : List ℤ) (tol : ℤ) (iocb : ℕ)
    (rec : ℤ) : Except PyErr (List (ℕ × ℤ)) :=
  if hrec : rec < eab.records then
    match hm : matchDataT isInt (eab.cycler mn mx kw) rec dat iocb tol with
    | .error e => .error e
    | .ok (none, r') =>
      if r' < eab.records then
        match getNext eab mn mx kw r' with
        | .error e => .error e
        | .ok _ => .ok []
      else .ok []
    | .ok (some i, r') =>
      if h : i < dat.length ∧ r' < eab.records then
        match hn : getNext eab mn mx kw r' with
        | .error e => .error e
        | .ok r'' =>
          match pairLoopT isInt eab mn mx kw dat tol i r'' with
          | .error e => .error e
          | .ok l => .ok ((i, r') :: l)
      else if r' < eab.records then
        match getNext eab mn mx kw r' with
        | .error e => .error e
        | .ok _ => .ok []
      else .ok []
  else .ok []
termination_by (eab.records - rec).toNat
decreasing_by
  have h1 := matchData_rec_ge (bnd_next_gt eab mn mx kw) _ _ _ _ _ _ (matchDataT_sub hm)
  have h2 := bnd_next_gt eab mn mx kw _ _ hn
  omega

/-- `set_good_ind` for two loaded boundaries (`_boundary.py` 1211-1310), see `setGoodInd`; `maxDelta` is a whole number of
microseconds, given as an `int` or a `float` number of seconds; the
constructor only checks that it is positive (`_boundary.py` 1094). -/
def setGoodIndT (isInt : Bool) (ocb eab : Bnd) (so se : Sel) (maxDelta : ℤ) : Except PyErr Pairs :=
  match retrieveAll ocb so.min so.max so.kw 0 with
  | .error e => .error e
  | .ok (good, _) =>
    match mapE (pyIdx ocb.dtime) good with
    | .error e => .error e
    | .ok times =>
      match pairLoopT isInt eab se.min se.max se.kw times maxDelta 0 (-1) with
      | .error e => .error e
      | .ok l =>
        match mapE (fun p => pyIdx good (p.1 : ℤ)) l, mapE (fun p => pyIdx times (p.1 : ℤ)) l with
        | .ok oi, .ok ts => .ok { dtime := ts, ocbInd := oi, eabInd := l.map (·.2) }
        | .error e, _ => .error e
        | .ok _, .error e => .error e

end Ocb.Cycle
