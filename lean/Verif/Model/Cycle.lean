import Mathlib.Data.Rat.Defs
import Mathlib.Algebra.Order.Ring.Unbundled.Rat
import Verif.Model.Basic

/-!
# Model of record selection and time matching

`OCBoundary.get_next_good_ocb_ind` (`_boundary.py`), `retrieve_all_good_indices` and `match_data_ocb`
(`cycle_boundary.py`).  Only comparisons are made here, so floats are exact: rationals, NaN and the infinities.
Times are integers (microseconds).
-/

set_option linter.unusedVariables false

set_option autoImplicit false

namespace Ocb.Cycle

/-- One keyword criterion `key=(op, bound)`. -/
structure Criterion where
  key : String
  op : String
  bound : Fl ℚ
  deriving DecidableEq, Repr

/-- The per-record data of an `OCBoundary` used for selection (`_boundary.py` 83-122, 328-451).
Simplification: `attrs` holds the per-record array attributes; attributes that are not arrays are left out. -/
structure Bnd where
  dtime : List ℤ
  fom : List (Fl ℚ)
  attrs : List (String × List (Fl ℚ))
  minFom : Fl ℚ
  maxFom : Fl ℚ

/-- `self.records`, set by `load` to the number of rows kept (`_boundary.py` 421). -/
def Bnd.records (b : Bnd) : ℤ := b.dtime.length

/-- `getattr(self, key)`; `none` when `hasattr` is false. -/
def Bnd.attr (b : Bnd) (key : String) : Option (List (Fl ℚ)) := b.attrs.lookup key

/-- The five rejection tests on one value (`_boundary.py` 508-522).  An unknown operator rejects nothing. -/
def rejects (op : String) (v bound : Fl ℚ) : Bool :=
  if op == "min" && Fl.le v bound then true
  else if op == "mineq" && Fl.lt v bound then true
  else if op == "equal" && !(Fl.eq v bound) then true
  else if op == "maxeq" && Fl.lt bound v then true
  else if op == "max" && Fl.le bound v then true
  else false

/-- `for ckey in kwargs.keys()` with its `break` (`_boundary.py` 506-522): `ok true` when no criterion rejects
the record.  The criteria with unknown attributes have been deleted before. -/
def critLoop (b : Bnd) (rec : ℤ) : List Criterion → Except PyErr Bool
  | [] => .ok true
  | c :: cs =>
    match b.attr c.key with
    | none => .error .attributeError
    | some vals =>
      match pyIdx vals rec with
      | .error e => .error e
      | .ok v => if rejects c.op v c.bound then .ok false else critLoop b rec cs

/-- The criteria left after the unknown attributes are deleted (`_boundary.py` 482-489). -/
def knownKw (b : Bnd) (kw : List Criterion) : List Criterion := kw.filter fun c => (b.attr c.key).isSome

/-- The whole quality test of one record (`_boundary.py` 504-529). -/
def recordGood (b : Bnd) (mn mx : Fl ℚ) (kw : List Criterion) (rec : ℤ) : Except PyErr Bool :=
  match critLoop b rec kw with
  | .error e => .error e
  | .ok false => .ok false
  | .ok true =>
    match pyIdx b.fom rec with
    | .error e => .error e
    | .ok v => .ok (Fl.le mn v && Fl.le v mx)

/-- The `while self.rec_ind < self.records` loop (`_boundary.py` 501-532); the result is the new `rec_ind`. -/
def scan (b : Bnd) (mn mx : Fl ℚ) (kw : List Criterion) (rec : ℤ) : Except PyErr ℤ :=
  if rec < b.records then
    match recordGood b mn mx kw rec with
    | .error e => .error e
    | .ok true => .ok rec
    | .ok false => scan b mn mx kw (rec + 1)
  else .ok rec
termination_by (b.records - rec).toNat
decreasing_by omega

/-- `get_next_good_ocb_ind` (`_boundary.py` 453-534): the new `rec_ind` for the old one. -/
def getNext (b : Bnd) (minMerit maxMerit : Option (Fl ℚ)) (kw : List Criterion) (rec : ℤ) : Except PyErr ℤ :=
  scan b (minMerit.getD b.minFom) (maxMerit.getD b.maxFom) (knownKw b kw) (rec + 1)

/-! ### what cycles through records -/

/-- A boundary as seen by `match_data_ocb`: record times and the cycling method, which maps the old `rec_ind` to
the new one.  `next_gt` is the progress that the loops rely on; both kinds of boundary prove it. -/
structure Cycler where
  times : List ℤ
  next : ℤ → Except PyErr ℤ
  next_gt : ∀ r r' : ℤ, times ≠ [] → r < times.length → next r = .ok r' → r < r'

/-- `ocb.records`. -/
def Cycler.records (c : Cycler) : ℤ := c.times.length

theorem scan_ge (b : Bnd) (mn mx : Fl ℚ) (kw : List Criterion) (rec r' : ℤ) (h : scan b mn mx kw rec = .ok r') :
    rec ≤ r' := by
  fun_induction scan b mn mx kw rec with
  | case1 rec hlt e hg => simp at h
  | case2 rec hlt hg => simp at h; omega
  | case3 rec hlt hg ih => have := ih h; omega
  | case4 rec hlt => simp at h; omega

/-- An `OCBoundary` with its selection arguments (`cycle_boundary.py` 121-126). -/
def Bnd.cycler (b : Bnd) (minMerit maxMerit : Option (Fl ℚ)) (kw : List Criterion) : Cycler where
  times := b.dtime
  next := getNext b minMerit maxMerit kw
  next_gt := by
    intro r r' _ _ h
    have := scan_ge _ _ _ _ _ _ h
    omega

/-- `DualBoundary.get_next_good_ind` (`_boundary.py` 1312-1319): step by one, never past the end. -/
def dualNext (records rec : ℤ) : ℤ := if 0 < records ∧ rec < records then rec + 1 else rec

/-- A `DualBoundary` whose pairs are already selected (`cycle_boundary.py` 127-129). -/
def dualCycler (times : List ℤ) : Cycler where
  times := times
  next := fun r => .ok (dualNext times.length r)
  next_gt := by
    intro r r' hne hlt h
    have hpos : 0 < (times.length : ℤ) := by
      have := List.length_pos_iff.2 hne
      omega
    rw [dualNext, if_pos ⟨hpos, hlt⟩, Except.ok.injEq] at h
    omega

/-! ### `retrieve_all_good_indices` -/

/-- The `while ocb.rec_ind < ocb.records` loop (`cycle_boundary.py` 54-59), returning the collected list. -/
def goodLoop (b : Bnd) (minMerit maxMerit : Option (Fl ℚ)) (kw : List Criterion) (rec : ℤ) :
    Except PyErr (List ℤ) :=
  if rec < b.records then
    match h : getNext b minMerit maxMerit kw rec with
    | .error e => .error e
    | .ok r' =>
      match goodLoop b minMerit maxMerit kw r' with
      | .error e => .error e
      | .ok l => .ok (if r' < b.records then r' :: l else l)
  else .ok []
termination_by (b.records - rec).toNat
decreasing_by
  have := scan_ge _ _ _ _ _ _ h
  omega

/-- `retrieve_all_good_indices` (`cycle_boundary.py` 18-65): the list and the value of `rec_ind` afterwards. -/
def retrieveAll (b : Bnd) (minMerit maxMerit : Option (Fl ℚ)) (kw : List Criterion) (rec : ℤ) :
    Except PyErr (List ℤ × ℤ) :=
  match goodLoop b minMerit maxMerit kw (-1) with
  | .error e => .error e
  | .ok l => .ok (l, rec)

/-! ### `match_data_ocb` -/

/-- `while dat_dtime[idat] < first_ocb: idat += 1` with its `return None` (`cycle_boundary.py` 159-167). -/
def skipLoop (dat : List ℤ) (first : ℤ) (idat : ℕ) : Option ℕ :=
  match hd : dat[idat]? with
  | some d => if d < first then skipLoop dat first (idat + 1) else some idat
  | none => none
termination_by dat.length - idat
decreasing_by
  have : idat < dat.length := (List.getElem?_eq_some_iff.1 hd).1
  omega

/-- The inner loop `while abs(sdiff) < abs(last_sdiff)` (`cycle_boundary.py` 198-204); the result is
`last_iocb`.  `t` is the data time, `rec`, `sdiff` the current record and its time difference. -/
def climb (c : Cycler) (t : ℤ) (lastS : ℤ) (lastI : ℤ) (rec sdiff : ℤ) : Except PyErr ℤ :=
  if sdiff.natAbs < lastS.natAbs then
    match c.next rec with
    | .error e => .error e
    | .ok r' =>
      if r' < c.records then
        match pyIdx c.times r' with
        | .error e => .error e
        | .ok tr => climb c t sdiff rec r' (tr - t)
      else climb c t sdiff rec r' sdiff
  else .ok lastI
termination_by lastS.natAbs

/-- The `else` branch of the main loop: search for the closest record (`cycle_boundary.py` 188-212). -/
def closest (c : Cycler) (t rec sdiff : ℤ) : Except PyErr ℤ :=
  match c.next rec with
  | .error e => .error e
  | .ok r' =>
    if r' < c.records then
      match pyIdx c.times r' with
      | .error e => .error e
      | .ok tr => climb c t sdiff rec r' (tr - t)
    else .ok rec

/-- The code after the loop (`cycle_boundary.py` 214-221): `None` when nothing was found for datum zero. -/
def afterLoop (idat : ℕ) (rec : ℤ) (sdiff : Option ℤ) (tol : ℤ) : Except PyErr (Option ℕ × ℤ) :=
  if idat = 0 then
    match sdiff with
    | none => .error .unboundLocal
    | some s => if (s.natAbs : ℤ) > tol then .ok (none, rec) else .ok (some idat, rec)
  else .ok (some idat, rec)

/-- The main loop (`cycle_boundary.py` 173-212).  The result is the returned index and the final `rec_ind`;
`sdiff = none` is the variable before its first assignment. -/
def mainLoop (c : Cycler) (dat : List ℤ) (tol : ℤ) (idat : ℕ) (rec : ℤ) (sdiff : Option ℤ) :
    Except PyErr (Option ℕ × ℤ) :=
  match hd : dat[idat]? with
  | none => afterLoop idat rec sdiff tol
  | some d =>
    if hr : rec < c.records then
      match ht : pyIdx c.times rec with
      | .error e => .error e
      | .ok tr =>
        let s := tr - d
        if s < -tol then
          match hn : c.next rec with
          | .error e => .error e
          | .ok r' => mainLoop c dat tol idat r' (some s)
        else if s > tol then mainLoop c dat tol (idat + 1) rec (some s)
        else
          match closest c d rec s with
          | .error e => .error e
          | .ok r' => .ok (some idat, r')
    else afterLoop idat rec sdiff tol
termination_by (dat.length - idat) + (c.records - rec).toNat
decreasing_by
  · have h0 : c.times ≠ [] := by
      intro h
      rw [h] at ht
      unfold pyIdx pyGet at ht
      split at ht
      · rename_i h'; simp at h'
      · simp at ht
    have := c.next_gt _ _ h0 hr hn
    unfold Cycler.records at *
    omega
  · have : idat < dat.length := (List.getElem?_eq_some_iff.1 hd).1
    omega

/-- `match_data_ocb` (`cycle_boundary.py` 68-221) for a boundary whose cycling method and criteria are fixed.
Result: the returned index (`none` = `None`) and `rec_ind` afterwards.
Simplifications: `idat` is a natural number, logging is dropped, `max_tol` is given in microseconds. -/
def matchData (c : Cycler) (rec : ℤ) (dat : List ℤ) (idat : ℕ) (tol : ℤ) : Except PyErr (Option ℕ × ℤ) :=
  if dat.length ≤ idat then .ok (some idat, rec)
  else if c.records ≤ rec then .ok (some idat, rec)
  else if rec < 0 then
    match c.next rec with
    | .error e => .error e
    | .ok r' =>
      if c.records ≤ r' then .ok (some idat, r')
      else
        match pyIdx c.times r' with
        | .error e => .error e
        | .ok tr =>
          match skipLoop dat (tr - tol) idat with
          | none => .ok (none, r')
          | some i =>
            if dat[i]? = some tr then .ok (some i, r') else mainLoop c dat tol i r' none
  else
    match pyIdx c.times rec with
    | .error e => .error e
    | .ok tr => if dat[idat]? = some tr then .ok (some idat, rec) else mainLoop c dat tol idat rec none

/-! ### the driver loop of the instrument modules -/

/-- Part of `match_data_ocb` that the drivers see; see `drive`. -/
theorem afterLoop_ge (idat : ℕ) (rec : ℤ) (sdiff : Option ℤ) (tol : ℤ) (i : ℕ) (r' : ℤ)
    (h : afterLoop idat rec sdiff tol = .ok (some i, r')) : i = idat ∧ r' = rec := by
  unfold afterLoop at h
  split at h
  · split at h
    · simp at h
    · split at h <;> simp_all
  · simp at h; exact ⟨h.1.symm, h.2.symm⟩

theorem mainLoop_ge (c : Cycler) (dat : List ℤ) (tol : ℤ) (idat : ℕ) (rec : ℤ) (sdiff : Option ℤ) (i : ℕ)
    (r' : ℤ) (h : mainLoop c dat tol idat rec sdiff = .ok (some i, r')) : idat ≤ i := by
  fun_induction mainLoop c dat tol idat rec sdiff with
  | case1 => exact (afterLoop_ge _ _ _ _ _ _ h).1.ge
  | case2 => simp at h
  | case3 => simp at h
  | case4 _ _ _ _ _ _ _ _ _ _ _ _ ih => exact ih h
  | case5 _ _ _ _ _ _ _ _ _ _ _ ih => have := ih h; omega
  | case6 => simp at h
  | case7 => simp at h; omega
  | case8 => exact (afterLoop_ge _ _ _ _ _ _ h).1.ge

theorem skipLoop_ge (dat : List ℤ) (first : ℤ) (idat i : ℕ) (h : skipLoop dat first idat = some i) :
    idat ≤ i := by
  fun_induction skipLoop dat first idat with
  | case1 _ _ _ _ ih => have := ih h; omega
  | case2 => simp at h; omega
  | case3 => simp at h

theorem matchData_ge (c : Cycler) (rec : ℤ) (dat : List ℤ) (idat : ℕ) (tol : ℤ) (i : ℕ) (r' : ℤ)
    (h : matchData c rec dat idat tol = .ok (some i, r')) : idat ≤ i := by
  unfold matchData at h
  split at h
  · simp at h; omega
  split at h
  · simp at h; omega
  split at h
  · split at h
    · simp at h
    · split at h
      · simp at h; omega
      · split at h
        · simp at h
        · split at h
          · simp at h
          · have h1 := skipLoop_ge _ _ _ _ ‹_›
            split at h
            · simp at h; omega
            · have := mainLoop_ge _ _ _ _ _ _ _ _ h; omega
  · split at h
    · simp at h
    · split at h
      · simp at h; omega
      · exact mainLoop_ge _ _ _ _ _ _ _ _ h

/-- The loop of `vort2ascii_ocb` (`instruments/vort.py` 160-205) and, with one datum per time, of
`add_ocb_to_data` (`pysat_instruments.py` 380-470): match, process the datum, go to the next one.
The result is the list of processed (data index, record index) pairs.  When the matcher returns `None`, the test
`None < int` raises `TypeError`. -/
def drive (c : Cycler) (dat : List ℤ) (tol : ℤ) (idat : ℕ) (rec : ℤ) : Except PyErr (List (ℕ × ℤ)) :=
  if idat < dat.length ∧ rec < c.records then
    match h : matchData c rec dat idat tol with
    | .error e => .error e
    | .ok (none, _) => .error .typeError
    | .ok (some i, r') =>
      if i < dat.length ∧ r' < c.records then
        match drive c dat tol (i + 1) r' with
        | .error e => .error e
        | .ok l => .ok ((i, r') :: l)
      else .ok []
  else .ok []
termination_by dat.length - idat
decreasing_by
  have := matchData_ge _ _ _ _ _ _ _ h
  omega

end Ocb.Cycle
