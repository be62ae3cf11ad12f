import Verif.Model.Cycle

/-!
# Model of the pairing, the cursor and the constructor of `DualBoundary`

`DualBoundary.__init__`, `set_good_ind`, the `rec_ind` property and `get_next_good_ind` (`_boundary.py` 1084-1319),
and the part of `OCBoundary.__init__` that fixes hemisphere and reference latitude (`_boundary.py` 157-182).
-/

set_option linter.unusedVariables false

set_option autoImplicit false

namespace Ocb

namespace Fl

/-- `-x` (`x *= -1.0`). -/
def neg : Fl ℚ → Fl ℚ
  | nan => nan
  | ninf => pinf
  | pinf => ninf
  | fin x => fin (-x)

/-- `abs(x)`. -/
def abs : Fl ℚ → Fl ℚ
  | nan => nan
  | ninf => pinf
  | pinf => pinf
  | fin x => fin |x|

/-- `np.sign(x)`. -/
def sign : Fl ℚ → Fl ℚ
  | nan => nan
  | ninf => fin (-1)
  | pinf => fin 1
  | fin x => fin (if x < 0 then -1 else if 0 < x then 1 else 0)

end Fl

namespace Cycle

/-! ### progress of the matcher, needed for the termination of the pairing loop -/

section Progress

variable {c : Cycler} (hgt : ∀ r r' : ℤ, c.next r = .ok r' → r < r')
include hgt

theorem climb_ge (t lastS lastI rec sdiff r' : ℤ) (h : climb c t lastS lastI rec sdiff = .ok r') (hle : lastI ≤ rec) :
    lastI ≤ r' := by
  fun_induction climb c t lastS lastI rec sdiff with
  | case1 => simp at h
  | case2 => simp at h
  | case3 lastS lastI rec sdiff hlt r'' hn hr tr ht ih =>
    have := ih h (hgt _ _ hn).le
    omega
  | case4 lastS lastI rec sdiff hlt r'' hn hr ih =>
    have := ih h (hgt _ _ hn).le
    omega
  | case5 => simp at h; omega

theorem closest_ge (t rec sdiff r' : ℤ) (h : closest c t rec sdiff = .ok r') : rec ≤ r' := by
  unfold closest at h
  split at h
  · simp at h
  · rename_i hn
    split at h
    · split at h
      · simp at h
      · exact climb_ge hgt _ _ _ _ _ _ h (hgt _ _ hn).le
    · simp at h; omega

theorem mainLoop_rec_ge (dat : List ℤ) (tol : ℤ) (idat : ℕ) (rec : ℤ) (sdiff : Option ℤ) (out : Option ℕ) (r' : ℤ)
    (h : mainLoop c dat tol idat rec sdiff = .ok (out, r')) : rec ≤ r' := by
  have hafter : ∀ i rec sd, afterLoop i rec sd tol = .ok (out, r') → rec ≤ r' := by
    intro i rec sd h
    unfold afterLoop at h
    split at h
    · split at h
      · simp at h
      · split at h <;> simp at h <;> omega
    · simp at h; omega
  fun_induction mainLoop c dat tol idat rec sdiff with
  | case1 => exact hafter _ _ _ h
  | case2 => simp at h
  | case3 => simp at h
  | case4 _ _ _ _ _ _ _ _ _ _ _ hn ih => have := ih h; have := hgt _ _ hn; omega
  | case5 _ _ _ _ _ _ _ _ _ _ _ ih => exact ih h
  | case6 => simp at h
  | case7 _ _ _ _ _ _ _ _ _ _ _ _ hc => simp at h; have := closest_ge hgt _ _ _ _ hc; omega
  | case8 => exact hafter _ _ _ h

theorem matchData_rec_ge (rec : ℤ) (dat : List ℤ) (idat : ℕ) (tol : ℤ) (out : Option ℕ) (r' : ℤ)
    (h : matchData c rec dat idat tol = .ok (out, r')) : rec ≤ r' := by
  unfold matchData at h
  split at h
  · simp at h; omega
  split at h
  · simp at h; omega
  split at h
  · split at h
    · simp at h
    · rename_i hn
      have := hgt _ _ hn
      split at h
      · simp at h; omega
      · split at h
        · simp at h
        · split at h
          · simp at h; omega
          · split at h
            · simp at h; omega
            · have := mainLoop_rec_ge hgt _ _ _ _ _ _ _ h; omega
  · split at h
    · simp at h
    · split at h
      · simp at h; omega
      · exact mainLoop_rec_ge hgt _ _ _ _ _ _ _ h

end Progress

theorem bnd_next_gt (b : Bnd) (mn mx : Option (Fl ℚ)) (kw : List Criterion) (r r' : ℤ)
    (h : (b.cycler mn mx kw).next r = .ok r') : r < r' := by
  have := scan_ge _ _ _ _ _ _ h
  omega

/-! ### pairing -/

/-- The pairing loop of `set_good_ind` (`_boundary.py` 1275-1294).  `dat` are the times of the good OCB records,
`iocb` the position in them, `rec` the EAB cursor.  The result lists (position in `dat`, EAB record).
When no pair is found `iocb` becomes `None` and the loop ends after one more EAB step, which has no effect. -/
def pairLoop (eab : Bnd) (mn mx : Option (Fl ℚ)) (kw : List Criterion) (dat : List ℤ) (tol : ℤ) (iocb : ℕ)
    (rec : ℤ) : Except PyErr (List (ℕ × ℤ)) :=
  if hrec : rec < eab.records then
    match hm : matchData (eab.cycler mn mx kw) rec dat iocb tol with
    | .error e => .error e
    | .ok (none, r') =>
      if r' < eab.records then
        match getNext eab mn mx kw r' with
        | .error e => .error e
        | .ok _ => .ok []
      else .ok []
    | .ok (some i, r') =>
      if h : i < dat.length ∧ r' < eab.records then
        match hn : getNext eab mn mx kw r' with
        | .error e => .error e
        | .ok r'' =>
          match pairLoop eab mn mx kw dat tol i r'' with
          | .error e => .error e
          | .ok l => .ok ((i, r') :: l)
      else if r' < eab.records then
        match getNext eab mn mx kw r' with
        | .error e => .error e
        | .ok _ => .ok []
      else .ok []
  else .ok []
termination_by (eab.records - rec).toNat
decreasing_by
  have h1 := matchData_rec_ge (bnd_next_gt eab mn mx kw) _ _ _ _ _ _ hm
  have h2 := bnd_next_gt eab mn mx kw _ _ hn
  omega

/-- The attributes that `set_good_ind` sets (`_boundary.py` 1245-1305). -/
structure Pairs where
  dtime : List ℤ
  ocbInd : List ℤ
  eabInd : List ℤ
  deriving DecidableEq

/-- Selection arguments for one of the two boundaries. -/
structure Sel where
  min : Option (Fl ℚ)
  max : Option (Fl ℚ)
  kw : List Criterion

/-- `self.records` after `set_good_ind` (`_boundary.py` 1305). -/
def Pairs.records (p : Pairs) : ℤ := p.dtime.length

/-- `set_good_ind` for two loaded boundaries (`_boundary.py` 1211-1310).  The time tolerance is in microseconds. -/
def setGoodInd (ocb eab : Bnd) (so se : Sel) (maxDelta : ℤ) : Except PyErr Pairs :=
  match retrieveAll ocb so.min so.max so.kw 0 with
  | .error e => .error e
  | .ok (good, _) =>
    match mapE (pyIdx ocb.dtime) good with
    | .error e => .error e
    | .ok times =>
      match pairLoop eab se.min se.max se.kw times maxDelta 0 (-1) with
      | .error e => .error e
      | .ok l =>
        match mapE (fun p => pyIdx good (p.1 : ℤ)) l, mapE (fun p => pyIdx times (p.1 : ℤ)) l with
        | .ok oi, .ok ts => .ok { dtime := ts, ocbInd := oi, eabInd := l.map (·.2) }
        | .error e, _ => .error e
        | .ok _, .error e => .error e

/-! ### cursor -/

/-- The three cursors of a `DualBoundary`. -/
structure Cursor where
  ind : ℤ
  ocb : ℤ
  eab : ℤ
  deriving DecidableEq

/-- The `rec_ind` setter (`_boundary.py` 1193-1209); `nOcb`, `nEab` are the numbers of records of the members. -/
def setRec (p : Pairs) (nOcb nEab : ℤ) (r : ℤ) : Except PyErr Cursor :=
  if r < 0 then .ok ⟨r, r, r⟩
  else if p.records ≤ r then .ok ⟨r, nOcb + (p.records - r), nEab + (p.records - r)⟩
  else
    match pyIdx p.ocbInd r, pyIdx p.eabInd r with
    | .ok a, .ok b => .ok ⟨r, a, b⟩
    | .error e, _ => .error e
    | _, .error e => .error e

/-- `get_next_good_ind` (`_boundary.py` 1312-1319). -/
def getNextInd (p : Pairs) (nOcb nEab : ℤ) (c : Cursor) : Except PyErr Cursor :=
  if 0 < p.records ∧ c.ind < p.records then setRec p nOcb nEab (c.ind + 1) else .ok c

/-! ### constructors -/

/-- Hemisphere and reference latitude of a boundary object. -/
structure BObj where
  hemisphere : ℤ
  lat : Fl ℚ
  deriving DecidableEq

/-- The hemisphere and latitude part of `OCBoundary.__init__` (`_boundary.py` 157-182).  `none` is
`boundary_lat=None`, for which `np.sign(None)` raises `TypeError`.  File loading is left out. -/
def mkObj (hemisphere : ℤ) (lat : Option (Fl ℚ)) : Except PyErr BObj :=
  if hemisphere = 1 ∨ hemisphere = -1 then
    match lat with
    | none => .error .typeError
    | some l =>
      if Fl.eq (Fl.sign l) (Fl.fin hemisphere) then .ok ⟨hemisphere, l⟩ else .ok ⟨hemisphere, Fl.neg l⟩
  else .error .valueError

/-- `DualBoundary.__init__` up to the pairing (`_boundary.py` 1084-1122): the two member objects.
`eab`, `ocb` are the optional ready-made objects. -/
def dualInit (eabLat ocbLat maxDelta : Fl ℚ) (hemisphere : ℤ) (eab ocb : Option BObj) : Except PyErr (BObj × BObj) :=
  if Fl.le (Fl.abs ocbLat) (Fl.abs eabLat) then .error .valueError
  else if Fl.le maxDelta (.fin 0) then .error .valueError
  else
    match (match eab with | some e => Except.ok e | none => mkObj hemisphere (some eabLat)) with
    | .error e => .error e
    | .ok e =>
      match (match ocb with | some o => Except.ok o | none => mkObj hemisphere (some ocbLat)) with
      | .error e => .error e
      | .ok o => if o.hemisphere ≠ e.hemisphere then .error .valueError else .ok (e, o)

end Cycle

end Ocb
