import Verif.Model.Init
import Verif.Model.Pairs

/-!
# Model of `DualBoundary.__init__`, of `__repr__` and of `__str__` of the boundaries

`_boundary.py` 1084-1148 and 1188-1319 on the objects of `Verif.Model.Init`, with the pairing of `Verif.Model.Pairs`;
`_boundary.py` 237-286 for the text of a single boundary.  Texts are modelled by what they show: names, numbers and
times; how numbers are spelled is left out.
-/

set_option autoImplicit false

namespace Ocb.Init

open Ocb.Files (Name)
open Ocb.Coord (FnArg)
open Ocb.Cycle (Bnd Pairs Sel)

/-! ## The text of a boundary -/

/-- One line of `__str__` (`_boundary.py` 242-284).  The latitude, the centre and the radius are rounded when they are
written. -/
inductive TLine where
  | noFile
  | file (n : Name)
  | instrument (n : Name)
  | lat (x : ℝ)
  | noData
  | span (records : ℕ) (first last : ℤ)
  | record (t : ℤ) (phi rc r : Option ℝ)
  | func (f kw : Name)


/-- `getattr(self, key)[i]` for a column of floats; without the column an AttributeError -/
def column (k : Name) (rows : List Row) (i : ℕ) : Except PyErr (Option ℝ) :=
  match rows[i]? with
  | none => .error .indexError
  | some r =>
    match r.lookup k with
    | some (.num x) => .ok x
    | some (.int z) => .ok (some z)
    | _ => .error .attributeError

/-- The line for a record (`_boundary.py` 266-270) -/
def recordLine (times : List ℤ) (rows : List Row) (i : ℕ) : Except PyErr TLine := do
  let t ← Ocb.pyIdx times i
  let phi ← column "phi_cent".toList rows i
  let rc ← column "r_cent".toList rows i
  let r ← column "r".toList rows i
  return .record t phi rc r

/-- The lines for the functions (`_boundary.py` 272-284).  The attributes hold one function and one dictionary per record;
a dictionary is looked up by the position of its function. -/
def funcLines {Fn Kw : Type} (mod short : Fn → Name) (text : Kw → Name) :
    FnArg Fn → FnArg Kw → Except PyErr (List TLine)
  | .dflt, _ => .ok []
  | .array fs, .array ks =>
    if fs.length ≤ ks.length then .ok ((listed mod short text (fs.zip ks)).map fun p => .func p.1 p.2)
    else .error .indexError
  | .array [], _ => .ok []
  | _, _ => .error .typeError

/-- The lines for a loaded object with records (`_boundary.py` 253-284) -/
def dataText {Fn Kw : Type} (mod short : Fn → Name) (text : Kw → Name) (o : Obj Fn Kw) : Except PyErr (List TLine) :=
  match o.dtime with
  | none => .error .typeError
  | some times => do
    let first ← Ocb.pyIdx times 0
    let last ← Ocb.pyIdx times (-1)
    let irep ← shown o.records
    let recs ← Ocb.mapE (recordLine times o.rows) irep
    let fs ← funcLines mod short text o.rfunc o.kwargs
    return .span o.records first last :: recs ++ fs

/-- `OCBoundary.__str__` (`_boundary.py` 237-286).  Simplification: the instrument is shown as it is, not in capitals. -/
def strObj {Fn Kw : Type} (mod short : Fn → Name) (text : Kw → Name) (o : Obj Fn Kw) : Except PyErr (List TLine) :=
  match o.filename with
  | none => .ok [.noFile]
  | some f =>
    match o.instrument with
    | none => .error .attributeError
    | some i =>
      if o.records = 0 then .ok [.file f, .instrument i, .lat o.lat, .noData]
      else (dataText mod short text o).map fun l => .file f :: .instrument i :: .lat o.lat :: l

/-! ## Dual boundaries -/

/-- The arguments of `DualBoundary` (`_boundary.py` 1084-1088); `eab` and `ocb` are ready-made objects.  Simplification:
the latitudes are numbers and `max_delta` is a whole number of seconds. -/
structure DualArgs (Fn Kw : Type) where
  eabFile : Arg
  ocbFile : Arg
  eabInst : Arg
  ocbInst : Arg
  hem : ℤ
  eabLat : ℝ
  ocbLat : ℝ
  stime : Option ℤ
  etime : Option ℤ
  eabRfunc : FnArg Fn
  eabKwargs : FnArg Kw
  ocbRfunc : FnArg Fn
  ocbKwargs : FnArg Kw
  eab : Option (Obj Fn Kw)
  ocb : Option (Obj Fn Kw)
  maxDelta : ℤ

/-- The object.  `pairs = none` stands for `dtime`, `ocb_ind` and `eab_ind` being None; `cursor = none` for the attribute
`_rec_ind` not being there. -/
structure DualObj (Fn Kw : Type) where
  eab : Obj Fn Kw
  ocb : Obj Fn Kw
  hem : ℤ
  maxDelta : ℤ
  records : ℤ
  pairs : Option Pairs
  cursor : Option ℤ

/-- How the selection sees the times, the columns and the limits of a boundary: figures of merit and attributes as exact
numbers. -/
abbrev View := List ℤ → List Row → Option ℝ → Option ℝ → Bnd

/-- The view of an object with times -/
def seen {Fn Kw : Type} (view : View) (o : Obj Fn Kw) (times : List ℤ) : Bnd := view times o.rows o.minFom o.maxFom

/-- `set_good_ind` (`_boundary.py` 1211-1310) with the criteria `so`, `se` for the two members.  If a member has no times,
the pairs are cleared and nothing else is done.  The cursors of the members are set by the setter of `rec_ind`.
Simplification: the two members are different objects. -/
def setGood {Fn Kw : Type} (view : View) (so se : Sel) (d : DualObj Fn Kw) : Except PyErr (DualObj Fn Kw) :=
  match d.ocb.dtime, d.eab.dtime with
  | some tO, some te => do
    let p ← Ocb.Cycle.setGoodInd (seen view d.ocb tO) (seen view d.eab te) so se (d.maxDelta * 1000000)
    let c ← Ocb.Cycle.setRec p d.ocb.records d.eab.records 0
    return { d with pairs := some p, records := p.records, cursor := some c.ind,
                    ocb := { d.ocb with recInd := c.ocb }, eab := { d.eab with recInd := c.eab } }
  | _, _ => .ok { d with pairs := none, records := 0 }

/-- No criteria -/
def noSel : Sel := ⟨none, none, []⟩

/-- The two members (`_boundary.py` 1099-1116) -/
noncomputable def members {Fn Kw : Type} (W : World Fn Kw) (D : DualArgs Fn Kw) : Except PyErr (Obj Fn Kw × Obj Fn Kw) := do
  let e ← match D.eab with
    | some e => .ok e
    | none => eabInit W ⟨D.eabFile, D.eabInst, D.hem, some D.eabLat, D.stime, D.etime, D.eabRfunc, D.eabKwargs⟩
  let o ← match D.ocb with
    | some o => .ok o
    | none => ocbInit W ⟨D.ocbFile, D.ocbInst, D.hem, some D.ocbLat, D.stime, D.etime, D.ocbRfunc, D.ocbKwargs⟩
  return (e, o)

/-- `DualBoundary.__init__` (`_boundary.py` 1084-1128) -/
noncomputable def dualNew {Fn Kw : Type} (W : World Fn Kw) (view : View) (D : DualArgs Fn Kw) : Except PyErr (DualObj Fn Kw) :=
  if |D.ocbLat| ≤ |D.eabLat| then .error .valueError
  else if D.maxDelta ≤ 0 then .error .valueError
  else
    match members W D with
    | .error e => .error e
    | .ok (e, o) =>
      if o.hem ≠ e.hem then .error .valueError
      else setGood view noSel noSel ⟨e, o, o.hem, D.maxDelta, 0, none, none⟩

/-- `self.rec_ind` (`_boundary.py` 1188-1191) -/
def DualObj.recInd {Fn Kw : Type} (d : DualObj Fn Kw) : Except PyErr ℤ :=
  match d.cursor with
  | some r => .ok r
  | none => .error .attributeError

/-- The test for a current pair in `normal_coord` and `calc_r` (`_boundary.py` 1400, 1778): true if NaN is returned -/
def DualObj.noPair {Fn Kw : Type} (d : DualObj Fn Kw) : Except PyErr Bool := do
  let r ← d.recInd
  return decide (r < 0 ∨ d.records ≤ r)

/-- `get_next_good_ind` (`_boundary.py` 1312-1319) -/
def nextGood {Fn Kw : Type} (d : DualObj Fn Kw) : Except PyErr (DualObj Fn Kw) :=
  if 0 < d.records then do
    let r ← d.recInd
    if r < d.records then
      match d.pairs with
      | none => .error .typeError
      | some p => do
        let c ← Ocb.Cycle.setRec p d.ocb.records d.eab.records (r + 1)
        return { d with cursor := some c.ind, ocb := { d.ocb with recInd := c.ocb }, eab := { d.eab with recInd := c.eab } }
    else return d
  else .ok d

/-- What `DualBoundary.__repr__` writes (`_boundary.py` 1130-1135): the texts of the members and `max_delta` -/
noncomputable def reprDual {Fn Kw : Type} (name : Fn → Name) (text : Kw → Name) (d : DualObj Fn Kw) :
    Except PyErr (Args Fn Kw × Args Fn Kw × ℤ) := do
  let e ← reprArgs name text d.eab
  let o ← reprArgs name text d.ocb
  return (e, o, d.maxDelta)

/-- The evaluation of that text: both members are constructed and handed to the constructor, whose other arguments have
their default values (`_boundary.py` 1084-1088) -/
noncomputable def evalDual {Fn Kw : Type} (W : World Fn Kw) (view : View) (R : Args Fn Kw × Args Fn Kw × ℤ) :
    Except PyErr (DualObj Fn Kw) := do
  let e ← eabInit W R.1
  let o ← ocbInit W R.2.1
  dualNew W view ⟨.text "default".toList, .text "default".toList, .text [], .text [], 1, 64, 74, none, none, .dflt, .dflt,
    .dflt, .dflt, some e, some o, R.2.2⟩

/-- What `DualBoundary.__str__` shows (`_boundary.py` 1137-1148): the number of pairs, the first and the last time, the
time difference and the texts of the members -/
structure DualText where
  records : ℤ
  span : Option (ℤ × ℤ)
  maxDelta : ℤ
  eab : List TLine
  ocb : List TLine

/-- The times of the first and the last pair (`_boundary.py` 1139-1143) -/
def pairSpan {Fn Kw : Type} (d : DualObj Fn Kw) : Except PyErr (Option (ℤ × ℤ)) :=
  if d.records = 0 then .ok none
  else
    match d.pairs with
    | none => .error .typeError
    | some p => do
      let a ← Ocb.pyIdx p.dtime 0
      let b ← Ocb.pyIdx p.dtime (-1)
      return some (a, b)

/-- `DualBoundary.__str__` (`_boundary.py` 1137-1148) -/
def strDual {Fn Kw : Type} (mod short : Fn → Name) (text : Kw → Name) (d : DualObj Fn Kw) : Except PyErr DualText := do
  let s ← pairSpan d
  let e ← strObj mod short text d.eab
  let o ← strObj mod short text d.ocb
  return ⟨d.records, s, d.maxDelta, e, o⟩

end Ocb.Init
