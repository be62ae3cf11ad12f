import Verif.Model.Pysat
import Verif.Model.Ascii

/-!
# The metadata of the columns added to a pysat instrument

Model of `add_ocb_to_metadata` and of the loop at the end of `add_ocb_to_data` that calls it
(`ocbpy/instruments/pysat_instruments.py` 540-585 and 630-716).
-/

set_option autoImplicit false

namespace Ocb.Meta

open Ocb.Files (Name)
open Ocb.Text (upper)
open Ocb.Ascii (before)
open Ocb.Pysat (V Kind Arg Fn Plan Names under replace bname outKeys comps)

/-- The metadata of one variable: the seven labels that the code sets and all others. -/
structure Info where
  units : Name
  name : Name
  notes : Name
  desc : Name
  minVal : V
  maxVal : V
  fillVal : V
  other : Name → Option Name

/-- `pysat_inst.meta`.  Simplification: pysat looks names up without regard to case; here the case counts. -/
abbrev Meta := Name → Option Info

/-- `bound_desc` (`pysat_instruments.py` 655-657) without the empty name -/
def descOf (b : Name) : Option Name :=
  if b = "ocb".toList then some "Open Closed field-line Boundary".toList
  else if b = "eab".toList then some "Equatorward Auroral Boundary".toList
  else if b = "dualb".toList then some "Dual Boundary".toList
  else none

/-- `bname` of `add_ocb_to_metadata` (`pysat_instruments.py` 659-663): the first part of the name that is the name of a
boundary, or nothing -/
def boundOf (o : Name) : Name := ((o.splitOn '_').find? fun k => (descOf k).isSome).getD []

/-- `bound_desc[bname]` -/
def boundDesc (o : Name) : Name := (descOf (boundOf o)).getD []

/-- `name` (`pysat_instruments.py` 665 and 676-677) -/
def newName (o : Name) : Name :=
  let b := boundOf o
  let extra := if b = [] then [] else upper b ++ ['_']
  replace ['_'] [' '] (extra ++ before ('_' :: b) o)

/-- `s.replace(old, new)`; the empty text is only replaced by itself here -/
def replaceAny (old new s : Name) : Name := if old = [] then s else replace old new s

/-- The new metadata (`pysat_instruments.py` 675-709): `base` are the values that stay when the dictionary that is assigned
does not have the label, those of the column if there are some and the defaults of pysat otherwise. -/
def newInfo (base : Info) (src : Option Info) (o notes : Name) (isvector : Bool) : Info :=
  match src with
  | none =>
    { base with
      fillVal := .nan, name := newName o, desc := replaceAny (upper (boundOf o)) (boundDesc o) (newName o)
      minVal := .ninf, maxVal := .pinf, notes := notes }
  | some s =>
    if isvector then
      { base with
        fillVal := .nan, name := newName o, desc := boundDesc o ++ s.desc, units := s.units
        minVal := s.minVal, maxVal := s.maxVal, notes := notes }
    else
      { s with
        fillVal := .nan, name := upper (boundOf o) ++ ' ' :: s.name, desc := boundDesc o ++ s.desc, notes := notes }

/-- `pysat_inst.meta[o] = …` -/
def setMeta (m : Meta) (o : Name) (i : Info) : Meta := fun k => if k = o then some i else m k

/-- `add_ocb_to_metadata` (`pysat_instruments.py` 630-716) of an instrument -/
def addMeta (dflt : Info) (m : Meta) (o src : Name) (overwrite : Bool) (notes : Name) (isvector : Bool) : Meta :=
  if !overwrite && (m o).isSome then m
  else setMeta m o (newInfo ((m o).getD dflt) (m src) o notes isvector)

/-- Where the boundary comes from: instrument, file and formatted boundary latitude, of one or of two boundaries. -/
inductive Source where
  | one (instr file lat : Name)
  | two (ocbInstr ocbFile ocbLat eabInstr eabFile eabLat : Name)

/-- `notes` before the name of the function is added (`pysat_instruments.py` 552-567); blanks are missing as in the code. -/
def notesOf : Source → Name
  | .one i f l =>
    "Boundary obtained from ".toList ++ i ++ " data in file ".toList ++ f ++ "using a boundary latitude of ".toList ++ l
  | .two i f l i' f' l' =>
    "OCB obtained from ".toList ++ i ++ " data in file ".toList ++ f ++ " using a boundary latitude of ".toList ++ l ++
      " and EABEAB obtained from ".toList ++ i' ++ " data in file ".toList ++ f' ++
      "using a boundary latitude of ".toList ++ l'

/-- The name of a function; those of the user are a parameter. -/
def fnName (user : ℕ → Name) : Fn → Name
  | .evar => "normal_evar".toList
  | .curl => "normal_curl_evar".toList
  | .user n => user n
  | .none => "None".toList

/-- `vector_names[eattr]['scale_func']` and its name (`pysat_instruments.py` 570-573); a text has no `__name__` -/
def scaleName (user : ℕ → Name) (entries : List (Name × Arg)) : Except PyErr Name :=
  match (entries.find? fun k => k.1 == "scale_func".toList).map Prod.snd with
  | none => .error .keyError
  | some (.text _) => .error .attributeError
  | some (.fn f) => .ok (fnName user f)

/-- `vector_attrs[…][0]` (`pysat_instruments.py` 297-299 and 575): the first component given; without any there is no
entry in the dictionary -/
def firstComp (entries : List (Name × Arg)) : Except PyErr Name :=
  match (entries.find? fun k => k.1 ∈ comps).map Prod.snd with
  | some (.text t) => .ok t
  | _ => .error .keyError

/-- One column (`pysat_instruments.py` 551-585) -/
def metaOne (dflt : Info) (user : ℕ → Name) (b : Name) (s : Source) (vects : List (Name × List (Name × Arg))) (m : Meta)
    (o : Name) : Except PyErr Meta :=
  let e := before ('_' :: b) o
  match (vects.find? fun v => v.1 == e).map Prod.snd with
  | none => .ok (addMeta dflt m o e false (notesOf s) false)
  | some entries => do
    let f ← scaleName user entries
    let c ← firstComp entries
    return addMeta dflt m o c false (notesOf s ++ " and was scaled using ".toList ++ f) true

/-- The loop over the columns (`pysat_instruments.py` 541-585).  A name that comes up twice in the list is one key of the
dictionary in the code; the second time nothing happens because there are metadata by then. -/
def metaAll (dflt : Info) (user : ℕ → Name) (b : Name) (s : Source) (vects : List (Name × List (Name × Arg))) :
    List Name → Meta → Except PyErr Meta
  | [], m => .ok m
  | o :: os, m => do
    let m' ← metaOne dflt user b s vects m o
    metaAll dflt user b s vects os m'

/-- The metadata after `add_ocb_to_data`, with the plan of the names. -/
def describe (dflt : Info) (user : ℕ → Name) (b : Name) (s : Source) (n : Names) (p : Plan) (m : Meta) : Except PyErr Meta :=
  metaAll dflt user b s p.vects (outKeys b n p) m

end Ocb.Meta
