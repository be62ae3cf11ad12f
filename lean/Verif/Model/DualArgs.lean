import Verif.Model.Pysat

/-!
# Keyword arguments of `add_ocb_to_data` (`ocbpy/instruments/pysat_instruments.py` 205-233, 437-439)

Which of the additional keyword arguments reach the constructor of `DualBoundary` and which reach `match_data_ocb`.
-/

set_option autoImplicit false

namespace Ocb.Pysat

open Ocb.Files (Name)

variable {V : Type}

/-- A dictionary of arguments, in order of insertion. -/
abbrev Dict (V : Type) := List (Name × V)

/-- `d.get(k)` -/
def Dict.get (d : Dict V) (k : Name) : Option V := (d.find? fun e => e.1 == k).map Prod.snd

/-- `inspect.getfullargspec(DualBoundary.__init__).args` (`_boundary.py` 1084-1088) -/
def dualArgs : List Name :=
  ["self".toList, "eab_filename".toList, "ocb_filename".toList, "eab_instrument".toList, "ocb_instrument".toList,
    "hemisphere".toList, "eab_lat".toList, "ocb_lat".toList, "stime".toList, "etime".toList, "eab_rfunc".toList,
    "eab_rfunc_kwargs".toList, "ocb_rfunc".toList, "ocb_rfunc_kwargs".toList, "eab".toList, "ocb".toList, "max_delta".toList]

/-- The named arguments of `add_ocb_to_data` (`pysat_instruments.py` 33-37), which cannot be in `kwargs`. -/
def namedArgs : List Name :=
  ["pysat_inst".toList, "mlat_name".toList, "mlt_name".toList, "height_name".toList, "evar_names".toList,
    "curl_evar_names".toList, "vector_names".toList, "height".toList, "hemisphere".toList, "ocb".toList, "ocbfile".toList,
    "instrument".toList, "max_sdiff".toList, "min_merit".toList, "max_merit".toList, "loc_coord".toList, "vect_coord".toList]

/-- The loop that copies what the constructor takes (`pysat_instruments.py` 213-215). -/
def takeKeys (sig : List Name) : Dict V → Dict V → Dict V
  | [], init => init
  | (k, v) :: kw, init => takeKeys sig kw (if k ∈ sig then upd init k v else init)

/-- The loop that removes what was copied (`pysat_instruments.py` 218-220). -/
def dropKeys : Dict V → Dict V → Dict V
  | [], kw => kw
  | (k, _) :: init, kw => dropKeys init (if kw.any (fun e => e.1 == k) then kw.filter (fun e => e.1 != k) else kw)

/-- `if key not in d.keys(): d[key] = v` -/
def orElseKey (d : Dict V) (k : Name) (v : V) : Dict V := if d.any (fun e => e.1 == k) then d else upd d k v

/-- The arguments of the constructor and those left for the matching (`pysat_instruments.py` 206-230).  The values stand for
objects of any type. -/
def dualKeys (sig : List Name) (hem start stop instrument : V) (kwargs : Dict V) : Dict V × Dict V :=
  let init : Dict V := [("hemisphere".toList, hem), ("stime".toList, start), ("etime".toList, stop)]
  let p := if kwargs.length > 0 then
      let init := takeKeys sig kwargs init
      (init, dropKeys init kwargs)
    else (init, kwargs)
  (orElseKey (orElseKey p.1 "ocb_instrument".toList instrument) "eab_instrument".toList instrument, p.2)

/-- What `add_ocb_to_data` does with its keyword arguments (`pysat_instruments.py` 171-235): the arguments for the
constructor of the boundary, `none` if it makes none or a single boundary, and the criteria for the matching.  `given` is
whether a boundary object is given, `kind` the class of the boundary otherwise. -/
def routeArgs (given : Bool) (k : Kind) (hem start stop instrument : V) (kwargs : Dict V) : Option (Dict V) × Dict V :=
  if given then (none, kwargs)
  else match k with
    | .dual =>
      let p := dualKeys dualArgs hem start stop instrument kwargs
      (some p.1, p.2)
    | _ => (none, kwargs)

end Ocb.Pysat
