import Verif.Model.DualArgs

/-!
# C174: each keyword argument of `add_ocb_to_data` is used in one place
-/

set_option autoImplicit false

namespace Ocb.Pysat

open Ocb.Files (Name)

variable {V : Type}

theorem get_nil (k : Name) : Dict.get ([] : Dict V) k = none := rfl

theorem get_cons (e : Name × V) (d : Dict V) (k : Name) :
    Dict.get (e :: d) k = if e.1 = k then some e.2 else Dict.get d k := by
  unfold Dict.get
  rw [List.find?_cons]
  by_cases h : e.1 = k
  · simp [h]
  · have : (e.1 == k) = false := by simpa using h
    rw [this, if_neg h]

theorem get_any {d : Dict V} {k : Name} : d.any (fun e => e.1 == k) = true ↔ (Dict.get d k).isSome = true := by
  induction d with
  | nil => simp [get_nil]
  | cons e d ih =>
    rw [List.any_cons, Bool.or_eq_true, ih, get_cons]
    by_cases h : e.1 = k
    · simp [h]
    · simp [h]

theorem get_upd (d : Dict V) (k k' : Name) (v : V) :
    Dict.get (upd d k v) k' = if k = k' then some v else Dict.get d k' := by
  unfold upd
  split_ifs with h1 h2 h2
  · subst h2
    induction d with
    | nil => simp at h1
    | cons e d ih =>
      rw [List.map_cons, get_cons]
      by_cases he : e.1 = k
      · simp [he]
      · rw [List.any_cons, Bool.or_eq_true] at h1
        rcases h1 with h1 | h1
        · exact absurd (by simpa using h1) he
        · simp only [if_neg he]
          exact ih h1
  · induction d with
    | nil => rfl
    | cons e d ih =>
      have hd : Dict.get (d.map fun e => if e.1 = k then (k, v) else e) k' = Dict.get d k' := by
        clear ih h1
        induction d with
        | nil => rfl
        | cons e d ih =>
          rw [List.map_cons, get_cons, get_cons, ih]
          by_cases he : e.1 = k
          · rw [if_pos he, if_neg h2, if_neg (by rw [he]; exact h2)]
          · rw [if_neg he]
      rw [List.map_cons, get_cons, get_cons, hd]
      by_cases he : e.1 = k
      · rw [if_pos he, if_neg h2, if_neg (by rw [he]; exact h2)]
      · rw [if_neg he]
  · subst h2
    rw [Bool.not_eq_true] at h1
    induction d with
    | nil => simp [get_cons]
    | cons e d ih =>
      rw [List.any_cons, Bool.or_eq_false_iff] at h1
      rw [List.cons_append, get_cons, if_neg (by simpa using h1.1)]
      exact ih h1.2
  · clear h1
    induction d with
    | nil => simp [get_cons, get_nil, h2]
    | cons e d ih =>
      rw [List.cons_append, get_cons, get_cons, ih]

theorem get_takeKeys (sig : List Name) (kw init : Dict V) (hn : (kw.map Prod.fst).Nodup) (k : Name) :
    Dict.get (takeKeys sig kw init) k =
      if k ∈ sig then (Dict.get kw k).or (Dict.get init k) else Dict.get init k := by
  induction kw generalizing init with
  | nil => simp [takeKeys, get_nil]
  | cons e kw ih =>
    obtain ⟨k', v⟩ := e
    rw [List.map_cons, List.nodup_cons] at hn
    rw [takeKeys, ih _ hn.2, get_cons]
    have hno : k' = k → Dict.get kw k = none := by
      rintro rfl
      by_contra hc
      have := get_any.2 (Option.ne_none_iff_isSome.1 hc)
      rw [List.any_eq_true] at this
      obtain ⟨e, h1, h2⟩ := this
      exact hn.1 (List.mem_map.2 ⟨e, h1, by simpa using h2⟩)
    by_cases hs : k ∈ sig
    · rw [if_pos hs, if_pos hs]
      by_cases hk : k' = k
      · rw [if_pos hk, hno hk, if_pos (by rw [hk]; exact hs), get_upd, if_pos hk]
        rfl
      · rw [if_neg hk]
        by_cases hs' : k' ∈ sig
        · rw [if_pos hs', get_upd, if_neg hk]
        · rw [if_neg hs']
    · rw [if_neg hs, if_neg hs]
      by_cases hs' : k' ∈ sig
      · rw [if_pos hs', get_upd, if_neg (by rintro rfl; exact hs hs')]
      · rw [if_neg hs']

theorem get_filter (d : Dict V) (k k' : Name) :
    Dict.get (d.filter fun e => e.1 != k) k' = if k = k' then none else Dict.get d k' := by
  induction d with
  | nil => simp [get_nil]
  | cons e d ih =>
    rw [List.filter_cons]
    by_cases he : e.1 = k
    · rw [if_neg (by simp [he]), ih, get_cons]
      by_cases hk : k = k'
      · rw [if_pos hk, if_pos hk]
      · rw [if_neg hk, if_neg hk, if_neg (by rw [he]; exact hk)]
    · rw [if_pos (by simpa using he), get_cons, ih, get_cons]
      by_cases hk : k = k'
      · rw [if_pos hk, if_pos hk, if_neg (by rw [← hk]; exact he)]
      · rw [if_neg hk, if_neg hk]

theorem get_dropKeys (init kw : Dict V) (k : Name) :
    Dict.get (dropKeys init kw) k = if (Dict.get init k).isSome then none else Dict.get kw k := by
  induction init generalizing kw with
  | nil => simp [dropKeys, get_nil]
  | cons e init ih =>
    obtain ⟨k', v⟩ := e
    have hstep : ∀ kw : Dict V, Dict.get (if kw.any (fun e => e.1 == k') then kw.filter (fun e => e.1 != k') else kw) k =
        if k' = k then none else Dict.get kw k := by
      intro kw
      split_ifs with h1 h2 h2
      · rw [get_filter, if_pos h2]
      · rw [get_filter, if_neg h2]
      · rw [get_any, Option.not_isSome_iff_eq_none, h2] at h1
        exact h1
      · rfl
    rw [dropKeys, ih, hstep, get_cons]
    by_cases hk : k' = k
    · simp [hk]
    · simp [hk]

theorem get_orElse (d : Dict V) (k k' : Name) (v : V) :
    Dict.get (orElseKey d k v) k' = if k = k' then (Dict.get d k').or (some v) else Dict.get d k' := by
  unfold orElseKey
  split_ifs with h1 h2 h2
  · subst h2
    rw [get_any] at h1
    obtain ⟨x, hx⟩ := Option.isSome_iff_exists.1 h1
    rw [hx]
    rfl
  · rfl
  · rw [get_upd, if_pos h2]
    subst h2
    rw [get_any, Option.not_isSome_iff_eq_none] at h1
    rw [h1]
    rfl
  · rw [get_upd, if_neg h2]

/-- What the constructor gets where the caller says nothing: the hemisphere, the period of the data, the instrument for both
boundaries. -/
def fallback (hem start stop instrument : V) (k : Name) : Option V :=
  if k = "hemisphere".toList then some hem
  else if k = "stime".toList then some start
  else if k = "etime".toList then some stop
  else if k = "eab_instrument".toList ∨ k = "ocb_instrument".toList then some instrument
  else none

theorem get_base (a b c : Name) (x y z : V) (k : Name) :
    Dict.get [(a, x), (b, y), (c, z)] k =
      if k = a then some x else if k = b then some y else if k = c then some z else none := by
  simp only [get_cons, get_nil, eq_comm (b := k)]

theorem get_first (sig : List Name) (kw base : Dict V) (hn : (kw.map Prod.fst).Nodup) (k : Name) :
    Dict.get (if kw.length > 0 then (takeKeys sig kw base, dropKeys (takeKeys sig kw base) kw) else (base, kw)).1 k =
      if k ∈ sig then (Dict.get kw k).or (Dict.get base k) else Dict.get base k := by
  split_ifs with h1 h2 h2
  · rw [get_takeKeys _ _ _ hn, if_pos h2]
  · rw [get_takeKeys _ _ _ hn, if_neg h2]
  · have : kw = [] := List.length_eq_zero_iff.1 (by omega)
    rw [this, get_nil]
    rfl
  · rfl

theorem get_second (sig : List Name) (kw base : Dict V) (hn : (kw.map Prod.fst).Nodup)
    (hb : ∀ k, k ∉ sig → Dict.get base k = none) (k : Name) :
    Dict.get (if kw.length > 0 then (takeKeys sig kw base, dropKeys (takeKeys sig kw base) kw) else (base, kw)).2 k =
      if k ∈ sig then none else Dict.get kw k := by
  split_ifs with h1 h2 h2
  · rw [get_dropKeys, get_takeKeys _ _ _ hn, if_pos h2]
    cases hk : Dict.get kw k with
    | some v => simp
    | none => split_ifs <;> rfl
  · rw [get_dropKeys, get_takeKeys _ _ _ hn, if_neg h2, hb k h2]
    rfl
  · have : kw = [] := List.length_eq_zero_iff.1 (by omega)
    rw [this, get_nil]
  · rfl

theorem get_both (sig : List Name) (a b c d e : Name) (x y z w : V) (kw : Dict V) (hn : (kw.map Prod.fst).Nodup)
    (ha : a ∈ sig) (hb : b ∈ sig) (hc : c ∈ sig) (hd : d ∈ sig) (he : e ∈ sig) (k : Name) :
    Dict.get (orElseKey (orElseKey (if kw.length > 0 then
        (takeKeys sig kw [(a, x), (b, y), (c, z)], dropKeys (takeKeys sig kw [(a, x), (b, y), (c, z)]) kw)
        else ([(a, x), (b, y), (c, z)], kw)).1 d w) e w) k =
      if k ∈ sig then (Dict.get kw k).or
        (if k = a then some x else if k = b then some y else if k = c then some z else if k = e ∨ k = d then some w else none)
      else none := by
  rw [get_orElse, get_orElse, get_first _ _ _ hn, get_base]
  by_cases hk : k ∈ sig
  · rw [if_pos hk, if_pos hk]
    cases Dict.get kw k with
    | some v => simp
    | none =>
      simp only [Option.none_or]
      by_cases e1 : k = a
      · simp [e1]
      by_cases e2 : k = b
      · simp [if_neg e1, if_pos e2]
      by_cases e3 : k = c
      · simp [if_neg e1, if_neg e2, if_pos e3]
      simp only [if_neg e1, if_neg e2, if_neg e3, Option.none_or]
      by_cases e4 : k = e
      · subst e4
        by_cases e5 : d = k
        · simp [e5]
        · simp [e5]
      by_cases e5 : k = d
      · subst e5
        simp [Ne.symm e4]
      simp [e4, e5, Ne.symm e4, Ne.symm e5]
  · have h1 : ∀ n, n ∈ sig → k ≠ n := fun n h1 h2 => hk (h2 ▸ h1)
    rw [if_neg hk, if_neg hk, if_neg (h1 a ha), if_neg (h1 b hb), if_neg (h1 c hc), if_neg (h1 d hd).symm,
      if_neg (h1 e he).symm]

/-- The parameters that the documentation of `DualBoundary` lists (`_boundary.py` 977-1043), and `self`, on which
`add_ocb_to_data` makes no exception. -/
def documented : List Name :=
  ["self", "eab_filename", "ocb_filename", "eab_instrument", "ocb_instrument", "hemisphere", "eab_lat", "ocb_lat", "stime",
    "etime", "eab_rfunc", "eab_rfunc_kwargs", "ocb_rfunc", "ocb_rfunc_kwargs", "eab", "ocb", "max_delta"].map String.toList

/-- C174: for dual boundaries from files, the constructor gets exactly the keyword arguments that it takes, with the caller's
values, and the hemisphere, the period of the data and the instrument where the caller gives none.  The matching gets exactly
the others. -/
theorem C174_dual (hem start stop instrument : V) (kwargs : Dict V) (hn : (kwargs.map Prod.fst).Nodup) :
    ∃ init rest, routeArgs false .dual hem start stop instrument kwargs = (some init, rest) ∧
      (∀ k, Dict.get init k = if k ∈ documented then (Dict.get kwargs k).or (fallback hem start stop instrument k) else none) ∧
      ∀ k, Dict.get rest k = if k ∈ documented then none else Dict.get kwargs k := by
  rw [show documented = dualArgs from rfl]
  refine ⟨_, _, rfl, fun k => ?_, fun k => ?_⟩
  · exact get_both dualArgs _ _ _ _ _ hem start stop instrument kwargs hn (by decide) (by decide) (by decide) (by decide)
      (by decide) k
  · refine get_second dualArgs kwargs _ hn (fun k hk => ?_) k
    have h1 : ∀ n, n ∈ dualArgs → k ≠ n := fun n h1 h2 => hk (h2 ▸ h1)
    rw [get_base, if_neg (h1 _ (by decide)), if_neg (h1 _ (by decide)), if_neg (h1 _ (by decide))]

/-- C174: no keyword argument of the caller is lost, used twice or changed: each reaches exactly one of the two. -/
theorem C174_once (hem start stop instrument : V) (kwargs : Dict V) (hn : (kwargs.map Prod.fst).Nodup) (k : Name) (v : V)
    (hk : Dict.get kwargs k = some v) :
    ∃ init rest, routeArgs false .dual hem start stop instrument kwargs = (some init, rest) ∧
      (Dict.get init k = some v ∧ Dict.get rest k = none ∨ Dict.get init k = none ∧ Dict.get rest k = some v) := by
  obtain ⟨init, rest, h1, h2, h3⟩ := C174_dual hem start stop instrument kwargs hn
  refine ⟨init, rest, h1, ?_⟩
  rw [h2, h3, hk]
  by_cases hs : k ∈ documented
  · simp [hs]
  · simp [hs]

/-- C174: the time span of the data and its hemisphere are used unless the caller gives others, and the instrument serves for
both boundaries: without any keyword arguments the constructor gets five values and the matching no criteria. -/
theorem C174_plain (hem start stop instrument : V) :
    routeArgs false .dual hem start stop instrument [] =
      (some [("hemisphere".toList, hem), ("stime".toList, start), ("etime".toList, stop),
        ("ocb_instrument".toList, instrument), ("eab_instrument".toList, instrument)], []) := by
  rfl

/-- C174 refuted beyond that: the documentation of `kwargs` ties the arguments of the constructor to `ocb=None`, but nothing
checks this.  With a boundary object given, or with a single boundary from a file, an argument of the constructor is passed
to the matching as if it were a selection criterion. -/
theorem C174_criteria_refuted (given : Bool) (kind : Kind) (hem start stop instrument : V) (kwargs : Dict V)
    (h : given = true ∨ kind ≠ .dual) : routeArgs given kind hem start stop instrument kwargs = (none, kwargs) := by
  unfold routeArgs
  split_ifs with hg
  · rfl
  · cases kind with
    | dual =>
      rcases h with h | h
      · exact absurd h hg
      · exact absurd rfl h
    | _ => rfl

/-- Two keyword arguments, one for each place. -/
example : routeArgs false .dual 1 10 20 7 [("max_delta".toList, 60), ("r_err".toList, 3), ("stime".toList, 5)] =
    (some [("hemisphere".toList, 1), ("stime".toList, 5), ("etime".toList, 20), ("max_delta".toList, 60),
      ("ocb_instrument".toList, 7), ("eab_instrument".toList, 7)], [("r_err".toList, 3)]) := by
  decide +kernel

example : (([("max_delta".toList, 60), ("r_err".toList, 3), ("stime".toList, 5)] : Dict ℕ).map Prod.fst).Nodup := by
  decide +kernel

/-- The same arguments with a boundary given. -/
example : routeArgs true .dual 1 10 20 7 [("max_delta".toList, 60)] = (none, [("max_delta".toList, 60)]) := rfl

end Ocb.Pysat
