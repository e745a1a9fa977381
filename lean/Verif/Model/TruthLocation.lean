import Verif.Model.Truth

/-! # truth.py: the location of a truth -/

namespace CC

variable {K : Type}

/-- A key of a dictionary or label of a Series. -/
inductive LocKey
  | text (s : String)
  | other
deriving DecidableEq

/-- What is passed as `location`, truth.py 14-17: a dictionary (or another `Mapping`), a pandas Series or something else. A value is
`none` if pydantic cannot make it a float. -/
inductive LocationArg (K : Type)
  | dict (entries : List (LocKey × Option K))
  | series (entries : List (LocKey × Option K))
  | other

/-- One entry of a `dict[str, float]`, truth.py 14; pydantic does not convert other keys to text. -/
def locEntry (e : LocKey × Option K) : Res (String × K) :=
  match e with
  | (.text s, some x) => .ok (s, x)
  | _ => .error .validation

/-- pydantic's validation of the annotation `dict[str, float]`, truth.py 14: only dictionaries and other `Mapping`s are accepted, and a
Series is not one. -/
def locField (a : LocationArg K) : Res (LocationArg K) :=
  match a with
  | .dict es => do
    let l ← es.mapM locEntry
    return .dict (l.map fun p => (.text p.1, some p.2))
  | _ => .error .validation

/-- `_ensure_dict`, truth.py 35-40. pydantic's `ValidationError` cannot be constructed with a message: `TypeError`. -/
def ensureDict (a : LocationArg K) : Res (LocationArg K) :=
  match a with
  | .dict es => .ok (.dict es)
  | .series es => .ok (.dict es)
  | .other => .error .type

/-- The location of the object made: the entries of a validated dictionary. -/
def locEntries (a : LocationArg K) : List (String × K) :=
  match a with
  | .dict es => es.filterMap fun e => match e with
    | (.text s, some x) => some (s, x)
    | _ => none
  | _ => []

/-- `Truth(location=…)`, truth.py 14-17, 33-40: `@field_validator("location")` has no `mode`, so it runs after the validation of the
annotation. -/
def truthLocation (a : LocationArg K) : Res (List (String × K)) := do
  let d ← locField a
  let e ← ensureDict d
  return locEntries e

/-- What truth.py 33-40 would do with `mode="before"`. Not the code; used to say what is missing. -/
def truthLocationBefore (a : LocationArg K) : Res (List (String × K)) := do
  let d ← ensureDict a
  let e ← locField d
  return locEntries e

end CC
