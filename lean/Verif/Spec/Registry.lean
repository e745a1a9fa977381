import Verif.Model.History

/-!
# Specification: the registry as an ordered map driven by successful calls

An event log records only what a caller can observe: which calls succeeded, and under which name
the object was registered or removed (the object's name at the time of the call).
-/

namespace CC.Spec

/-- What a successful registry call did. -/
inductive Event
  | added (n : String) (r : Ref)
  | removed (n : String)
  | other

/-- The observable event of calling `op` in world `w`: `other` when the call raised. -/
noncomputable def event (w : World) (op : Op) : Event :=
  match (step w op).2 with
  | .error _ => .other
  | .ok _ => match op with
    | .add r => match w.heap[r]? with
      | some c => .added c.name r
      | none => .other
    | .removeName n => .removed n
    | .removeObj r => match w.heap[r]? with
      | some c => .removed c.name
      | none => .other
    | .marker _ n _ _ _ _ _ => .added n w.heap.length
    | _ => .other

/-- The event log of a history. -/
noncomputable def log (w : World) : List Op → List Event
  | [] => []
  | op :: ops => event w op :: log (step w op).1 ops

/-- `n` is registered with object `r` after `l`: it was added and not removed since. -/
def Live (l : List Event) (n : String) (r : Ref) : Prop :=
  ∃ pre post, l = pre ++ Event.added n r :: post ∧ Event.removed n ∉ post

/-- `a` was registered before `b`, and both still are. -/
def LiveBefore (l : List Event) (a b : String × Ref) : Prop :=
  ∃ pre mid post, l = pre ++ Event.added a.1 a.2 :: mid ++ Event.added b.1 b.2 :: post
    ∧ Event.removed a.1 ∉ mid ++ post ∧ Event.removed b.1 ∉ post

end CC.Spec
