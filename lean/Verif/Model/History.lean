import Verif.Model.Consumer

/-!
# Histories of API calls

A client holds references to `Chain` objects and a `ChainConsumer`, and issues any sequence of
calls. `step` performs one call by the functions of `Model/Consumer.lean`.
-/

namespace CC

/-- One client action. -/
inductive Op
  /-- The client constructs a chain (chain.py 100-297). -/
  | newChain (a : Args ℝ)
  /-- The client assigns arbitrary new attribute values to a chain object it holds. -/
  | mutate (r : Ref) (c : Chain ℝ)
  /-- `add_chain`, chainconsumer.py 51-63. -/
  | add (r : Ref)
  /-- `remove_chain(name)`, chainconsumer.py 120-134. -/
  | removeName (n : String)
  /-- `remove_chain(chain)`, chainconsumer.py 120-134. -/
  | removeObj (r : Ref)
  /-- `add_marker`, chainconsumer.py 77-118, with the constructor arguments it builds. -/
  | marker (location : List (String × Flt ℝ)) (name : String) (color : Option String)
      (size : ℝ) (style : String) (alpha : ℝ) (kwargs : List (Kwarg ℝ))
  /-- `add_truth`, chainconsumer.py 39-49. -/
  | addTruth (t : Truth ℝ)
  /-- `set_override`, chainconsumer.py 136-149. -/
  | setOverride (o : Config ℝ)
  /-- Any plotting or analysis call: the part of it that touches chains, chainconsumer.py 151. -/
  | finalise

/-- The client's world: all chain objects and one consumer. -/
structure World where
  heap : Heap ℝ
  cons : Consumer ℝ

/-- Perform one call; `.error` means the call raised. -/
noncomputable def step (w : World) : Op → World × Res Unit
  | .newChain a => match Chain.make a with
    | .ok c => ({ w with heap := w.heap ++ [c] }, .ok ())
    | .error e => (w, .error e)
  | .mutate r c => ({ w with heap := w.heap.set r c }, .ok ())
  | .add r => match w.cons.addChain w.heap r with
    | .ok s => ({ w with cons := s }, .ok ())
    | .error e => (w, .error e)
  | .removeName n => match w.cons.removeName n with
    | .ok s => ({ w with cons := s }, .ok ())
    | .error e => (w, .error e)
  | .removeObj r => match w.cons.removeObj w.heap r with
    | .ok s => ({ w with cons := s }, .ok ())
    | .error e => (w, .error e)
  | .marker loc n col sz sty al kw =>
    match w.cons.addMarker w.heap (Consumer.markerArgs loc n col sz sty al kw) with
    | .ok (h, s) => ({ heap := h, cons := s }, .ok ())
    | .error e => (w, .error e)
  | .addTruth t => ({ w with cons := w.cons.addTruth t }, .ok ())
  | .setOverride o => ({ w with cons := w.cons.setOverride o }, .ok ())
  | .finalise =>
    let out := finalChains w.heap w.cons
    ({ w with heap := out.2 }, out.1.map fun _ => ())

/-- Perform a sequence of calls; exceptions are caught by the client, who carries on. -/
noncomputable def run (w : World) (ops : List Op) : World :=
  ops.foldl (fun w op => (step w op).1) w

end CC
