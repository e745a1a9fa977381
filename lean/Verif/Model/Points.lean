import Verif.Model.Consumer

/-! # analysis.py: maximum posterior points of several chains -/

namespace CC
variable {K : Type}

/-- The argument `chains` of `get_max_posteriors`, analysis.py 236: nothing, names, or a dictionary. -/
inductive PostChains (K : Type)
  | all
  | names (ns : List String)
  | dict (d : List (String × Chain K))

/-- A registered chain as an object. Registered references point to heap objects. -/
def registered (h : Heap K) (e : String × Ref) : Res (String × Chain K) :=
  match h[e.2]? with
  | some c => .ok (e.1, c)
  | none => .error .type

/-- `self.parent._chains[c]`, analysis.py 252: KeyError for unknown names. -/
def chainNamed (h : Heap K) (s : Consumer K) (n : String) : Res (String × Chain K) :=
  match s.chains.lookup n with
  | none => .error .key
  | some r => registered h (n, r)

/-- The dictionary that is looped over, analysis.py 249-252. -/
def postChains (h : Heap K) (s : Consumer K) : PostChains K → Res (List (String × Chain K))
  | .all => s.chains.mapM (registered h)
  | .names ns => do
    let kvs ← ns.mapM (chainNamed h s)
    return dictMerge [] kvs
  | .dict d => .ok d

/-- One pass of the loop, analysis.py 255-258: a chain without posterior is left out. -/
def postEntry (n : String) : Option (Chain.MaxPosterior K) → List (String × Chain.MaxPosterior K)
  | none => []
  | some m => [(n, m)]

/-- The loop, analysis.py 254-258 (the keys of a dictionary are distinct, so assignments append). -/
def postLoop [LT K] [DecidableLT K] : List (String × Chain K) → Res (List (String × Chain.MaxPosterior K))
  | [] => .ok []
  | e :: d => do
    let p ← e.2.maxPosteriorPoint
    let r ← postLoop d
    return postEntry e.1 p ++ r

/-- `get_max_posteriors`, analysis.py 236-260. -/
def getMaxPosteriors [LT K] [DecidableLT K] (h : Heap K) (s : Consumer K) (chains : PostChains K) :
    Res (List (String × Chain.MaxPosterior K)) := do
  let d ← postChains h s chains
  postLoop d

end CC
