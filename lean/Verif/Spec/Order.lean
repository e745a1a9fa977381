import Verif.Model.Basic

/-! # Specification: order of first appearance -/

namespace CC.Spec

/-- `out` lists every entry of `src` exactly once, in the order of first appearance. -/
structure FirstOrder {α : Type} [DecidableEq α] (src out : List α) : Prop where
  nodup : out.Nodup
  mem : ∀ a, a ∈ out ↔ a ∈ src
  order : out.Pairwise fun a b => src.idxOf a < src.idxOf b

/-- `(k, v)` is the last entry of the list with key `k`. -/
def LastWith {α β : Type} (l : List (α × β)) (k : α) (v : β) : Prop :=
  ∃ pre post, l = pre ++ (k, v) :: post ∧ k ∉ post.map Prod.fst

end CC.Spec
