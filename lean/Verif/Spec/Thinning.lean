import Mathlib.Data.Nat.Notation

/-! # Specification: every k-th row -/

namespace CC.Spec

/-- `out` consists of the entries of `data` whose index is a multiple of `k`, in order. -/
def EveryKth {α : Type} (k : ℕ) (data out : List α) : Prop := ∀ i : ℕ, out[i]? = data[i * k]?

end CC.Spec
