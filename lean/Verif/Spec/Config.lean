import Verif.Model.Consumer
import Mathlib.Analysis.Real.Sqrt

/-!
# Specification: precedence of chain settings

Written from the documentation: override, then the user's explicit value, then the automatic
value, then the chain's default.
-/

namespace CC.Spec

/-- The automatic opacity: `1/√n`, halved under contour labels; infinite if no chain draws
contours. -/
noncomputable def autoAlpha (n : Nat) (labels : Bool) : Flt ℝ :=
  if n = 0 then .posInf
  else .fin (if labels then 1 / Real.sqrt n / 2 else 1 / Real.sqrt n)

/-- The automatically chosen value of an attribute, for a consumer with `n` contour-drawing chains;
`none` if the attribute is not chosen automatically for this chain. The colour is only chosen for
chains that have none, and is then `colour`. -/
noncomputable def auto (n : Nat) (c : Cfg ℝ) (colour : String) : (k : Key) → Option (k.Ty ℝ)
  | .shade => some (decide (n < 5))
  | .barShade => some (decide (n < 5))
  | .sigmas => some ([0, 1, 2] : List ℝ)
  | .shadeAlpha => some (autoAlpha n (c .showContourLabels))
  | .color => if c .color = none then some (some colour) else none
  | _ => none

/-- The documented precedence. `user` are the attributes set explicitly on the chain. -/
noncomputable def resolved (override : Option (Config ℝ)) (user : List Key) (n : Nat) (c : Cfg ℝ)
    (colour : String) (k : Key) : k.Ty ℝ :=
  let own := if k ∈ user then c k else (auto n c colour k).getD (c k)
  match override with
  | some o => if k ∈ o.userSet then o.vals k else own
  | none => own

/-- How many of the first `i` registered objects have no colour. -/
def uncolouredBefore (h : Heap ℝ) (refs : List Ref) (i : Nat) : Nat :=
  ((refs.take i).filter fun r => (h[r]?).any fun c => decide (c.cfg .color = none)).length

/-- The automatic colours: for each shade 500, 800, 300, 900, 400, 700, 200, 600 of the palette,
the eleven default hues (copied from the palette table, in the order they are handed out). -/
def autoColours : List String := [
  "#3b82f6", "#10b981", "#ef4444", "#a855f7", "#f59e0b", "#71717a",
  "#06b6d4", "#14b8a6", "#22c55e", "#f97316", "#6366f1",
  "#1e40af", "#065f46", "#991b1b", "#6b21a8", "#92400e", "#27272a",
  "#155e75", "#115e59", "#166534", "#9a3412", "#3730a3",
  "#93c5fd", "#6ee7b7", "#fca5a5", "#d8b4fe", "#fcd34d", "#d4d4d8",
  "#67e8f9", "#5eead4", "#86efac", "#fdba74", "#a5b4fc",
  "#1e3a8a", "#064e3b", "#7f1d1d", "#581c87", "#78350f", "#18181b",
  "#164e63", "#134e4a", "#14532d", "#7c2d12", "#312e81",
  "#60a5fa", "#34d399", "#f87171", "#c084fc", "#fbbf24", "#a1a1aa",
  "#22d3ee", "#2dd4bf", "#4ade80", "#fb923c", "#818cf8",
  "#1d4ed8", "#047857", "#b91c1c", "#7e22ce", "#b45309", "#3f3f46",
  "#0e7490", "#0f766e", "#15803d", "#c2410c", "#4338ca",
  "#bfdbfe", "#a7f3d0", "#fecaca", "#e9d5ff", "#fde68a", "#e4e4e7",
  "#a5f3fc", "#99f6e4", "#bbf7d0", "#fed7aa", "#c7d2fe",
  "#2563eb", "#059669", "#dc2626", "#9333ea", "#d97706", "#52525b",
  "#0891b2", "#0d9488", "#16a34a", "#ea580c", "#4f46e5"]

end CC.Spec
