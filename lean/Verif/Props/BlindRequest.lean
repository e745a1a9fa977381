import Verif.Props.LatexTable
import Verif.Props.Blinded
import Verif.Props.Asked

/-! # C57: which parameters are blinded -/

namespace CC
open Spec

theorem sanitiseBlinds_iff (blind : Blind) {columns : List String} {p : String} (hp : p ∈ columns) :
    p ∈ sanitiseBlinds blind columns ↔ Blinded blind p := by
  cases blind with
  | none => simp [sanitiseBlinds, Blinded]
  | bool v => cases v <;> simp [sanitiseBlinds, Blinded, hp]
  | cols l => simp [sanitiseBlinds, Blinded]

/-- **C57** (request). Among the parameters of a plot those are blinded that the configuration says (all of them, or those in the
list), and its logarithmic scales are those of the configuration, whichever chains and columns are asked for and however. -/
theorem C57_request (cfg : PlotConfig) (final : List (String × Chain ℝ)) (wide : Bool) (b : PlottingBase) :
    (∀ req columns, sanitise cfg final req columns wide = .ok b →
      (∀ p ∈ b.columns, p ∈ b.blind ↔ Blinded cfg.blind p) ∧ ∀ p, p ∈ b.logScales ↔ p ∈ cfg.logScales) ∧
    ∀ req columns, askedBase cfg final req columns wide = .ok b →
      (∀ p ∈ b.columns, p ∈ b.blind ↔ Blinded cfg.blind p) ∧ ∀ p, p ∈ b.logScales ↔ p ∈ cfg.logScales := by
  refine ⟨fun req columns h => ?_, fun req columns h => ?_⟩
  · simp only [sanitise, bind_ok_iff, pure_ok_iff] at h
    obtain ⟨chains, -, extents, -, rfl⟩ := h
    exact ⟨fun p hp => sanitiseBlinds_iff _ hp, fun p => Iff.rfl⟩
  · simp only [askedBase, bind_ok_iff, pure_ok_iff] at h
    obtain ⟨chains, -, cols, -, extents, -, rfl⟩ := h
    exact ⟨fun p hp => sanitiseBlinds_iff _ hp, fun p => Iff.rfl⟩

/-- A request with `blind=True`: both columns are blinded. -/
example (c : Chain ℝ) (hv : plotChains [("one", c)] (.all : ChainReq ℝ) false = .ok [c]) : ∃ b,
    sanitise { blind := .bool true, logScales := ["b"], extents := [("a", 0, 1), ("b", 0, 10)] } [("one", c)] .all
      (some ["a", "b"]) true = .ok b ∧ b.columns = ["a", "b"] ∧ (∀ p ∈ b.columns, p ∈ b.blind) ∧ b.logScales = ["b"] := by
  have h : sanitise { blind := .bool true, logScales := ["b"], extents := [("a", 0, 1), ("b", 0, 10)] } [("one", c)] .all
      (some ["a", "b"]) true = .ok ⟨[c], ["a", "b"], [("a", some (0, 1)), ("b", some (0, 10))], ["a", "b"], ["b"]⟩ := by
    simp [sanitise, hv, bind, Except.bind, pure, Except.pure, sanitiseColumns, customExtents, sanitiseBlinds]
  exact ⟨_, h, rfl, fun p hp => (((C57_request _ _ _ _).1 _ _ h).1 p hp).2 rfl, rfl⟩

end CC
