import Verif.Model.RcParams
import Mathlib.Data.List.Basic

/-! # C95: settings of matplotlib -/

namespace CC

/-- The configuration given last to plotter `i`, or the default. -/
def Spec.lastConfig (i : Nat) (es : List RcEvent) : RcConfig :=
  (es.foldl (fun acc e => match e with
    | .setConfig j c => if j = i then c else acc
    | _ => acc) {})

/-- The events that change the settings. -/
def Spec.ChangesRc : RcEvent → Prop
  | .user _ | .plot _ | .restore _ => True
  | _ => False

open Spec

theorem run_append (w : RcWorld) (a b : List RcEvent) : w.run (a ++ b) = (w.run a).run b := List.foldl_append ..

/-- What one event does to a plotter: only its configuration can change. -/
theorem step_plotter {w : RcWorld} {i : Nat} {p : PlotterState} (h : w.plotters[i]? = some p) (e : RcEvent) :
    (w.step e).plotters[i]? = some { p with config := match e with
      | .setConfig j c => if j = i then some c else p.config
      | _ => p.config } := by
  cases e with
  | create =>
    simp only [RcWorld.step]
    rw [List.getElem?_append_left (List.getElem?_eq_some_iff.1 h).1, h]
  | user rc => exact h
  | setConfig j c =>
    simp only [RcWorld.step, List.getElem?_modify, h]
    by_cases hj : j = i
    · simp [hj]
    · simp [hj]
  | plot j => simp only [RcWorld.step]; split <;> exact h
  | restore j => simp only [RcWorld.step]; split <;> exact h

theorem run_plotter {w : RcWorld} {i : Nat} {p : PlotterState} (h : w.plotters[i]? = some p) (es : List RcEvent) :
    ∃ q, (w.run es).plotters[i]? = some q ∧ q.usetexOld = p.usetexOld ∧ q.serifOld = p.serifOld ∧
      q.current = es.foldl (fun acc e => match e with
        | .setConfig j c => if j = i then c else acc
        | _ => acc) p.current := by
  induction es generalizing w p with
  | nil => exact ⟨p, h, rfl, rfl, rfl⟩
  | cons e es ih =>
    obtain ⟨q, h1, h2, h3, h4⟩ := ih (step_plotter h e)
    refine ⟨q, h1, h2, h3, ?_⟩
    rw [h4, List.foldl_cons]
    congr 1
    cases e with
    | setConfig j c =>
      by_cases hj : j = i
      · simp [PlotterState.current, hj]
      · simp [PlotterState.current, hj]
    | _ => rfl

theorem quiet_rc {es : List RcEvent} (h : ∀ e ∈ es, ¬ ChangesRc e) (w : RcWorld) : (w.run es).rc = w.rc := by
  induction es generalizing w with
  | nil => rfl
  | cons e es ih =>
    change ((w.step e).run es).rc = _
    rw [ih fun e h' => h e (List.mem_cons_of_mem _ h')]
    have := h e (List.mem_cons_self ..)
    cases e <;> simp [ChangesRc] at this <;> rfl

/-- **C95** (settings). Right after a plot, text is rendered by TeX and set in serif letters as the configuration says that was given to the
consumer last (or the default says); `None` leaves the setting as it was. -/
theorem C95_settings (w : RcWorld) (es : List RcEvent) :
    let i := w.plotters.length
    let before := (w.step .create).run es
    let c := lastConfig i es
    let after := before.step (.plot i)
    (after.rc.usetex = c.usetex.getD before.rc.usetex) ∧
    (∀ s, c.serif = some s → after.rc.family = [if s then "serif" else "sans-serif"]) ∧
    (c.serif = none → after.rc.family = before.rc.family) := by
  intro i before c after
  have h0 : (w.step .create).plotters[i]? = some w.rc.newPlotter := by simp [RcWorld.step, i]
  obtain ⟨q, h1, -, -, h4⟩ := run_plotter h0 es
  have hc : q.current = c := h4
  have ha : after.rc = setRcParams c before.rc := by
    change (before.step (.plot i)).rc = _
    simp only [RcWorld.step]
    have : before.plotters[i]? = some q := h1
    rw [this, ← hc]
  rw [ha]
  unfold setRcParams
  refine ⟨?_, fun s hs => ?_, fun hs => ?_⟩
  · cases c.usetex <;> cases c.serif <;> rfl
  · cases c.usetex <;> rw [hs]
  · cases c.usetex <;> rw [hs]

/-- **C95** (restoring, partial: only if nothing changes the settings between the creation of the consumer and its first plot).
`restore_rc_params` gives back the settings that the first plot of the consumer found, whatever happens after it. -/
theorem C95_restore_partial (w : RcWorld) (quiet after : List RcEvent) (hq : ∀ e ∈ quiet, ¬ ChangesRc e) :
    let i := w.plotters.length
    let found := ((w.step .create).run quiet).rc
    (((w.step .create).run (quiet ++ .plot i :: after)).step (.restore i)).rc = found := by
  intro i found
  have h0 : (w.step .create).plotters[i]? = some w.rc.newPlotter := by simp [RcWorld.step, i]
  obtain ⟨q, h1, h2, h3, -⟩ := run_plotter h0 (quiet ++ .plot i :: after)
  have hfound : found = w.rc := quiet_rc hq _
  rw [hfound]
  simp only [RcWorld.step] at h1 ⊢
  rw [h1]
  simp only [restoreRcParams, h2, h3]
  rfl

/-- In general the settings are those at the creation of the consumer. -/
theorem C95_restored (w : RcWorld) (es : List RcEvent) :
    (((w.step .create).run es).step (.restore w.plotters.length)).rc = w.rc := by
  have h0 : (w.step .create).plotters[w.plotters.length]? = some w.rc.newPlotter := by simp [RcWorld.step]
  obtain ⟨q, h1, h2, h3, -⟩ := run_plotter h0 es
  generalize hv : (w.step .create).run es = v at h1
  simp only [RcWorld.step, h1, restoreRcParams, h2, h3]
  rfl

/-- **C95** (violation). The user chooses TeX after creating the consumer and plots with a configuration that leaves the settings alone:
`restore_rc_params` switches TeX off. -/
theorem C95_violated_untouched (w : RcWorld) (h : w.rc.usetex = false) :
    let i := w.plotters.length
    let chosen : Rc := { w.rc with usetex := true }
    let es : List RcEvent := [.setConfig i ⟨none, none⟩, .user chosen, .plot i]
    ((w.step .create).run es).rc = chosen ∧ (((w.step .create).run es).step (.restore i)).rc ≠ chosen := by
  intro i chosen es
  refine ⟨?_, ?_⟩
  · have h1 : ((w.step .create).plotters.modify i fun p => { p with config := some ⟨none, none⟩ })[i]? =
        some ⟨some ⟨none, none⟩, w.rc.usetex, w.rc.family⟩ := by
      simp [RcWorld.step, i, Rc.newPlotter]
    change RcWorld.rc (RcWorld.step ⟨chosen, _⟩ (.plot i)) = _
    simp only [RcWorld.step] at h1 ⊢
    rw [h1]
    rfl
  · rw [C95_restored]
    intro he
    have := congrArg Rc.usetex he
    rw [h] at this
    cases this

/-- **C95** (violation). A second consumer is created after the first one has switched to serif letters: restoring both, the first one
first, leaves the serif letters. -/
theorem C95_violated_two (rc : Rc) (h : rc.family = ["sans-serif"]) :
    let es : List RcEvent := [.create, .setConfig 0 { serif := some true }, .plot 0, .create, .plot 1, .restore 0, .restore 1]
    (RcWorld.run ⟨rc, []⟩ es).rc.family = ["serif"] ∧ (RcWorld.run ⟨rc, []⟩ es).rc ≠ rc := by
  intro es
  have : (RcWorld.run ⟨rc, []⟩ es).rc.family = ["serif"] := rfl
  refine ⟨this, fun he => ?_⟩
  rw [he, h] at this
  exact absurd this (by decide)

/-- A session that meets the hypothesis of `C95_restore_partial`. -/
example : ∀ e ∈ [RcEvent.setConfig 0 { serif := some true }, .create], ¬ ChangesRc e := by
  intro e he
  simp only [List.mem_cons, List.not_mem_nil, or_false] at he
  rcases he with rfl | rfl <;> exact id

end CC
