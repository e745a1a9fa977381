import Verif.Model.Basic

/-! # plotter.py: the settings of matplotlib that the plotter changes, and which configuration applies -/

namespace CC

/-- The two global settings of matplotlib concerned: `rcParams["text.usetex"]` and `rcParams["font.family"]` (plotter.py 120-121). -/
structure Rc where
  usetex : Bool
  family : List String
deriving DecidableEq

/-- The part of `PlotConfig` that concerns them, plotting/config.py 13-18. -/
structure RcConfig where
  serif : Option Bool := some false
  usetex : Option Bool := some false
deriving DecidableEq

/-- A `Plotter`, plotter.py 115-121. -/
structure PlotterState where
  config : Option RcConfig
  usetexOld : Bool
  serifOld : List String

/-- `__init__`, plotter.py 115-121. -/
def Rc.newPlotter (rc : Rc) : PlotterState := ⟨none, rc.usetex, rc.family⟩

/-- `config`, plotter.py 132-136, with the default of plotter.py 118. -/
def PlotterState.current (p : PlotterState) : RcConfig :=
  match p.config with
  | none => {}
  | some c => c

/-- `set_rc_params`, plotter.py 736-740. -/
def setRcParams (c : RcConfig) (rc : Rc) : Rc :=
  let rc := match c.usetex with
    | none => rc
    | some u => { rc with usetex := u }
  match c.serif with
    | none => rc
    | some s => { rc with family := [if s then "serif" else "sans-serif"] }

/-- `restore_rc_params`, plotter.py 742-750. -/
def restoreRcParams (p : PlotterState) (rc : Rc) : Rc := { rc with usetex := p.usetexOld, family := p.serifOld }

/-- What happens in a session: a consumer is created (with its plotter, chainconsumer.py 20-32), the settings of matplotlib are changed by
someone else, `set_plot_config` (chainconsumer.py 65-75), one of the four plots (each calls `_sanitise`, which calls `set_rc_params`,
plotter.py 726), `restore_rc_params`. -/
inductive RcEvent
  | create
  | user (rc : Rc)
  | setConfig (i : Nat) (c : RcConfig)
  | plot (i : Nat)
  | restore (i : Nat)

/-- The settings and the plotters, in the order of their creation. -/
structure RcWorld where
  rc : Rc
  plotters : List PlotterState

/-- One event (plotter.py 115-136, 726, 736-750). Events of plotters that do not exist change nothing. -/
def RcWorld.step (w : RcWorld) : RcEvent → RcWorld
  | .create => { w with plotters := w.plotters ++ [w.rc.newPlotter] }
  | .user rc => { w with rc := rc }
  | .setConfig i c => { w with plotters := w.plotters.modify i fun p => { p with config := some c } }
  | .plot i => match w.plotters[i]? with
    | none => w
    | some p => { w with rc := setRcParams p.current w.rc }
  | .restore i => match w.plotters[i]? with
    | none => w
    | some p => { w with rc := restoreRcParams p w.rc }

/-- A session (plotter.py 115-136, 726, 736-750). -/
def RcWorld.run (w : RcWorld) (es : List RcEvent) : RcWorld := es.foldl RcWorld.step w

end CC
