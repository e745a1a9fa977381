import Verif.Model.Figure

/-! # plotter.py, plotting/contours.py, truth.py: what is drawn over what -/

namespace CC

/-- What an artist of a panel is: a cloud, filled contours, contour lines, their labels, a point (plotting/contours.py 53-62,
209-217, 218-227, 232, 247-255), a curve or histogram, its shading, a walk, an error bar (plotter.py 932-957, 986-1003, 1038, 668),
or a truth (plotting/truth.py 8-23). -/
inductive LayerKind
  | cloud | fill | lines | labels | point | curve | shade | walk | errorbar | truth
deriving DecidableEq

/-- An artist of a panel: what it is, the chain it belongs to (`none`: a truth), and its `zorder`. -/
structure Layer where
  kind : LayerKind
  owner : Option String
  zorder : Int
deriving DecidableEq

open Classical in
/-- The artists of one call for the chain `c`, with the argument `zorder`: plotting/contours.py 60, 208-217, 226, 229-232, 254;
plotter.py 933-935, 956, 992, 1002. No `zorder` is given to labels, walks and error bars (plotting/contours.py 232; plotter.py
1038, 668); matplotlib then takes that of the lines plus 2, 1, and 2. All labels count as one artist. -/
noncomputable def chainArtists (c : Chain ℝ) : Call → List Layer
  | .cloud .. => [⟨.cloud, some c.name, (c.cfg .zorder : Int) - 5⟩]
  | .contour .. => (if c.filled then [⟨.fill, some c.name, (c.cfg .zorder : Int) - 2⟩] else []) ++
      [⟨.lines, some c.name, (c.cfg .zorder : Int)⟩] ++
      (if c.cfg .showContourLabels then [⟨.labels, some c.name, (c.cfg .zorder : Int) + 2⟩] else [])
  | .point .. => [⟨.point, some c.name, (c.cfg .zorder : Int) + 1⟩]
  | .marginal .. => [⟨.curve, some c.name, (c.cfg .zorder : Int)⟩]
  | .shade .. => [⟨.shade, some c.name, (c.cfg .zorder : Int)⟩]
  | .walk .. => [⟨.walk, some c.name, 1⟩]
  | .errorbar .. => [⟨.errorbar, some c.name, 2⟩]
  | _ => []

/-- The name of the chain of a call (the chain passed at plotter.py 213, 228, 521, 670, the colour at 385, 407, 422, and plotting/contours.py
34-40). -/
def Call.owner : Call → Option String
  | .cloud n .. | .contour n .. | .point n .. | .marginal n .. | .shade n .. | .walk n .. | .errorbar n .. => some n
  | _ => none

/-- The artists of one call for the chain it names (plotter.py 210-216, 228, 379-387, 402-408, 417-423, 521, 670). -/
noncomputable def ownArtists (chains : List (Chain ℝ)) (call : Call) : List Layer :=
  match call.owner.bind fun n => chains.find? fun c => c.name = n with
  | none => []
  | some c => chainArtists c call

/-- The artists of one call on a panel with these chains. Calls for truths carry their own `zorder` (truth.py 66, 76). -/
noncomputable def callArtists (chains : List (Chain ℝ)) (call : Call) : List Layer :=
  match call with
  | .vline _ kw => [⟨.truth, none, kw.zorder⟩]
  | .hline _ kw => [⟨.truth, none, kw.zorder⟩]
  | .marker _ _ kw => [⟨.truth, none, kw.zorder⟩]
  | call => ownArtists chains call

/-- The artists of a panel in the order in which they are drawn: matplotlib sorts them by `zorder` and keeps the order of the
calls among equal ones (plotter.py 193-229, 371-423, 496-526, 634-672). -/
noncomputable def drawn (chains : List (Chain ℝ)) (calls : List Call) : List Layer :=
  (calls.flatMap (callArtists chains)).mergeSort fun a b => decide (a.zorder ≤ b.zorder)

end CC
