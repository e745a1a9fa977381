import Verif.Model.Figure

/-! # plotter.py: factors and offsets of tick labels -/

namespace CC

/-- `get_xlabel()`, `get_ylabel()`, plotter.py 269, 273: the label set last, or an empty one. -/
def labelNow (d : Dir) (calls : List Call) : String :=
  calls.foldl (fun t c => match c with
    | .axisLabel e s => if e = d then s else t
    | _ => t) ""

/-- The new label, plotter.py 269 and 273. -/
def offsetLabel (label offset : String) : String :=
  label ++ " " ++ (if offset ≠ "" then "[" ++ offset ++ "]" else "")

/-- The labels set after drawing, plotter.py 266-274: horizontally in the last of `n` rows and vertically in the first column. The text
of the offset of each axis, which matplotlib finds when drawing, is a parameter. The offset is hidden in these panels and remains
where it is in the others. -/
def offsetLabels (n : Nat) (offset : Nat → Nat → Dir → String) (fig : Fig) : List ((Nat × Nat) × Dir × String) :=
  (fig.panels.filter fun p => decide (p.1.1 = n - 1)).map
    (fun p => (p.1, Dir.x, offsetLabel (labelNow .x p.2) (offset p.1.1 p.1.2 .x))) ++
  (fig.panels.filter fun p => decide (p.1.2 = 0)).map
    (fun p => (p.1, Dir.y, offsetLabel (labelNow .y p.2) (offset p.1.1 p.1.2 .y)))

end CC
