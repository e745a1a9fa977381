import Verif.Model.Basic
import Mathlib.Analysis.SpecialFunctions.Complex.Arg

/-! # plotting/watermark.py: `add_watermark` -/

namespace CC

/-- The part of the configuration that `add_watermark` reads (plotting/config.py 16-18, 33-34, 49): `dpi`, `usetex`, and `usetex` among
the keywords of the text. The other keywords choose the font; the font enters through the size of the text. -/
structure WatermarkConfig where
  watermark : Option String := none
  dpi : ℝ := 300
  usetex : Option Bool := some false
  kwUsetex : Option (Option Bool) := none

/-- Width and height of a text per point of font size, in points. `TextPath(..., size=51)` is wider than `size=50` by `width` and higher by
`height` (plotting/watermark.py 35-38): outlines of letters grow in proportion to the size. -/
structure TextExtent where
  width : ℝ
  height : ℝ

/-- The call `text(px, py, watermark, rotation=..., fontsize=...)`, plotting/watermark.py 47-51. The position is relative to the figure,
or to a panel of it. -/
structure WatermarkText where
  text : String
  x : ℝ
  y : ℝ
  /-- in degrees -/
  rotation : ℝ
  fontsize : ℤ

/-- `usetex` and its default, plotting/watermark.py 29. -/
def WatermarkConfig.tex (cfg : WatermarkConfig) : Bool := ((cfg.kwUsetex.getD cfg.usetex).getD false)

/-- The font size before it is cut to an integer, plotting/watermark.py 30-44, for a figure of `dx` times `dy` pixels. -/
noncomputable def watermarkSize (cfg : WatermarkConfig) (ext : TextExtent) (onAxes : Bool) (sizeScale dx dy : ℝ) : ℝ :=
  let scale : ℝ := if cfg.tex then 1 else 8 / 10
  let dw := ext.width * (cfg.dpi / 100)
  let dh := ext.height * (cfg.dpi / 100)
  let size := Real.sqrt (dy ^ 2 + dx ^ 2) / (dh * |dy / dx| + dw) * (7 / 10) * scale * sizeScale
  if onAxes then (if cfg.tex then size * (7 / 10) else size * (8 / 10)) else size

/-- `np.arctan2(-dy, dx)` in degrees, plotting/watermark.py 23. -/
noncomputable def watermarkRotation (dx dy : ℝ) : ℝ := 180 / Real.pi * Complex.arg ⟨dx, -dy⟩

/-- `add_watermark`, plotting/watermark.py 10-52, for a figure of `w` times `h` inches. `int` cuts towards zero; sizes are not negative. -/
noncomputable def addWatermark (cfg : WatermarkConfig) (ext : String → TextExtent) (onAxes : Bool) (w h sizeScale : ℝ) :
    Option WatermarkText :=
  match cfg.watermark with
  | none => none
  | some text =>
    let dx := w * cfg.dpi
    let dy := h * cfg.dpi
    some ⟨text, 1 / 2, 1 / 2, watermarkRotation dx dy, ⌊watermarkSize cfg (ext text) onAxes sizeScale dx dy⌋⟩

/-- The watermark of `plot`, plotter.py 276-278: on the lower left panel if a figure of two parameters is flipped. -/
noncomputable def plotWatermark (cfg : WatermarkConfig) (ext : String → TextExtent) (flip : Bool) (columns : Nat) (w h : ℝ) :
    Option WatermarkText :=
  addWatermark cfg ext (flip && decide (columns = 2)) w h 1

/-- The watermark of the other figures, plotter.py 425, 528, 679. -/
noncomputable def otherWatermark (cfg : WatermarkConfig) (ext : String → TextExtent) (w h : ℝ) : Option WatermarkText :=
  addWatermark cfg ext false w h (8 / 10)

end CC
