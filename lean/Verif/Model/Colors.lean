import Verif.Model.Basic
import Mathlib.Algebra.Order.Floor.Defs
import Mathlib.Algebra.Order.Field.Basic

/-! # color_finder.py -/

namespace CC.Colors

/-- `ALL_COLOURS`, color_finder.py 11-34. -/
def allColours : List (String × List String) := [
  ("rose", ["#ffe4e6", "#fecdd3", "#fda4af", "#fb7185", "#f43f5e", "#e11d48", "#be123c", "#9f1239", "#881337"]),
  ("pink", ["#fce7f3", "#fbcfe8", "#f9a8d4", "#f472b6", "#ec4899", "#db2777", "#be185d", "#9d174d", "#831843"]),
  ("fuchsia", ["#fae8ff", "#f5d0fe", "#f0abfc", "#e879f9", "#d946ef", "#c026d3", "#a21caf", "#86198f", "#701a75"]),
  ("purple", ["#f3e8ff", "#e9d5ff", "#d8b4fe", "#c084fc", "#a855f7", "#9333ea", "#7e22ce", "#6b21a8", "#581c87"]),
  ("violet", ["#ede9fe", "#ddd6fe", "#c4b5fd", "#a78bfa", "#8b5cf6", "#7c3aed", "#6d28d9", "#5b21b6", "#4c1d95"]),
  ("indigo", ["#e0e7ff", "#c7d2fe", "#a5b4fc", "#818cf8", "#6366f1", "#4f46e5", "#4338ca", "#3730a3", "#312e81"]),
  ("blue", ["#dbeafe", "#bfdbfe", "#93c5fd", "#60a5fa", "#3b82f6", "#2563eb", "#1d4ed8", "#1e40af", "#1e3a8a"]),
  ("sky", ["#e0f2fe", "#bae6fd", "#7dd3fc", "#38bdf8", "#0ea5e9", "#0284c7", "#0369a1", "#075985", "#0c4a6e"]),
  ("cyan", ["#cffafe", "#a5f3fc", "#67e8f9", "#22d3ee", "#06b6d4", "#0891b2", "#0e7490", "#155e75", "#164e63"]),
  ("teal", ["#ccfbf1", "#99f6e4", "#5eead4", "#2dd4bf", "#14b8a6", "#0d9488", "#0f766e", "#115e59", "#134e4a"]),
  ("emerald", ["#d1fae5", "#a7f3d0", "#6ee7b7", "#34d399", "#10b981", "#059669", "#047857", "#065f46", "#064e3b"]),
  ("green", ["#dcfce7", "#bbf7d0", "#86efac", "#4ade80", "#22c55e", "#16a34a", "#15803d", "#166534", "#14532d"]),
  ("lime", ["#ecfccb", "#d9f99d", "#bef264", "#a3e635", "#84cc16", "#65a30d", "#4d7c0f", "#3f6212", "#365314"]),
  ("yellow", ["#fef9c3", "#fef08a", "#fde047", "#facc15", "#eab308", "#ca8a04", "#a16207", "#854d0e", "#713f12"]),
  ("amber", ["#fef3c7", "#fde68a", "#fcd34d", "#fbbf24", "#f59e0b", "#d97706", "#b45309", "#92400e", "#78350f"]),
  ("orange", ["#ffedd5", "#fed7aa", "#fdba74", "#fb923c", "#f97316", "#ea580c", "#c2410c", "#9a3412", "#7c2d12"]),
  ("red", ["#fee2e2", "#fecaca", "#fca5a5", "#f87171", "#ef4444", "#dc2626", "#b91c1c", "#991b1b", "#7f1d1d"]),
  ("warmGray", ["#f5f5f4", "#e7e5e4", "#d6d3d1", "#a8a29e", "#78716c", "#57534e", "#44403c", "#292524", "#1c1917"]),
  ("trueGray", ["#f5f5f5", "#e5e5e5", "#d4d4d4", "#a3a3a3", "#737373", "#525252", "#404040", "#262626", "#171717"]),
  ("gray", ["#f4f4f5", "#e4e4e7", "#d4d4d8", "#a1a1aa", "#71717a", "#52525b", "#3f3f46", "#27272a", "#18181b"]),
  ("coolGray", ["#f3f4f6", "#e5e7eb", "#d1d5db", "#9ca3af", "#6b7280", "#4b5563", "#374151", "#1f2937", "#111827"]),
  ("blueGray", ["#f1f5f9", "#e2e8f0", "#cbd5e1", "#94a3b8", "#64748b", "#475569", "#334155", "#1e293b", "#0f172a"])]

/-- `self.aliases`, color_finder.py 39-56. -/
def aliases : List (String × String) := [
  ("b", "blue"), ("r", "red"), ("g", "green"), ("k", "gray"), ("f", "gray"), ("m", "rose"),
  ("c", "cyan"), ("o", "orange"), ("y", "yellow"), ("a", "amber"), ("p", "purple"),
  ("e", "grey"), ("lg", "lime"), ("lb", "sky"), ("black", "gray"), ("white", "gray")]

/-- `self.default_colors`, color_finder.py 57-69. -/
def defaultColors : List String :=
  ["blue", "emerald", "red", "purple", "amber", "gray", "cyan", "teal", "green", "orange", "indigo"]

/-- `ALL_COLOURS[name][i]`; KeyError / IndexError as in Python. -/
def paletteAt (name : String) (i : Nat) : Res String :=
  match allColours.lookup name with
  | none => .error .key
  | some l => match l[i]? with
    | none => .error .index
    | some c => .ok c

/-- The sequence yielded by `next_colour`, color_finder.py 72-76. Every lookup in it succeeds
(`Props/Colors.lean`), so the generator yields these and then stops. -/
def nextColours : List (Res String) :=
  [4, 7, 2, 8, 3, 6, 1, 5].flatMap fun i => defaultColors.map fun c => paletteAt c i

/-- `format`, color_finder.py 78-96, on strings. `None` yields the first automatic colour
(lines 79-80). Simplification: `ndarray`/`list` inputs (lines 81-82) are first turned into a hex
string by `matplotlib.colors.rgb2hex`, so they are covered by passing that string.
`color[0]` on the empty string raises IndexError (line 83). -/
def format (color : Option String) : Res String :=
  match color with
  | none => match nextColours with
    | [] => .error .stopIteration
    | c :: _ => c
  | some c =>
    match c.toList with
    | [] => .error .index
    | ch :: _ =>
      if ch = '#' then .ok c
      else if (allColours.lookup c).isSome then paletteAt c 4
      else match aliases.lookup c with
        | some target =>
          -- index -1 is the last of the nine shades
          let index := if pyLower c ∈ ["k", "black"] then 8
            else if pyLower c ∈ ["f", "white"] then 0 else 4
          paletteAt target index
        | none => .error .value

/-- Value of one hexadecimal digit (`int(_, 16)`). -/
def hexVal (c : Char) : Option Nat :=
  if '0' ≤ c ∧ c ≤ '9' then some (c.toNat - '0'.toNat)
  else if 'a' ≤ c ∧ c ≤ 'f' then some (c.toNat - 'a'.toNat + 10)
  else if 'A' ≤ c ∧ c ≤ 'F' then some (c.toNat - 'A'.toNat + 10)
  else none

/-- `int(s, 16)` for a two-character string, color_finder.py 114. Simplification: Python also
accepts signs, blanks and underscores in `s`; such inputs are rejected here with ValueError. -/
def hexPair (a b : Char) : Res Nat :=
  match hexVal a, hexVal b with
  | some x, some y => .ok (16 * x + y)
  | _, _ => .error .value

/-- Lower-case hexadecimal digit. -/
def hexDigit (n : Nat) : Char :=
  if n < 10 then Char.ofNat ('0'.toNat + n) else Char.ofNat ('a'.toNat + (n - 10))

/-- `f"{n:02x}"` for `n < 256`, color_finder.py 118. -/
def hex2 (n : Nat) : List Char := [hexDigit (n / 16), hexDigit (n % 16)]

/-- `_clamp`, color_finder.py 120-125. -/
def clamp (val : Int) (minimum : Int := 0) (maximum : Int := 255) : Int :=
  if val < minimum then minimum else if val > maximum then maximum else val

/-- Python `s.strip("#")`. -/
def stripHash (l : List Char) : List Char :=
  ((l.dropWhile (· = '#')).reverse.dropWhile (· = '#')).reverse

/-- `scale_colour`, color_finder.py 110-118. `floorMul c` stands for `int(c * scalefactor)` and
`neg` for `scalefactor < 0`. -/
def scaleColourWith (neg : Bool) (floorMul : Nat → Int) (color : Option String) : Res String := do
  let hexx := stripHash (← format color).toList
  if neg ∨ hexx.length ≠ 6 then return String.ofList hexx
  match hexx with
  | [a, b, c, d, e, f] =>
    let r ← hexPair a b
    let g ← hexPair c d
    let b ← hexPair e f
    let r := clamp (floorMul r)
    let g := clamp (floorMul g)
    let b := clamp (floorMul b)
    return String.ofList ('#' :: (hex2 r.toNat ++ hex2 g.toNat ++ hex2 b.toNat))
  | _ => return String.ofList hexx

/-- `scale_colour` with a number as factor: `int(_)` truncates, which is `⌊_⌋` on the non-negative
products that reach it, color_finder.py 110-118. -/
def scaleColour {K : Type} [Field K] [LinearOrder K] [FloorRing K] (color : Option String)
    (s : K) : Res String :=
  scaleColourWith (decide (s < 0)) (fun c => ⌊(c : K) * s⌋) color

end CC.Colors
