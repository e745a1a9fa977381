import Verif.Model.Basic

/-! # LaTeX table frame and Python string formatting -/

namespace CC

/-- `get_latex_table_frame`, helpers.py 133-141. -/
def latexFrame (caption label : String) : String :=
  "\\begin{table}\n    \\centering\n    \\caption{" ++ caption ++ "}\n    \\label{" ++ label ++
    "}\n    \\begin{tabular}{%s}\n        %s    \\end{tabular}\n\\end{table}"

/-- Python `fmt % args` for a tuple of strings, on characters: `%s` takes the next argument, `%%` is
a percent sign, too few or too many arguments raise TypeError. Simplification: every other
conversion raises here at once. In Python some of them (such as `% s` or `%r`) first take an
argument; in the frames above two `%s` follow, so the call then raises TypeError for lack of
arguments. -/
def pyModChars : List Char → List String → Res (List Char)
  | [], [] => .ok []
  | [], _ :: _ => .error .type
  | '%' :: '%' :: cs, as => do return '%' :: (← pyModChars cs as)
  | '%' :: 's' :: cs, a :: as => do return a.toList ++ (← pyModChars cs as)
  | '%' :: _, _ => .error .type
  | c :: cs, as => do return c :: (← pyModChars cs as)

/-- Python `fmt % args` for a tuple of strings. -/
def pyMod (fmt : String) (args : List String) : Res String := do
  return String.ofList (← pyModChars fmt.toList args)

/-- Python `s * n` for a one-character string. -/
def repeatChar (c : Char) (n : Nat) : String := String.ofList (List.replicate n c)

end CC
