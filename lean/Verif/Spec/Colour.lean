import Mathlib.Data.Nat.Notation

/-! # Specification: six-digit hex colours -/

namespace CC.Spec

/-- The hexadecimal digits with their values, both letter cases. -/
def digits : List (Char × Nat) :=
  [('0', 0), ('1', 1), ('2', 2), ('3', 3), ('4', 4), ('5', 5), ('6', 6), ('7', 7), ('8', 8),
   ('9', 9), ('a', 10), ('b', 11), ('c', 12), ('d', 13), ('e', 14), ('f', 15),
   ('A', 10), ('B', 11), ('C', 12), ('D', 13), ('E', 14), ('F', 15)]

/-- The three channels of a colour `#rrggbb`; `none` if the string is not of that form. -/
def rgb (s : String) : Option (Nat × Nat × Nat) :=
  match s.toList with
  | ['#', r1, r0, g1, g0, b1, b0] => do
    let r1 ← digits.lookup r1
    let r0 ← digits.lookup r0
    let g1 ← digits.lookup g1
    let g0 ← digits.lookup g0
    let b1 ← digits.lookup b1
    let b0 ← digits.lookup b0
    return (16 * r1 + r0, 16 * g1 + g0, 16 * b1 + b0)
  | _ => none

end CC.Spec
