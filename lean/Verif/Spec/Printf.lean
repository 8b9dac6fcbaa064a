import Verif.Model.Printf

/-!
# What printing should do
-/

set_option autoImplicit false

namespace Spec.Printf

open Pbc.Printf

/-- What `snprintf(buf, size, …)` promises for a full output `T`: `result` is the length of `T`; with
`size = 0` nothing is stored; otherwise the buffer starts with `T`, cut to `size - 1` characters,
followed by a NUL, and nothing else is changed. -/
def Contract (m out : Mem) (size result : ℕ) (T : List Char) : Prop :=
  result = T.length ∧
  (size = 0 → out = m) ∧
  (0 < size →
    (∀ i, i < T.length → i < size - 1 → out i = T.getD i ' ') ∧
    out (min T.length (size - 1)) = '\x00' ∧
    ∀ i, min T.length (size - 1) < i → out i = m i)

mutual

/-- The text of a value. -/
def text : Val → List Char
  | .num z => Pbc.Param.intStr z
  | .opaque z => Pbc.Param.intStr z
  | .quad x y => "[".toList ++ text x ++ ", ".toList ++ text y ++ "]".toList
  | .inf => "O".toList
  | .point x y => "[".toList ++ text x ++ ", ".toList ++ text y ++ "]".toList
  | .coeffs l => "[".toList ++ List.intercalate ", ".toList (texts l) ++ "]".toList
  | .gt x => text x

/-- The texts of several values. -/
def texts : List Val → List (List Char)
  | [] => []
  | v :: l => text v :: texts l

end

mutual

/-- No part of the value lacks a printing routine of its own. -/
def Printable : Val → Prop
  | .num _ => True
  | .opaque _ => False
  | .quad x y => Printable x ∧ Printable y
  | .inf => True
  | .point x y => Printable x ∧ Printable y
  | .coeffs l => Printables l
  | .gt x => Printable x

/-- `Printable` for several values. -/
def Printables : List Val → Prop
  | [] => True
  | v :: l => Printable v ∧ Printables l

end

mutual

/-- No part of the value is in a quadratic extension. -/
def NoQuad : Val → Prop
  | .num _ => True
  | .opaque _ => True
  | .quad _ _ => False
  | .inf => True
  | .point x y => NoQuad x ∧ NoQuad y
  | .coeffs l => NoQuads l
  | .gt x => NoQuad x

/-- `NoQuad` for several values. -/
def NoQuads : List Val → Prop
  | [] => True
  | v :: l => NoQuad v ∧ NoQuads l

end

/-- The pieces of a format. -/
inductive Piece
  /-- literal text -/
  | lit (t : List Char)
  /-- `%%` -/
  | percent
  /-- a conversion for one plain argument, like `%5ld` or `%#Zx` -/
  | plain (flags : List Char) (conv : List Char)
  /-- `%B` with optional flags, which are ignored -/
  | elem (flags : List Char)

/-- The pieces that can be used: literal text without `%`; flags that are not conversion characters,
`B` or `%`; conversions of one character, or `Z` and one more. -/
def Piece.Ok : Piece → Prop
  | .lit t => '%' ∉ t
  | .percent => True
  | .plain fl cv => (∀ c ∈ fl, c ∉ "diouxXeEfFgGaAcspnmZB%".toList) ∧
      ((∃ c ∈ "diouxXeEfFgGaAcspnm".toList, cv = [c]) ∨ ∃ d, cv = ['Z', d])
  | .elem fl => ∀ c ∈ fl, c ∉ "diouxXeEfFgGaAcspnmZB%".toList

/-- The format string. -/
def render : List Piece → List Char
  | [] => []
  | .lit t :: ps => t ++ render ps
  | .percent :: ps => '%' :: '%' :: render ps
  | .plain fl cv :: ps => '%' :: fl ++ cv ++ render ps
  | .elem fl :: ps => '%' :: fl ++ 'B' :: render ps

/-- The full output, with a given text for `%%`; `none` if the arguments do not fit the format. -/
def expand (pct : List Char) : List Piece → List Arg → Option (List Char)
  | [], _ => some []
  | .lit t :: ps, args => (expand pct ps args).map (t ++ ·)
  | .percent :: ps, args => (expand pct ps args).map (pct ++ ·)
  | .plain fl cv :: ps, .plain g :: args => (expand pct ps args).map (g ('%' :: fl ++ cv) ++ ·)
  | .elem _ :: ps, .elem v :: args => (expand pct ps args).map (text v ++ ·)
  | _, _ => none

end Spec.Printf
