import Verif.Lemmas.ParamText
import Verif.Model.Shipped

/-! # What the texts of the parameter files say -/

set_option autoImplicit false
set_option linter.style.longLine false

namespace Pbc.Shipped

open Pbc.Param

/-- The characters of `aText`. -/
def aChars : List Char :=
  ['t', 'y', 'p', 'e', ' ', 'a', '\n', 'q', ' ', '8', '7', '8', '0', '7', '1', '0', '7', '9', '9', '6', '6', '3', '3', '1', '2', '5', '2', '2', '4', '3', '7', '7', '8', '1', '9', '8', '4', '7', '5', '4', '0', '4', '9', '8', '1', '5', '8', '0', '6', '8', '8', '3', '1', '9', '9', '4', '1', '4', '2', '0', '8', '2', '1', '1', '0', '2', '8', '6', '5', '3', '3', '9', '9', '2', '6', '6', '4', '7', '5', '6', '3', '0', '8', '8', '0', '2', '2', '2', '9', '5', '7', '0', '7', '8', '6', '2', '5', '1', '7', '9', '4', '2', '2', '6', '6', '2', '2', '2', '1', '4', '2', '3', '1', '5', '5', '8', '5', '8', '7', '6', '9', '5', '8', '2', '3', '1', '7', '4', '5', '9', '2', '7', '7', '7', '1', '3', '3', '6', '7', '3', '1', '7', '4', '8', '1', '3', '2', '4', '9', '2', '5', '1', '2', '9', '9', '9', '8', '2', '2', '4', '7', '9', '1', '\n', 'h', ' ', '1', '2', '0', '1', '6', '0', '1', '2', '2', '6', '4', '8', '9', '1', '1', '4', '6', '0', '7', '9', '3', '8', '8', '8', '2', '1', '3', '6', '6', '7', '4', '0', '5', '3', '4', '2', '0', '4', '8', '0', '2', '9', '5', '4', '4', '0', '1', '2', '5', '1', '3', '1', '1', '8', '2', '2', '9', '1', '9', '6', '1', '5', '1', '3', '1', '0', '4', '7', '2', '0', '7', '2', '8', '9', '3', '5', '9', '7', '0', '4', '5', '3', '1', '1', '0', '2', '8', '4', '4', '8', '0', '2', '1', '8', '3', '9', '0', '6', '5', '3', '7', '7', '8', '6', '7', '7', '6', '\n', 'r', ' ', '7', '3', '0', '7', '5', '0', '8', '1', '8', '6', '6', '5', '4', '5', '1', '6', '2', '1', '3', '6', '1', '1', '1', '9', '2', '4', '5', '5', '7', '1', '5', '0', '4', '9', '0', '1', '4', '0', '5', '9', '7', '6', '5', '5', '9', '6', '1', '7', '\n', 'e', 'x', 'p', '2', ' ', '1', '5', '9', '\n', 'e', 'x', 'p', '1', ' ', '1', '0', '7', '\n', 's', 'i', 'g', 'n', '1', ' ', '1', '\n', 's', 'i', 'g', 'n', '0', ' ', '1', '\n']

set_option maxRecDepth 20000 in
theorem a_chars : aText.toList = aChars := String.toList_ofList (l := aChars)

theorem a_check : checkText (pairUp (wordsOf aChars)) aChars aPar = true := by decide +kernel

/-- The characters of `a1Text`. -/
def a1Chars : List Char :=
  ['t', 'y', 'p', 'e', ' ', 'a', '1', '\n', 'p', ' ', '4', '8', '5', '1', '2', '8', '7', '5', '8', '9', '6', '3', '0', '3', '7', '5', '2', '4', '9', '9', '7', '1', '2', '2', '7', '7', '2', '5', '4', '5', '8', '9', '6', '2', '8', '5', '1', '6', '4', '1', '9', '3', '5', '2', '1', '8', '8', '2', '9', '4', '5', '2', '1', '1', '9', '8', '1', '8', '9', '5', '6', '7', '5', '1', '1', '0', '0', '9', '0', '7', '3', '1', '5', '8', '1', '1', '5', '0', '4', '5', '3', '6', '1', '2', '9', '4', '8', '3', '9', '3', '4', '7', '0', '9', '9', '3', '1', '5', '8', '9', '8', '9', '6', '0', '0', '4', '5', '3', '9', '8', '5', '2', '4', '6', '8', '2', '0', '0', '7', '3', '3', '4', '1', '6', '4', '9', '2', '8', '5', '3', '1', '5', '9', '4', '7', '9', '9', '1', '4', '9', '1', '0', '0', '5', '4', '8', '0', '3', '6', '4', '4', '5', '7', '6', '0', '1', '1', '0', '9', '1', '3', '1', '5', '7', '4', '2', '0', '6', '5', '5', '6', '9', '0', '3', '6', '1', '8', '9', '1', '2', '9', '0', '8', '5', '8', '4', '4', '1', '3', '6', '0', '8', '0', '7', '1', '5', '8', '2', '4', '7', '2', '5', '9', '4', '6', '0', '5', '0', '1', '3', '4', '3', '4', '4', '9', '1', '9', '9', '7', '1', '2', '5', '3', '2', '8', '2', '8', '0', '6', '3', '9', '4', '0', '0', '0', '8', '6', '8', '3', '7', '4', '0', '0', '4', '8', '5', '0', '0', '9', '8', '0', '4', '4', '1', '9', '8', '9', '7', '1', '3', '7', '3', '9', '6', '8', '9', '6', '5', '5', '6', '1', '0', '5', '7', '8', '4', '5', '8', '3', '8', '8', '1', '2', '6', '9', '3', '4', '2', '4', '2', '6', '3', '0', '5', '5', '7', '3', '9', '7', '6', '1', '8', '7', '7', '6', '5', '3', '9', '2', '5', '9', '\n', 'n', ' ', '3', '6', '2', '0', '3', '6', '3', '8', '7', '2', '8', '5', '8', '4', '8', '8', '9', '9', '2', '5', '1', '5', '8', '4', '1', '5', '8', '6', '1', '6', '3', '4', '0', '5', '1', '1', '3', '1', '6', '5', '6', '2', '3', '2', '9', '7', '6', '3', '3', '9', '1', '9', '4', '9', '2', '4', '0', '2', '2', '0', '6', '5', '3', '0', '6', '7', '2', '3', '1', '8', '8', '9', '2', '3', '9', '6', '6', '4', '5', '1', '7', '6', '2', '1', '6', '0', '3', '2', '7', '8', '7', '0', '9', '6', '9', '6', '3', '8', '7', '3', '0', '5', '6', '7', '1', '9', '8', '0', '5', '8', '6', '0', '0', '5', '0', '8', '9', '6', '0', '6', '9', '7', '1', '3', '8', '0', '0', '6', '3', '6', '6', '8', '6', '1', '7', '9', '0', '4', '0', '9', '7', '7', '6', '5', '2', '8', '3', '8', '5', '4', '0', '7', '2', '8', '3', '6', '6', '4', '8', '6', '0', '5', '6', '5', '2', '3', '9', '2', '9', '5', '2', '9', '1', '3', '1', '4', '8', '4', '4', '2', '4', '6', '9', '0', '9', '2', '8', '4', '5', '9', '7', '6', '1', '7', '2', '8', '2', '2', '7', '4', '0', '7', '4', '2', '2', '4', '2', '5', '4', '7', '3', '3', '9', '1', '7', '3', '1', '3', '2', '1', '8', '3', '0', '8', '0', '8', '0', '6', '4', '4', '7', '3', '1', '3', '4', '9', '7', '6', '3', '9', '8', '5', '1', '1', '0', '8', '2', '1', '6', '2', '7', '1', '9', '5', '5', '1', '4', '7', '1', '1', '7', '4', '6', '0', '3', '7', '0', '5', '6', '4', '2', '5', '8', '0', '4', '8', '1', '9', '6', '9', '2', '6', '3', '2', '0', '4', '0', '4', '7', '9', '5', '7', '5', '0', '4', '2', '8', '3', '4', '0', '4', '3', '8', '6', '3', '0', '8', '9', '\n', 'l', ' ', '1', '3', '4', '0', '\n']

set_option maxRecDepth 20000 in
theorem a1_chars : a1Text.toList = a1Chars := String.toList_ofList (l := a1Chars)

theorem a1_check : checkText (pairUp (wordsOf a1Chars)) a1Chars a1Par = true := by decide +kernel

/-- The characters of `d159Text`. -/
def d159Chars : List Char :=
  ['t', 'y', 'p', 'e', ' ', 'd', '\n', 'q', ' ', '6', '2', '5', '8', '5', '2', '8', '0', '3', '2', '8', '2', '8', '7', '1', '8', '5', '6', '0', '5', '3', '9', '2', '2', '2', '9', '7', '3', '2', '3', '8', '7', '4', '6', '6', '1', '3', '7', '8', '0', '3', '6', '4', '9', '1', '7', '1', '7', '\n', 'n', ' ', '6', '2', '5', '8', '5', '2', '8', '0', '3', '2', '8', '2', '8', '7', '1', '8', '5', '6', '0', '5', '3', '9', '2', '3', '0', '8', '8', '4', '3', '2', '4', '6', '5', '9', '9', '5', '6', '3', '4', '6', '6', '1', '2', '8', '3', '0', '6', '3', '\n', 'h', ' ', '3', '\n', 'r', ' ', '2', '0', '8', '6', '1', '7', '6', '0', '1', '0', '9', '4', '2', '9', '0', '6', '1', '8', '6', '8', '4', '6', '4', '1', '0', '2', '9', '4', '7', '7', '4', '8', '8', '6', '6', '5', '2', '1', '1', '5', '5', '3', '7', '6', '1', '0', '2', '1', '\n', 'a', ' ', '5', '8', '1', '5', '9', '5', '7', '8', '2', '0', '2', '8', '4', '3', '2', '9', '6', '1', '1', '5', '0', '7', '6', '5', '4', '2', '4', '2', '9', '3', '9', '1', '9', '6', '9', '9', '9', '7', '5', '5', '1', '3', '2', '6', '9', '2', '6', '8', '\n', 'b', ' ', '5', '1', '7', '9', '2', '1', '4', '6', '5', '8', '1', '7', '2', '4', '3', '8', '2', '8', '7', '7', '6', '5', '4', '2', '4', '3', '9', '0', '8', '1', '1', '4', '7', '8', '4', '0', '9', '5', '3', '7', '5', '3', '5', '5', '2', '3', '2', '2', '\n', 'k', ' ', '6', '\n', 'n', 'k', ' ', '6', '0', '0', '9', '4', '2', '9', '0', '3', '5', '6', '4', '0', '8', '4', '0', '7', '1', '3', '0', '9', '8', '4', '1', '6', '1', '1', '2', '7', '3', '1', '0', '0', '7', '8', '5', '1', '6', '3', '6', '0', '0', '3', '1', '8', '6', '8', '4', '1', '7', '9', '6', '8', '2', '6', '2', '9', '9', '2', '8', '6', '4', '8', '0', '9', '6', '2', '3', '5', '0', '7', '2', '6', '9', '8', '3', '3', '8', '5', '4', '6', '7', '8', '4', '1', '4', '0', '4', '6', '7', '7', '9', '8', '1', '7', '8', '4', '4', '8', '5', '3', '7', '5', '7', '0', '2', '6', '8', '5', '8', '7', '7', '4', '9', '6', '6', '3', '3', '1', '4', '3', '4', '1', '9', '8', '2', '5', '7', '5', '1', '2', '4', '5', '7', '9', '9', '3', '2', '9', '3', '2', '7', '1', '8', '4', '9', '0', '4', '3', '6', '6', '4', '6', '5', '5', '1', '4', '6', '4', '4', '3', '2', '2', '9', '0', '2', '9', '0', '6', '9', '4', '6', '3', '3', '9', '2', '0', '4', '6', '8', '3', '7', '8', '3', '0', '2', '6', '7', '9', '9', '4', '2', '2', '2', '7', '8', '9', '1', '6', '0', '0', '4', '7', '3', '3', '7', '4', '3', '2', '0', '7', '5', '2', '6', '6', '6', '1', '9', '0', '8', '2', '6', '5', '7', '6', '4', '0', '3', '6', '4', '9', '8', '6', '4', '1', '5', '4', '3', '5', '7', '4', '6', '2', '9', '4', '4', '9', '8', '1', '4', '0', '5', '8', '9', '8', '4', '4', '8', '3', '2', '6', '6', '6', '0', '8', '2', '4', '3', '4', '6', '5', '8', '5', '3', '2', '5', '8', '9', '2', '1', '1', '5', '2', '5', '6', '9', '6', '\n', 'h', 'k', ' ', '1', '3', '8', '0', '8', '0', '1', '7', '1', '1', '8', '6', '2', '2', '1', '2', '4', '8', '4', '4', '0', '3', '2', '0', '5', '6', '9', '9', '0', '0', '5', '2', '4', '2', '1', '4', '1', '5', '4', '1', '6', '2', '9', '7', '6', '1', '4', '3', '3', '8', '9', '9', '1', '4', '9', '2', '3', '6', '4', '0', '5', '2', '3', '2', '5', '2', '8', '9', '5', '6', '9', '9', '6', '8', '5', '4', '6', '5', '5', '2', '6', '1', '0', '7', '5', '3', '0', '3', '6', '6', '1', '6', '9', '1', '9', '9', '5', '2', '7', '3', '0', '8', '0', '6', '2', '0', '7', '6', '2', '2', '8', '7', '2', '7', '6', '0', '5', '1', '3', '6', '1', '4', '4', '6', '5', '2', '8', '5', '0', '4', '6', '3', '3', '2', '8', '3', '1', '5', '2', '2', '7', '8', '8', '3', '1', '1', '8', '3', '7', '1', '1', '3', '0', '1', '3', '2', '9', '7', '6', '5', '5', '9', '1', '4', '5', '0', '6', '8', '0', '2', '5', '0', '0', '0', '0', '5', '9', '2', '4', '3', '7', '6', '1', '2', '9', '7', '3', '2', '6', '9', '0', '5', '6', '\n', 'c', 'o', 'e', 'f', 'f', '0', ' ', '4', '7', '2', '7', '3', '1', '5', '0', '0', '5', '7', '1', '0', '1', '5', '1', '8', '9', '1', '5', '4', '9', '5', '8', '2', '3', '2', '3', '2', '1', '8', '6', '4', '1', '9', '9', '3', '5', '5', '7', '9', '2', '2', '2', '3', '3', '4', '7', '\n', 'c', 'o', 'e', 'f', 'f', '1', ' ', '3', '5', '2', '2', '4', '3', '9', '2', '6', '6', '9', '6', '1', '4', '5', '9', '3', '7', '5', '8', '1', '8', '9', '4', '9', '9', '4', '8', '7', '1', '0', '1', '7', '4', '5', '5', '4', '5', '3', '6', '0', '4', '7', '3', '0', '2', '4', '6', '\n', 'c', 'o', 'e', 'f', 'f', '2', ' ', '2', '8', '9', '1', '1', '3', '3', '4', '1', '6', '9', '3', '8', '7', '0', '0', '5', '7', '2', '1', '2', '7', '7', '5', '9', '9', '0', '7', '1', '9', '5', '0', '4', '2', '6', '7', '1', '8', '5', '7', '7', '2', '7', '0', '7', '3', '0', '5', '\n', 'n', 'q', 'r', ' ', '4', '3', '1', '2', '1', '1', '4', '4', '1', '4', '3', '6', '5', '8', '9', '5', '6', '8', '3', '8', '2', '0', '8', '8', '8', '6', '5', '2', '8', '8', '5', '9', '2', '3', '4', '7', '1', '9', '4', '8', '6', '6', '1', '8', '9', '6', '5', '2', '\n']

set_option maxRecDepth 20000 in
theorem d159_chars : d159Text.toList = d159Chars := String.toList_ofList (l := d159Chars)

theorem d159_check : checkText (pairUp (wordsOf d159Chars)) d159Chars d159Par = true := by decide +kernel

/-- The characters of `d201Text`. -/
def d201Chars : List Char :=
  ['t', 'y', 'p', 'e', ' ', 'd', '\n', 'q', ' ', '2', '0', '9', '4', '4', '7', '6', '2', '1', '4', '8', '4', '7', '2', '9', '5', '2', '8', '1', '5', '7', '0', '6', '7', '0', '3', '2', '0', '1', '4', '4', '6', '9', '5', '8', '8', '3', '1', '3', '1', '0', '0', '9', '7', '5', '3', '6', '0', '7', '3', '5', '0', '5', '1', '7', '8', '9', '2', '3', '5', '7', '\n', 'n', ' ', '2', '0', '9', '4', '4', '7', '6', '2', '1', '4', '8', '4', '7', '2', '9', '5', '2', '8', '1', '5', '7', '0', '6', '7', '0', '3', '2', '0', '1', '4', '3', '2', '4', '8', '6', '5', '2', '5', '9', '8', '2', '8', '6', '2', '0', '1', '8', '9', '5', '7', '4', '0', '0', '1', '9', '8', '7', '6', '4', '2', '3', '\n', 'h', ' ', '1', '1', '2', '2', '5', '9', '1', '\n', 'r', ' ', '1', '8', '6', '5', '7', '5', '1', '8', '3', '2', '0', '0', '9', '4', '2', '7', '5', '4', '8', '9', '2', '0', '9', '0', '7', '3', '6', '5', '3', '2', '1', '1', '6', '2', '0', '7', '2', '9', '1', '7', '2', '8', '3', '5', '0', '0', '3', '0', '9', '3', '2', '0', '1', '5', '3', '\n', 'a', ' ', '9', '9', '3', '7', '0', '5', '1', '6', '4', '4', '8', '8', '8', '8', '0', '3', '0', '3', '1', '3', '2', '5', '5', '2', '4', '1', '1', '4', '1', '4', '4', '3', '0', '0', '8', '5', '9', '5', '1', '7', '9', '1', '2', '3', '7', '8', '9', '2', '3', '4', '7', '7', '9', '3', '5', '5', '1', '0', '\n', 'b', ' ', '6', '6', '2', '4', '7', '0', '1', '0', '9', '6', '5', '9', '2', '5', '3', '5', '3', '5', '4', '2', '1', '7', '0', '1', '6', '0', '7', '6', '0', '9', '6', '2', '0', '0', '5', '7', '3', '0', '1', '1', '9', '4', '1', '5', '8', '5', '9', '4', '8', '9', '8', '5', '2', '9', '0', '3', '4', '0', '\n', 'k', ' ', '6', '\n', 'n', 'k', ' ', '8', '4', '4', '2', '1', '4', '0', '9', '1', '2', '1', '5', '1', '3', '2', '2', '1', '6', '4', '4', '7', '1', '6', '9', '6', '7', '2', '5', '1', '4', '9', '8', '5', '4', '3', '5', '6', '9', '9', '6', '4', '7', '6', '0', '1', '5', '0', '9', '4', '3', '9', '7', '0', '2', '8', '0', '2', '9', '6', '2', '9', '5', '4', '9', '6', '1', '6', '5', '1', '5', '4', '6', '5', '7', '0', '9', '7', '9', '8', '7', '6', '1', '7', '0', '9', '3', '9', '2', '8', '5', '9', '5', '4', '6', '7', '2', '4', '4', '3', '9', '3', '8', '7', '3', '9', '1', '3', '5', '6', '9', '3', '0', '2', '5', '9', '7', '5', '2', '1', '1', '9', '6', '1', '3', '7', '3', '7', '6', '1', '9', '2', '5', '8', '7', '2', '5', '0', '9', '3', '1', '7', '2', '7', '7', '6', '2', '6', '3', '2', '5', '6', '8', '6', '2', '0', '5', '6', '2', '8', '2', '3', '7', '1', '4', '4', '4', '1', '5', '7', '6', '4', '0', '0', '0', '9', '6', '2', '4', '8', '9', '1', '1', '2', '1', '4', '9', '4', '1', '7', '4', '2', '2', '4', '2', '1', '0', '6', '5', '1', '2', '1', '4', '9', '3', '0', '5', '0', '7', '6', '3', '2', '0', '5', '5', '5', '3', '5', '1', '6', '0', '3', '1', '4', '5', '2', '8', '5', '7', '9', '7', '9', '0', '9', '9', '4', '2', '5', '9', '6', '1', '2', '4', '8', '6', '2', '5', '9', '3', '8', '7', '7', '4', '9', '9', '0', '5', '1', '2', '1', '1', '9', '5', '2', '9', '3', '6', '4', '0', '4', '8', '2', '2', '2', '2', '8', '3', '0', '8', '1', '5', '4', '7', '7', '0', '2', '7', '2', '8', '3', '3', '2', '7', '3', '8', '3', '6', '9', '7', '5', '0', '4', '2', '6', '3', '2', '7', '6', '5', '3', '7', '7', '8', '7', '9', '5', '6', '5', '2', '2', '9', '1', '0', '9', '0', '1', '3', '2', '3', '4', '5', '5', '2', '0', '8', '3', '8', '8', '6', '9', '3', '4', '3', '7', '9', '2', '6', '4', '2', '0', '3', '2', '4', '3', '4', '4', '5', '5', '9', '0', '3', '3', '6', '\n', 'h', 'k', ' ', '2', '4', '2', '5', '1', '8', '4', '8', '3', '2', '6', '3', '6', '3', '7', '7', '1', '1', '7', '1', '2', '7', '0', '0', '2', '7', '8', '1', '4', '7', '6', '8', '6', '4', '8', '1', '1', '5', '1', '3', '6', '2', '9', '9', '3', '0', '6', '0', '3', '4', '8', '7', '5', '5', '8', '5', '1', '9', '5', '9', '3', '1', '3', '4', '6', '8', '1', '8', '9', '1', '2', '3', '7', '4', '8', '1', '5', '3', '8', '5', '2', '5', '7', '2', '6', '6', '0', '6', '8', '8', '1', '1', '3', '5', '0', '3', '9', '6', '3', '6', '5', '7', '9', '9', '2', '9', '8', '5', '8', '5', '2', '8', '7', '7', '4', '6', '7', '3', '5', '6', '8', '1', '3', '1', '4', '6', '1', '3', '2', '6', '0', '5', '6', '0', '2', '0', '3', '3', '5', '9', '2', '5', '1', '3', '3', '1', '8', '0', '5', '4', '4', '3', '3', '7', '8', '3', '2', '2', '9', '8', '7', '6', '7', '7', '5', '9', '4', '6', '1', '8', '0', '5', '7', '5', '6', '8', '3', '8', '8', '4', '0', '0', '1', '3', '4', '4', '4', '2', '7', '7', '2', '2', '3', '2', '0', '8', '6', '2', '5', '8', '7', '9', '7', '8', '4', '4', '2', '3', '8', '2', '3', '8', '6', '4', '5', '1', '3', '0', '2', '1', '2', '7', '6', '9', '3', '2', '2', '7', '7', '9', '7', '6', '2', '5', '2', '2', '6', '4', '3', '8', '0', '6', '7', '2', '0', '2', '1', '2', '2', '6', '6', '3', '0', '4', '\n', 'c', 'o', 'e', 'f', 'f', '0', ' ', '3', '6', '2', '3', '4', '5', '1', '9', '4', '7', '0', '6', '7', '2', '2', '7', '6', '5', '3', '8', '2', '5', '0', '4', '7', '1', '1', '2', '2', '1', '7', '9', '7', '1', '2', '2', '5', '8', '4', '6', '5', '7', '9', '7', '1', '0', '8', '2', '9', '7', '7', '7', '7', '8', '4', '1', '5', '8', '3', '1', '\n', 'c', 'o', 'e', 'f', 'f', '1', ' ', '8', '5', '6', '5', '7', '7', '6', '4', '8', '9', '9', '6', '6', '3', '7', '0', '3', '7', '5', '1', '7', '9', '4', '0', '6', '1', '3', '3', '0', '4', '4', '1', '1', '0', '7', '5', '7', '0', '3', '4', '9', '5', '5', '7', '4', '3', '7', '9', '4', '0', '8', '2', '6', '1', '0', '9', '1', '6', '2', '3', '\n', 'c', 'o', 'e', 'f', 'f', '2', ' ', '3', '7', '2', '7', '2', '8', '0', '6', '3', '7', '0', '5', '2', '3', '0', '4', '8', '9', '4', '0', '8', '4', '8', '0', '7', '6', '1', '1', '5', '7', '0', '8', '1', '7', '2', '4', '9', '1', '2', '1', '1', '7', '4', '1', '4', '3', '1', '1', '7', '5', '4', '6', '7', '4', '1', '5', '3', '8', '8', '6', '\n', 'n', 'q', 'r', ' ', '2', '7', '9', '2', '5', '2', '6', '5', '6', '5', '5', '5', '9', '2', '5', '2', '9', '9', '1', '2', '6', '7', '6', '8', '4', '3', '7', '7', '6', '0', '7', '0', '6', '3', '3', '3', '6', '6', '3', '6', '8', '8', '3', '8', '4', '5', '4', '7', '7', '3', '7', '1', '8', '0', '9', '2', '9', '5', '4', '2', '\n']

set_option maxRecDepth 20000 in
theorem d201_chars : d201Text.toList = d201Chars := String.toList_ofList (l := d201Chars)

theorem d201_check : checkText (pairUp (wordsOf d201Chars)) d201Chars d201Par = true := by decide +kernel

/-- The characters of `d224Text`. -/
def d224Chars : List Char :=
  ['t', 'y', 'p', 'e', ' ', 'd', '\n', 'q', ' ', '1', '5', '0', '2', '8', '7', '9', '9', '6', '1', '3', '9', '8', '5', '0', '3', '4', '4', '6', '5', '7', '5', '5', '5', '0', '6', '4', '5', '0', '7', '7', '1', '5', '6', '5', '2', '2', '9', '2', '8', '2', '8', '3', '2', '2', '1', '7', '8', '6', '0', '3', '9', '0', '1', '5', '5', '9', '9', '6', '4', '8', '3', '8', '4', '0', '0', '1', '7', '\n', 'n', ' ', '1', '5', '0', '2', '8', '7', '9', '9', '6', '1', '3', '9', '8', '5', '0', '3', '4', '4', '6', '5', '7', '5', '5', '5', '0', '6', '4', '5', '0', '7', '7', '1', '5', '6', '1', '3', '5', '2', '5', '8', '3', '2', '5', '4', '7', '4', '4', '1', '2', '5', '5', '2', '0', '6', '3', '9', '2', '9', '6', '5', '4', '1', '1', '9', '5', '0', '2', '1', '\n', 'h', ' ', '1', '\n', 'r', ' ', '1', '5', '0', '2', '8', '7', '9', '9', '6', '1', '3', '9', '8', '5', '0', '3', '4', '4', '6', '5', '7', '5', '5', '5', '0', '6', '4', '5', '0', '7', '7', '1', '5', '6', '1', '3', '5', '2', '5', '8', '3', '2', '5', '4', '7', '4', '4', '1', '2', '5', '5', '2', '0', '6', '3', '9', '2', '9', '6', '5', '4', '1', '1', '9', '5', '0', '2', '1', '\n', 'a', ' ', '1', '8', '7', '1', '2', '2', '4', '1', '6', '3', '6', '2', '4', '6', '6', '6', '6', '3', '1', '8', '6', '0', '0', '9', '2', '4', '8', '9', '1', '2', '8', '9', '3', '9', '0', '5', '9', '9', '4', '4', '9', '7', '8', '3', '4', '7', '1', '4', '2', '2', '9', '2', '1', '7', '7', '3', '2', '3', '8', '2', '5', '6', '4', '2', '0', '9', '6', '\n', 'b', ' ', '9', '7', '9', '5', '5', '0', '1', '7', '2', '3', '3', '4', '3', '3', '8', '0', '5', '4', '7', '1', '4', '4', '1', '5', '2', '0', '0', '6', '7', '7', '6', '6', '5', '3', '1', '4', '9', '3', '0', '6', '4', '6', '6', '1', '3', '8', '0', '1', '2', '7', '3', '0', '6', '4', '0', '1', '1', '4', '1', '2', '5', '6', '0', '5', '7', '0', '1', '\n', 'k', ' ', '6', '\n', 'n', 'k', ' ', '1', '1', '5', '2', '2', '4', '7', '4', '6', '9', '5', '0', '2', '5', '2', '1', '7', '3', '7', '0', '0', '6', '2', '6', '0', '3', '0', '1', '3', '7', '9', '0', '9', '8', '0', '3', '3', '4', '5', '3', '8', '0', '9', '6', '4', '2', '9', '4', '5', '5', '6', '8', '9', '1', '1', '4', '2', '2', '2', '0', '2', '4', '9', '1', '2', '1', '8', '4', '4', '3', '2', '3', '1', '9', '2', '2', '8', '3', '9', '3', '2', '0', '4', '6', '5', '0', '3', '8', '3', '6', '6', '1', '7', '8', '1', '8', '6', '4', '8', '0', '6', '0', '7', '6', '2', '4', '7', '2', '5', '9', '5', '5', '6', '3', '7', '8', '3', '5', '0', '5', '4', '1', '6', '6', '9', '9', '9', '4', '3', '4', '4', '8', '7', '8', '4', '3', '0', '1', '3', '6', '2', '0', '2', '7', '1', '4', '9', '4', '5', '7', '6', '1', '4', '8', '8', '3', '8', '5', '8', '9', '0', '6', '1', '9', '9', '2', '5', '5', '5', '3', '4', '5', '7', '6', '6', '8', '1', '5', '8', '5', '0', '4', '2', '0', '2', '7', '8', '6', '5', '8', '0', '5', '5', '9', '9', '7', '0', '9', '4', '5', '9', '3', '6', '6', '5', '7', '6', '3', '6', '8', '5', '5', '3', '4', '6', '7', '1', '3', '5', '9', '8', '8', '8', '8', '0', '6', '7', '5', '1', '6', '2', '1', '4', '6', '3', '4', '8', '5', '9', '3', '3', '0', '5', '5', '4', '6', '3', '4', '5', '0', '5', '7', '6', '7', '1', '9', '8', '4', '1', '5', '8', '5', '7', '1', '5', '0', '4', '7', '9', '3', '4', '5', '9', '4', '4', '7', '2', '1', '7', '1', '0', '3', '5', '6', '2', '7', '4', '0', '4', '7', '7', '0', '7', '5', '3', '6', '1', '5', '6', '2', '9', '6', '2', '1', '5', '5', '7', '3', '4', '1', '2', '7', '6', '3', '7', '3', '5', '1', '3', '5', '6', '0', '0', '9', '5', '3', '8', '6', '5', '4', '1', '9', '0', '0', '0', '3', '9', '8', '9', '2', '0', '2', '9', '2', '5', '3', '5', '2', '1', '5', '7', '5', '7', '2', '9', '1', '5', '3', '9', '3', '0', '7', '5', '2', '5', '6', '3', '9', '6', '7', '5', '2', '0', '4', '5', '9', '7', '9', '3', '8', '9', '1', '9', '5', '0', '4', '8', '0', '7', '4', '2', '7', '2', '3', '8', '7', '3', '5', '8', '1', '1', '5', '2', '0', '\n', 'h', 'k', ' ', '5', '1', '0', '1', '4', '9', '1', '5', '9', '3', '6', '6', '8', '4', '2', '6', '5', '6', '0', '4', '9', '0', '0', '4', '8', '7', '1', '9', '5', '2', '5', '6', '1', '6', '0', '8', '4', '8', '1', '9', '3', '5', '7', '1', '2', '4', '4', '2', '7', '4', '6', '4', '8', '8', '5', '5', '3', '3', '2', '4', '7', '5', '6', '6', '1', '6', '5', '8', '3', '0', '4', '5', '0', '6', '3', '1', '6', '3', '0', '1', '0', '0', '6', '1', '1', '2', '8', '8', '7', '1', '7', '7', '2', '7', '7', '3', '4', '5', '0', '1', '0', '8', '6', '4', '0', '1', '2', '9', '8', '8', '1', '2', '7', '8', '2', '9', '6', '5', '5', '4', '4', '9', '2', '5', '6', '4', '2', '4', '8', '7', '1', '0', '2', '4', '5', '0', '0', '3', '6', '8', '5', '9', '7', '9', '8', '9', '4', '6', '2', '3', '7', '3', '8', '1', '3', '0', '6', '2', '1', '8', '9', '2', '7', '4', '1', '5', '0', '9', '1', '6', '5', '5', '2', '6', '8', '9', '2', '6', '2', '8', '5', '2', '6', '0', '3', '2', '5', '4', '0', '1', '1', '2', '4', '8', '5', '0', '2', '3', '5', '6', '0', '4', '1', '2', '0', '6', '5', '4', '4', '2', '6', '2', '7', '5', '5', '4', '8', '1', '7', '7', '9', '1', '3', '7', '3', '9', '8', '0', '4', '0', '3', '7', '6', '2', '8', '1', '5', '4', '2', '9', '3', '8', '5', '1', '3', '9', '7', '0', '4', '7', '3', '9', '9', '0', '7', '8', '7', '0', '6', '4', '6', '1', '5', '7', '3', '4', '7', '2', '0', '\n', 'c', 'o', 'e', 'f', 'f', '0', ' ', '1', '1', '9', '7', '5', '1', '8', '9', '2', '5', '8', '2', '5', '9', '6', '9', '7', '1', '6', '6', '2', '5', '7', '0', '3', '7', '8', '2', '5', '2', '2', '7', '5', '3', '6', '9', '3', '1', '4', '4', '6', '7', '0', '7', '9', '4', '4', '6', '8', '2', '4', '7', '0', '9', '5', '1', '1', '1', '1', '8', '5', '9', '4', '4', '6', '1', '9', '2', '\n', 'c', 'o', 'e', 'f', 'f', '1', ' ', '1', '3', '4', '3', '3', '0', '4', '2', '2', '0', '0', '3', '4', '7', '9', '3', '4', '8', '2', '7', '7', '4', '2', '7', '3', '8', '0', '9', '5', '2', '4', '9', '5', '4', '6', '8', '0', '4', '0', '0', '6', '6', '8', '7', '5', '6', '2', '0', '8', '8', '2', '5', '4', '0', '5', '7', '4', '1', '1', '9', '0', '1', '3', '6', '2', '7', '7', '1', '\n', 'c', 'o', 'e', 'f', 'f', '2', ' ', '8', '3', '2', '7', '4', '6', '4', '5', '2', '1', '1', '1', '7', '7', '9', '1', '2', '3', '8', '0', '7', '9', '1', '0', '5', '1', '7', '5', '4', '4', '8', '1', '2', '2', '0', '0', '6', '7', '5', '9', '8', '6', '3', '6', '2', '5', '5', '0', '8', '0', '4', '3', '4', '9', '5', '7', '7', '0', '8', '8', '7', '4', '1', '1', '6', '1', '4', '\n', 'n', 'q', 'r', ' ', '1', '4', '2', '7', '2', '1', '3', '6', '3', '3', '0', '2', '1', '7', '6', '0', '3', '7', '3', '4', '0', '3', '4', '6', '9', '3', '6', '7', '8', '0', '0', '7', '0', '3', '5', '3', '5', '3', '8', '5', '4', '1', '5', '9', '3', '7', '7', '0', '3', '0', '1', '9', '9', '2', '9', '3', '6', '7', '4', '0', '6', '1', '6', '9', '2', '4', '\n']

set_option maxRecDepth 20000 in
theorem d224_chars : d224Text.toList = d224Chars := String.toList_ofList (l := d224Chars)

theorem d224_check : checkText (pairUp (wordsOf d224Chars)) d224Chars d224Par = true := by decide +kernel

/-- The characters of `d105171Text`. -/
def d105171Chars : List Char :=
  ['t', 'y', 'p', 'e', ' ', 'd', '\n', 'q', ' ', '9', '0', '1', '4', '4', '0', '5', '4', '1', '2', '0', '1', '0', '2', '9', '3', '7', '4', '3', '9', '1', '7', '9', '5', '1', '6', '5', '5', '1', '8', '0', '1', '1', '1', '9', '4', '4', '3', '2', '0', '7', '5', '2', '1', '9', '6', '5', '6', '5', '1', '5', '0', '8', '3', '2', '6', '9', '7', '7', '\n', 'n', ' ', '9', '0', '1', '4', '4', '0', '5', '4', '1', '2', '0', '1', '0', '2', '9', '3', '7', '4', '3', '9', '1', '7', '9', '5', '1', '6', '5', '5', '2', '1', '0', '1', '3', '5', '9', '4', '3', '7', '4', '1', '2', '3', '2', '9', '6', '2', '5', '9', '4', '8', '1', '4', '6', '4', '5', '3', '8', '0', '1', '\n', 'h', ' ', '3', '5', '2', '3', '\n', 'r', ' ', '2', '5', '5', '8', '7', '2', '9', '8', '9', '2', '7', '0', '8', '0', '0', '2', '7', '6', '5', '8', '0', '1', '2', '9', '1', '9', '8', '2', '7', '4', '4', '8', '5', '8', '3', '4', '3', '3', '8', '3', '8', '2', '9', '9', '6', '3', '8', '3', '6', '1', '6', '6', '5', '1', '8', '7', '\n', 'a', ' ', '5', '3', '2', '4', '1', '4', '6', '4', '7', '2', '4', '4', '6', '3', '6', '9', '1', '8', '9', '7', '0', '0', '1', '1', '3', '1', '0', '6', '5', '8', '5', '3', '7', '6', '2', '9', '5', '4', '2', '0', '8', '2', '7', '2', '3', '8', '8', '6', '3', '4', '8', '6', '8', '4', '8', '3', '5', '7', '3', '\n', 'b', ' ', '5', '4', '4', '6', '2', '9', '1', '7', '7', '6', '2', '7', '4', '8', '1', '5', '4', '5', '1', '6', '0', '7', '5', '8', '1', '8', '5', '9', '9', '6', '8', '8', '0', '2', '1', '5', '5', '0', '6', '9', '6', '7', '4', '2', '7', '0', '5', '3', '9', '4', '0', '9', '5', '4', '6', '7', '2', '3', '\n', 'k', ' ', '6', '\n', 'n', 'k', ' ', '5', '3', '6', '5', '6', '5', '2', '1', '7', '3', '5', '6', '7', '0', '6', '3', '4', '4', '6', '6', '3', '3', '1', '4', '4', '1', '9', '6', '5', '5', '6', '0', '1', '5', '5', '8', '6', '0', '4', '3', '7', '6', '9', '2', '2', '0', '2', '7', '5', '6', '4', '7', '0', '1', '6', '1', '8', '7', '5', '7', '2', '8', '9', '2', '7', '0', '6', '1', '4', '3', '6', '0', '5', '9', '3', '2', '9', '4', '7', '3', '9', '4', '6', '1', '5', '6', '8', '1', '3', '0', '3', '6', '2', '2', '7', '9', '7', '7', '8', '0', '8', '1', '4', '3', '7', '1', '4', '6', '2', '7', '3', '0', '8', '8', '4', '5', '7', '6', '3', '6', '6', '2', '7', '7', '6', '8', '0', '1', '2', '3', '9', '6', '5', '9', '2', '1', '6', '9', '0', '5', '9', '8', '8', '2', '6', '6', '2', '6', '8', '9', '2', '6', '1', '6', '4', '5', '9', '4', '8', '1', '1', '3', '2', '8', '5', '0', '0', '6', '8', '5', '8', '6', '1', '2', '6', '5', '4', '8', '2', '5', '8', '2', '9', '4', '5', '7', '3', '9', '5', '5', '5', '3', '8', '9', '1', '5', '4', '6', '3', '9', '7', '9', '9', '0', '6', '6', '2', '3', '5', '5', '4', '5', '4', '5', '6', '3', '7', '7', '6', '0', '4', '6', '2', '6', '5', '7', '4', '7', '8', '0', '0', '8', '7', '3', '5', '4', '2', '3', '1', '2', '2', '3', '0', '0', '7', '3', '5', '6', '6', '6', '4', '3', '9', '7', '5', '8', '2', '7', '9', '0', '8', '8', '6', '9', '7', '1', '0', '7', '1', '3', '1', '6', '1', '9', '4', '1', '9', '3', '5', '3', '7', '1', '8', '3', '0', '9', '8', '7', '7', '0', '1', '2', '7', '3', '2', '3', '9', '9', '0', '0', '9', '9', '7', '5', '3', '1', '5', '0', '1', '2', '7', '2', '4', '0', '5', '7', '2', '7', '6', '7', '0', '6', '7', '5', '4', '1', '8', '7', '0', '3', '8', '4', '2', '8', '6', '2', '6', '0', '6', '8', '2', '4', '0', '0', '0', '1', '2', '5', '0', '0', '8', '6', '4', '0', '\n', 'h', 'k', ' ', '8', '1', '9', '5', '4', '6', '5', '5', '7', '8', '0', '6', '4', '2', '3', '4', '5', '0', '3', '3', '9', '8', '4', '9', '9', '4', '0', '8', '9', '8', '1', '9', '3', '6', '6', '4', '9', '6', '9', '8', '1', '3', '6', '9', '8', '8', '7', '9', '1', '9', '2', '2', '2', '7', '8', '9', '7', '9', '1', '7', '6', '7', '1', '3', '0', '2', '3', '3', '0', '1', '8', '5', '9', '1', '4', '2', '0', '3', '8', '8', '6', '3', '0', '1', '1', '1', '3', '0', '4', '5', '6', '0', '2', '6', '2', '6', '6', '7', '6', '2', '6', '1', '5', '8', '6', '5', '8', '8', '8', '4', '0', '8', '5', '7', '2', '9', '3', '3', '8', '8', '7', '7', '9', '1', '6', '0', '1', '3', '3', '8', '2', '2', '2', '2', '9', '3', '8', '9', '0', '3', '8', '2', '1', '8', '3', '1', '8', '3', '8', '8', '5', '0', '4', '4', '4', '9', '5', '9', '5', '4', '9', '3', '6', '5', '0', '9', '3', '9', '2', '5', '7', '0', '9', '5', '9', '9', '2', '4', '4', '3', '0', '6', '2', '3', '2', '7', '8', '5', '6', '0', '3', '3', '4', '8', '2', '7', '0', '9', '2', '6', '6', '3', '1', '9', '6', '8', '7', '6', '7', '7', '2', '9', '7', '8', '5', '8', '8', '9', '1', '0', '2', '6', '0', '8', '3', '2', '7', '7', '2', '2', '8', '0', '6', '4', '4', '7', '5', '5', '5', '4', '5', '6', '0', '\n', 'c', 'o', 'e', 'f', 'f', '0', ' ', '4', '3', '9', '0', '7', '1', '3', '6', '0', '0', '6', '5', '3', '1', '2', '8', '0', '2', '9', '3', '8', '3', '8', '4', '9', '5', '4', '4', '5', '8', '5', '7', '7', '5', '8', '3', '0', '5', '3', '6', '6', '3', '9', '9', '3', '8', '3', '9', '0', '8', '3', '9', '4', '9', '2', '7', '2', '8', '8', '\n', 'c', 'o', 'e', 'f', 'f', '1', ' ', '2', '1', '7', '2', '0', '0', '8', '9', '5', '9', '2', '0', '7', '2', '6', '9', '5', '0', '0', '9', '7', '6', '5', '3', '7', '2', '8', '3', '2', '7', '8', '0', '6', '8', '5', '8', '8', '7', '1', '2', '9', '3', '7', '0', '3', '0', '0', '9', '9', '3', '3', '4', '9', '3', '4', '7', '7', '3', '8', '\n', 'c', 'o', 'e', 'f', 'f', '2', ' ', '1', '1', '7', '7', '3', '3', '7', '3', '3', '1', '8', '9', '1', '1', '3', '7', '6', '2', '8', '0', '6', '7', '7', '8', '9', '0', '7', '6', '9', '4', '1', '4', '8', '3', '4', '5', '9', '2', '0', '0', '7', '8', '7', '2', '4', '8', '6', '0', '7', '9', '5', '5', '0', '5', '2', '0', '8', '6', '0', '\n', 'n', 'q', 'r', ' ', '4', '4', '6', '8', '0', '7', '1', '6', '6', '5', '8', '5', '7', '4', '4', '1', '7', '4', '3', '4', '5', '3', '0', '0', '9', '4', '1', '6', '2', '3', '3', '4', '1', '5', '2', '3', '5', '2', '5', '4', '7', '1', '4', '6', '3', '7', '5', '5', '4', '1', '6', '2', '9', '7', '7', '3', '2', '7', '\n']

set_option maxRecDepth 20000 in
theorem d105171_chars : d105171Text.toList = d105171Chars := String.toList_ofList (l := d105171Chars)

theorem d105171_check : checkText (pairUp (wordsOf d105171Chars)) d105171Chars d105171Par = true := by decide +kernel

/-- The characters of `d277699Text`. -/
def d277699Chars : List Char :=
  ['t', 'y', 'p', 'e', ' ', 'd', '\n', 'q', ' ', '2', '4', '9', '9', '4', '3', '8', '7', '9', '4', '6', '1', '7', '7', '1', '7', '5', '1', '2', '9', '0', '4', '2', '6', '8', '5', '8', '4', '8', '4', '6', '8', '0', '4', '9', '0', '2', '6', '8', '0', '4', '9', '7', '8', '9', '1', '9', '3', '0', '5', '6', '1', '7', '\n', 'n', ' ', '2', '4', '9', '9', '4', '3', '8', '7', '9', '4', '6', '1', '7', '7', '1', '7', '5', '1', '2', '9', '0', '4', '2', '6', '8', '5', '6', '9', '0', '3', '7', '1', '9', '1', '3', '8', '8', '6', '8', '9', '3', '4', '3', '0', '4', '5', '0', '8', '1', '3', '8', '2', '1', '\n', 'h', ' ', '2', '2', '9', '\n', 'r', ' ', '1', '0', '9', '1', '4', '5', '7', '9', '8', '8', '9', '1', '6', '0', '3', '3', '8', '4', '8', '4', '2', '9', '8', '1', '1', '6', '0', '2', '1', '9', '9', '6', '4', '6', '8', '9', '4', '6', '2', '4', '1', '6', '7', '2', '6', '8', '5', '9', '4', '4', '9', '\n', 'a', ' ', '5', '9', '8', '4', '3', '8', '9', '8', '0', '5', '3', '6', '1', '5', '4', '2', '0', '2', '6', '8', '8', '7', '6', '4', '3', '4', '6', '4', '5', '0', '0', '4', '7', '6', '0', '0', '4', '0', '9', '5', '4', '8', '3', '4', '1', '9', '2', '2', '7', '7', '4', '\n', 'b', ' ', '2', '8', '7', '5', '1', '0', '5', '6', '0', '7', '6', '7', '2', '4', '1', '2', '9', '0', '0', '4', '5', '3', '5', '9', '8', '9', '7', '4', '1', '6', '1', '0', '6', '3', '2', '1', '1', '1', '2', '2', '1', '8', '2', '0', '8', '7', '0', '4', '4', '2', '2', '9', '\n', 'k', ' ', '6', '\n', 'n', 'k', ' ', '2', '4', '3', '8', '1', '1', '9', '7', '8', '2', '0', '7', '9', '7', '6', '4', '6', '6', '8', '1', '6', '3', '4', '4', '9', '6', '1', '7', '3', '6', '0', '2', '0', '8', '6', '7', '6', '5', '7', '5', '7', '1', '5', '8', '9', '7', '4', '4', '7', '1', '6', '3', '6', '9', '9', '9', '3', '6', '1', '6', '1', '6', '0', '4', '3', '0', '1', '2', '4', '8', '7', '8', '1', '8', '7', '7', '7', '7', '5', '3', '4', '5', '5', '6', '3', '3', '2', '9', '6', '8', '2', '1', '1', '2', '3', '1', '3', '4', '8', '4', '0', '5', '3', '2', '5', '5', '5', '8', '3', '6', '4', '4', '2', '0', '3', '7', '2', '0', '2', '0', '3', '8', '9', '3', '3', '4', '4', '0', '7', '6', '1', '8', '3', '9', '0', '9', '3', '4', '2', '8', '0', '1', '7', '1', '0', '6', '8', '3', '1', '7', '4', '1', '4', '5', '9', '9', '2', '7', '9', '7', '8', '0', '2', '9', '7', '4', '8', '1', '6', '2', '2', '5', '8', '0', '5', '2', '9', '5', '2', '8', '0', '5', '0', '9', '9', '2', '6', '3', '4', '2', '6', '8', '2', '6', '9', '3', '6', '3', '2', '9', '5', '4', '8', '3', '5', '6', '1', '9', '4', '5', '4', '7', '1', '3', '0', '7', '8', '2', '3', '5', '5', '3', '0', '2', '3', '0', '6', '0', '2', '2', '7', '6', '0', '2', '4', '1', '3', '1', '2', '4', '9', '2', '1', '1', '9', '5', '9', '5', '0', '7', '9', '2', '3', '4', '1', '8', '2', '2', '3', '1', '6', '7', '8', '0', '5', '4', '2', '9', '2', '5', '8', '3', '8', '2', '8', '0', '4', '4', '7', '6', '2', '9', '9', '8', '6', '1', '2', '9', '1', '6', '3', '3', '8', '2', '2', '3', '6', '8', '5', '7', '4', '3', '5', '9', '5', '2', '4', '2', '3', '2', '2', '2', '7', '2', '0', '\n', 'h', 'k', ' ', '2', '0', '4', '6', '6', '3', '7', '7', '9', '6', '0', '5', '5', '4', '4', '5', '4', '6', '6', '1', '2', '5', '0', '7', '0', '3', '9', '8', '1', '8', '5', '0', '4', '9', '5', '3', '8', '2', '8', '6', '1', '2', '1', '0', '8', '0', '4', '5', '1', '4', '5', '4', '8', '2', '5', '3', '1', '9', '7', '5', '3', '6', '0', '3', '0', '7', '3', '7', '3', '8', '8', '8', '6', '2', '0', '2', '0', '1', '5', '8', '0', '4', '0', '5', '3', '0', '9', '4', '4', '6', '2', '7', '3', '7', '1', '0', '1', '1', '6', '7', '5', '4', '1', '3', '4', '4', '6', '2', '3', '4', '2', '8', '8', '2', '1', '7', '3', '2', '4', '4', '8', '9', '9', '5', '2', '5', '3', '3', '3', '5', '7', '3', '9', '8', '1', '4', '3', '6', '7', '3', '9', '9', '0', '5', '1', '5', '8', '1', '2', '5', '6', '9', '6', '4', '9', '2', '7', '4', '1', '7', '4', '1', '0', '8', '2', '5', '7', '4', '7', '3', '7', '1', '8', '4', '5', '2', '5', '2', '6', '8', '3', '2', '6', '1', '6', '0', '6', '1', '8', '9', '4', '9', '5', '9', '4', '9', '2', '3', '5', '1', '3', '0', '5', '9', '0', '0', '4', '9', '5', '0', '3', '0', '7', '2', '0', '\n', 'c', 'o', 'e', 'f', 'f', '0', ' ', '1', '0', '0', '4', '1', '2', '4', '0', '4', '1', '6', '2', '5', '7', '1', '0', '4', '0', '0', '4', '6', '9', '8', '1', '9', '4', '3', '4', '8', '9', '9', '8', '9', '2', '2', '9', '5', '8', '4', '5', '1', '9', '5', '2', '5', '0', '9', '0', '1', '0', '1', '0', '8', '\n', 'c', 'o', 'e', 'f', 'f', '1', ' ', '6', '6', '0', '6', '0', '9', '1', '4', '4', '2', '5', '3', '6', '0', '0', '2', '6', '1', '6', '2', '7', '2', '0', '2', '4', '9', '6', '9', '8', '5', '8', '1', '9', '0', '1', '0', '6', '3', '6', '4', '2', '6', '8', '6', '6', '9', '9', '6', '2', '9', '3', '1', '\n', 'c', 'o', 'e', 'f', 'f', '2', ' ', '1', '2', '3', '6', '5', '3', '7', '2', '5', '0', '8', '1', '0', '4', '5', '9', '4', '1', '6', '2', '3', '5', '0', '0', '4', '5', '1', '9', '4', '7', '3', '2', '6', '1', '9', '1', '4', '6', '0', '0', '0', '1', '3', '6', '0', '0', '6', '9', '7', '4', '7', '2', '3', '\n', 'n', 'q', 'r', ' ', '4', '7', '1', '9', '1', '9', '0', '1', '0', '0', '3', '9', '4', '7', '9', '5', '0', '7', '0', '4', '7', '9', '6', '0', '3', '4', '0', '7', '8', '7', '5', '9', '1', '0', '1', '3', '5', '4', '7', '6', '3', '7', '3', '8', '7', '8', '2', '3', '1', '2', '8', '6', '\n']

set_option maxRecDepth 20000 in
theorem d277699_chars : d277699Text.toList = d277699Chars := String.toList_ofList (l := d277699Chars)

theorem d277699_check : checkText (pairUp (wordsOf d277699Chars)) d277699Chars d277699Par = true := by decide +kernel

/-- The characters of `d278027Text`. -/
def d278027Chars : List Char :=
  ['t', 'y', 'p', 'e', ' ', 'd', '\n', 'q', ' ', '1', '0', '2', '5', '4', '9', '5', '8', '5', '4', '3', '3', '8', '9', '9', '5', '7', '4', '9', '5', '7', '1', '8', '5', '4', '5', '6', '0', '2', '6', '7', '6', '2', '3', '5', '0', '1', '6', '7', '4', '0', '7', '7', '9', '4', '2', '9', '1', '4', '9', '1', '6', '4', '8', '4', '0', '9', '7', '\n', 'n', ' ', '1', '0', '2', '5', '4', '9', '5', '8', '5', '4', '3', '3', '8', '9', '9', '5', '7', '4', '9', '5', '7', '1', '8', '5', '4', '5', '6', '0', '2', '9', '9', '6', '4', '6', '8', '6', '5', '8', '6', '8', '6', '6', '2', '4', '2', '9', '9', '1', '1', '7', '9', '6', '8', '2', '4', '0', '3', '3', '\n', 'h', ' ', '5', '0', '7', '\n', 'r', ' ', '2', '0', '2', '2', '6', '7', '4', '2', '6', '8', '9', '1', '3', '2', '0', '6', '6', '0', '6', '6', '5', '0', '6', '0', '0', '7', '1', '0', '6', '5', '0', '1', '9', '1', '0', '5', '6', '9', '4', '0', '1', '6', '2', '5', '8', '3', '6', '5', '2', '4', '5', '9', '2', '1', '9', '\n', 'a', ' ', '4', '9', '4', '2', '6', '9', '1', '8', '5', '2', '0', '5', '9', '6', '6', '4', '1', '1', '7', '3', '7', '5', '4', '3', '7', '3', '6', '8', '9', '8', '8', '5', '0', '6', '9', '0', '6', '6', '4', '2', '9', '2', '8', '8', '6', '0', '0', '1', '6', '1', '6', '0', '3', '0', '2', '2', '6', '\n', 'b', ' ', '3', '2', '9', '5', '1', '2', '7', '9', '0', '1', '3', '7', '3', '1', '0', '9', '4', '1', '1', '5', '8', '3', '6', '2', '4', '9', '1', '2', '6', '5', '9', '0', '0', '4', '6', '0', '4', '4', '2', '8', '6', '1', '9', '2', '4', '0', '0', '1', '0', '7', '7', '3', '5', '3', '4', '8', '4', '\n', 'k', ' ', '6', '\n', 'n', 'k', ' ', '1', '1', '6', '3', '0', '6', '3', '5', '7', '3', '8', '1', '1', '2', '7', '0', '1', '6', '5', '4', '1', '8', '2', '3', '8', '0', '2', '0', '8', '8', '7', '3', '4', '6', '8', '5', '9', '6', '5', '3', '3', '9', '5', '4', '7', '3', '8', '9', '0', '4', '3', '6', '6', '2', '8', '5', '2', '6', '1', '4', '6', '5', '7', '9', '4', '6', '9', '8', '3', '5', '1', '3', '9', '8', '9', '3', '5', '9', '2', '9', '5', '1', '3', '7', '0', '3', '1', '6', '9', '8', '6', '4', '4', '2', '2', '7', '4', '1', '8', '8', '5', '2', '2', '2', '4', '0', '6', '6', '5', '1', '4', '2', '3', '1', '5', '0', '8', '8', '8', '4', '5', '2', '0', '8', '4', '7', '4', '2', '6', '3', '1', '3', '0', '9', '6', '3', '6', '9', '2', '2', '3', '1', '6', '4', '6', '6', '6', '0', '7', '4', '5', '6', '3', '2', '4', '6', '5', '0', '6', '7', '1', '9', '1', '5', '4', '6', '0', '3', '7', '5', '2', '0', '0', '9', '9', '4', '6', '7', '8', '7', '8', '9', '9', '1', '0', '3', '8', '3', '1', '7', '4', '5', '3', '2', '4', '5', '9', '8', '0', '4', '4', '7', '2', '2', '3', '4', '1', '1', '6', '5', '3', '2', '8', '5', '8', '3', '7', '9', '3', '5', '3', '9', '7', '7', '8', '4', '6', '4', '7', '4', '1', '3', '6', '2', '3', '3', '2', '1', '7', '3', '2', '5', '4', '6', '1', '3', '6', '8', '5', '0', '5', '7', '2', '7', '1', '7', '4', '1', '4', '0', '9', '2', '9', '2', '2', '1', '5', '9', '4', '2', '0', '9', '7', '9', '1', '1', '3', '5', '9', '0', '7', '1', '2', '3', '0', '9', '4', '7', '3', '3', '6', '5', '8', '5', '2', '8', '0', '9', '0', '2', '7', '7', '9', '7', '5', '7', '4', '7', '0', '3', '4', '6', '9', '3', '0', '2', '5', '1', '5', '4', '3', '9', '5', '0', '3', '9', '9', '9', '9', '2', '4', '5', '3', '9', '3', '9', '9', '0', '9', '0', '1', '7', '6', '\n', 'h', 'k', ' ', '2', '8', '4', '2', '8', '3', '4', '3', '5', '2', '6', '8', '4', '3', '7', '5', '6', '1', '3', '7', '5', '6', '1', '5', '4', '2', '7', '3', '9', '7', '9', '2', '6', '0', '3', '4', '4', '9', '1', '4', '5', '1', '5', '9', '3', '7', '2', '5', '6', '1', '3', '2', '6', '7', '7', '5', '0', '3', '2', '0', '2', '6', '9', '2', '8', '4', '9', '3', '5', '3', '2', '6', '3', '8', '2', '1', '2', '4', '5', '6', '7', '7', '6', '0', '4', '2', '9', '6', '2', '1', '9', '5', '4', '5', '0', '4', '5', '9', '5', '7', '5', '3', '7', '0', '8', '2', '5', '1', '5', '7', '2', '4', '6', '0', '5', '1', '8', '7', '2', '4', '8', '9', '0', '3', '5', '2', '3', '0', '3', '9', '1', '1', '0', '3', '5', '7', '7', '1', '1', '1', '4', '6', '5', '4', '4', '4', '6', '0', '7', '9', '5', '3', '7', '0', '1', '2', '3', '3', '4', '9', '4', '2', '4', '3', '3', '9', '7', '7', '9', '1', '4', '4', '8', '2', '6', '4', '9', '7', '8', '6', '3', '3', '0', '5', '0', '7', '0', '7', '4', '2', '3', '2', '7', '4', '5', '1', '7', '9', '4', '2', '8', '4', '1', '1', '9', '4', '7', '1', '4', '7', '1', '6', '5', '2', '8', '3', '5', '9', '3', '7', '5', '6', '1', '9', '4', '3', '8', '4', '1', '6', '2', '8', '1', '6', '\n', 'c', 'o', 'e', 'f', 'f', '0', ' ', '3', '7', '1', '1', '4', '7', '3', '9', '8', '9', '5', '7', '0', '4', '5', '5', '6', '6', '2', '9', '6', '4', '6', '9', '8', '8', '0', '0', '6', '0', '9', '2', '9', '1', '7', '7', '5', '3', '2', '6', '4', '0', '4', '7', '8', '1', '4', '9', '3', '7', '3', '6', '7', '9', '6', '4', '7', '\n', 'c', 'o', 'e', 'f', 'f', '1', ' ', '7', '9', '9', '8', '9', '3', '8', '5', '9', '9', '8', '1', '4', '3', '4', '5', '5', '3', '3', '9', '5', '4', '7', '7', '9', '2', '6', '4', '3', '7', '1', '6', '6', '9', '3', '8', '9', '9', '3', '7', '4', '6', '6', '5', '4', '0', '7', '7', '2', '8', '4', '8', '2', '5', '6', '2', '9', '\n', 'c', 'o', 'e', 'f', 'f', '2', ' ', '4', '8', '7', '9', '1', '6', '5', '1', '1', '4', '4', '1', '8', '5', '5', '3', '6', '4', '4', '7', '8', '8', '7', '5', '4', '0', '3', '8', '6', '0', '5', '3', '0', '5', '1', '1', '3', '9', '9', '8', '2', '8', '0', '1', '1', '6', '7', '1', '3', '4', '6', '8', '9', '5', '5', '6', '1', '\n', 'n', 'q', 'r', ' ', '2', '2', '9', '8', '2', '3', '5', '4', '0', '5', '4', '1', '6', '5', '0', '6', '8', '1', '5', '6', '9', '9', '3', '8', '8', '9', '4', '0', '6', '1', '9', '6', '2', '0', '4', '6', '7', '6', '2', '0', '5', '7', '0', '5', '9', '0', '5', '1', '5', '9', '3', '4', '8', '5', '2', '8', '7', '\n']

set_option maxRecDepth 20000 in
theorem d278027_chars : d278027Text.toList = d278027Chars := String.toList_ofList (l := d278027Chars)

theorem d278027_check : checkText (pairUp (wordsOf d278027Chars)) d278027Chars d278027Par = true := by decide +kernel

/-- The characters of `eText`. -/
def eChars : List Char :=
  ['t', 'y', 'p', 'e', ' ', 'e', '\n', 'q', ' ', '7', '2', '4', '5', '9', '8', '6', '1', '0', '6', '5', '1', '0', '0', '8', '6', '0', '8', '0', '7', '1', '4', '2', '0', '3', '3', '3', '3', '3', '6', '2', '0', '9', '8', '4', '3', '1', '6', '0', '8', '8', '5', '3', '3', '3', '5', '8', '6', '7', '4', '2', '5', '8', '7', '7', '9', '6', '0', '9', '1', '6', '9', '2', '8', '4', '9', '6', '6', '2', '9', '1', '8', '2', '9', '9', '1', '6', '2', '9', '6', '6', '4', '9', '0', '3', '6', '5', '4', '1', '0', '0', '2', '1', '4', '9', '0', '0', '9', '4', '6', '4', '5', '0', '0', '5', '3', '8', '7', '2', '7', '8', '6', '6', '2', '9', '9', '9', '5', '8', '6', '9', '4', '4', '5', '6', '9', '3', '7', '2', '4', '0', '0', '1', '2', '9', '9', '0', '4', '1', '6', '5', '7', '4', '3', '4', '9', '4', '8', '2', '5', '7', '8', '4', '5', '6', '4', '4', '9', '0', '5', '1', '5', '3', '1', '2', '2', '8', '3', '8', '4', '5', '8', '8', '6', '4', '0', '0', '0', '4', '7', '9', '3', '2', '6', '6', '9', '5', '4', '3', '0', '7', '1', '9', '2', '5', '8', '6', '0', '0', '0', '5', '3', '2', '3', '9', '9', '3', '0', '4', '8', '3', '2', '2', '6', '6', '5', '0', '9', '5', '3', '7', '7', '0', '3', '5', '4', '1', '7', '4', '7', '1', '2', '5', '1', '1', '6', '4', '6', '2', '7', '3', '5', '1', '6', '9', '7', '4', '0', '6', '9', '2', '4', '5', '4', '6', '2', '5', '3', '4', '0', '3', '4', '0', '8', '5', '8', '9', '5', '3', '1', '9', '2', '2', '5', '4', '5', '2', '1', '2', '5', '6', '4', '9', '9', '7', '9', '4', '7', '4', '0', '4', '7', '1', '6', '3', '3', '0', '5', '3', '0', '7', '8', '3', '0', '0', '0', '1', '\n', 'r', ' ', '7', '3', '0', '7', '5', '0', '8', '6', '2', '2', '2', '1', '5', '9', '4', '4', '2', '4', '9', '8', '1', '9', '6', '5', '7', '3', '9', '6', '7', '0', '0', '9', '1', '2', '6', '1', '0', '9', '4', '2', '9', '7', '3', '3', '7', '8', '5', '7', '\n', 'h', ' ', '1', '3', '5', '6', '9', '3', '4', '3', '1', '1', '0', '9', '1', '8', '7', '8', '1', '8', '3', '9', '8', '3', '5', '2', '4', '9', '0', '2', '1', '4', '8', '2', '9', '7', '0', '2', '5', '2', '6', '0', '3', '2', '1', '6', '5', '8', '7', '9', '8', '8', '0', '3', '0', '0', '4', '4', '8', '3', '6', '1', '0', '6', '9', '4', '8', '8', '2', '5', '5', '1', '6', '9', '3', '0', '1', '7', '3', '2', '7', '0', '9', '7', '8', '6', '1', '7', '4', '8', '9', '0', '3', '2', '3', '3', '4', '0', '0', '1', '0', '0', '6', '6', '1', '5', '5', '2', '4', '5', '4', '3', '9', '2', '5', '7', '5', '3', '7', '2', '5', '7', '2', '5', '0', '4', '6', '7', '3', '3', '8', '8', '4', '3', '6', '3', '8', '4', '6', '9', '6', '0', '4', '7', '0', '4', '4', '4', '4', '0', '4', '7', '4', '7', '2', '4', '1', '2', '8', '7', '7', '4', '3', '7', '7', '3', '7', '4', '6', '6', '8', '2', '1', '8', '8', '5', '2', '1', '7', '3', '8', '7', '2', '8', '7', '9', '7', '1', '5', '3', '7', '6', '0', '2', '7', '5', '1', '1', '6', '9', '2', '4', '8', '2', '9', '1', '8', '3', '6', '7', '0', '0', '0', '0', '\n', 'a', ' ', '7', '1', '3', '0', '9', '7', '0', '4', '5', '4', '0', '2', '5', '7', '9', '9', '0', '0', '0', '0', '6', '7', '9', '4', '6', '1', '3', '7', '5', '9', '4', '4', '4', '6', '0', '7', '5', '5', '5', '1', '5', '6', '9', '9', '4', '9', '5', '8', '3', '8', '1', '5', '9', '4', '3', '3', '9', '0', '1', '0', '8', '7', '2', '3', '2', '8', '2', '3', '9', '6', '9', '7', '3', '7', '3', '7', '7', '9', '4', '2', '7', '3', '3', '9', '7', '2', '4', '6', '8', '9', '2', '2', '7', '4', '9', '8', '1', '8', '8', '3', '8', '0', '7', '9', '8', '9', '5', '2', '5', '5', '9', '9', '5', '4', '0', '6', '3', '0', '8', '5', '5', '6', '4', '4', '9', '6', '8', '4', '2', '6', '7', '9', '4', '9', '2', '9', '2', '1', '5', '5', '9', '9', '3', '8', '0', '4', '2', '5', '2', '6', '9', '6', '2', '5', '8', '7', '2', '7', '6', '3', '8', '0', '1', '4', '8', '5', '9', '6', '8', '0', '0', '7', '1', '3', '6', '0', '0', '0', '4', '7', '1', '7', '1', '8', '3', '3', '5', '1', '8', '5', '7', '8', '7', '2', '0', '6', '8', '7', '6', '2', '4', '2', '8', '7', '1', '0', '4', '2', '6', '9', '7', '7', '7', '8', '6', '0', '8', '8', '7', '5', '1', '3', '9', '0', '7', '8', '7', '1', '1', '6', '2', '1', '8', '3', '6', '8', '5', '8', '2', '3', '7', '4', '2', '9', '4', '0', '3', '0', '5', '2', '2', '7', '3', '3', '1', '2', '3', '3', '5', '0', '8', '1', '1', '6', '3', '8', '9', '6', '9', '8', '0', '8', '2', '5', '0', '4', '8', '1', '2', '3', '6', '5', '5', '5', '3', '5', '3', '5', '5', '4', '1', '1', '4', '9', '4', '0', '4', '6', '4', '9', '3', '4', '1', '9', '9', '9', '9', '\n', 'b', ' ', '7', '1', '6', '9', '3', '0', '9', '0', '0', '4', '8', '5', '3', '8', '9', '4', '6', '9', '3', '6', '1', '6', '6', '9', '8', '5', '3', '6', '1', '8', '3', '6', '6', '3', '5', '2', '7', '5', '7', '0', '6', '6', '4', '4', '1', '1', '6', '7', '8', '3', '5', '2', '5', '8', '8', '2', '4', '7', '0', '4', '4', '7', '9', '1', '6', '8', '7', '1', '4', '1', '0', '4', '3', '4', '8', '9', '0', '7', '2', '7', '3', '7', '2', '3', '2', '7', '1', '5', '9', '6', '1', '5', '8', '8', '2', '8', '8', '2', '3', '8', '0', '2', '2', '0', '1', '0', '9', '7', '4', '6', '6', '1', '9', '0', '3', '7', '5', '2', '5', '2', '6', '9', '1', '1', '8', '7', '6', '8', '5', '9', '1', '9', '7', '0', '5', '2', '4', '9', '0', '9', '5', '2', '0', '6', '5', '2', '6', '6', '2', '6', '5', '6', '9', '9', '1', '3', '0', '1', '4', '4', '2', '5', '2', '0', '3', '1', '5', '9', '1', '4', '9', '1', '0', '4', '5', '3', '3', '3', '8', '0', '7', '5', '8', '7', '7', '8', '8', '6', '0', '0', '7', '6', '4', '5', '5', '7', '4', '5', '0', '8', '4', '6', '3', '2', '7', '3', '3', '8', '6', '2', '6', '2', '6', '1', '2', '8', '9', '5', '6', '8', '0', '1', '6', '1', '7', '0', '5', '3', '2', '6', '5', '2', '0', '6', '1', '7', '8', '7', '5', '8', '2', '7', '9', '1', '9', '2', '6', '7', '2', '4', '5', '9', '7', '3', '6', '2', '4', '0', '1', '3', '9', '8', '8', '0', '4', '5', '6', '3', '0', '9', '3', '6', '2', '5', '1', '8', '2', '7', '9', '0', '9', '8', '7', '0', '1', '6', '7', '2', '8', '2', '9', '0', '0', '5', '0', '4', '6', '6', '0', '9', '8', '2', '2', '3', '3', '3', '3', '\n', 'e', 'x', 'p', '2', ' ', '1', '5', '9', '\n', 'e', 'x', 'p', '1', ' ', '1', '3', '5', '\n', 's', 'i', 'g', 'n', '1', ' ', '1', '\n', 's', 'i', 'g', 'n', '0', ' ', '1', '\n']

set_option maxRecDepth 20000 in
theorem e_chars : eText.toList = eChars := String.toList_ofList (l := eChars)

theorem e_check : checkText (pairUp (wordsOf eChars)) eChars ePar = true := by decide +kernel

/-- The characters of `fText`. -/
def fChars : List Char :=
  ['t', 'y', 'p', 'e', ' ', 'f', '\n', 'q', ' ', '2', '0', '5', '5', '2', '3', '6', '6', '7', '8', '9', '6', '9', '5', '3', '3', '0', '0', '1', '9', '4', '8', '9', '6', '3', '5', '2', '4', '2', '9', '2', '5', '4', '9', '2', '0', '9', '7', '2', '5', '4', '0', '0', '6', '5', '2', '2', '3', '\n', 'r', ' ', '2', '0', '5', '5', '2', '3', '6', '6', '7', '8', '9', '6', '9', '5', '3', '3', '0', '0', '1', '9', '4', '8', '9', '5', '8', '9', '9', '0', '8', '2', '0', '7', '2', '4', '0', '3', '8', '5', '8', '3', '9', '0', '2', '5', '2', '9', '2', '9', '\n', 'b', ' ', '4', '0', '2', '1', '8', '1', '0', '5', '1', '5', '6', '8', '6', '7', '7', '2', '8', '6', '9', '8', '5', '7', '3', '6', '6', '8', '5', '2', '5', '8', '8', '3', '1', '6', '8', '2', '2', '2', '1', '1', '9', '5', '1', '5', '4', '1', '3', '\n', 'b', 'e', 't', 'a', ' ', '1', '1', '5', '3', '3', '4', '4', '0', '1', '9', '5', '6', '8', '0', '2', '8', '0', '2', '0', '7', '5', '5', '9', '5', '6', '8', '2', '8', '0', '1', '3', '3', '5', '6', '4', '4', '0', '5', '8', '7', '9', '6', '9', '1', '4', '2', '6', '8', '\n', 'a', 'l', 'p', 'h', 'a', '0', ' ', '1', '9', '1', '0', '7', '9', '3', '5', '4', '6', '5', '6', '2', '7', '4', '7', '7', '8', '8', '3', '7', '7', '6', '4', '0', '1', '5', '5', '5', '7', '3', '3', '8', '3', '0', '1', '3', '7', '5', '9', '6', '3', '1', '6', '8', '4', '7', '0', '\n', 'a', 'l', 'p', 'h', 'a', '1', ' ', '7', '1', '4', '4', '5', '3', '1', '7', '9', '0', '3', '6', '9', '6', '3', '4', '0', '2', '9', '6', '1', '9', '9', '5', '5', '6', '0', '7', '2', '8', '3', '6', '9', '4', '0', '7', '4', '1', '7', '1', '7', '5', '0', '6', '3', '7', '5', '\n']

set_option maxRecDepth 20000 in
theorem f_chars : fText.toList = fChars := String.toList_ofList (l := fChars)

theorem f_check : checkText (pairUp (wordsOf fChars)) fChars fPar = true := by decide +kernel

/-- The characters of `g149Text`. -/
def g149Chars : List Char :=
  ['t', 'y', 'p', 'e', ' ', 'g', '\n', 'q', ' ', '5', '0', '3', '1', '8', '9', '8', '9', '9', '0', '9', '7', '3', '8', '5', '5', '3', '2', '5', '9', '8', '6', '1', '5', '9', '4', '8', '5', '6', '7', '9', '7', '5', '4', '3', '2', '7', '4', '0', '9', '6', '7', '2', '0', '3', '\n', 'n', ' ', '5', '0', '3', '1', '8', '9', '8', '9', '9', '0', '9', '7', '3', '8', '5', '5', '3', '2', '5', '9', '8', '5', '7', '1', '0', '8', '4', '7', '7', '8', '6', '0', '8', '1', '7', '6', '4', '1', '0', '9', '7', '3', '3', '5', '1', '\n', 'h', ' ', '1', '\n', 'r', ' ', '5', '0', '3', '1', '8', '9', '8', '9', '9', '0', '9', '7', '3', '8', '5', '5', '3', '2', '5', '9', '8', '5', '7', '1', '0', '8', '4', '7', '7', '8', '6', '0', '8', '1', '7', '6', '4', '1', '0', '9', '7', '3', '3', '5', '1', '\n', 'a', ' ', '4', '6', '5', '1', '9', '7', '9', '9', '8', '4', '9', '8', '4', '4', '0', '9', '0', '9', '2', '4', '4', '7', '8', '2', '4', '3', '3', '6', '2', '7', '1', '8', '0', '7', '5', '7', '4', '8', '1', '0', '5', '8', '3', '2', '1', '\n', 'b', ' ', '4', '6', '3', '0', '7', '4', '5', '1', '7', '1', '2', '6', '1', '1', '0', '4', '7', '9', '4', '0', '9', '3', '7', '4', '6', '7', '0', '8', '7', '1', '3', '4', '6', '7', '0', '1', '4', '4', '8', '5', '0', '3', '0', '6', '4', '\n', 'k', ' ', '1', '0', '\n', 'n', 'k', ' ', '1', '0', '4', '0', '6', '8', '4', '6', '4', '3', '5', '3', '1', '4', '9', '0', '7', '0', '7', '4', '9', '4', '9', '8', '9', '5', '8', '7', '3', '8', '1', '6', '2', '9', '9', '5', '6', '8', '3', '2', '5', '3', '0', '3', '1', '1', '9', '7', '6', '1', '4', '6', '0', '7', '7', '8', '8', '8', '0', '9', '5', '7', '9', '5', '4', '5', '8', '7', '0', '9', '5', '1', '1', '7', '8', '9', '6', '7', '0', '0', '2', '2', '3', '8', '8', '3', '2', '6', '2', '9', '5', '1', '7', '7', '4', '2', '4', '0', '6', '5', '8', '0', '7', '6', '1', '2', '8', '7', '9', '3', '7', '1', '8', '9', '6', '9', '8', '2', '1', '8', '5', '4', '7', '3', '7', '8', '8', '9', '8', '8', '0', '1', '6', '1', '9', '0', '5', '8', '2', '0', '7', '3', '5', '9', '1', '3', '1', '6', '1', '2', '7', '3', '9', '6', '3', '7', '4', '8', '6', '0', '2', '6', '5', '8', '3', '5', '6', '4', '1', '0', '4', '4', '0', '3', '5', '6', '5', '6', '0', '4', '4', '5', '2', '4', '4', '8', '1', '1', '2', '1', '5', '2', '8', '8', '4', '6', '2', '4', '9', '5', '0', '1', '6', '5', '5', '5', '2', '7', '4', '6', '2', '2', '0', '2', '9', '9', '9', '6', '3', '8', '1', '5', '9', '7', '7', '3', '7', '3', '1', '8', '3', '0', '3', '7', '5', '6', '7', '3', '0', '7', '6', '3', '1', '7', '7', '1', '9', '5', '1', '9', '9', '7', '7', '1', '8', '3', '3', '7', '3', '3', '5', '3', '7', '9', '1', '1', '1', '9', '3', '8', '8', '3', '8', '8', '4', '6', '8', '7', '4', '5', '6', '7', '0', '8', '1', '8', '1', '9', '3', '8', '6', '8', '5', '3', '2', '4', '0', '4', '3', '9', '2', '4', '5', '2', '8', '1', '6', '6', '0', '2', '5', '3', '8', '9', '6', '8', '1', '6', '3', '2', '2', '6', '7', '1', '3', '8', '4', '6', '9', '5', '1', '5', '1', '4', '8', '3', '1', '9', '1', '7', '4', '8', '7', '4', '0', '0', '2', '6', '7', '5', '9', '0', '4', '5', '1', '8', '6', '7', '7', '4', '6', '1', '2', '0', '5', '9', '1', '7', '5', '0', '9', '0', '2', '0', '4', '0', '2', '6', '7', '8', '2', '6', '3', '5', '1', '9', '8', '2', '7', '3', '7', '6', '4', '2', '6', '8', '9', '4', '2', '3', '7', '1', '3', '1', '6', '3', '9', '6', '7', '3', '8', '4', '3', '8', '3', '1', '0', '5', '6', '7', '8', '3', '6', '7', '8', '7', '5', '9', '8', '1', '3', '4', '8', '3', '9', '7', '3', '5', '9', '4', '6', '6', '3', '3', '8', '8', '0', '7', '\n', 'h', 'k', ' ', '4', '1', '1', '0', '1', '2', '7', '7', '1', '3', '6', '9', '0', '8', '4', '1', '1', '4', '9', '7', '1', '3', '3', '1', '0', '6', '1', '4', '4', '2', '0', '8', '5', '8', '8', '8', '4', '6', '5', '1', '2', '6', '1', '7', '8', '1', '1', '8', '5', '4', '4', '2', '5', '5', '1', '9', '2', '7', '0', '8', '0', '0', '8', '3', '1', '7', '8', '6', '8', '2', '9', '6', '5', '1', '7', '1', '0', '9', '7', '1', '7', '2', '3', '6', '6', '5', '9', '8', '2', '3', '6', '1', '2', '9', '7', '3', '1', '9', '3', '1', '6', '9', '3', '4', '2', '5', '6', '2', '9', '3', '8', '7', '5', '0', '2', '2', '2', '1', '8', '0', '4', '5', '5', '5', '6', '3', '6', '7', '0', '4', '7', '0', '8', '0', '0', '8', '8', '8', '2', '8', '1', '1', '3', '5', '3', '5', '3', '9', '5', '5', '5', '9', '1', '5', '0', '6', '4', '0', '4', '9', '6', '8', '5', '6', '6', '3', '7', '9', '0', '3', '5', '5', '7', '1', '6', '1', '3', '0', '2', '6', '2', '3', '3', '2', '0', '6', '4', '3', '2', '7', '7', '6', '7', '6', '9', '5', '3', '3', '9', '4', '2', '2', '3', '2', '3', '4', '6', '0', '4', '5', '8', '4', '7', '9', '8', '8', '4', '7', '5', '6', '0', '0', '0', '7', '8', '2', '9', '3', '9', '4', '2', '8', '8', '5', '2', '1', '2', '0', '5', '2', '2', '7', '1', '2', '0', '0', '8', '0', '3', '7', '6', '1', '5', '0', '5', '1', '1', '3', '9', '0', '8', '0', '6', '2', '8', '7', '3', '4', '5', '6', '6', '8', '5', '0', '2', '5', '9', '7', '0', '4', '3', '9', '7', '6', '4', '3', '0', '2', '8', '0', '1', '7', '4', '3', '5', '4', '4', '6', '1', '1', '0', '3', '2', '2', '0', '2', '4', '0', '9', '4', '2', '5', '9', '8', '5', '8', '1', '7', '0', '3', '0', '3', '6', '0', '5', '7', '0', '3', '2', '8', '0', '3', '2', '9', '3', '2', '2', '6', '7', '5', '1', '2', '4', '7', '2', '8', '6', '3', '9', '5', '3', '2', '6', '7', '4', '4', '0', '7', '\n', 'c', 'o', 'e', 'f', 'f', '0', ' ', '6', '7', '3', '4', '3', '1', '1', '0', '9', '6', '7', '8', '0', '2', '9', '4', '7', '6', '7', '7', '8', '4', '5', '8', '9', '7', '2', '1', '6', '5', '6', '5', '8', '0', '3', '1', '5', '2', '3', '1', '9', '2', '5', '0', '\n', 'c', 'o', 'e', 'f', 'f', '1', ' ', '1', '1', '5', '9', '3', '6', '7', '7', '2', '8', '3', '4', '1', '2', '0', '2', '7', '0', '8', '6', '2', '7', '5', '6', '6', '3', '6', '1', '4', '8', '1', '6', '6', '3', '1', '4', '9', '1', '6', '8', '2', '3', '2', '2', '1', '\n', 'c', 'o', 'e', 'f', 'f', '2', ' ', '8', '7', '3', '8', '7', '8', '7', '7', '4', '2', '5', '0', '7', '6', '0', '8', '0', '4', '3', '3', '5', '5', '9', '9', '2', '7', '0', '8', '0', '6', '6', '2', '3', '3', '9', '2', '1', '5', '6', '9', '6', '5', '0', '5', '\n', 'c', 'o', 'e', 'f', 'f', '3', ' ', '4', '3', '3', '2', '2', '3', '1', '4', '5', '8', '9', '9', '0', '9', '0', '9', '2', '8', '1', '3', '2', '0', '5', '2', '6', '7', '7', '1', '2', '1', '6', '9', '2', '6', '8', '3', '0', '1', '5', '0', '5', '8', '9', '0', '9', '\n', 'c', 'o', 'e', 'f', 'f', '4', ' ', '4', '0', '5', '3', '6', '7', '8', '6', '6', '2', '1', '3', '5', '9', '8', '6', '6', '4', '8', '6', '2', '4', '1', '7', '2', '3', '0', '7', '0', '2', '9', '3', '5', '3', '1', '0', '3', '2', '8', '6', '1', '3', '5', '9', '6', '\n', 'n', 'q', 'r', ' ', '2', '2', '2', '0', '4', '5', '0', '4', '1', '6', '0', '5', '6', '0', '7', '8', '5', '6', '8', '7', '1', '9', '8', '0', '8', '0', '4', '1', '3', '5', '7', '9', '0', '2', '1', '8', '6', '5', '7', '8', '3', '0', '9', '9', '\n']

set_option maxRecDepth 20000 in
theorem g149_chars : g149Text.toList = g149Chars := String.toList_ofList (l := g149Chars)

theorem g149_check : checkText (pairUp (wordsOf g149Chars)) g149Chars g149Par = true := by decide +kernel

/-- The characters of `iText`. -/
def iChars : List Char :=
  ['t', 'y', 'p', 'e', ' ', 'i', '\n', 'm', ' ', '9', '7', '\n', 't', ' ', '1', '2', '\n', 'n', ' ', '2', '7', '2', '6', '8', '6', '5', '1', '8', '9', '0', '5', '8', '2', '6', '1', '0', '1', '0', '7', '7', '4', '9', '6', '0', '7', '9', '8', '1', '3', '4', '9', '7', '6', '1', '8', '7', '1', '7', '1', '4', '6', '2', '7', '2', '1', '\n', 'n', '2', ' ', '7', '\n']

set_option maxRecDepth 20000 in
theorem i_chars : iText.toList = iChars := String.toList_ofList (l := iChars)

theorem i_check : checkText (pairUp (wordsOf iChars)) iChars iPar = true := by decide +kernel


end Pbc.Shipped
