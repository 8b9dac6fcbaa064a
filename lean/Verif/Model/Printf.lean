import Verif.Model.Param

/-!
# Printing elements (`/repo/misc/extend_printf.c` and the `snprint`, `out_str` routines of the fields)

A buffer is a function from positions to characters; a printer gets the buffer, a position and the
number of bytes left there and returns the buffer and its status.  No printer here has a negative
status (`snprintf` of these formats does not fail); sizes are not wrapped, and positions past the end
of the buffer are only computed, never used.
-/

set_option autoImplicit false

namespace Pbc.Printf

open Param

/-- A block of memory. -/
abbrev Mem := ℕ → Char

/-- Store a text at a position. -/
def write (m : Mem) (pos : ℕ) (t : List Char) : Mem := fun i =>
  if pos ≤ i ∧ i < pos + t.length then t.getD (i - pos) '\x00' else m i

/-- A routine that prints to `s` with room for `n` bytes. -/
abbrev Printer := Mem → ℕ → ℕ → Mem × ℕ

/-- C's `snprintf(s, n, …)` and `gmp_snprintf`, for a conversion with the result `t`: at most `n`
bytes with the final NUL are stored, the length of `t` is returned. -/
def snprintf (t : List Char) : Printer := fun m pos n =>
  (if n = 0 then m else write m pos (t.take (n - 1) ++ ['\x00']), t.length)

/-- The pattern of the `snprint` routines with `clip_sub` (`/repo/ecc/curve.c:506-509`,
`/repo/arith/fieldquadratic.c:110-113`, `/repo/arith/poly.c:381-384`, `:1228-1231`) and of `next`
(`/repo/misc/extend_printf.c:140-143`): print the pieces one after the other, `result` bytes so far.
Returns the last `result`. -/
def seqFrom (m : Mem) (pos n : ℕ) : ℕ → List Printer → Mem × ℕ
  | result, [] => (m, result)
  | result, p :: ps =>
    let out := p m (pos + result) (if n ≤ result then 0 else n - result)
    seqFrom out.1 pos n (result + out.2) ps

/-- The pieces from the start. -/
def seq (ps : List Printer) : Printer := fun m pos n => seqFrom m pos n 0 ps

/-- `default_element_snprint` (`/repo/arith/field.c:543-552`): with room for one byte it stores the
digit zero, not a NUL. -/
def defaultSnprint : Printer := fun m pos n =>
  (if n = 1 then write m pos ['0'] else if 2 ≤ n then write m pos ['?', '\x00'] else m, 1)

/-- A value that can be printed. -/
inductive Val
  /-- an element of a field that prints its representative (`/repo/arith/montfp.c:177-185`,
  `/repo/arith/naivefp.c:48-50`) -/
  | num (z : ℤ)
  /-- an element of a field that has no `snprint` of its own (`/repo/arith/fastfp.c`,
  `/repo/arith/fasterfp.c`, `/repo/arith/tinyfp.c`, `/repo/arith/z.c`); `z` is its value -/
  | opaque (z : ℤ)
  /-- a quadratic extension -/
  | quad (x y : Val)
  /-- the point at infinity -/
  | inf
  /-- another point -/
  | point (x y : Val)
  /-- a polynomial or a residue of one -/
  | coeffs (l : List Val)
  /-- an element of GT (`/repo/ecc/pairing.c:187-189`) -/
  | gt (x : Val)

mutual

/-- `element_snprint` (`/repo/include/pbc_field.h:175-177`) for each kind of value: `fp_snprint`,
`default_element_snprint`, `fq_snprint` (`/repo/arith/fieldquadratic.c:105-131`), `curve_snprint`
(`/repo/ecc/curve.c:501-533`), `poly_snprint` and `polymod_snprint` (`/repo/arith/poly.c:375-404`,
`:1221-1251`), `mulg_snprint`. -/
def snprint : Val → Printer
  | .num z => snprintf (intStr z)
  | .opaque _ => defaultSnprint
  | .quad x y => seq [snprintf ['['], snprint x, snprintf [',', ' '], snprint y, snprintf [']']]
  | .inf => snprintf ['O']
  | .point x y => seq [snprintf ['['], snprint x, snprintf [',', ' '], snprint y, snprintf [']']]
  | .coeffs l => seq (snprintf ['['] :: (snprintList true l ++ [snprintf [']']]))
  | .gt x => snprint x

/-- The loop over the coefficients (`/repo/arith/poly.c:390-399`): a separator before each but the
first. -/
def snprintList (first : Bool) : List Val → List Printer
  | [] => []
  | v :: l => (if first then [] else [snprintf [',', ' ']]) ++ snprint v :: snprintList false l

end

mutual

/-- `element_out_str` to a file that accepts everything: the text and the count returned
(`fp_out_str`, `/repo/arith/montfp.c:167-175`; `fq_out_str`, `/repo/arith/fieldquadratic.c:92-103`;
`curve_out_str`, `/repo/ecc/curve.c:484-499`; `poly_out_str`, `polymod_out_str`,
`/repo/arith/poly.c:350-373`, `:1201-1219`; `mulg_out_str`, `/repo/ecc/pairing.c:158-160`). -/
def outStr : Val → List Char × ℕ
  | .num z => (intStr z, (intStr z).length)
  | .opaque z => (intStr z, (intStr z).length)
  | .quad x y => (['['] ++ (outStr x).1 ++ [',', ' '] ++ (outStr y).1 ++ [']'], (outStr x).2 + (outStr y).2)
  | .inf => (['O'], 1)
  | .point x y =>
    (['['] ++ (outStr x).1 ++ [',', ' '] ++ (outStr y).1 ++ [']'], (outStr x).2 + (outStr y).2 + 4)
  | .coeffs l => (['['] ++ (outStrList true l).1 ++ [']'], 2 + (outStrList true l).2)
  | .gt x => outStr x

/-- The loop over the coefficients (`/repo/arith/poly.c:362-370`). -/
def outStrList (first : Bool) : List Val → List Char × ℕ
  | [] => ([], 0)
  | v :: l =>
    ((if first then [] else [',', ' ']) ++ (outStr v).1 ++ (outStrList false l).1,
      (if first then 0 else 2) + (outStr v).2 + (outStrList false l).2)

end

/-! ## Formats -/

/-- What the search for a `%` finds (`/repo/misc/extend_printf.c:43-55`). -/
inductive Scan
  /-- no conversion: print the rest and stop -/
  | last (text : List Char)
  /-- a `%` at the very end: stop, printing nothing more -/
  | dangling
  /-- the text before a conversion and what follows its `%` -/
  | conv (text rest : List Char)

/-- The inner loop of `do_print` (`/repo/misc/extend_printf.c:43-55`); `acc` is the text from `start`.
A double `%` is stepped over and stays in the text. -/
def scan (acc : List Char) : List Char → Scan
  | [] => .last acc
  | ['%'] => .dangling
  | '%' :: '%' :: rest => scan (acc ++ ['%', '%']) rest
  | '%' :: c :: rest => .conv acc (c :: rest)
  | c :: rest => scan (acc ++ [c]) rest

/-- The conversion characters (`/repo/misc/extend_printf.c:79`). -/
def convChars : List Char := "diouxXeEfFgGaAcspnmZ".toList

/-- What the search for the conversion character finds (`/repo/misc/extend_printf.c:64-93`). -/
inductive Conv
  | dangling
  | element (rest : List Char)
  | format (spec rest : List Char)
  /-- `%Z` at the end of the format: the byte after the terminating NUL is overwritten -/
  | overrun

/-- `%Z` and the character after it (`/repo/misc/extend_printf.c:80-83`). -/
def convZ (spec : List Char) : List Char → Conv
  | [] => .overrun
  | d :: rest => .format (spec ++ ['Z', d]) rest

/-- The search for the conversion character (`/repo/misc/extend_printf.c:64-93`); `spec` is the text
from the `%`. -/
def findConv (spec : List Char) : List Char → Conv
  | [] => .dangling
  | c :: rest =>
    if c = 'B' then .element rest
    else if c ∈ convChars then
      if c = 'Z' then convZ spec rest
      else .format (spec ++ [c]) rest
    else findConv (spec ++ [c]) rest

/-- An argument. -/
inductive Arg
  /-- a pointer or integer for `gmp_printf`: the text each conversion makes of it -/
  | plain (text : List Char → List Char)
  | elem (v : Val)

/-- A call-back of `do_print`: its text as a printer, its text for a file and the status for a file. -/
inductive Event
  | str (t : List Char)
  | elem (v : Val)

/-- `do_print` (`/repo/misc/extend_printf.c:23-101`): the call-backs in order; none of them fails here.
`none` is an access outside the copy of the format or a wrong argument. -/
def doPrint : ℕ → List Char → List Arg → Option (List Event)
  | 0, _, _ => none
  | f + 1, fmt, args =>
    match scan [] fmt with
    | .last t => some [.str t]
    | .dangling => some []
    | .conv t rest =>
      match findConv ['%'] rest, args with
      | .dangling, _ => some [.str t]
      | .element rest', .elem v :: args' =>
        (doPrint f rest' args').map fun es => .str t :: .elem v :: es
      | .format spec rest', .plain g :: args' =>
        (doPrint f rest' args').map fun es => .str t :: .str (g spec) :: es
      | _, _ => none

/-- `string_cbv`, `format_cbv`, `element_cbv` (`/repo/misc/extend_printf.c:145-167`). -/
def printer : Event → Printer
  | .str t => snprintf t
  | .elem v => snprint v

/-- `element_vsnprintf`, `element_snprintf` (`/repo/misc/extend_printf.c:169-189`): the buffer and the
result. -/
def vsnprintf (m : Mem) (size : ℕ) (fmt : List Char) (args : List Arg) : Option (Mem × ℕ) :=
  (doPrint (fmt.length + 1) fmt args).map fun es => seq (es.map printer) m 0 size

/-- `string_cb`, `format_cb`, `element_cb` (`/repo/misc/extend_printf.c:103-114`). -/
def toFile : Event → List Char × ℕ
  | .str t => (t, t.length)
  | .elem v => outStr v

/-- `element_vfprintf`, `element_fprintf`, `element_printf` (`/repo/misc/extend_printf.c:116-138`): the
text written and the result. -/
def vfprintf (fmt : List Char) (args : List Arg) : Option (List Char × ℕ) :=
  (doPrint (fmt.length + 1) fmt args).map fun es =>
    ((es.map fun e => (toFile e).1).flatten, (es.map fun e => (toFile e).2).sum)

end Pbc.Printf
