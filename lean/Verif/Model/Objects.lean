import Mathlib.Data.Finset.Basic
import Mathlib.Data.Nat.Size

/-!
# What the objects of the library are made of

For every kind of object: the parts its set-up routine allocates or initialises, in the order of the code, and the parts
its clear routine releases, in the order of the code.  A part is an `mpz_t`, an element, a field or a block of
`pbc_malloc`; parts that have a set-up and clear routine of their own count as one (they are objects of this file too).
The values stored are not modelled here.  `over n` lists the parts that must exist when `n` is made (the block `n` lies
in, the field it is an element of, the field it is built on).  `needs n` lists the parts the clear routine of `n` reads:
the block `n` lies in, and for everything made of elements of a polynomial extension field that field, since
`polymod_clear` (`/repo/arith/poly.c:766-774`) reads the degree from it; the clear routines of all other elements do not
look at their field (`/repo/arith/naivefp.c`, `fastfp.c`, `fasterfp.c`, `montfp.c`, `tinyfp.c`: `fp_clear`;
`/repo/arith/fieldquadratic.c:45-50`, `/repo/arith/poly.c:74-80`, `/repo/ecc/curve.c:50-55`).
-/

set_option autoImplicit false

namespace Pbc.Obj

/-- Names of parts: the struct members of the C code; `oob` is a place outside the block it should be in. -/
inductive Nm
  | data | r | q | h | n | p | a | b | nk | hk | nqr | nqrBlock | coeff | coeffAt (i : ℕ) | beta | alpha0 | alpha1 | n2
  | Zr | Fq | Fq2 | Fq2x | Fq12 | Fqx | Fqd | Fqk | E | Etwist | GT | G1 | G1Block | phikonr | tateexp | xpowq (i : ℕ)
  | nqrinv | nqrinv2 | negalpha | negalphainv | R | gf3m | gf32m | gf36m | seq | x | y | minx | miny
  | order | poly | xpwr | gen | genNoCofac | cofac | cofacBlock | quot | quotBlock
  | table | block (i : ℕ) | item (i j : ℕ) | str (i : ℕ) | oob
  deriving DecidableEq

/-- An object: what set-up makes, in order; what must exist for that; what clearing releases, in order; what that reads. -/
structure Obj where
  init : List Nm
  over : Nm → List Nm
  needs : Nm → List Nm
  clear : List Nm

/-! ### Parameter sets -/

/-- `a_param_init` and `a_clear` (`/repo/ecc/a_param.c:1474-1485, 48-54`). -/
def paramA : Obj where
  init := [.data, .r, .q, .h]
  over n := if n = .data then [] else [.data]
  needs n := if n = .data then [] else [.data]
  clear := [.r, .q, .h, .data]

/-- `a1_init` and `a1_clear` (`/repo/ecc/a_param.c:2275-2285, 1580-1585`). -/
def paramA1 : Obj where
  init := [.data, .p, .n]
  over n := if n = .data then [] else [.data]
  needs n := if n = .data then [] else [.data]
  clear := [.p, .n, .data]

/-- `d_param_init` with the coefficients of `pbc_param_init_d` or `pbc_param_init_d_gen`, and `d_clear`
(`/repo/ecc/d_param.c:1176-1195, 1199-1225, 1227-1265, 53-71`). -/
def paramD (k : ℕ) : Obj where
  init := [.data, .q, .n, .h, .r, .a, .b, .nk, .hk, .nqr, .coeff] ++ (List.range (k / 2)).map .coeffAt
  over
    | .data => []
    | .coeffAt _ => [.coeff]
    | _ => [.data]
  needs
    | .data => []
    | .coeffAt _ => [.coeff, .data]
    | _ => [.data]
  clear := [.q, .n, .h, .r, .a, .b, .nk, .hk, .nqr] ++ (List.range (k / 2)).map .coeffAt ++ [.coeff, .data]

/-- `e_init` and `e_clear` (`/repo/ecc/e_param.c:874-887, 40-48`). -/
def paramE : Obj where
  init := [.data, .q, .r, .h, .a, .b]
  over n := if n = .data then [] else [.data]
  needs n := if n = .data then [] else [.data]
  clear := [.q, .r, .h, .a, .b, .data]

/-- `f_init` and `f_clear` (`/repo/ecc/f_param.c:449-463, 49-58`). -/
def paramF : Obj where
  init := [.data, .q, .r, .b, .beta, .alpha0, .alpha1]
  over n := if n = .data then [] else [.data]
  needs n := if n = .data then [] else [.data]
  clear := [.q, .r, .b, .beta, .alpha0, .alpha1, .data]

/-- `g_init` with the coefficients of `pbc_param_init_g` or `pbc_param_init_g_gen`, and `g_clear`
(`/repo/ecc/g_param.c:1356-1374, 1378-1402, 1404-1440, 47-64`). -/
def paramG : Obj where
  init := [.data, .q, .n, .h, .r, .a, .b, .nk, .hk, .nqr, .coeff] ++ (List.range 5).map .coeffAt
  over
    | .data => []
    | .coeffAt _ => [.coeff]
    | _ => [.data]
  needs
    | .data => []
    | .coeffAt _ => [.coeff, .data]
    | _ => [.data]
  clear := [.q, .n, .h, .r, .a, .b, .nk, .hk, .nqr] ++ (List.range 5).map .coeffAt ++ [.coeff, .data]

/-- `param_init` and `eta_T_3_clear` (`/repo/ecc/eta_T_3.c:746-756, 683-687`). -/
def paramI : Obj where
  init := [.data, .n, .n2]
  over n := if n = .data then [] else [.data]
  needs n := if n = .data then [] else [.data]
  clear := [.n, .n2, .data]

/-! ### Pairings: `pairing_init_pbc_param` and `pairing_clear` -/

/-- `a_init_pairing` and `a_pairing_clear` (`/repo/ecc/a_param.c:1431-1472, 1385-1397`). -/
def pairingA : Obj where
  init := [.data, .r, .Zr, .Fq, .E, .Fq2, .phikonr, .GT]
  over
    | .Fq => [.data]
    | .E => [.data, .Fq]
    | .Fq2 => [.data, .Fq]
    | .GT => [.Fq2]
    | _ => []
  needs
    | .Fq => [.data]
    | .E => [.data]
    | .Fq2 => [.data]
    | _ => []
  clear := [.GT, .E, .Fq, .Fq2, .data, .r, .phikonr, .Zr]

/-- `a1_init_pairing` and `a1_pairing_clear` (`/repo/ecc/a_param.c:2230-2273, 2195-2207`); `Fp` is called `Fq` here. -/
def pairingA1 : Obj where
  init := [.r, .Zr, .data, .phikonr, .Fq, .E, .Fq2, .GT]
  over
    | .Fq => [.data]
    | .E => [.data, .Fq]
    | .Fq2 => [.data, .Fq]
    | .GT => [.Fq2]
    | _ => []
  needs
    | .Fq => [.data]
    | .E => [.data]
    | .Fq2 => [.data]
    | _ => []
  clear := [.GT, .E, .Fq2, .Fq, .data, .phikonr, .r, .Zr]

/-- `d_init_pairing` and `d_pairing_clear` (`/repo/ecc/d_param.c:993-1105, 968-991`) for embedding degree `k`. -/
def pairingD (k : ℕ) : Obj where
  init := [.r, .Zr, .data, .Fq, .E, .Fqx, .Fqd, .Fqk] ++ (if k = 6 then [.phikonr, .xpowq 1, .xpowq 2] else [.tateexp]) ++
    [.Etwist, .nqrinv, .nqrinv2, .GT]
  over
    | .Fq => [.data]
    | .E => [.data, .Fq]
    | .Fqx => [.data, .Fq]
    | .Fqd => [.data, .Fq, .Fqx]
    | .Fqk => [.data, .Fqd]
    | .xpowq _ => [.data, .Fqd]
    | .tateexp => [.data]
    | .Etwist => [.data, .Fqd]
    | .nqrinv => [.data, .Fqd]
    | .nqrinv2 => [.data, .Fqd]
    | .GT => [.Fqk]
    | _ => []
  needs
    | .Fq => [.data]
    | .E => [.data]
    | .Fqx => [.data]
    | .Fqd => [.data]
    | .Fqk => [.data, .Fqd]
    | .xpowq _ => [.data, .Fqd]
    | .tateexp => [.data]
    | .Etwist => [.data, .Fqd]
    | .nqrinv => [.data, .Fqd]
    | .nqrinv2 => [.data, .Fqd]
    | _ => []
  clear := [.GT] ++ (if k = 6 then [.xpowq 1, .xpowq 2, .phikonr] else [.tateexp]) ++
    [.Etwist, .E, .nqrinv, .nqrinv2, .Fqk, .Fqd, .Fqx, .Fq, .Zr, .r, .data]

/-- `e_init_pairing` and `e_pairing_clear` (`/repo/ecc/e_param.c:832-872, 815-826`). -/
def pairingE : Obj where
  init := [.r, .Zr, .data, .Fq, .E, .phikonr, .GT, .R]
  over
    | .Fq => [.data]
    | .E => [.data, .Fq]
    | .GT => [.Fq]
    | .R => [.data, .E]
    | _ => []
  needs
    | .Fq => [.data]
    | .E => [.data]
    | .R => [.data]
    | _ => []
  clear := [.GT, .Fq, .E, .R, .data, .phikonr, .r, .Zr]

/-- `f_init_pairing` and `f_pairing_clear` (`/repo/ecc/f_param.c:335-447, 313-333`). -/
def pairingF : Obj where
  init := [.data, .r, .Zr, .Fq, .Fq2, .Fq2x, .negalpha, .negalphainv, .Fq12, .E, .Etwist, .GT, .tateexp, .xpowq 2,
    .xpowq 6, .xpowq 8]
  over
    | .Fq => [.data]
    | .Fq2 => [.data, .Fq]
    | .Fq2x => [.data, .Fq2]
    | .negalpha => [.data, .Fq2]
    | .negalphainv => [.data, .Fq2]
    | .Fq12 => [.data, .Fq2, .Fq2x]
    | .E => [.data, .Fq]
    | .Etwist => [.data, .Fq2]
    | .GT => [.Fq12]
    | .tateexp => [.data]
    | .xpowq _ => [.data, .Fq2]
    | _ => []
  needs
    | .data => []
    | .r => []
    | .Zr => []
    | .GT => []
    | _ => [.data]
  clear := [.GT, .negalpha, .negalphainv, .tateexp, .xpowq 2, .xpowq 6, .xpowq 8, .Etwist, .E, .Fq12, .Fq2x, .Fq2, .Fq,
    .data, .r, .Zr]

/-- `g_init_pairing` and `g_pairing_clear` (`/repo/ecc/g_param.c:1248-1350, 1126-1147`). -/
def pairingG : Obj where
  init := [.r, .Zr, .data, .Fq, .E, .Fqx, .Fqd, .Fqk, .phikonr, .xpowq 1, .xpowq 2, .xpowq 3, .xpowq 4, .Etwist, .nqrinv,
    .nqrinv2, .GT]
  over := (pairingD 6).over
  needs := (pairingD 6).needs
  clear := [.GT, .xpowq 1, .xpowq 2, .xpowq 3, .xpowq 4, .phikonr, .Etwist, .E, .nqrinv, .nqrinv2, .Fqk, .Fqd, .Fqx, .Fq,
    .Zr, .r, .data]

/-- `eta_T_3_init_pairing` and `eta_T_3_pairing_clear` (`/repo/ecc/eta_T_3.c:714-736, 700-712`). -/
def pairingI : Obj where
  init := [.r, .Zr, .data, .n2, .gf3m, .gf32m, .gf36m, .GT, .G1Block, .G1]
  over
    | .n2 => [.data]
    | .gf3m => [.data]
    | .gf32m => [.data, .gf3m]
    | .gf36m => [.data, .gf32m]
    | .GT => [.gf36m]
    | .G1 => [.G1Block, .gf3m]
    | _ => []
  needs
    | .n2 => [.data]
    | .gf3m => [.data]
    | .gf32m => [.data]
    | .gf36m => [.data]
    | .G1 => [.G1Block]
    | _ => []
  clear := [.r, .Zr, .GT, .G1, .G1Block, .gf3m, .gf32m, .gf36m, .n2, .data]

/-! ### Elements -/

/-- Elements with two components: `fq_init` and `fq_clear` (`/repo/arith/fieldquadratic.c:38-50`), `curve_init` and
`curve_clear` (`/repo/ecc/curve.c:42-55`), `gf32m_init` and `gf32m_clear` (`/repo/arith/ternary_extension_field.c:529-542`),
`point_init` and `point_clear` (`/repo/ecc/eta_T_3.c:52-67`). -/
def pair : Obj where
  init := [.data, .x, .y]
  over n := if n = .data then [] else [.data]
  needs n := if n = .data then [] else [.data]
  clear := [.x, .y, .data]

/-- Elements with `n` components: `polymod_init` and `polymod_clear` (`/repo/arith/poly.c:754-774`), and with `n = 3`
`gf33m_init` and `gf33m_clear` (`/repo/arith/ternary_extension_field.c:694-709`). -/
def tuple (n : ℕ) : Obj where
  init := .data :: (List.range n).map (.item · 0)
  over m := if m = .data then [] else [.data]
  needs m := if m = .data then [] else [.data]
  clear := (List.range n).map (.item · 0) ++ [.data]

/-! ### Fields -/

/-- `field_init_polymod` and `field_clear_polymod` with `field_clear` (`/repo/arith/poly.c:1476-1544, 1302-1333, 604-615`,
`/repo/arith/field.c:569, 620-627`) for degree `n`; `nqr` says whether the field got a quadratic nonresidue
(`/repo/arith/field.c:390-402`), which is an element of the field. -/
def polymodField (n : ℕ) (nqr : Bool) : Obj where
  init := [.order, .data, .poly, .xpwr] ++ (List.range n).map (.item · 0) ++ (if nqr then [.nqrBlock, .nqr] else [])
  over
    | .poly => [.data]
    | .xpwr => [.data]
    | .item _ _ => [.data, .xpwr]
    | .nqr => [.data, .nqrBlock]
    | _ => []
  needs
    | .poly => [.data]
    | .xpwr => [.data]
    | .item _ _ => [.data, .xpwr]
    | .nqr => [.data, .nqrBlock]
    | _ => []
  clear := (if nqr then [.nqr, .nqrBlock] else []) ++ [.order] ++ (List.range n).map (.item · 0) ++ [.xpwr, .poly, .data]

/-- `field_init_curve_ab`, `field_curve_set_quotient_cmp` and `field_clear_curve` with `field_clear`
(`/repo/ecc/curve.c:688-757, 904-909, 580-596`, `/repo/arith/field.c:620-627`): with or without cofactor and quotient. -/
def curveField (cof quo : Bool) : Obj where
  init := [.order, .data, .a, .b, .genNoCofac, .gen] ++ (if cof then [.cofacBlock, .cofac] else []) ++
    (if quo then [.quotBlock, .quot] else [])
  over
    | .order => []
    | .data => []
    | .cofac => [.data, .cofacBlock]
    | .quot => [.data, .quotBlock]
    | _ => [.data]
  needs
    | .order => []
    | .data => []
    | .cofac => [.data, .cofacBlock]
    | .quot => [.data, .quotBlock]
    | _ => [.data]
  clear := [.order, .gen, .genNoCofac] ++ (if cof then [.cofac, .cofacBlock] else []) ++
    (if quo then [.quot, .quotBlock] else []) ++ [.a, .b, .data]

/-- `field_init_gf3m` and `field_clear_gf3m` with `field_clear` (`/repo/arith/ternary_extension_field.c:476-492, 468-473`). -/
def gf3mField : Obj where
  init := [.data, .block 0, .block 1, .order]
  over
    | .block 0 => [.data]
    | .block _ => [.data, .block 0]
    | _ => []
  needs
    | .block 0 => [.data]
    | .block _ => [.data, .block 0]
    | _ => []
  clear := [.order, .block 1, .block 0, .data]

/-! ### Tables for powers -/

/-- `build_pow_window` and `clear_pow_window` (`/repo/arith/field.c:30-61`). -/
def powWindow (k : ℕ) : Obj where
  init := [.data, .item 0 0] ++ (List.range' 1 (2 ^ k - 1)).map (.item · 0)
  over m := if m = .data then [] else [.data]
  needs m := if m = .data then [] else [.data]
  clear := (List.range (2 ^ k)).map (.item · 0) ++ [.data]

/-- `element_build_base_table` and `default_element_pp_clear` (`/repo/arith/field.c:251-286, 342-360`); `none` of the
entries lies outside its block. -/
def baseTable (bits k : ℕ) : Obj where
  init := [.data, .table] ++ (List.range (bits / k + 1)).flatMap fun i =>
    [.block i, .item i 0] ++ (List.range' 1 (2 ^ k - 1)).map (.item i ·)
  over
    | .table => [.data]
    | .block _ => [.table]
    | .item i _ => [.block i]
    | _ => []
  needs
    | .table => [.data]
    | .block _ => [.table, .data]
    | .item i _ => [.block i, .table, .data]
    | _ => []
  clear := ((List.range (bits / k + 1)).flatMap fun i => (List.range (2 ^ k)).map (.item i ·) ++ [.block i]) ++
    [.table, .data]

/-! ### Preprocessed pairings -/

/-- `a_pairing_pp_init` and `a_pairing_pp_clear` (`/repo/ecc/a_param.c:149-220`); the block has room for `exp2 + 1` entries. -/
def ppA (exp1 exp2 : ℕ) : Obj where
  init := .data :: (List.range exp1 ++ List.range' exp1 (exp2 - exp1) ++ [max exp1 exp2]).flatMap
    fun i => [.item i 0, .item i 1, .item i 2]
  over
    | .item i _ => if i < exp2 + 1 then [.data] else [.oob]
    | _ => []
  needs
    | .item _ _ => [.data]
    | _ => []
  clear := ((List.range (exp2 + 1)).flatMap fun i => [.item i 0, .item i 1, .item i 2]) ++ [.data]

/-- `a_pairing_ellnet_pp_init` and `a_pairing_ellnet_pp_clear` (`/repo/ecc/a_param.c:687-910, 912-929`). -/
def ppEllnet (rbits : ℕ) : Obj where
  init := [.data, .seq, .x, .y] ++ (List.range rbits).flatMap fun i => (List.range 8).map (.item i ·)
  over
    | .data => []
    | .item _ _ => [.seq]
    | _ => [.data]
  needs
    | .data => []
    | .item _ _ => [.seq, .data]
    | _ => [.data]
  clear := ((List.range rbits).flatMap fun i => (List.range 8).map (.item i ·)) ++ [.x, .y, .seq, .data]

/-- `mpz_sizeinbase(r, 2)`. -/
def bitLength (r : ℕ) : ℕ := max 1 r.size

/-- The index the loop of `a1_pairing_pp_init` starts from (`/repo/ecc/a_param.c:1664-1665`). -/
def topBit (r : ℕ) : ℕ := if bitLength r > 2 then bitLength r - 2 else 0

/-- The number of elements in entry `i` of `a1_pairing_pp_init`: six when tangent and line are merged, three otherwise
(`/repo/ecc/a_param.c:1667-1712`). -/
def entrySize (r i : ℕ) : ℕ := if i < topBit r ∧ r.testBit (topBit r - i) then 6 else 3

/-- `a1_pairing_pp_init` and `a1_pairing_pp_clear` (`/repo/ecc/a_param.c:1632-1729, 1623-1630`): the array has
`bitLength r` places, one of them for the null pointer at the end. -/
def ppA1 (r : ℕ) : Obj where
  init := .data :: (List.range (topBit r + 1)).flatMap fun i => .block i :: (List.range (entrySize r i)).map (.item i ·)
  over
    | .block i => if i + (if i = topBit r then 1 else 0) < bitLength r then [.data] else [.oob]
    | .item i _ => [.block i]
    | _ => []
  needs
    | .block _ => [.data]
    | .item i _ => [.block i]
    | _ => []
  clear := (List.range (topBit r + 1)).map .block ++ [.data]

/-! ### Lists of solutions and coefficients -/

/-- The result of `general_pell` with `c` solutions and `pell_solution_clear` (`/repo/ecc/mnt.c:140-156, 173-186`). -/
def pell (c : ℕ) : Obj where
  init := [.minx, .miny] ++ if c = 0 then [] else [.x, .y] ++ (List.range c).flatMap fun i => [.item i 0, .item i 1]
  over
    | .item _ 0 => [.x]
    | .item _ _ => [.y]
    | _ => []
  needs
    | .item _ 0 => [.x]
    | .item _ _ => [.y]
    | _ => []
  clear := (if c = 0 then [] else ((List.range c).flatMap fun i => [.item i 0, .item i 1]) ++ [.x, .y]) ++ [.minx, .miny]

/-- The result of `pbc_hilbert` for class number `c`, and `pbc_hilbert_free` with the returned count
(`/repo/ecc/hilbert.c:497-518, 534-539`). -/
def hilbert (c : ℕ) : Obj where
  init := [.data] ++ (List.range c).map (.item · 0) ++ [.item c 0]
  over m := if m = .data then [] else [.data]
  needs m := if m = .data then [] else [.data]
  clear := (List.range (c + 1)).map (.item · 0) ++ [.data]

/-! ### Reading parameters -/

/-- `symtab_put` (`/repo/misc/symtab.c:29-41`): the entry with this key gets the new value, or there is a new entry. -/
def put : List (String × ℕ) → String → ℕ → List (String × ℕ)
  | [], k, v => [(k, v)]
  | (k', v') :: t, k, v => if k' = k then (k, v) :: t else (k', v') :: put t k v

/-- The table `read_symtab` fills (`/repo/ecc/param.c:94-111`) from a text with the given keys: the `i`-th value read is
the copied string number `i`. -/
def fill : List String → ℕ → List (String × ℕ) → List (String × ℕ)
  | [], _, t => t
  | k :: l, i, t => fill l (i + 1) (put t k i)

/-- The copies of values made while `pbc_param_init_set_buf` reads a text with the given keys, and those freed at the end by
`symtab_forall_data(tab, pbc_free)` (`/repo/ecc/param.c:214-232`, `/repo/misc/symtab.c:61-67`).  The table itself and the
copies of keys are left out. -/
def strings (keys : List String) : Obj where
  init := (List.range keys.length).map .str
  over _ := []
  needs _ := []
  clear := (fill keys 0 []).map fun e => .str e.2

end Pbc.Obj
