import Verif.Model.MontFp
import Verif.Model.FieldGeneric

/-!
# Discrete logarithms modulo a prime by index calculus

Model of `/repo/guru/indexcalculus.c`: `pbc_mpz_index_calculus(x, g, h, q)` looks for `x` with
`g^x = h (mod q)`.  A table of small primes is fixed; powers of `g` that factor over the table give
linear relations between the logarithms of the primes; these are solved modulo every prime factor
of `q - 1` and put together by the Chinese remainder theorem (step 1).  Then `h g^s` is computed
for `s = 1, 2, …` until it factors over the table (step 2).

Numbers are natural numbers (GMP integers; none of them becomes negative except where `ℤ` is
written).  `none` stands for a computation that never ends, or reads memory it must not read, or
uses the result of a GMP function in a case in which GMP leaves it unspecified.  Unbounded loops
carry fuel; running out of it is `none`.  The messages printed on the way and the release of the
memory at the end are not modelled (the release of the rows, lines 423-431, never happens: the loop
tests `i`, which is `r` or `fac->count` there).
-/

set_option autoImplicit false

namespace Pbc.IndexCalculus

/-- `struct cell_s` (`/repo/guru/indexcalculus.c:10-14`): a pair `(ind, data)`. -/
abbrev Cell := ℕ × ℕ

/-- `mpz_invert(u, a, m)` as used in `/repo/guru/indexcalculus.c:70, 247, 843`: without an inverse
the value of `u` is unspecified. -/
def invert (a m : ℕ) : Option ℕ := if Nat.gcd a m = 1 then some (Mont.mpzInvert a m) else none

/-- `is_gen` (`/repo/guru/indexcalculus.c:33-56`): no `x^((q-1)/l)` is 1 modulo `q`. -/
def isGen (x q : ℕ) (fac : List ℕ) : Bool := fac.all fun l => x ^ ((q - 1) / l) % q != 1

/-- The inner loop of the first part of `CRT` (`/repo/guru/indexcalculus.c:67-73`): the constant
`C[i]` for the modulus `m = m[i]`, `ms = m[0], …, m[i-1]`. -/
def garnerC (m : ℕ) : List ℕ → ℕ → Option ℕ
  | [], c => some c
  | mj :: ms, c =>
    match invert mj m with
    | none => none
    | some u => garnerC m ms (c * u % m)

/-- The second part of `CRT` (`/repo/guru/indexcalculus.c:77-85`).  `ms` are the moduli already
treated.  The code computes all the constants `C[i]` first; here each is computed when it is
needed. -/
def garner : List ℕ → ℕ → List (ℕ × ℕ) → Option ℕ
  | _, x, [] => some x
  | ms, x, (v, m) :: rest =>
    match garnerC m ms 1 with
    | none => none
    | some c => garner (ms ++ [m]) (x + ((((v : ℤ) - x) * c) % m).toNat * ms.prod) rest

/-- `CRT(x, v, m, t)` (`/repo/guru/indexcalculus.c:60-89`) on the list of the pairs
`(v[i], m[i])`.  With `t = 0` it reads `v[0]`, which does not exist. -/
def crt : List (ℕ × ℕ) → Option ℕ
  | [] => none
  | (v, m) :: rest => garner [m] v rest

/-- The loop that divides out a prime of the table (`/repo/guru/indexcalculus.c:175-179, 194-198,
743-748`): what is left and the number of divisions.  From 0 it never ends. -/
def strip (p : ℕ) : ℕ → ℕ → ℕ → Option (ℕ × ℕ)
  | 0, _, _ => none
  | f + 1, z, j => if p ∣ z then strip p f (z / p) (j + 1) else some (z, j)

/-- A run through consecutive primes `(i, prime[i])` of the table
(`/repo/guru/indexcalculus.c:173-186, 192-205`): `true` stands for the jump to `found`. -/
def scan : List (ℕ × ℕ) → ℕ → List Cell → Option (Bool × ℕ × List Cell)
  | [], z, rel => some (false, z, rel)
  | (i, p) :: ps, z, rel =>
    match strip p (z + 1) z 0 with
    | none => none
    | some (z', j) =>
      if j = 0 then scan ps z' rel
      else if z' = 1 then some (true, z', rel ++ [(i, j)])
      else scan ps z' (rel ++ [(i, j)])

/-- The loop over the bundles of twenty primes (`/repo/guru/indexcalculus.c:187-207`): a bundle is
run through when its product (lines 144-153) has a common factor with `z`. -/
def bundles : List (List (ℕ × ℕ)) → ℕ → List Cell → Option (Bool × ℕ × List Cell)
  | [], z, rel => some (false, z, rel)
  | b :: bs, z, rel =>
    if Nat.gcd (b.map Prod.snd).prod z = 1 then bundles bs z rel
    else
      match scan b z rel with
      | none => none
      | some (true, z', rel') => some (true, z', rel')
      | some (false, z', rel') => bundles bs z' rel'

/-- The primes of the table with their numbers (`/repo/guru/indexcalculus.c:137-142`).  The table is
a parameter of the model: the code takes the first `r` primes, where `r` is computed in floating
point (lines 804-810). -/
def numbered (table : List ℕ) : List (ℕ × ℕ) := table.zipIdx.map fun c => (c.2, c.1)

/-- One try of step 1 (`/repo/guru/indexcalculus.c:171-209`): the first ten primes, then the bundles
(`bundlecount` of line 103).  `some none` is the `continue` of line 208. -/
def smooth (table : List ℕ) (z : ℕ) : Option (Option (List Cell)) :=
  let ps := numbered table
  match scan (ps.take 10) z [] with
  | none => none
  | some (true, _, rel) => some (some rel)
  | some (false, z', rel) =>
    match bundles ((List.range ((table.length + 9) / 20)).map fun i => (ps.drop (10 + 20 * i)).take 20)
        z' rel with
    | none => none
    | some (true, _, rel') => some (some rel')
    | some (false, _, _) => some none

/-- A row of the matrix (`/repo/guru/indexcalculus.c:246-259`): cell 0 holds the constant, the
others the coefficients in order of the numbers of the primes; the last one is the pivot. -/
structure Row where
  const : ℕ
  cells : List Cell
deriving DecidableEq

/-- The subtraction of `z0` times a row from a relation, both without their last cells
(`/repo/guru/indexcalculus.c:307-360`).  `room` is the number of unused entries of `relm`, which has
`r` in all; an insertion without room writes beyond the array. -/
def merge (order z0 : ℕ) : ℕ → List Cell → List Cell → Option (List Cell)
  | _, rel, [] => some rel
  | room, [], (k, b) :: row =>
    if room = 0 then none
    else (merge order z0 (room - 1) [] row).map ((k, order - z0 * b % order) :: ·)
  | room, (i, a) :: rel, (k, b) :: row =>
    if i = k then
      if z0 * b % order = a then merge order z0 (room + 1) rel row
      else if a < z0 * b % order then
        (merge order z0 room rel row).map ((i, a + (order - z0 * b % order)) :: ·)
      else (merge order z0 room rel row).map ((i, a - z0 * b % order) :: ·)
    else if k < i then
      if room = 0 then none
      else
        (merge order z0 (room - 1) ((i, a) :: rel) row).map ((k, order - z0 * b % order) :: ·)
    else (merge order z0 room rel ((k, b) :: row)).map ((i, a) :: ·)
termination_by _ rel row => rel.length + row.length

/-- The matrix for one prime factor of `q - 1` (`/repo/guru/indexcalculus.c:113-128`): the rows found
so far and `minfound`. -/
structure Sys where
  rows : ℕ → Option Row
  minfound : ℕ

/-- The empty matrix (`/repo/guru/indexcalculus.c:120-128`). -/
def Sys.empty : Sys := ⟨fun _ => none, 0⟩

/-- The loop that moves `minfound` (`/repo/guru/indexcalculus.c:272-281`), at most `r` times. -/
def advance (rows : ℕ → Option Row) (r : ℕ) : ℕ → ℕ → ℕ
  | 0, m => m + 1
  | f + 1, m =>
    if r ≤ m + 1 then m + 1
    else if (rows (m + 1)).isSome then advance rows r f (m + 1)
    else m + 1

/-- A new row (`/repo/guru/indexcalculus.c:247-259`), `inv` the inverse of the last coefficient. -/
def newRow (order inv : ℕ) (relm : List Cell) (km : ℕ) : Row :=
  ⟨km * inv % order, relm.map fun c => (c.1, c.2 * inv % order)⟩

/-- The elimination loop for one relation and one factor (`/repo/guru/indexcalculus.c:238-380`).
The result says whether a row was added (`count++`, line 260). -/
def reduce (r order : ℕ) : ℕ → Sys → List Cell → ℕ → Option (Sys × Bool)
  | 0, _, _, _ => none
  | f + 1, s, relm, km =>
    match relm.getLast? with
    | none => some (s, false)
    | some (rind, z0) =>
      if rind < s.minfound then some (s, false)
      else
        match s.rows rind with
        | none =>
          match invert z0 order with
          | none => none
          | some inv =>
            let rows := Function.update s.rows rind (some (newRow order inv relm km))
            some (⟨rows, if rind = s.minfound then advance rows r r s.minfound else s.minfound⟩, true)
        | some row =>
          match merge order z0 (r - (relm.length - 1)) relm.dropLast row.cells.dropLast with
          | none => none
          | some relm' =>
            let z1 := z0 * row.const % order
            reduce r order f s relm' (if z1 ≤ km then km - z1 else km + (order - z1))

/-- The relation modulo a factor (`/repo/guru/indexcalculus.c:229-236`). -/
def relMod (order : ℕ) (rel : List Cell) : List Cell :=
  rel.filterMap fun c => if c.2 % order = 0 then none else some (c.1, c.2 % order)

/-- The loop over the factors (`/repo/guru/indexcalculus.c:222-381`): the new matrices and the number
of rows added. -/
def absorb (r : ℕ) (rel : List Cell) (k : ℕ) : List ℕ → List Sys → Option (List Sys × ℕ)
  | l :: ls, s :: ss =>
    match reduce r l (r + 1) s (relMod l rel) (k % l) with
    | none => none
    | some (s', b) =>
      match absorb r rel k ls ss with
      | none => none
      | some (ss', n) => some (s' :: ss', n + if b then 1 else 0)
  | _, _ => some ([], 0)

/-- The search for relations (`/repo/guru/indexcalculus.c:156-383`). -/
def search (table : List ℕ) (g q : ℕ) (fac : List ℕ) : ℕ → ℕ → ℕ → List Sys → ℕ → Option (List Sys)
  | 0, _, _, _, _ => none
  | f + 1, z, k, ss, count =>
    match smooth table (z * g % q) with
    | none => none
    | some none =>
      if count < table.length * fac.length then
        search table g q fac f (z * g % q) (k + 1) ss count
      else some ss
    | some (some rel) =>
      match absorb table.length rel (k + 1) fac ss with
      | none => none
      | some (ss', n) =>
        if count + n < table.length * fac.length then
          search table g q fac f (z * g % q) (k + 1) ss' (count + n)
        else some ss'

/-- The inner loop of the back substitution (`/repo/guru/indexcalculus.c:391-398`): the constant of
the row when the values already known are subtracted.  A missing row has no cell 0. -/
def backRow (order : ℕ) (rows : ℕ → Option Row) : List Cell → ℕ → Option ℕ
  | [], c0 => some c0
  | (k, b) :: cs, c0 =>
    match rows k with
    | none => none
    | some row => backRow order rows cs ((((c0 : ℤ) - b * row.const) % order).toNat)

/-- The back substitution for rows `i, …, i + n - 1` (`/repo/guru/indexcalculus.c:388-399`). -/
def back (order : ℕ) : ℕ → ℕ → (ℕ → Option Row) → Option (ℕ → Option Row)
  | 0, _, rows => some rows
  | n + 1, i, rows =>
    match rows i with
    | none => none
    | some row =>
      match backRow order rows row.cells.dropLast row.const with
      | none => none
      | some c => back order n (i + 1) (Function.update rows i (some ⟨c, row.cells⟩))

/-- The back substitution for every factor (`/repo/guru/indexcalculus.c:385-400`). -/
def backAll (r : ℕ) : List ℕ → List Sys → Option (List (ℕ → Option Row))
  | l :: ls, s :: ss =>
    match back l (r - 1) 1 s.rows with
    | none => none
    | some rows =>
      match backAll r ls ss with
      | none => none
      | some rest => some (rows :: rest)
  | _, _ => some []

/-- The values of the logarithm of prime `i` modulo the factors
(`/repo/guru/indexcalculus.c:410-414`), with the factors. -/
def values (i : ℕ) : List ℕ → List (ℕ → Option Row) → Option (List (ℕ × ℕ))
  | l :: ls, rows :: rest =>
    match rows i with
    | none => none
    | some row =>
      match values i ls rest with
      | none => none
      | some vs => some ((row.const, l) :: vs)
  | _, _ => some []

/-- The logarithms of the primes `i, …, i + n - 1` (`/repo/guru/indexcalculus.c:409-416`). -/
def combine (fac : List ℕ) (mats : List (ℕ → Option Row)) : ℕ → ℕ → Option (List ℕ)
  | 0, _ => some []
  | n + 1, i =>
    match values i fac mats with
    | none => none
    | some vs =>
      match crt vs with
      | none => none
      | some x =>
        match combine fac mats n (i + 1) with
        | none => none
        | some xs => some (x :: xs)

/-- `index_calculus_step1` (`/repo/guru/indexcalculus.c:96-446`).  The multiplicities `mul` are all 1
when it is called (lines 795-802), so that `mpz_pow_ui` of line 406 changes nothing. -/
def step1 (table : List ℕ) (fuel g q : ℕ) (fac : List ℕ) : Option (List ℕ) :=
  match search table g q fac fuel 1 0 (fac.map fun _ => Sys.empty) 0 with
  | none => none
  | some ss =>
    match backAll table.length fac ss with
    | none => none
    | some mats => combine fac mats table.length 0

/-- The factorisation of `z` over the table in step 2 (`/repo/guru/indexcalculus.c:740-749`): what is
left and the exponents. -/
def exponents : List ℕ → ℕ → Option (ℕ × List ℕ)
  | [], z => some (z, [])
  | p :: ps, z =>
    match strip p (z + 1) z 0 with
    | none => none
    | some (z', j) =>
      match exponents ps z' with
      | none => none
      | some (w, js) => some (w, j :: js)

/-- The sum of lines 752-756 of `/repo/guru/indexcalculus.c`. -/
def weigh : List ℕ → List ℕ → ℕ
  | e :: es, x :: xs => e * x + weigh es xs
  | _, _ => 0

/-- `index_calculus_step2` (`/repo/guru/indexcalculus.c:719-762`), from `z = h`, `s = 0`. -/
def step2 (table ind : List ℕ) (g q : ℕ) : ℕ → ℕ → ℕ → Option ℕ
  | 0, _, _ => none
  | f + 1, z, s =>
    match exponents table (z * g % q) with
    | none => none
    | some (w, es) =>
      if w = 1 then some ((((weigh es ind : ℕ) : ℤ) - (s + 1 : ℕ)) % ((q : ℤ) - 1)).toNat
      else step2 table ind g q f (z * g % q) (s + 1)

/-- The final loop (`/repo/guru/indexcalculus.c:847-854`). -/
def lift (g h q q1 : ℕ) : ℕ → ℕ → ℕ
  | 0, x => x
  | d + 1, x => if g ^ x % q = h then x else lift g h q q1 d (x + q1)

/-- The division of the logarithms `y / x` modulo `q - 1` (`/repo/guru/indexcalculus.c:837-854`).
`mpz_divexact` of line 842 leaves its result unspecified when `d` does not divide `y`. -/
def quotient (g h q x y : ℕ) : Option ℕ :=
  let d := Nat.gcd x (q - 1)
  let q1 := (q - 1) / d
  if d ∣ y then
    match invert (x / d) q1 with
    | none => none
    | some u => some (lift g h q q1 d (y / d * u % q1))
  else none

/-- The computation after the factors are known (`/repo/guru/indexcalculus.c:814-859`).  `draws` are
the values of `pbc_mpz_random` (line 827). -/
def solve (table fac draws : List ℕ) (fuel g h q : ℕ) : Option ℕ :=
  if isGen g q fac then
    match step1 table fuel g q fac with
    | none => none
    | some ind => step2 table ind g q fuel h 0
  else
    match draws.find? fun z => isGen z q fac with
    | none => none
    | some z =>
      match step1 table fuel z q fac with
      | none => none
      | some ind =>
        match step2 table ind z q fuel g 0, step2 table ind z q fuel h 0 with
        | some x, some y => quotient g h q x y
        | _, _ => none

/-- The place of a number in memory: a variable of a function that has returned, and has been
cleared, or a variable of its own. -/
inductive Place where
  | dead
  | own (n : ℕ)

/-- Reading a number: what is left of a dead variable must not be read. -/
def Place.read : Place → Option ℕ
  | .dead => none
  | .own n => some n

/-- `addfm` (`/repo/guru/indexcalculus.c:773-777`): the list gets the address `f` itself, which is
that of the variable `fac` of `pbc_trial_divide` (`/repo/arith/field.c:767, 781, 786`), the same for
every factor and cleared when `pbc_trial_divide` returns (lines 800-803); in the list as it is
after that call, the entry is a dead place. -/
def addfm (st : List (Place × ℕ)) (_f m : ℕ) : List (Place × ℕ) × Bool :=
  (st ++ [(Place.dead, m)], false)

/-- The values of a list of places. -/
def readAll : List (Place × ℕ) → Option (List ℕ)
  | [] => some []
  | (a, _) :: rest =>
    match a.read, readAll rest with
    | some n, some ns => some (n :: ns)
    | _, _ => none

/-- `pbc_mpz_index_calculus` (`/repo/guru/indexcalculus.c:779-869`).  `some none` is the message
"p-adics not implemented yet", after which `x` is as before.  All factors are read at once; the
code reads each where it needs it (the first one in `is_gen`, line 45). -/
noncomputable def run (table draws : List ℕ) (fuel g h q : ℕ) : Option (Option ℕ) :=
  match Gen.trialDivide addfm (some 64) fuel (q - 1) [] with
  | none => none
  | some (st, _) =>
    if st.any fun c => c.2 != 1 then some none
    else
      match readAll st with
      | none => none
      | some fac => (solve table fac draws fuel g h q).map some

end Pbc.IndexCalculus
