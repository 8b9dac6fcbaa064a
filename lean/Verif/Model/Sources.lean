import Verif.Model.Random

/-!
# The choice of the source of random numbers (`/repo/arith/random.c`, `/repo/arith/init_random.c`)

The static variables of `random.c` and the calls that read and change them.  GMP's generator, the
file system and the functions supplied by the program are given by an environment.  The Windows
version of `pbc_init_random` (`/repo/arith/init_random.win32.c`) is not modelled.
-/

set_option autoImplicit false

namespace Pbc.Sources

/-- What `random.c` uses and does not define.  GMP's generator: its state after
`gmp_randinit_default`, after `gmp_randseed_ui` (which depends on the seed only), and
`mpz_urandomm`.  The file system: what the `n`-th call of `fopen` for a name finds, as the bytes the
stream delivers before its end, and what the buffer allocated then holds.  The program's own
functions: the number they store, given their data, how many calls there were before, the old value
and the limit (`/repo/arith/random.c:15,24,34,40,68`). -/
structure Env where
  /-- the state of GMP's generator -/
  G : Type
  /-- after `gmp_randinit_default` -/
  start : G
  /-- after `gmp_randseed_ui` -/
  seeded : ℕ → G
  /-- `mpz_urandomm` -/
  urandomm : G → ℕ → ℕ × G
  /-- what a stream delivers -/
  files : List ℕ → ℕ → Option (List ℕ)
  /-- what a fresh buffer holds -/
  junk : ℕ → List ℕ
  /-- the program's functions -/
  user : ℕ → ℕ → ℕ → ℕ → ℕ → ℕ

/-- What `current_mpz_random` points to (`/repo/arith/random.c:58`). -/
inductive Fun
  /-- `deterministic_mpz_random` -/
  | det
  /-- `file_mpz_random` -/
  | file
  /-- a function of the program -/
  | user (k : ℕ)
  deriving DecidableEq

/-- What `current_random_data` points to (`/repo/arith/random.c:59`). -/
inductive Data
  /-- `NULL` -/
  | null
  /-- the string literal `"/dev/urandom"` -/
  | literal
  /-- memory of the program -/
  | addr (a : ℕ)
  deriving DecidableEq

/-- The bytes of `"/dev/urandom"` (`/repo/arith/init_random.c:10,15`). -/
def urandom : List ℕ := [47, 100, 101, 118, 47, 117, 114, 97, 110, 100, 111, 109]

/-- The static variables (`/repo/arith/random.c:13-14,58-60`), the memory of the program that holds
file names, its integers, and counters of what was done outside: openings of files, streams that
were opened and not closed, calls of the program's functions, warnings. -/
structure State (E : Env) where
  /-- `rs`, if `rs_is_ready` -/
  rs : Option E.G
  /-- `current_mpz_random`, `current_random_data`, if `random_function_ready` -/
  cur : Option (Fun × Data)
  /-- the texts in the memory of the program -/
  mem : ℕ → List ℕ
  /-- the integers of the program -/
  vars : ℕ → ℕ
  /-- calls of `fopen` -/
  opens : ℕ
  /-- streams left open -/
  left : ℕ
  /-- calls of functions of the program -/
  calls : ℕ
  /-- warnings printed -/
  warned : ℕ

variable {E : Env}

/-- `get_rs` (`/repo/arith/random.c:12-20`). -/
def getRs (s : State E) : E.G × State E :=
  match s.rs with
  | some g => (g, s)
  | none => (E.start, { s with rs := some E.start })

/-- `pbc_random_set_function` (`/repo/arith/random.c:62-66`). -/
def setFunction (f : Fun) (d : Data) (s : State E) : State E := { s with cur := some (f, d) }

/-- `pbc_random_set_deterministic` (`/repo/arith/random.c:81-84`); the seed is an `unsigned int` of
32 bits. -/
def setDeterministic (seed : ℕ) (s : State E) : State E :=
  setFunction .det .null { (getRs s).2 with rs := some (E.seeded (seed % 2 ^ 32)) }

/-- `pbc_random_set_file` (`/repo/arith/random.c:86-88`): the address is kept, not the text. -/
def setFile (d : Data) (s : State E) : State E := setFunction .file d s

/-- `pbc_init_random` (`/repo/arith/init_random.c:8-18`). -/
def initRandom (s : State E) : State E :=
  match E.files urandom s.opens with
  | none => setDeterministic 0 { s with opens := s.opens + 1, warned := s.warned + 1 }
  | some _ => setFile .literal { s with opens := s.opens + 1 }

/-- `deterministic_mpz_random` (`/repo/arith/random.c:22-25`); GMP divides by zero if the limit
is 0. -/
def detRandom (z limit : ℕ) (s : State E) : Option (State E) :=
  if limit = 0 then none
  else
    let (g, s) := getRs s
    let (v, g) := E.urandomm g limit
    some { s with rs := some g, vars := Function.update s.vars z v }

/-- The file name that the data of `file_mpz_random` give (`/repo/arith/random.c:28`); a null
pointer is not a name. -/
def name (s : State E) : Data → Option (List ℕ)
  | .null => none
  | .literal => some urandom
  | .addr a => some (s.mem a)

/-- `file_mpz_random` (`/repo/arith/random.c:27-56`), the reading loop being `Random.fileRandom`.
Without a file it returns at once; if the stream ends it warns and returns without closing it. -/
def fileRandom (z limit : ℕ) (d : Data) (s : State E) : Option (State E) := do
  let nm ← name s d
  let s' := { s with opens := s.opens + 1 }
  match E.files nm s.opens with
  | none => some s'
  | some bytes =>
    match ← Random.fileRandom limit (E.junk s.opens) bytes with
    | .warn => some { s' with left := s.left + 1, warned := s.warned + 1 }
    | .value v _ => some { s' with vars := Function.update s.vars z v }

/-- A function of the program; what its data are is left to the environment. -/
def userRandom (k z limit : ℕ) (d : Data) (s : State E) : State E :=
  let a := match d with
    | .addr a => a
    | _ => 0
  { s with calls := s.calls + 1
           vars := Function.update s.vars z (E.user k a s.calls (s.vars z) limit) }

/-- `pbc_mpz_random` (`/repo/arith/random.c:68-71`). -/
def mpzRandom (z limit : ℕ) (s : State E) : Option (State E) :=
  let s := match s.cur with
    | none => initRandom s
    | some _ => s
  match s.cur with
  | none => none
  | some (.det, _) => detRandom z limit s
  | some (.file, d) => fileRandom z limit d s
  | some (.user k, d) => some (userRandom k z limit d s)

/-- `pbc_mpz_randomb` (`/repo/arith/random.c:73-79`). -/
def mpzRandomb (z bits : ℕ) (s : State E) : Option (State E) := mpzRandom z (2 ^ bits) s

/-- The calls of a program. -/
inductive Op
  /-- `pbc_random_set_function` with a function and data of the program -/
  | setFunction (k a : ℕ)
  /-- `pbc_random_set_deterministic` -/
  | setDeterministic (seed : ℕ)
  /-- `pbc_random_set_file` -/
  | setFile (a : ℕ)
  /-- the program writes into its memory -/
  | write (a : ℕ) (text : List ℕ)
  /-- `pbc_mpz_random` -/
  | random (z limit : ℕ)
  /-- `pbc_mpz_randomb` -/
  | randomb (z bits : ℕ)

/-- One call. -/
def step (s : State E) : Op → Option (State E)
  | .setFunction k a => some (setFunction (.user k) (.addr a) s)
  | .setDeterministic seed => some (setDeterministic seed s)
  | .setFile a => some (setFile (.addr a) s)
  | .write a text => some { s with mem := Function.update s.mem a text }
  | .random z limit => mpzRandom z limit s
  | .randomb z bits => mpzRandomb z bits s

/-- A program. -/
def run (s : State E) : List Op → Option (State E)
  | [] => some s
  | o :: rest => (step s o).bind fun s => run s rest

/-- The state when the program starts: static variables are zero. -/
def State.Fresh (s : State E) : Prop := s.rs = none ∧ s.cur = none

end Pbc.Sources
