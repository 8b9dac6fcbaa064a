/-! # Options of a command (`pbc/XGetopt.win32.c`)

`getopt` as built for Windows.  Words are lists of characters, none of them zero; the pointer `next` into a word is the rest of
the word, `none` for a null pointer. -/

set_option autoImplicit false

namespace Pbc.Getopt

/-- pbc/XGetopt.win32.c:7-11: the global `optind` and the static `next`. -/
structure St where
  optind : Nat
  next : Option (List Char)
deriving DecidableEq

/-- What a call leaves: the value returned (`none` is -1) and the global `optarg` (`none` is a null pointer). -/
structure Ret where
  c : Option Char
  optarg : Option (List Char)
deriving DecidableEq

/-- C's `strchr` for a character other than the terminator: the string from the first place with the character. -/
def strchr (s : List Char) (c : Char) : Option (List Char) :=
  match s.dropWhile (· ≠ c) with
  | [] => none
  | t => some t

/-- pbc/XGetopt.win32.c:44-69: one option, the character `c` followed by `next`. -/
def one (argv : List (List Char)) (os : List Char) (optind : Nat) (c : Char) (next : List Char) : St × Ret :=
  match strchr os c with
  | none => (⟨optind, some next⟩, ⟨some '?', none⟩)
  | some cp =>
    if c = ':' then (⟨optind, some next⟩, ⟨some '?', none⟩)
    else if cp.tail.head? = some ':' then
      if next ≠ [] then (⟨optind, none⟩, ⟨some c, some next⟩)
      else match argv[optind]? with
        | some w => (⟨optind + 1, some next⟩, ⟨some c, some w⟩)
        | none => (⟨optind, some next⟩, ⟨some '?', none⟩)
    else (⟨optind, some next⟩, ⟨some c, none⟩)

/-- pbc/XGetopt.win32.c:19-42 and 44: the next word, when none is being read. -/
def word (argv : List (List Char)) (os : List Char) (optind : Nat) (next : Option (List Char)) : St × Ret :=
  match argv[optind]? with
  | some ('-' :: c :: w) =>
    if c = '-' ∧ w = [] then (⟨optind + 1, next⟩, ⟨none, argv[optind + 1]?⟩)
    else one argv os (optind + 1) c w
  | w => (⟨optind, next⟩, ⟨none, w⟩)

/-- pbc/XGetopt.win32.c:9-70: `getopt`. -/
def getopt (argv : List (List Char)) (os : List Char) (s : St) : St × Ret :=
  let next := if s.optind = 0 then none else s.next
  match next with
  | some (c :: w) => one argv os s.optind c w
  | next => word argv os (if s.optind = 0 then 1 else s.optind) next

/-- The loop of a caller (pbc/pbc.c:895-898): calls until -1 is returned; the answers, the state and `optarg` after the last
call; `none` if -1 is not returned within `n` calls. -/
def run (argv : List (List Char)) (os : List Char) :
    Nat → St → Option (List (Char × Option (List Char)) × St × Option (List Char))
  | 0, _ => none
  | n + 1, s =>
    match getopt argv os s with
    | (s', ⟨none, o⟩) => some ([], s', o)
    | (s', ⟨some c, a⟩) => (run argv os n s').map fun r => ((c, a) :: r.1, r.2)

/-- pbc/pbc.c:895-908 and 943-944: the options of the calculator, and the file it reads: whether `-y` is set, how many times an
option is called unrecognized, the file. -/
def options (argv : List (List Char)) (n : Nat) (s : St) : Option (Bool × Nat × Option (List Char)) :=
  (run argv ['y'] n s).map fun r => (r.1.any (·.1 = 'y'), r.1.countP (·.1 ≠ 'y'), argv[r.2.1.optind]?)

end Pbc.Getopt
