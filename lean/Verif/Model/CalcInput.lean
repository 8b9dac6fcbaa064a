import Verif.Model.CalcSyntax

/-!
# The calculator `pbc`: reading from the terminal

Without a file argument the calculator reads lines (`pbc_getline`, in one of two versions chosen when it is compiled) and gives
them to the scanner one at a time.
-/

set_option autoImplicit false

namespace Pbc.Calc

/-- `fgets(s, n + 1, stdin)`: up to `n` characters, ending with the first newline; what is left, and whether the end of the
file was met (`feof`). -/
def fgets : ℕ → List Char → List Char × List Char × Bool
  | 0, cs => ([], cs, false)
  | _ + 1, [] => ([], [], true)
  | n + 1, c :: cs =>
    if c = '\n' then ([c], cs, false)
    else let r := fgets n cs; (c :: r.1, r.2)

/-- `pbc_getline` (`/repo/pbc/pbc_getline.c:6-17`): the line and what is left.  `fgets` returns `NULL` at the end of the
file with nothing read; `strdup` copies up to the first NUL.  The prompt is not modelled. -/
def getLine (cs : List Char) : Option (List Char × List Char) :=
  let r := fgets 1023 cs
  if r.1 = [] then none
  else if r.2.2 then none
  else some (r.1.takeWhile (· ≠ '\x00'), r.2.1)

/-- `pbc_getline` (`/repo/pbc/pbc_getline.readline.c:5-10`).  `readline` is not in the repository: it returns the next line
without its newline, at the end of the file what there is, `NULL` if there is nothing.  The history is not modelled. -/
def getLineR (cs : List Char) : Option (List Char × List Char) :=
  if cs = [] then none
  else some (cs.takeWhile (· ≠ '\n'), (cs.dropWhile (· ≠ '\n')).drop 1)

/-- `yywrap_readline` (`/repo/pbc/pbc.c:870-887`), called until it returns 1: the strings given to the scanner.  The first
argument bounds the number of lines. -/
def buffers (get : List Char → Option (List Char × List Char)) : ℕ → List Char → List (List Char)
  | 0, _ => []
  | n + 1, cs =>
    match get cs with
    | some (l, cs) => (l ++ ['\n']) :: buffers get n cs
    | none => []

/-- The rules of the start condition `COMMENT` (`/repo/pbc/parser.lex:22-24`) in one buffer: what follows the comment, if it
ends in this buffer. -/
def endComment : List Char → Option (List Char)
  | '*' :: '/' :: cs => some cs
  | _ :: cs => endComment cs
  | [] => none

/-- The scanner in one buffer (`/repo/pbc/parser.lex`), from outside a comment: the tokens, and whether the buffer ends
inside a comment.  No match crosses the end of a buffer.  The first argument bounds the number of matches. -/
def lexBuf (easy : Bool) : ℕ → List Char → List Tok × Bool
  | 0, _ => ([], false)
  | _ + 1, [] => ([], false)
  | n + 1, '/' :: '*' :: cs =>
    match endComment cs with
    | some rest => lexBuf easy n rest
    | none => ([], true)
  | n + 1, c :: cs =>
    match lexStep easy (c :: cs) with
    | (some t, rest) => let r := lexBuf easy n rest; (t :: r.1, r.2)
    | (none, rest) => lexBuf easy n rest

/-- The same from inside or outside a comment; the start condition outlasts the buffer. -/
def scanBuf (easy inComment : Bool) (cs : List Char) : List Tok × Bool :=
  if inComment then
    match endComment cs with
    | some rest => lexBuf easy rest.length rest
    | none => ([], true)
  else lexBuf easy cs.length cs

/-- `yylex` until the end of the input (`/repo/pbc/pbc.c:870-892`, `/repo/pbc/parser.lex`). -/
def scan (easy : Bool) : Bool → List (List Char) → List Tok
  | _, [] => []
  | b, p :: ps => let r := scanBuf easy b p; r.1 ++ scan easy r.2 ps

/-- The tokens the parser sees when the calculator reads the characters `cs` from the terminal. -/
def interactive (get : List Char → Option (List Char × List Char)) (easy : Bool) (cs : List Char) : List Tok :=
  scan easy false (buffers get (cs.length + 1) cs)

/-- The tokens with which a statement can begin (`/repo/pbc/parser.y:40-111`). -/
def begins : Tok → Bool
  | .define | .num _ | .id _ | .lpar | .lsqu | .minus => true
  | _ => false

/-- The loop of `main` (`/repo/pbc/pbc.c:946-949`): `yyparse` returns after a syntax error, having taken the token at which it
found the error, and is called again.  The statements evaluated and the number of errors.  Simplified: errors after the first
token of a statement are not modelled (`none`), as the parser of `Verif/Model/CalcSyntax.lean` does not say where it stopped.
The first argument bounds the number of statements and errors. -/
def session : ℕ → List Tok → Option (List Expr × ℕ)
  | 0, _ => none
  | _ + 1, [] => some ([], 0)
  | n + 1, t :: ts =>
    match parseStmt (depth (t :: ts).length) (t :: ts) with
    | some (s, rest) => (session n rest).map fun r => (s :: r.1, r.2)
    | none => if begins t then none else (session n ts).map fun r => (r.1, r.2 + 1)

end Pbc.Calc
