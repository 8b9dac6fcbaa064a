import Verif.Model.FieldGeneric

/-!
# The calculator `pbc`: lexer and parser (`/repo/pbc/parser.lex`, `/repo/pbc/parser.y`)

The lexer and parser are generated by flex and bison from tables of rules.  Modelled is what the rules mean: the longest
match, the first rule among equals, start condition `COMMENT`, trailing context `$`; shift and reduce decided by the
declared precedences.  The syntax tree is modelled as an inductive type instead of nodes with function pointers.
-/

set_option autoImplicit false

namespace Pbc.Calc

/-! ### Built-in functions -/

/-- The parameter strings `aparam`, …, `iparam` (`/repo/pbc/pbc.c:736-806`), by their letter. -/
inductive PType
  | a | d | e | f | g | i
deriving DecidableEq, Repr

/-- The objects of type `fun_t` (`/repo/pbc/pbc.c:285-289`, `346-351`, `416`, `588`, `623-734`, `813-860`). -/
inductive Prim
  | add | sub | mul | div | pow
  | eq | ne | le | ge | lt | gt
  | neg | item
  | rnd | random | ord | order | nextprime | sqrt | inv | type | pairing | zmod | poly | polymod | extend | exit | check
  | init (t : PType)
deriving DecidableEq, Repr

/-! ### Syntax trees -/

/-- Syntax tree nodes (`/repo/pbc/pbc.c:48-60, 432-600`), one constructor for each `eval` function: `eval_elem`,
`eval_id`, `eval_fun`, `eval_assign`, `eval_ternary`, `eval_funcall` (function and arguments, the function being the last
child), `eval_list`, `eval_define`.  Lists of statements and parameters are plain lists. -/
inductive Expr
  | num (n : ℕ)
  | id (s : String)
  | prim (p : Prim)
  | assign (x : String) (e : Expr)
  | tern (c a b : Expr)
  | call (f : Expr) (args : List Expr)
  | list (l : List Expr)
  | define (f : String) (params : List String) (body : List Expr)
deriving Repr

/-- `tree_new_binary` and the functions that call it (`/repo/pbc/pbc.c:524-574, 589-591`). -/
def Expr.bin (p : Prim) (x y : Expr) : Expr := .call (.prim p) [x, y]

/-- `tree_new_neg` (`/repo/pbc/pbc.c:532-541`). -/
def Expr.neg (x : Expr) : Expr := .call (.prim .neg) [x]

/-! ### Lexer -/

/-- Tokens (`/repo/pbc/parser.y:21-33`). -/
inductive Tok
  | define | term | num (n : ℕ) | id (s : String) | lpar | rpar | lsqu | rsqu | lbrace | rbrace | comma
  | question | colon | eq | ne | lt | gt | le | ge | assign | plus | minus | divide | times | pow | unknown
deriving DecidableEq, Repr

/-- The rules of the start condition `COMMENT` (`/repo/pbc/parser.lex:22-24`): what follows the comment. -/
def skipComment : List Char → List Char
  | '*' :: '/' :: cs => cs
  | _ :: cs => skipComment cs
  | [] => []

/-- `[a-zA-Z_]` (`/repo/pbc/parser.lex:30`). -/
def isAlpha (c : Char) : Bool := ('a' ≤ c && c ≤ 'z') || ('A' ≤ c && c ≤ 'Z') || c = '_'

/-- `[0-9]` (`/repo/pbc/parser.lex:29`). -/
def isDigit (c : Char) : Bool := '0' ≤ c && c ≤ '9'

/-- `[a-zA-Z0-9_]` (`/repo/pbc/parser.lex:30`). -/
def isAlnum (c : Char) : Bool := isAlpha c || isDigit c

/-- The rule for words (`/repo/pbc/parser.lex:28, 30`): `define` is the earlier rule. -/
def word (cs : List Char) : Tok :=
  if cs = ['d', 'e', 'f', 'i', 'n', 'e'] then .define else .id (String.ofList cs)

/-- The rule for numbers (`/repo/pbc/parser.lex:29`), with `tree_new_z` (`/repo/pbc/pbc.c:438-445`) and `f_set_str`
(`/repo/arith/multiz.c:520-528`), base 0. -/
def number (cs : List Char) : Tok := .num (Gen.setStr (cs.map Char.toNat) 0).1

/-- The remaining rules of one or two characters (`/repo/pbc/parser.lex:31-55`), the longest match first: the token if
there is one, and what follows. -/
def symbol (easy : Bool) : List Char → Option Tok × List Char
  | ':' :: '=' :: cs => (some .assign, cs)
  | '=' :: '=' :: cs => (some .eq, cs)
  | '!' :: '=' :: cs => (some .ne, cs)
  | '<' :: '=' :: cs => (some .le, cs)
  | '>' :: '=' :: cs => (some .ge, cs)
  | '<' :: cs => (some .lt, cs)
  | '>' :: cs => (some .gt, cs)
  | '+' :: cs => (some .plus, cs)
  | '-' :: cs => (some .minus, cs)
  | '/' :: cs => (some .divide, cs)
  | '*' :: cs => (some .times, cs)
  | '^' :: cs => (some .pow, cs)
  | ';' :: cs => (some .term, cs)
  | ',' :: cs => (some .comma, cs)
  | '?' :: cs => (some .question, cs)
  | ':' :: cs => (some .colon, cs)
  | '(' :: cs => (some .lpar, cs)
  | ')' :: cs => (some .rpar, cs)
  | '[' :: cs => (some .lsqu, cs)
  | ']' :: cs => (some .rsqu, cs)
  | '{' :: cs => (some .lbrace, cs)
  | '}' :: cs => (some .rbrace, cs)
  | '\n' :: cs => (if easy then some .term else none, cs)
  | '=' :: cs => (some (if easy then .assign else .unknown), cs)
  | _ :: cs => (some .unknown, cs)
  | [] => (none, [])

/-- One match of the scanner (`/repo/pbc/parser.lex:21-55`): the token if the rule returns one, and what follows.
`#.*$` needs a newline after the comment; without one only the `#` matches, by the last rule. -/
def lexStep (easy : Bool) : List Char → Option Tok × List Char
  | '/' :: '*' :: cs => (none, skipComment cs)
  | '#' :: cs => if '\n' ∈ cs then (none, cs.dropWhile (· ≠ '\n')) else (some .unknown, cs)
  | c :: cs =>
    if c = ' ' ∨ c = '\t' ∨ c = '\r' then (none, cs)
    else if isDigit c then (some (number (c :: cs.takeWhile isDigit)), cs.dropWhile isDigit)
    else if isAlpha c then (some (word (c :: cs.takeWhile isAlnum)), cs.dropWhile isAlnum)
    else symbol easy (c :: cs)
  | [] => (none, [])

/-- All matches up to the end of the text; the first argument bounds their number. -/
def lexLoop (easy : Bool) : ℕ → List Char → List Tok
  | 0, _ => []
  | _ + 1, [] => []
  | n + 1, c :: cs =>
    match lexStep easy (c :: cs) with
    | (some t, rest) => t :: lexLoop easy n rest
    | (none, rest) => lexLoop easy n rest

/-- `yylex` called until the end of the text (`/repo/pbc/parser.lex`); every match takes a character. -/
def lex (easy : Bool) (cs : List Char) : List Tok := lexLoop easy cs.length cs

/-! ### Parser -/

/-- The binary operators and their precedence (`/repo/pbc/parser.y:25-31`), lowest first: 1 `? :` (not here), 2
comparisons, 3 `:=` (not here), 4 sums, 5 products, 6 sign (not here), 7 powers. -/
def infix? : Tok → Option (Prim × ℕ)
  | .eq => some (.eq, 2)
  | .ne => some (.ne, 2)
  | .lt => some (.lt, 2)
  | .gt => some (.gt, 2)
  | .le => some (.le, 2)
  | .ge => some (.ge, 2)
  | .plus => some (.add, 4)
  | .minus => some (.sub, 4)
  | .divide => some (.div, 5)
  | .times => some (.mul, 5)
  | .pow => some (.pow, 7)
  | _ => none

/-- The precedence with which the right operand is parsed: `%left` or `%right` (`/repo/pbc/parser.y:25-31`). -/
def rightLevel (lev : ℕ) : ℕ := if lev = 7 then 7 else lev + 1

mutual

/-- The rules of `expr` (`/repo/pbc/parser.y:62-80`).  The parser of bison, in the state after `expr op expr` with another
operator in sight, reduces if this has lower precedence, or equal precedence in a `%left` group, else shifts; so an
operand ends before the first operator of precedence below `lev`.  The first argument bounds the depth. -/
def parseE : ℕ → ℕ → List Tok → Option (Expr × List Tok)
  | 0, _, _ => none
  | n + 1, lev, ts =>
    match parsePrefix n ts with
    | some (e, ts) => parseLoop n lev e ts
    | none => none

/-- The rules of `expr` that do not begin with an `expr`, and `molecule`, `multinomial` (`/repo/pbc/parser.y:62-67, 79,
83-87, 99-111`).  The operands of `:=` and of the sign end according to their own precedences. -/
def parsePrefix : ℕ → List Tok → Option (Expr × List Tok)
  | 0, _ => none
  | n + 1, .id x :: .assign :: ts =>
    match parseE n 4 ts with
    | some (e, ts) => some (.assign x e, ts)
    | none => none
  | n + 1, .id x :: ts => parseSuffix n (.id x) ts
  | n + 1, .lpar :: ts =>
    match parseE n 0 ts with
    | some (e, .rpar :: ts) => parseSuffix n e ts
    | _ => none
  | _ + 1, .num k :: ts => some (.num k, ts)
  | n + 1, .lsqu :: ts =>
    match parseList n ts with
    | some (es, .rsqu :: ts) => some (.list es, ts)
    | _ => none
  | n + 1, .minus :: ts =>
    match parseE n 6 ts with
    | some (e, ts) => some (.neg e, ts)
    | none => none
  | _ + 1, _ => none

/-- The rules `molecule LPAR exprlist RPAR` and `molecule LSQU expr RSQU` (`/repo/pbc/parser.y:67, 84, 89-97`); an item of
a list is an `expr`, so nothing can be called or indexed after it. -/
def parseSuffix : ℕ → Expr → List Tok → Option (Expr × List Tok)
  | 0, _, _ => none
  | n + 1, f, .lpar :: .rpar :: ts => parseSuffix n (.call f []) ts
  | n + 1, f, .lpar :: ts =>
    match parseList n ts with
    | some (es, .rpar :: ts) => parseSuffix n (.call f es) ts
    | _ => none
  | n + 1, f, .lsqu :: ts =>
    match parseE n 0 ts with
    | some (e, .rsqu :: ts) => some (.bin .item f e, ts)
    | _ => none
  | _ + 1, f, ts => some (f, ts)

/-- `nonemptyexprlist` and `sequence` (`/repo/pbc/parser.y:94-97, 108-111`). -/
def parseList : ℕ → List Tok → Option (List Expr × List Tok)
  | 0, _ => none
  | n + 1, ts =>
    match parseE n 0 ts with
    | some (e, .comma :: ts) =>
      match parseList n ts with
      | some (es, ts) => some (e :: es, ts)
      | none => none
    | some (e, ts) => some ([e], ts)
    | none => none

/-- What follows a complete `expr` (`/repo/pbc/parser.y:65, 68-78`), while operators of precedence at least `lev` come. -/
def parseLoop : ℕ → ℕ → Expr → List Tok → Option (Expr × List Tok)
  | 0, _, _, _ => none
  | _ + 1, _, l, [] => some (l, [])
  | n + 1, lev, l, t :: ts =>
    if t = .question then
      if lev ≤ 1 then
        match parseE n 0 ts with
        | some (a, .colon :: ts) =>
          match parseE n 1 ts with
          | some (b, ts) => parseLoop n lev (.tern l a b) ts
          | none => none
        | _ => none
      else some (l, t :: ts)
    else
      match infix? t with
      | some (p, k) =>
        if lev ≤ k then
          match parseE n (rightLevel k) ts with
          | some (r, ts) => parseLoop n lev (.bin p l r) ts
          | none => none
        else some (l, t :: ts)
      | none => some (l, t :: ts)

end

/-- `parms1` (`/repo/pbc/parser.y:57-60`), up to the closing parenthesis. -/
def parseParams : List Tok → Option (List String × List Tok)
  | .id x :: .rpar :: ts => some ([x], ts)
  | .id x :: .comma :: ts =>
    match parseParams ts with
    | some (xs, ts) => some (x :: xs, ts)
    | none => none
  | _ => none

mutual

/-- `stmt` (`/repo/pbc/parser.y:40-45`). -/
def parseStmt : ℕ → List Tok → Option (Expr × List Tok)
  | 0, _ => none
  | n + 1, .define :: .id f :: .lpar :: .rpar :: .lbrace :: ts =>
    match parseBody n ts with
    | some (b, ts) => some (.define f [] b, ts)
    | none => none
  | n + 1, .define :: .id f :: .lpar :: ts =>
    match parseParams ts with
    | some (xs, .lbrace :: ts) =>
      match parseBody n ts with
      | some (b, ts) => some (.define f xs b, ts)
      | none => none
    | _ => none
  | n + 1, ts =>
    match parseE n 0 ts with
    | some (e, .term :: ts) => some (e, ts)
    | _ => none

/-- `stmtlist RBRACE` (`/repo/pbc/parser.y:42, 47-50`). -/
def parseBody : ℕ → List Tok → Option (List Expr × List Tok)
  | 0, _ => none
  | _ + 1, .rbrace :: ts => some ([], ts)
  | n + 1, ts =>
    match parseStmt n ts with
    | some (s, ts) =>
      match parseBody n ts with
      | some (b, ts) => some (s :: b, ts)
      | none => none
    | none => none

end

/-- Depth enough for any text of `k` tokens (`parse_enough` in `Verif/Lemmas/CalcParse.lean`). -/
def depth (k : ℕ) : ℕ := 4 * k + 8

/-- `input` (`/repo/pbc/parser.y:35-38`): the statements up to the end or the first syntax error, and whether the end was
reached.  The code evaluates each statement as soon as it is parsed; parsing does not depend on the values. -/
def parseInput : ℕ → List Tok → List Expr × Bool
  | 0, _ => ([], false)
  | _ + 1, [] => ([], true)
  | n + 1, ts =>
    match parseStmt (depth ts.length) ts with
    | some (s, ts) => let r := parseInput n ts; (s :: r.1, r.2)
    | none => ([], false)

/-- `yyparse` (`/repo/pbc/parser.y`). -/
def parse (ts : List Tok) : List Expr × Bool := parseInput (ts.length + 1) ts

end Pbc.Calc
