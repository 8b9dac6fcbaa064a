import Verif.Model.CalcSyntax

/-!
# The language of the calculator

Programs as a reader of the grammar sees them, and how they are written: with the usual precedences (comparisons, then sums,
then products, then the sign, then powers; powers group to the right, the other operators to the left) and parentheses only
where these ask for them.  An assignment binds more tightly than a comparison and less tightly than a sum.
-/

set_option autoImplicit false

namespace Spec.Calc

open Pbc.Calc (Tok Prim)

/-- Binary operators. -/
inductive Op
  | eq | ne | lt | gt | le | ge | add | sub | mul | div | pow
deriving DecidableEq, Repr

/-- Expressions. -/
inductive Ex
  | num (n : ℕ)
  | id (s : String)
  | assign (x : String) (e : Ex)
  | tern (c a b : Ex)
  | bin (o : Op) (a b : Ex)
  | neg (a : Ex)
  | item (a i : Ex)
  | call (f : Ex) (args : List Ex)
  | list (e : Ex) (es : List Ex)

/-- Statements. -/
inductive St
  | expr (e : Ex)
  | define (f : String) (params : List String) (body : List St)

/-- Precedence of an operator. -/
def Op.level : Op → ℕ
  | .eq | .ne | .lt | .gt | .le | .ge => 2
  | .add | .sub => 4
  | .mul | .div => 5
  | .pow => 7

/-- What a left and a right operand need in order to stand without parentheses. -/
def Op.left (o : Op) : ℕ := if o = .pow then 8 else o.level

def Op.right (o : Op) : ℕ := if o = .pow then 7 else o.level + 1

def Op.tok : Op → Tok
  | .eq => .eq | .ne => .ne | .lt => .lt | .gt => .gt | .le => .le | .ge => .ge
  | .add => .plus | .sub => .minus | .mul => .times | .div => .divide | .pow => .pow

/-- Precedence of an expression. -/
def Ex.level : Ex → ℕ
  | .tern .. => 1
  | .bin o _ _ => o.level
  | .assign .. => 3
  | .neg _ => 6
  | .num _ | .item .. | .list .. => 8
  | .id _ | .call .. => 9

/-- Parentheses unless the precedence `have_` suffices. -/
def par (need have_ : ℕ) (ts : List Tok) : List Tok :=
  if need ≤ have_ then ts else .lpar :: ts ++ [.rpar]

/-- Items separated by commas. -/
def commas : List (List Tok) → List Tok
  | [] => []
  | [t] => t
  | t :: ts => t ++ .comma :: commas ts

/-- How an expression is written. -/
def Ex.show : Ex → List Tok
  | .num n => [.num n]
  | .id s => [.id s]
  | .assign x e => .id x :: .assign :: par 4 e.level e.show
  | .tern c a b => par 2 c.level c.show ++ .question :: a.show ++ .colon :: b.show
  | .bin o a b => par o.left a.level a.show ++ o.tok :: par o.right b.level b.show
  | .neg a => .minus :: par 6 a.level a.show
  | .item a i => par 9 a.level a.show ++ .lsqu :: i.show ++ [.rsqu]
  | .call f args => par 9 f.level f.show ++ .lpar :: commas (args.map Ex.show) ++ [.rpar]
  | .list e es => .lsqu :: commas (e.show :: es.map Ex.show) ++ [.rsqu]

/-- How a statement is written. -/
def St.show : St → List Tok
  | .expr e => e.show ++ [.term]
  | .define f ps body =>
    .define :: .id f :: .lpar :: commas (ps.map fun x => [.id x]) ++ .rpar :: .lbrace ::
      (body.map St.show).flatten ++ [.rbrace]

open Pbc.Calc (Expr)

def Op.prim : Op → Prim
  | .eq => .eq | .ne => .ne | .lt => .lt | .gt => .gt | .le => .le | .ge => .ge
  | .add => .add | .sub => .sub | .mul => .mul | .div => .div | .pow => .pow

/-- The syntax tree: operators are calls of built-in functions. -/
def Ex.tree : Ex → Expr
  | .num n => .num n
  | .id s => .id s
  | .assign x e => .assign x e.tree
  | .tern c a b => .tern c.tree a.tree b.tree
  | .bin o a b => .call (.prim o.prim) [a.tree, b.tree]
  | .neg a => .call (.prim .neg) [a.tree]
  | .item a i => .call (.prim .item) [a.tree, i.tree]
  | .call f args => .call f.tree (args.map Ex.tree)
  | .list e es => .list (e.tree :: es.map Ex.tree)

def St.tree : St → Expr
  | .expr e => e.tree
  | .define f ps body => .define f ps (body.map St.tree)

end Spec.Calc

/-!
## The grammar as it is written, without precedences
-/

namespace Spec.Calc

open Pbc.Calc (Tok Prim Expr)

mutual

/-- `Derives ts e`: the tokens `ts` are an expression with syntax tree `e`. -/
inductive Derives : List Tok → Expr → Prop
  | num (n : ℕ) : Derives [.num n] (.num n)
  | list {ts : List Tok} {es : List Expr} : DerivesList ts es → Derives (.lsqu :: ts ++ [.rsqu]) (.list es)
  | assign {ts : List Tok} {e : Expr} (x : String) : Derives ts e → Derives (.id x :: .assign :: ts) (.assign x e)
  | tern {tc ta tb : List Tok} {c a b : Expr} : Derives tc c → Derives ta a → Derives tb b →
      Derives (tc ++ .question :: ta ++ .colon :: tb) (.tern c a b)
  | molecule {ts : List Tok} {e : Expr} : DerivesMol ts e → Derives ts e
  | item {ta ti : List Tok} {a i : Expr} : DerivesMol ta a → Derives ti i →
      Derives (ta ++ .lsqu :: ti ++ [.rsqu]) (.call (.prim .item) [a, i])
  | bin {ta tb : List Tok} {a b : Expr} (o : Op) : Derives ta a → Derives tb b →
      Derives (ta ++ o.tok :: tb) (.call (.prim o.prim) [a, b])
  | neg {ts : List Tok} {e : Expr} : Derives ts e → Derives (.minus :: ts) (.call (.prim .neg) [e])

/-- Names, parentheses and calls. -/
inductive DerivesMol : List Tok → Expr → Prop
  | id (x : String) : DerivesMol [.id x] (.id x)
  | par {ts : List Tok} {e : Expr} : Derives ts e → DerivesMol (.lpar :: ts ++ [.rpar]) e
  | call0 {tf : List Tok} {f : Expr} : DerivesMol tf f → DerivesMol (tf ++ [.lpar, .rpar]) (.call f [])
  | call {tf ts : List Tok} {f : Expr} {es : List Expr} : DerivesMol tf f → DerivesList ts es →
      DerivesMol (tf ++ .lpar :: ts ++ [.rpar]) (.call f es)

/-- One or more expressions separated by commas. -/
inductive DerivesList : List Tok → List Expr → Prop
  | one {ts : List Tok} {e : Expr} : Derives ts e → DerivesList ts [e]
  | cons {ts us : List Tok} {e : Expr} {es : List Expr} : Derives ts e → DerivesList us es →
      DerivesList (ts ++ .comma :: us) (e :: es)

end

mutual

/-- Statements. -/
inductive DerivesSt : List Tok → Expr → Prop
  | expr {ts : List Tok} {e : Expr} : Derives ts e → DerivesSt (ts ++ [.term]) e
  | define {ts : List Tok} {b : List Expr} (f : String) (ps : List String) : DerivesBody ts b →
      DerivesSt (.define :: .id f :: .lpar :: commas (ps.map fun x => [.id x]) ++ .rpar :: .lbrace :: ts ++ [.rbrace])
        (.define f ps b)

/-- Sequences of statements. -/
inductive DerivesBody : List Tok → List Expr → Prop
  | nil : DerivesBody [] []
  | cons {ts us : List Tok} {s : Expr} {b : List Expr} : DerivesSt ts s → DerivesBody us b →
      DerivesBody (ts ++ us) (s :: b)

end

/-!
## Text
-/

/-- How a token is spelled. -/
def spell : Tok → List Char
  | .define => "define".toList
  | .term => [';']
  | .num n => Nat.toDigits 10 n
  | .id s => s.toList
  | .lpar => ['('] | .rpar => [')'] | .lsqu => ['['] | .rsqu => [']'] | .lbrace => ['{'] | .rbrace => ['}']
  | .comma => [','] | .question => ['?'] | .colon => [':']
  | .eq => ['=', '='] | .ne => ['!', '='] | .lt => ['<'] | .gt => ['>'] | .le => ['<', '='] | .ge => ['>', '=']
  | .assign => [':', '='] | .plus => ['+'] | .minus => ['-'] | .divide => ['/'] | .times => ['*'] | .pow => ['^']
  | .unknown => ['$']

/-- Names are words of letters, digits and underscores that do not begin with a digit, other than `define`. -/
def NameOk (s : String) : Prop :=
  s ≠ "define" ∧ ∃ c cs, s.toList = c :: cs ∧ (c.isAlpha ∨ c = '_') ∧ ∀ d ∈ cs, d.isAlphanum ∨ d = '_'

/-- Tokens that a program can contain. -/
def TokOk : Tok → Prop
  | .id s => NameOk s
  | .unknown => False
  | _ => True

/-- Space between tokens: blanks, comments; and newlines, unless these end statements. -/
inductive Gap (easy : Bool) : List Char → Prop
  | blank (c : Char) : c = ' ' ∨ c = '\t' ∨ c = '\r' → Gap easy [c]
  | newline : easy = false → Gap easy ['\n']
  | block (cs : List Char) : (∀ u v, cs ≠ u ++ '*' :: '/' :: v) → Gap easy ('/' :: '*' :: cs ++ ['*', '/'])
  | line (cs : List Char) : easy = false → '\n' ∉ cs → Gap easy ('#' :: cs ++ ['\n'])

/-- Characters that may not follow a token directly, as they would become a part of it. -/
def Glues (t : Tok) (c : Char) : Prop :=
  match t with
  | .define | .id _ => c.isAlphanum ∨ c = '_'
  | .num _ => c.isDigit
  | .lt | .gt | .colon => c = '='
  | .divide => c = '*'
  | _ => False

/-- A text and its tokens. -/
inductive Text (easy : Bool) : List Char → List Tok → Prop
  | nil : Text easy [] []
  | gap {g cs : List Char} {ts : List Tok} : Gap easy g → Text easy cs ts → Text easy (g ++ cs) ts
  | tok {cs : List Char} {t : Tok} {ts : List Tok} : TokOk t → (∀ c u, cs = c :: u → ¬ Glues t c) → Text easy cs ts →
      Text easy (spell t ++ cs) (t :: ts)
  | newline {cs : List Char} {ts : List Tok} : easy = true → Text easy cs ts → Text easy ('\n' :: cs) (.term :: ts)
  | line {cs l : List Char} {ts : List Tok} : easy = true → '\n' ∉ l → Text easy cs ts →
      Text easy ('#' :: l ++ '\n' :: cs) (.term :: ts)
  | equals {cs : List Char} {ts : List Tok} : easy = true → (∀ u, cs ≠ '=' :: u) → Text easy cs ts →
      Text easy ('=' :: cs) (.assign :: ts)

end Spec.Calc
