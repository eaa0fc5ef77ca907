import Verif.Base
/-
Specification, independent of the model: C expressions over one variable `n`, as used in the
`Plural-Forms` header (GNU gettext manual, "Plural forms"), their grammar with C's precedences, and
their value.  Also the header line itself: `Plural-Forms:nplurals=K;plural=EXPR` with optional `;`.
-/
namespace Tgt.Spec

/-- Binary operators, by C precedence level (low to high): `||`, `&&`, equality, relational,
additive, multiplicative. -/
inductive BinOp where
  | or | and | eq | ne | lt | le | gt | ge | add | sub | mul | div | mod
  deriving DecidableEq, Repr

/-- C expressions. -/
inductive CExpr where
  | n
  | num (k : Nat)
  | not (e : CExpr)
  | bin (op : BinOp) (a b : CExpr)
  | cond (c t e : CExpr)
  deriving DecidableEq, Repr

namespace CExpr

/-- C's truth value of an integer. -/
def truth (i : Int) : Bool := i != 0
/-- C's 0/1 for a condition. -/
def ofBool (b : Bool) : Int := if b then 1 else 0

/-- Value of an expression at `n` (truncating division and remainder, as in C). -/
def eval (v : Int) : CExpr → Int
  | n => v
  | num k => k
  | not e => ofBool (!truth (eval v e))
  | bin .or a b => ofBool (truth (eval v a) || truth (eval v b))
  | bin .and a b => ofBool (truth (eval v a) && truth (eval v b))
  | bin .eq a b => ofBool (eval v a == eval v b)
  | bin .ne a b => ofBool (eval v a != eval v b)
  | bin .lt a b => ofBool (decide (eval v a < eval v b))
  | bin .le a b => ofBool (decide (eval v a ≤ eval v b))
  | bin .gt a b => ofBool (decide (eval v a > eval v b))
  | bin .ge a b => ofBool (decide (eval v a ≥ eval v b))
  | bin .add a b => eval v a + eval v b
  | bin .sub a b => eval v a - eval v b
  | bin .mul a b => eval v a * eval v b
  | bin .div a b => (eval v a).tdiv (eval v b)
  | bin .mod a b => (eval v a).tmod (eval v b)
  | cond c t e => if truth (eval v c) then eval v t else eval v e

end CExpr

/-- Tokens. -/
inductive Tok where
  | n | num (k : Nat) | op (o : BinOp) | bang | quest | colon | lpar | rpar
  deriving DecidableEq, Repr

/-- Lexer: digits accumulate in `acc`; any other byte is an error. -/
def lex : Str → Option Nat → List Tok → Option (List Tok)
  | s, acc, out =>
    let flush := match acc with
      | some k => Tok.num k :: out
      | none => out
    match s with
    | [] => some flush.reverse
    | b :: t =>
      if 48 ≤ b && b ≤ 57 then
        lex t (some ((match acc with | some k => k | none => 0) * 10 + (b.toNat - 48))) out
      else match b, t with
        | 110, t => lex t none (.n :: flush)                    -- n
        | 63, t => lex t none (.quest :: flush)                 -- ?
        | 58, t => lex t none (.colon :: flush)                 -- :
        | 40, t => lex t none (.lpar :: flush)                  -- (
        | 41, t => lex t none (.rpar :: flush)                  -- )
        | 37, t => lex t none (.op .mod :: flush)               -- %
        | 42, t => lex t none (.op .mul :: flush)               -- *
        | 47, t => lex t none (.op .div :: flush)               -- /
        | 43, t => lex t none (.op .add :: flush)               -- +
        | 45, t => lex t none (.op .sub :: flush)               -- -
        | 124, 124 :: t => lex t none (.op .or :: flush)        -- ||
        | 38, 38 :: t => lex t none (.op .and :: flush)         -- &&
        | 61, 61 :: t => lex t none (.op .eq :: flush)          -- ==
        | 33, 61 :: t => lex t none (.op .ne :: flush)          -- !=
        | 33, t => lex t none (.bang :: flush)                  -- !
        | 60, 61 :: t => lex t none (.op .le :: flush)          -- <=
        | 60, t => lex t none (.op .lt :: flush)                -- <
        | 62, 61 :: t => lex t none (.op .ge :: flush)          -- >=
        | 62, t => lex t none (.op .gt :: flush)                -- >
        | _, _ => none

/-- C precedence level of a binary operator, 1 (`||`) to 6 (`*`). -/
def BinOp.level : BinOp → Nat
  | .or => 1 | .and => 2 | .eq => 3 | .ne => 3 | .lt => 4 | .le => 4 | .gt => 4 | .ge => 4
  | .add => 5 | .sub => 5 | .mul => 6 | .div => 6 | .mod => 6

mutual
/-- conditional-expression: `or-expr` or `or-expr ? expr : conditional-expression`. -/
def pCond : Nat → List Tok → Option (CExpr × List Tok)
  | 0, _ => none
  | f + 1, ts =>
    match pBin f 1 ts with
    | some (c, .quest :: ts) =>
      match pCond f ts with
      | some (t, .colon :: ts) =>
        match pCond f ts with
        | some (e, ts) => some (.cond c t e, ts)
        | none => none
      | _ => none
    | r => r
/-- binary expressions of precedence at least `lvl`, left-associative. -/
def pBin : Nat → Nat → List Tok → Option (CExpr × List Tok)
  | 0, _, _ => none
  | f + 1, lvl, ts =>
    match pUnary f ts with
    | some (a, ts) => pRest f lvl a ts
    | none => none
/-- operators following a left operand. -/
def pRest : Nat → Nat → CExpr → List Tok → Option (CExpr × List Tok)
  | 0, _, _, _ => none
  | f + 1, lvl, a, ts =>
    match ts with
    | .op o :: ts' =>
      if o.level ≥ lvl then
        match pBin f (o.level + 1) ts' with
        | some (b, ts'') => pRest f lvl (.bin o a b) ts''
        | none => none
      else some (a, ts)
    | _ => some (a, ts)
/-- unary and primary expressions. -/
def pUnary : Nat → List Tok → Option (CExpr × List Tok)
  | 0, _ => none
  | f + 1, ts =>
    match ts with
    | .bang :: ts => match pUnary f ts with
      | some (e, ts) => some (.not e, ts)
      | none => none
    | .n :: ts => some (.n, ts)
    | .num k :: ts => some (.num k, ts)
    | .lpar :: ts => match pCond f ts with
      | some (e, .rpar :: ts) => some (e, ts)
      | _ => none
    | _ => none
end

/-- Parse a complete C expression. -/
def parseCExpr (s : Str) : Option CExpr :=
  match lex s none [] with
  | some ts => match pCond (4 * s.length + 4) ts with
    | some (e, []) => some e
    | _ => none
  | none => none

/-- Read a decimal number up to a `;`; the rest follows the `;`. -/
def readNumber : Nat → Str → Option (Nat × Str)
  | _, [] => none
  | acc, b :: t =>
    if b = 59 then some (acc, t)
    else if 48 ≤ b && b ≤ 57 then readNumber (acc * 10 + (b.toNat - 48)) t
    else none

/-- `Plural-Forms:nplurals=K;REST`: the number `K` and `REST` (line without whitespace). -/
def headerNplurals (l : Str) : Option (Nat × Str) :=
  if b!"Plural-Forms:nplurals=".isPrefixOf l then readNumber 0 (l.drop 22) else none

/-- `plural=EXPR` with an optional trailing `;`: the expression text. -/
def headerExprText (l : Str) : Option Str :=
  if b!"plural=".isPrefixOf l then
    let t := l.drop 7
    some (if t.getLast? = some 59 then t.dropLast else t)
  else none

/-- The C expression a (whitespace-free) header line declares. -/
def headerExpr (l : Str) : Option CExpr :=
  match headerNplurals l with
  | some (_, rest) => match headerExprText rest with
    | some t => parseCExpr t
    | none => none
  | none => none

end Tgt.Spec
