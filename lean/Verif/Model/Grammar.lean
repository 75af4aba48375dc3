import Verif.Model.Correlator
/-!
# The expression grammar

Models `/repo/trappy/stats/grammar.py` lines 35-206 (the grammar) and 355-411 (`solve`).

`pyparsing` has no separate lexer; here the text is first cut into tokens (longest operator first, as `oneOf` orders its
alternatives) and the tokens are parsed as `operatorPrecedence` does: for each level the expression of the level above, followed by as many
pairs of operator and operand as can be read. An operator that is not followed by an operand is left unread. Parse actions
compute the value while parsing; what they compute is a parameter (`GInterp`). Recursion is bounded by fuel; `solve` gives enough
(`C63_fuel`).
-/

namespace Trappy

/-- the binary operators (grammar.py:64-75) -/
inductive GOp where
  | pow | mul | div | fdiv | mod | add | sub | gt | lt | ge | le | eq | ne | land | lor | band | bor
deriving DecidableEq, Repr

/-- the position of the operator in the list given to `operatorPrecedence` (grammar.py:186-197) -/
def GOp.level : GOp → Nat
  | .pow => 1
  | .mul | .div | .fdiv | .mod => 3
  | .add | .sub => 4
  | .gt | .lt | .ge | .le | .eq | .ne => 5
  | .land | .lor | .band | .bor => 6

/-- Tokens. A number is unsigned; an operator says if the character after it is a digit, since `INTEGER` and `REAL` may begin with a sign
(grammar.py:53-58). A name may contain dots (`FUNC_NAME`, line 63). -/
inductive GTok where
  | num (text : Str)
  | name (text : Str)
  | op (o : GOp) (digitNext : Bool)
  | lpar | rpar | colon | comma
  | bad (c : Char)
deriving DecidableEq, Repr

/-- What the parse actions compute. -/
structure GInterp (V : Type) where
  /-- `parse_num` (grammar.py:41) -/
  num : Str → V
  /-- `parse_num` of a number with a sign -/
  signed : Bool → Str → V
  /-- `_parse_var_id` of an identifier (grammar.py:505-516) -/
  var : Str → V
  /-- `_parse_var_id` of event and column -/
  acc : Str → Str → V
  /-- `_parse_func` (grammar.py:518-529) -/
  call : Str → List V → V
  /-- `_parse_func` without arguments: `params[1]` raises IndexError (grammar.py:529) -/
  callNone : Str → V
  /-- `OPERATOR_MAP` (grammar.py:78-96) -/
  bin : GOp → V → V → V
  /-- `-1 * params[1]` (grammar.py:108) -/
  neg : V → V

/-- the part of a name before its first dot, and whether there is one -/
def cutName : Str → Str × Bool
  | [] => ([], false)
  | c :: cs => if c = '.' then ([], true) else let r := cutName cs; (c :: r.1, r.2)

/-- `IDENTIFIER`: what follows the first dot of a name is left unread -/
def identTok (s : Str) (rest : List GTok) : Str × List GTok :=
  let r := cutName s
  (r.1, if r.2 then .bad '.' :: rest else rest)

mutual
/-- an operand: `func_call | var_id | ( expression )` (grammar.py:168-184) -/
def gAtom {V : Type} (I : GInterp V) : Nat → List GTok → Option (V × List GTok)
  | 0, _ => none
  | f + 1, toks =>
    match toks with
    | .name s :: .lpar :: rest =>
      match gArgs I f rest with
      | some (vs, .rpar :: r) => some (I.call s vs, r)
      | some _ => let i := identTok s (.lpar :: rest); some (I.var i.1, i.2)
      | none =>
        match rest with
        | .rpar :: r => some (I.callNone s, r)
        | _ => let i := identTok s (.lpar :: rest); some (I.var i.1, i.2)
    | .name s :: .colon :: .name c :: rest => let i := identTok c rest; some (I.acc s i.1, i.2)
    | .name s :: rest => let i := identTok s rest; some (I.var i.1, i.2)
    | .num t :: rest => some (I.num t, rest)
    | .op .sub true :: .num t :: rest => some (I.signed true t, rest)
    | .op .add true :: .num t :: rest => some (I.signed false t, rest)
    | .lpar :: rest =>
      match gLev I f 6 rest with
      | some (v, .rpar :: r) => some (v, r)
      | _ => none
    | _ => none
/-- `delimitedList(arith_expr)` (grammar.py:179) -/
def gArgs {V : Type} (I : GInterp V) : Nat → List GTok → Option (List V × List GTok)
  | 0, _ => none
  | f + 1, toks =>
    match gLev I f 6 toks with
    | none => none
    | some (v, .comma :: r) =>
      match gArgs I f r with
      | some (vs, r') => some (v :: vs, r')
      | none => some ([v], .comma :: r)
    | some (v, r) => some ([v], r)
/-- the expression of a level of `operatorPrecedence` (grammar.py:184-198) -/
def gLev {V : Type} (I : GInterp V) : Nat → Nat → List GTok → Option (V × List GTok)
  | 0, _, _ => none
  | f + 1, k, toks =>
    if k = 0 then gAtom I f toks
    else if k = 2 then
      match toks with
      | .op .sub _ :: r =>
        match gLev I f 2 r with
        | some (v, r') => some (I.neg v, r')
        | none => gLev I f 1 toks
      | .op .add _ :: r =>
        match gLev I f 2 r with
        | some (v, r') => some (v, r')
        | none => gLev I f 1 toks
      | _ => gLev I f 1 toks
    else
      match gLev I f (k - 1) toks with
      | none => none
      | some (v, r) => some (gChain I f k v r)
/-- `OneOrMore(operator + operand)` and `eval_binary_op` (grammar.py:128-141) -/
def gChain {V : Type} (I : GInterp V) : Nat → Nat → V → List GTok → V × List GTok
  | 0, _, acc, toks => (acc, toks)
  | f + 1, k, acc, toks =>
    match toks with
    | .op o _ :: r =>
      if o.level = k then
        match gLev I f (k - 1) r with
        | some (v, r') => gChain I f k (I.bin o acc v) r'
        | none => (acc, toks)
      else (acc, toks)
    | _ => (acc, toks)
end

/-- `parseString(expr)[0]` on tokens (grammar.py:397): what is left unread is ignored; `none` is the ParseException -/
def gSolve {V : Type} (I : GInterp V) (toks : List GTok) : Option V := (gLev I (20 * toks.length + 10) 6 toks).map Prod.fst

/-! ## Tokens -/

/-- `Word(nums)` -/
def takeDigits : Str → Str × Str
  | [] => ([], [])
  | c :: cs => if Py.isDigit c then let r := takeDigits cs; (c :: r.1, r.2) else ([], c :: cs)

/-- letters of an identifier (grammar.py:61) -/
def isIdStart (c : Char) : Bool := Py.isLower c || Py.isUpper c || c == '_'

/-- the following characters -/
def isIdChar (c : Char) : Bool := isIdStart c || Py.isDigit c

/-- `IDENTIFIER` and the dots of `FUNC_NAME` (grammar.py:61-63): a dot belongs to the name if a letter follows -/
def takeName : Str → Str × Str
  | [] => ([], [])
  | [c] => if isIdChar c then ([c], []) else ([], [c])
  | c :: d :: cs =>
    if isIdChar c || (c == '.' && isIdStart d) then let r := takeName (d :: cs); (c :: r.1, r.2) else ([], c :: d :: cs)

/-- the exponent of `REAL` (grammar.py:57), or nothing -/
def takeExp : Str → Str × Str
  | c :: s :: cs =>
    if c = 'e' ∨ c = 'E' then
      if s = '+' ∨ s = '-' then
        match takeDigits cs with
        | ([], _) => ([], c :: s :: cs)
        | (ds, r) => (c :: s :: ds, r)
      else
        match takeDigits (s :: cs) with
        | ([], _) => ([], c :: s :: cs)
        | (ds, r) => (c :: ds, r)
    else ([], c :: s :: cs)
  | cs => ([], cs)

/-- `REAL | INTEGER` without sign (grammar.py:53-58) -/
def takeNum (s : Str) : Str × Str :=
  match takeDigits s with
  | (ds, '.' :: r) =>
    let fr := takeDigits r
    let ex := takeExp fr.2
    (ds ++ '.' :: fr.1 ++ ex.1, ex.2)
  | x => x

/-- the next character is a digit -/
def digitNext : Str → Bool
  | c :: _ => Py.isDigit c
  | [] => false

/-- operators of two characters, then of one (grammar.py:64-75) -/
def takeOp : Str → Option (GOp × Str)
  | '*' :: '*' :: r => some (.pow, r)
  | '/' :: '/' :: r => some (.fdiv, r)
  | '>' :: '=' :: r => some (.ge, r)
  | '<' :: '=' :: r => some (.le, r)
  | '=' :: '=' :: r => some (.eq, r)
  | '!' :: '=' :: r => some (.ne, r)
  | '&' :: '&' :: r => some (.land, r)
  | '|' :: '|' :: r => some (.lor, r)
  | '*' :: r => some (.mul, r)
  | '/' :: r => some (.div, r)
  | '%' :: r => some (.mod, r)
  | '+' :: r => some (.add, r)
  | '-' :: r => some (.sub, r)
  | '>' :: r => some (.gt, r)
  | '<' :: r => some (.lt, r)
  | '&' :: r => some (.band, r)
  | '|' :: r => some (.bor, r)
  | _ => none

/-- the next token; `none` at the end of the text -/
def gNext : Str → Option (GTok × Str)
  | [] => none
  | c :: cs =>
    if isIdStart c then let r := takeName (c :: cs); some (.name r.1, r.2)
    else if Py.isDigit c then let r := takeNum (c :: cs); some (.num r.1, r.2)
    else if c = '(' then some (.lpar, cs)
    else if c = ')' then some (.rpar, cs)
    else if c = ':' then some (.colon, cs)
    else if c = ',' then some (.comma, cs)
    else match takeOp (c :: cs) with
      | some (o, r) => some (.op o (digitNext r), r)
      | none => some (.bad c, cs)

/-- blanks between tokens are skipped -/
def gSkip : Str → Str
  | [] => []
  | c :: cs => if c = ' ' ∨ c = '\t' ∨ c = '\n' ∨ c = '\r' then gSkip cs else c :: cs

/-- all tokens, at most `fuel` -/
def gLexLoop : Nat → Str → List GTok
  | 0, _ => []
  | f + 1, s =>
    match gNext (gSkip s) with
    | none => []
    | some (t, r) => t :: gLexLoop f r

/-- the tokens of a text -/
def gLex (s : Str) : List GTok := gLexLoop (s.length + 1) s

/-- `solve` on a text (grammar.py:397) -/
def gSolveText {V : Type} (I : GInterp V) (s : Str) : Option V := gSolve I (gLex s)

end Trappy
