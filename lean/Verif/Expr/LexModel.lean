/-!
# Model of the lexer of property expressions

`lexer` = /repo/core/coreobjects/src/eval_value_lexer.cpp
`lexh` = /repo/core/coreobjects/include/coreobjects/eval_value_lexer.h

A text is a list of characters; those above 127 stand for bytes with the highest bit set, which are negative as `char`.
Passing such a byte to `std::isdigit` and the like is undefined (`ub`). Letters are those of the C locale.

Floating point numbers are kept as written; `okFloat` tells which of them `std::stod` accepts (it throws for numbers out of
range).
-/

namespace Verif.Expr

abbrev Str := List Char

/-- `EvalValueToken` (lexh:26-69). The token `End` is the end of the list. -/
inductive Tok where
  | openP | closeP | openB | closeB | openC | closeC
  | plus | minus | star | slash | excl | comma | dot | dollar | percent | colon
  | oror | andand | eqeq | noteq | less | lesseq | greater | greatereq
  | int (n : Nat) | bool (b : Bool) | float (s : Str) | str (s : Str) | ident (s : Str)
  | unit | switch | ite
  deriving DecidableEq, Repr

inductive LexRes (α : Type) where
  | ok (a : α)
  | error
  | ub
  /-- The lexer does not make progress. -/
  | hang
  deriving DecidableEq, Repr

def LexRes.bind {α β : Type} : LexRes α → (α → LexRes β) → LexRes β
  | .ok a, f => f a
  | .error, _ => .error
  | .ub, _ => .ub
  | .hang, _ => .hang

def isWhite (c : Char) : Bool := c == ' ' || c == '\t' || c == '\n' || c == '\r'

def isDigit (c : Char) : Bool := 48 ≤ c.toNat && c.toNat ≤ 57

def isUpper (c : Char) : Bool := 65 ≤ c.toNat && c.toNat ≤ 90

def isAlpha (c : Char) : Bool := isUpper c || (97 ≤ c.toNat && c.toNat ≤ 122)

def isIdent (c : Char) : Bool := isAlpha c || isDigit c || c == '_' || c == '.'

def isExp (c : Char) : Bool := c == 'e' || c == 'E'

def lower (c : Char) : Char := if isUpper c then Char.ofNat (c.toNat + 32) else c

/-- `EvalValueToken::toCanonicalForm` (lexh:72-79). -/
def canonical (s : Str) : Str := s.map lower

/-- `peek` (lexer:228-233): a zero byte at the end. -/
def peek (s : Str) : Char := s.headD '\x00'

/-- A negative `char`. -/
def high (c : Char) : Bool := 128 ≤ c.toNat

def digitsVal (s : Str) : Nat := s.foldl (fun n c => n * 10 + (c.toNat - 48)) 0

/-- A character class function of the C library applied to the next character. -/
def safe {α : Type} (s : Str) (r : LexRes α) : LexRes α := if high (peek s) then .ub else r

/-- A loop over digits, up to the first other character (`while (std::isdigit(peek())) advance();`). -/
def scanDigits (s : Str) : LexRes (Str × Str) := safe (s.dropWhile isDigit) (.ok (s.takeWhile isDigit, s.dropWhile isDigit))

/-- The part of `scanFloat` for the exponent (lexer:186-195). -/
def scanExponent (lexeme s : Str) : LexRes (Str × Str) :=
  if isExp (peek s) then
    let r := s.tail
    let sign := if peek r = '+' ∨ peek r = '-' then [peek r] else []
    let r := if peek r = '+' ∨ peek r = '-' then r.tail else r
    safe r (if !isDigit (peek r) then .error
      else (scanDigits r).bind fun d => .ok (lexeme ++ peek s :: sign ++ d.1, d.2))
  else .ok (lexeme, s)

/-- `scanFloat` (lexer:173-197). -/
def scanFloat (okFloat : Str → Bool) (s : Str) : LexRes (List Tok × Str) :=
  (scanDigits s).bind fun d =>
    (if peek d.2 = '.' then
      safe d.2.tail (if !isDigit (peek d.2.tail) then .error
        else (scanDigits d.2.tail).bind fun f => scanExponent (d.1 ++ '.' :: f.1) f.2)
     else scanExponent d.1 d.2).bind fun x =>
      if okFloat x.1 then .ok ([.float x.1], x.2) else .error

/-- `scanNumber` (lexer:156-171); `std::stoll` throws for numbers out of range. -/
def scanNumber (okFloat : Str → Bool) (s : Str) : LexRes (List Tok × Str) :=
  (scanDigits s).bind fun d =>
    if peek d.2 ≠ '.' ∧ isExp (peek d.2) = false then
      if digitsVal d.1 < 2 ^ 63 then .ok ([.int (digitsVal d.1)], d.2) else .error
    else scanFloat okFloat s

/-- `scanString` (lexer:138-154), after the delimiter. A text that ends before the second delimiter gives no token. -/
def scanString (q : Char) (s : Str) : List Tok × Str :=
  match s.dropWhile (fun c => c != q) with
  | [] => ([], [])
  | _ :: r => ([.str (s.takeWhile (fun c => c != q))], r)

/-- The keywords (lexer:120-128). -/
def word (name : Str) : Tok :=
  let i := canonical name
  if i = ['i', 'f'] then .ite
  else if i = ['s', 'w', 'i', 't', 'c', 'h'] then .switch
  else if i = ['t', 'r', 'u', 'e'] then .bool true
  else if i = ['f', 'a', 'l', 's', 'e'] then .bool false
  else if i = ['u', 'n', 'i', 't'] then .unit
  else .ident name

/-- `advanceOverIdentifier` (lexer:199-209) and what follows it (lexer:119-129). -/
def scanWord (s : Str) : LexRes (List Tok × Str) :=
  safe (s.dropWhile isIdent) (.ok ([word (s.takeWhile isIdent)], s.dropWhile isIdent))

/-- `scanToken` (lexer:38-136); the text is not empty. The tokens emitted (at most one) and the rest of the text. -/
def scanToken (okFloat : Str → Bool) (c : Char) (s : Str) : LexRes (List Tok × Str) :=
  if isWhite c then .ok ([], s)
  else if c = '(' then .ok ([.openP], s)
  else if c = ')' then .ok ([.closeP], s)
  else if c = '[' then .ok ([.openB], s)
  else if c = ']' then .ok ([.closeB], s)
  else if c = '{' then .ok ([.openC], s)
  else if c = '}' then .ok ([.closeC], s)
  else if c = '+' then .ok ([.plus], s)
  else if c = '-' then .ok ([.minus], s)
  else if c = '*' then .ok ([.star], s)
  else if c = '/' then .ok ([.slash], s)
  else if c = ',' then .ok ([.comma], s)
  else if c = '$' then .ok ([.dollar], s)
  else if c = '%' then .ok ([.percent], s)
  else if c = ':' then .ok ([.colon], s)
  else if c = '|' then (if peek s = '|' then .ok ([.oror], s.tail) else .error)
  else if c = '&' then (if peek s = '&' then .ok ([.andand], s.tail) else .error)
  else if c = '=' then (if peek s = '=' then .ok ([.eqeq], s.tail) else .error)
  else if c = '!' then (if peek s = '=' then .ok ([.noteq], s.tail) else .ok ([.excl], s))
  else if c = '<' then (if peek s = '=' then .ok ([.lesseq], s.tail) else .ok ([.less], s))
  else if c = '>' then (if peek s = '=' then .ok ([.greatereq], s.tail) else .ok ([.greater], s))
  else if c = '"' ∨ c = '\'' then .ok (scanString c s)
  else if c = '.' then safe s (if isDigit (peek s) then scanFloat okFloat (c :: s) else .ok ([.dot], s))
  else if isDigit c then scanNumber okFloat (c :: s)
  else if isAlpha c ∨ c = '_' then scanWord (c :: s)
  else .error

/-- The loop of `tokenize` (lexer:29-36). -/
def scanAll (okFloat : Str → Bool) : Nat → Str → LexRes (List Tok)
  | _, [] => .ok []
  | 0, _ :: _ => .hang
  | n + 1, c :: s => (scanToken okFloat c s).bind fun x => (scanAll okFloat n x.2).bind fun ts => .ok (x.1 ++ ts)

/-- `tokenize` (lexer:29-36). -/
def tokenize (okFloat : Str → Bool) (s : Str) : LexRes (List Tok) := scanAll okFloat s.length s

end Verif.Expr
