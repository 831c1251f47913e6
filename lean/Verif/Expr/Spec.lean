import Verif.Expr.ParseModel

/-!
# How expressions are written

The layout of tokens in a text and the grammar of expressions over tokens, as relations that do not mention the lexer or the
parser. Characters above 127 are allowed within strings only.
-/

namespace Verif.Expr.Spec

open Verif.Expr

/-! ## Tokens in a text -/

/-- A condition on the first character of what follows a token. -/
def Next (s : Str) (P : Char → Prop) : Prop := ∀ c, s.head? = some c → c.toNat < 128 ∧ P c

def Digits (s : Str) : Prop := ∀ c ∈ s, c.isDigit

/-- The value of digits. -/
def natVal : Str → Nat
  | [] => 0
  | c :: s => (c.toNat - '0'.toNat) * 10 ^ s.length + natVal s

/-- Tokens that end by themselves. -/
def symbols : List (Tok × Str) :=
  [(.openP, ['(']), (.closeP, [')']), (.openB, ['[']), (.closeB, [']']), (.openC, ['{']), (.closeC, ['}']), (.plus, ['+']),
   (.minus, ['-']), (.star, ['*']), (.slash, ['/']), (.comma, [',']), (.dollar, ['$']), (.percent, ['%']), (.colon, [':']),
   (.oror, ['|', '|']), (.andand, ['&', '&']), (.eqeq, ['=', '=']), (.noteq, ['!', '=']), (.lesseq, ['<', '=']),
   (.greatereq, ['>', '='])]

/-- Tokens that a following `=` would change. -/
def half : List (Tok × Str) := [(.excl, ['!']), (.less, ['<']), (.greater, ['>'])]

def keywords : List (Str × Tok) :=
  [("if".toList, .ite), ("switch".toList, .switch), ("true".toList, .bool true), ("false".toList, .bool false),
   ("unit".toList, .unit)]

def wordChar (c : Char) : Prop := c.isAlphanum ∨ c = '_' ∨ c = '.'

/-- A word: it begins with a letter or an underscore. -/
def Word (w : Str) : Prop := (∃ c s, w = c :: s ∧ (c.isAlpha ∨ c = '_')) ∧ ∀ c ∈ w, wordChar c

/-- The exponent of a number. -/
def Exponent (w : Str) : Prop :=
  ∃ c sign d, w = c :: (sign ++ d) ∧ (c = 'e' ∨ c = 'E') ∧ (sign = [] ∨ sign = ['+'] ∨ sign = ['-']) ∧ Digits d ∧ d ≠ []

/-- `TokAt t w s`: the text `w` is the token `t` when the text `s` follows it. -/
inductive TokAt (okFloat : Str → Bool) : Tok → Str → Str → Prop where
  | sym {t w s} : (t, w) ∈ symbols → TokAt okFloat t w s
  | half {t w s} : (t, w) ∈ half → s.head? ≠ some '=' → TokAt okFloat t w s
  | dot {s} : Next s (fun c => ¬ c.isDigit) → TokAt okFloat .dot ['.'] s
  | str {q b s} : q = '"' ∨ q = '\'' → q ∉ b → TokAt okFloat (.str b) (q :: (b ++ [q])) s
  | int {d s} : Digits d → d ≠ [] → natVal d < 2 ^ 63 →
      Next s (fun c => ¬ c.isDigit ∧ c ≠ '.' ∧ c ≠ 'e' ∧ c ≠ 'E') → TokAt okFloat (.int (natVal d)) d s
  | frac {i f s} : Digits i → Digits f → f ≠ [] → Next s (fun c => ¬ c.isDigit ∧ c ≠ 'e' ∧ c ≠ 'E') →
      okFloat (i ++ '.' :: f) → TokAt okFloat (.float (i ++ '.' :: f)) (i ++ '.' :: f) s
  | fracExp {i f e s} : Digits i → Digits f → f ≠ [] → Exponent e → Next s (fun c => ¬ c.isDigit) →
      okFloat (i ++ '.' :: f ++ e) → TokAt okFloat (.float (i ++ '.' :: f ++ e)) (i ++ '.' :: f ++ e) s
  | exp {i e s} : Digits i → i ≠ [] → Exponent e → Next s (fun c => ¬ c.isDigit) → okFloat (i ++ e) →
      TokAt okFloat (.float (i ++ e)) (i ++ e) s
  | keyword {t w s} : Word w → Next s (fun c => ¬ wordChar c) → (w.map Char.toLower, t) ∈ keywords → TokAt okFloat t w s
  | ident {w s} : Word w → Next s (fun c => ¬ wordChar c) → w.map Char.toLower ∉ keywords.map (·.1) →
      TokAt okFloat (.ident w) w s

/-- The tokens of a text: between them, and around them, blanks. A string that is not closed counts for nothing (this is what
the lexer does; see the findings). -/
inductive Layout (okFloat : Str → Bool) : List Tok → Str → Prop where
  | nil : Layout okFloat [] []
  | white {c ts s} : c ∈ [' ', '\t', '\n', '\r'] → Layout okFloat ts s → Layout okFloat ts (c :: s)
  | tok {t ts w s} : TokAt okFloat t w s → Layout okFloat ts s → Layout okFloat (t :: ts) (w ++ s)
  | unclosed {q b} : q = '"' ∨ q = '\'' → q ∉ b → Layout okFloat [] (q :: b)

/-! ## Expressions over tokens -/

/-- The operators: higher levels bind tighter (`EvalValueParser`, the comment on the grammar). -/
def operators : List (Nat × Tok × BinOp) :=
  [(1, .oror, .or), (1, .andand, .and),
   (2, .eqeq, .eq), (2, .noteq, .ne), (2, .less, .lt), (2, .lesseq, .le), (2, .greater, .gt), (2, .greatereq, .ge),
   (3, .plus, .add), (3, .minus, .sub),
   (4, .star, .mul), (4, .slash, .div)]

/-- What can be read from a property besides its raw reference. -/
def refItems : List (Str × RefType) :=
  [("value".toList, .value), ("selectedvalue".toList, .selectedValue), ("propertynames".toList, .propertyNames)]

/-- References. -/
inductive RefAt : List Tok → Str → RefType → Prop where
  | value (s) : RefAt [.dollar, .ident s] s .value
  | index (s n) : RefAt [.dollar, .ident s, .openB, .int n, .closeB] (s ++ "[".toList ++ (toString n).toList ++ "]".toList) .value
  | prop (s) {par} : par = [] ∨ par = [.openP, .closeP] → RefAt (.percent :: .ident s :: par) s .property
  | item (s i) {par t} : par = [] ∨ par = [.openP, .closeP] → (i.map Char.toLower, t) ∈ refItems →
      RefAt (.percent :: .ident s :: .colon :: .ident i :: par) (s ++ ":".toList ++ i.map Char.toLower) t

/-- A number as a 32-bit signed one. -/
def wrap32 (n : Nat) : Int := ((n : Int) + 2 ^ 31) % 2 ^ 32 - 2 ^ 31

inductive Kind where
  /-- An expression whose operators outside parentheses are all of this level or above (level 5: no binary operator). -/
  | level (k : Nat)
  /-- Expressions separated by commas, possibly with one more comma at the end. -/
  | items
  /-- Expressions each preceded by a comma. -/
  | more

/-- The grammar: `Gr fn kind tokens trees`. Binary operators associate to the left. -/
inductive Gr (fn : Bool) : Kind → List Tok → List Expr → Prop where
  | bin {k t op u v a b} : (k, t, op) ∈ operators → Gr fn (.level k) u [a] → Gr fn (.level (k + 1)) v [b] →
      Gr fn (.level k) (u ++ t :: v) [.bin op a b]
  | up {k u a} : 1 ≤ k → k < 5 → Gr fn (.level (k + 1)) u [a] → Gr fn (.level k) u [a]
  | not {u a} : Gr fn (.level 5) u [a] → Gr fn (.level 5) (.excl :: u) [.un .not a]
  | neg {u a} : Gr fn (.level 5) u [a] → Gr fn (.level 5) (.minus :: u) [.un .neg a]
  | float (s) : Gr fn (.level 5) [.float s] [.float s]
  | int (n) : Gr fn (.level 5) [.int n] [.int n]
  | bool (b) : Gr fn (.level 5) [.bool b] [.bool b]
  | str (s) : Gr fn (.level 5) [.str s] [.str s]
  | paren {u a} : Gr fn (.level 1) u [a] → Gr fn (.level 5) (.openP :: (u ++ [.closeP])) [a]
  | list {u l} : Gr fn .items u l → Gr fn (.level 5) (.openB :: (u ++ [.closeB])) [.list l]
  | ite {u v w c a b} : Gr fn (.level 1) u [c] → Gr fn (.level 1) v [a] → Gr fn (.level 1) w [b] →
      Gr fn (.level 5) (.ite :: .openP :: (u ++ .comma :: (v ++ .comma :: (w ++ [.closeP])))) [.ite c a b]
  | switch {u v c l} : Gr fn (.level 1) u [c] → Gr fn .more v l → 2 ≤ l.length →
      Gr fn (.level 5) (.switch :: .openP :: (u ++ (v ++ [.closeP]))) [.switch c l]
  | unit {u l} : Gr fn .items u l → 1 ≤ l.length → l.length ≤ 4 →
      Gr fn (.level 5) (.unit :: .openP :: (u ++ [.closeP])) [.unit l]
  | ref {u s t} : RefAt u s t → Gr fn (.level 5) u [.ref s t (-1)]
  | arg {u s t} (n) : RefAt u s t → Gr fn (.level 5) (.openC :: .int n :: .closeC :: .dot :: u) [.ref s t (wrap32 n)]
  | func {s} : fn = true → Gr fn (.level 5) [.ident s] [.ref s .func (-1)]
  | none : Gr fn .items [] []
  | last {u a} : Gr fn (.level 1) u [a] → Gr fn .items u [a]
  | comma {u v a l} : Gr fn (.level 1) u [a] → Gr fn .items v l → Gr fn .items (u ++ .comma :: v) (a :: l)
  | stop : Gr fn .more [] []
  | next {u v a l} : Gr fn (.level 1) u [a] → Gr fn .more v l → Gr fn .more (.comma :: (u ++ v)) (a :: l)

/-- The level of the operator a token is. -/
def HasLevel (t : Tok) (k : Nat) : Prop := ∃ op, (k, t, op) ∈ operators

/-- What follows an expression does not continue it. -/
def Ends (r : List Tok) : Prop :=
  ∀ t, r.head? = some t → (∀ k, ¬ HasLevel t k) ∧ t ≠ .openP ∧ t ≠ .openB ∧ t ≠ .colon

/-! ## Expression trees that can be written -/

/-- The trees the grammar can produce: a `switch` with at least two values, a unit with one to four, references with the text
of a reference. -/
inductive Proper (fn : Bool) : Expr → Prop where
  | float (s) : Proper fn (.float s)
  | int (n) : Proper fn (.int n)
  | bool (b) : Proper fn (.bool b)
  | str (s) : Proper fn (.str s)
  | un {op a} : Proper fn a → Proper fn (.un op a)
  | bin {op a b} : Proper fn a → Proper fn b → Proper fn (.bin op a b)
  | list {l} : (∀ a ∈ l, Proper fn a) → Proper fn (.list l)
  | ite {c a b} : Proper fn c → Proper fn a → Proper fn b → Proper fn (.ite c a b)
  | switch {v l} : Proper fn v → (∀ a ∈ l, Proper fn a) → 2 ≤ l.length → Proper fn (.switch v l)
  | unit {l} : (∀ a ∈ l, Proper fn a) → 1 ≤ l.length → l.length ≤ 4 → Proper fn (.unit l)
  | ref {u s t} : RefAt u s t → Proper fn (.ref s t (-1))
  | arg {u s t} (n) : RefAt u s t → Proper fn (.ref s t (wrap32 n))
  | func {s} : fn = true → Proper fn (.ref s .func (-1))

end Verif.Expr.Spec
