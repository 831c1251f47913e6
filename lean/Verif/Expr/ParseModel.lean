import Verif.Expr.LexModel

/-!
# Model of the parser of property expressions

`parser` = /repo/core/coreobjects/src/eval_value_parser.cpp
`parsh` = /repo/core/coreobjects/include/coreobjects/eval_value_parser.h
`nodes` = /repo/core/coreobjects/include/coreobjects/eval_nodes.h

The recursion of the parser is limited by a number; `hang` stands for reaching the limit. An exception of the parser is
`err`. A reference node is given by its text, its type and the index of the argument it belongs to (-1 for none). The set of
referenced properties is left out.
-/

namespace Verif.Expr

inductive BinOp where
  | or | and | eq | ne | lt | le | gt | ge | add | sub | mul | div
  deriving DecidableEq, Repr

inductive UnOp where
  | not | neg
  deriving DecidableEq, Repr

/-- `RefType` (nodes:31-39) as far as the parser makes them. -/
inductive RefType where
  | value | property | func | selectedValue | propertyNames
  deriving DecidableEq, Repr

/-- The nodes (nodes:43-200). -/
inductive Expr where
  | float (s : Str)
  | int (n : Nat)
  | bool (b : Bool)
  | str (s : Str)
  | un (op : UnOp) (a : Expr)
  | bin (op : BinOp) (a b : Expr)
  | list (l : List Expr)
  | ite (c a b : Expr)
  | switch (v : Expr) (l : List Expr)
  | unit (l : List Expr)
  | ref (s : Str) (t : RefType) (arg : Int)
  deriving Repr

inductive PR (α : Type) where
  | ok (a : α)
  | err
  | hang

def PR.bind {α β : Type} : PR α → (α → PR β) → PR β
  | .ok a, f => f a
  | .err, _ => .err
  | .hang, _ => .hang

/-- The rules registered for infix tokens (parser:66-77), with the operation of `infix` (parser:107-122). -/
def infixRule : Tok → Option (Nat × BinOp)
  | .oror => some (1, .or)
  | .andand => some (1, .and)
  | .eqeq => some (2, .eq)
  | .noteq => some (2, .ne)
  | .less => some (2, .lt)
  | .lesseq => some (2, .le)
  | .greater => some (2, .gt)
  | .greatereq => some (2, .ge)
  | .plus => some (3, .add)
  | .minus => some (3, .sub)
  | .star => some (4, .mul)
  | .slash => some (4, .div)
  | _ => none

/-- `consume` (parser:338-342). -/
def consume (t : Tok) : List Tok → PR (List Tok)
  | t' :: r => if t' = t then .ok r else .err
  | [] => .err

/-- `std::get<int64_t>(advance().value)`. -/
def getInt : List Tok → PR (Nat × List Tok)
  | .int n :: r => .ok (n, r)
  | _ => .err

/-- `std::to_string` -/
def decimal (n : Nat) : Str := (Nat.toDigits 10 n)

/-- `valref` (parser:250-271). -/
def valref : List Tok → PR ((Str × RefType) × List Tok)
  | .ident s :: .openB :: r =>
    (getInt r).bind fun n => (consume .closeB n.2).bind fun r => .ok ((s ++ '[' :: decimal n.1 ++ [']'], .value), r)
  | .ident s :: r => .ok ((s, .value), r)
  | _ => .err

/-- The part of `propref` after the colon (parser:278-293). -/
def propItem (s : Str) : Option RefType :=
  if canonical s = "value".toList then some .value
  else if canonical s = "selectedvalue".toList then some .selectedValue
  else if canonical s = "propertynames".toList then some .propertyNames
  else none

/-- `%name` may be followed by empty parentheses (parser:294-298). -/
def parens : List Tok → PR (List Tok)
  | .openP :: r => consume .closeP r
  | r => .ok r

/-- `propref` (parser:273-306). -/
def propref : List Tok → PR ((Str × RefType) × List Tok)
  | .ident s :: .colon :: .ident i :: r =>
    match propItem i with
    | some t => (parens r).bind fun r => .ok ((s ++ ':' :: canonical i, t), r)
    | none => .err
  | .ident _ :: .colon :: _ => .err
  | .ident s :: r => (parens r).bind fun r => .ok ((s, .property), r)
  | _ => .err

/-- `static_cast<int>` -/
def toInt32 (n : Nat) : Int := if n % 2 ^ 32 < 2 ^ 31 then (n % 2 ^ 32 : Nat) else (n % 2 ^ 32 : Nat) - (2 ^ 32 : Int)

/-- `{n}.%name` and `{n}.$name` (parser:217-234). -/
def argref (ts : List Tok) : PR (Expr × List Tok) :=
  (getInt ts).bind fun n => (consume .closeC n.2).bind fun r => (consume .dot r).bind fun r =>
    match r with
    | .percent :: r => (propref r).bind fun x => .ok (.ref x.1.1 x.1.2 (toInt32 n.1), x.2)
    | .dollar :: r => (valref r).bind fun x => .ok (.ref x.1.1 x.1.2 (toInt32 n.1), x.2)
    | _ => .err

mutual

/-- `expression` (parser:90-102). `fn` is `useFunctionAsReferenceResolver`. -/
def expr (fn : Bool) : Nat → Nat → List Tok → PR (Expr × List Tok)
  | 0, _, _ => .hang
  | n + 1, p, t :: ts => (pre fn n t ts).bind fun x => loop fn n p x.1 x.2
  | _ + 1, _, [] => .err

/-- `prefix` (parser:128-248) and the rules for the tokens (parser:50-64). -/
def pre (fn : Bool) : Nat → Tok → List Tok → PR (Expr × List Tok)
  | 0, _, _ => .hang
  | n + 1, t, ts =>
    match t with
    | .float s => .ok (.float s, ts)
    | .int i => .ok (.int i, ts)
    | .bool b => .ok (.bool b, ts)
    | .str s => .ok (.str s, ts)
    | .excl => (expr fn n 5 ts).bind fun x => .ok (.un .not x.1, x.2)
    | .minus => (expr fn n 5 ts).bind fun x => .ok (.un .neg x.1, x.2)
    | .openP => (expr fn n 0 ts).bind fun x => (consume .closeP x.2).bind fun r => .ok (x.1, r)
    | .openB => (items fn n .closeB none ts).bind fun x => .ok (.list x.1, x.2)
    | .ite => (consume .openP ts).bind fun r => (expr fn n 0 r).bind fun c => (consume .comma c.2).bind fun r =>
      (expr fn n 0 r).bind fun a => (consume .comma a.2).bind fun r => (expr fn n 0 r).bind fun b =>
      (consume .closeP b.2).bind fun r => .ok (.ite c.1 a.1 b.1, r)
    | .switch => (consume .openP ts).bind fun r => (expr fn n 0 r).bind fun v => (more fn n v.2).bind fun l =>
      if l.1.length < 2 then .err else .ok (.switch v.1 l.1, l.2)
    | .unit => (consume .openP ts).bind fun r => (items fn n .closeP (some 4) r).bind fun l =>
      if l.1.length = 0 then .err else .ok (.unit l.1, l.2)
    | .dollar => (valref ts).bind fun x => .ok (.ref x.1.1 x.1.2 (-1), x.2)
    | .percent => (propref ts).bind fun x => .ok (.ref x.1.1 x.1.2 (-1), x.2)
    | .openC => argref ts
    | .ident s => if fn then .ok (.ref s .func (-1), ts) else .err
    | _ => .err

/-- The loop of `expression` (parser:96-100), with `infix` (parser:104-126). -/
def loop (fn : Bool) : Nat → Nat → Expr → List Tok → PR (Expr × List Tok)
  | 0, _, _, _ => .hang
  | n + 1, p, left, t :: ts =>
    match infixRule t with
    | some (q, op) =>
      if p < q then (expr fn n q ts).bind fun x => loop fn n p (.bin op left x.1) x.2
      else .ok (left, t :: ts)
    | none => .ok (left, t :: ts)
  | _ + 1, _, left, [] => .ok (left, [])

/-- Expressions separated by commas up to a closing token, which is consumed; a comma may come before it (parser:157-163,
198-207). With a limit, another expression is an error. -/
def items (fn : Bool) : Nat → Tok → Option Nat → List Tok → PR (List Expr × List Tok)
  | 0, _, _, _ => .hang
  | n + 1, close, lim, ts =>
    if ts.head? = some close then .ok ([], ts.tail)
    else if lim = some 0 then .err
    else (expr fn n 0 ts).bind fun x =>
      if x.2.head? = some close then .ok ([x.1], x.2.tail)
      else (consume .comma x.2).bind fun r => (items fn n close (lim.map (· - 1)) r).bind fun l => .ok (x.1 :: l.1, l.2)

/-- The values of a `switch` (parser:183-188): each after a comma. -/
def more (fn : Bool) : Nat → List Tok → PR (List Expr × List Tok)
  | 0, _ => .hang
  | n + 1, ts =>
    if ts.head? = some .closeP then .ok ([], ts.tail)
    else (consume .comma ts).bind fun r => (expr fn n 0 r).bind fun x => (more fn n x.2).bind fun l => .ok (x.1 :: l.1, l.2)

end

/-- `parse` (parser:80-83): the first expression; what follows it is not looked at. -/
def parse (fn : Bool) (ts : List Tok) : PR (Expr × List Tok) := expr fn (3 * ts.length + 3) 0 ts

inductive TextRes where
  | tree (e : Expr)
  | failed
  | ub
  | hang
  deriving Repr

/-- `parseEvalValue` (parser:24-40). Exceptions of both stages are caught. -/
def parseText (okFloat : Str → Bool) (fn : Bool) (s : Str) : TextRes :=
  match tokenize okFloat s with
  | .ok ts =>
    match parse fn ts with
    | .ok x => .tree x.1
    | .err => .failed
    | .hang => .hang
  | .error => .failed
  | .ub => .ub
  | .hang => .hang

end Verif.Expr
