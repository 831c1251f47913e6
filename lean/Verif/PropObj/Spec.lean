import Verif.PropObj.Model

/-! # Specification of property objects (C39-C44) -/

namespace Verif.PropObj

variable {V : Type} [DecidableEq V]

/-! ## Constraints -/

def AboveMin (lt : V → V → Bool) (mn : Option V) (v : V) : Prop := ∀ m, mn = some m → lt v m = false

def BelowMax (lt : V → V → Bool) (mx : Option V) (v : V) : Prop := ∀ m, mx = some m → lt m v = false

def InRange (lt : V → V → Bool) (p : PropDef V) (v : V) : Prop := AboveMin lt p.min v ∧ BelowMax lt p.max v

/-- `w` is `d` brought into the range: `d` itself, the minimum for a value below it, else the maximum. -/
def Limited (lt : V → V → Bool) (p : PropDef V) (d w : V) : Prop :=
  (InRange lt p d → w = d) ∧ (¬ AboveMin lt p.min d → p.min = some w) ∧
  (AboveMin lt p.min d → ¬ BelowMax lt p.max d → p.max = some w)

/-- The order of values has no value below itself, and the limits of the property make sense. -/
def Sensible (lt : V → V → Bool) (p : PropDef V) : Prop :=
  (∀ v, lt v v = false) ∧ ∀ m M, p.min = some m → p.max = some M → lt M m = false

/-- Writing `v` to a property stores `w`: converted, in the selection, coerced, valid, brought into the range. -/
def Accepts (lt : V → V → Bool) (p : PropDef V) (v w : V) : Prop :=
  ∃ c d, p.convert v = some c ∧ p.selection c = true ∧ p.coerce c = some d ∧ p.valid d = true ∧ Limited lt p d w

/-- No local property is added under the name of a property of the class. -/
def NoShadow (env : Env V) : Op V → Prop
  | .addProperty n _ => ∀ p, (n, p) ∉ env.cls
  | _ => True

/-- The limits of added properties make sense. -/
def AddsSensible (env : Env V) : Op V → Prop
  | .addProperty _ p => Sensible env.lt p
  | _ => True

/-- The property of that name: the local one, else the last of the class. -/
def HasProp (env : Env V) (o : Obj V) (n : Name) (p : PropDef V) : Prop :=
  (n, p) ∈ o.locals ∨ ((∀ q, (n, q) ∉ o.locals) ∧ ∃ l1 l2, env.cls = l1 ++ (n, p) :: l2 ∧ ∀ q, (n, q) ∉ l2)

/-! ## Access -/

/-- Operations of the public interface, which is not the protected one. -/
def IsPublic : Op V → Prop
  | .setProtected _ _ => False
  | .clearProtected _ => False
  | _ => True

def Removes (n : Name) : Op V → Prop
  | .removeProperty m => m = n
  | _ => False

/-! ## Handlers -/

/-- No handler does anything. -/
def Quiet (env : Env V) : Prop :=
  (∀ n a b c d, env.onClass n a b c d = []) ∧ (∀ n a b c d, env.onName n a b c d = []) ∧ (∀ n a b c d, env.onAny n a b c d = [])

/-! ## Listing -/

/-- The first occurrence of every element. -/
def firsts {α : Type} [DecidableEq α] : List α → List α
  | [] => []
  | a :: l => a :: (firsts l).filter (· ≠ a)

/-- The names as they were declared: those of the class, then the local ones. -/
def declared (env : Env V) (o : Obj V) : List Name := env.cls.map (·.1) ++ o.locals.map (·.1)

/-! ## Reading -/

/-- What a user knows of an object: its local properties, the values written and not cleared, and whether it is frozen. -/
structure Ref (V : Type) where
  own : Name → Option (PropDef V) := fun _ => none
  written : Name → Option V := fun _ => none
  frozen : Bool := false

/-- The property of that name: a local one, else one of the class. -/
def Ref.IsProp (env : Env V) (r : Ref V) (n : Name) (p : PropDef V) : Prop :=
  r.own n = some p ∨ (r.own n = none ∧ ∃ l1 l2, env.cls = l1 ++ (n, p) :: l2 ∧ ∀ q, (n, q) ∉ l2)

def Ref.write (r : Ref V) (n : Name) (v : Option V) : Ref V :=
  { r with written := fun m => if m = n then v else r.written m }

/-- Setting a value: refused for a name that is no property, for a read-only property unless through the protected
interface, and for a value that is not accepted. -/
def Ref.SetTo (env : Env V) (r : Ref V) (n : Name) (v : V) (prot : Bool) (res : Res) (r' : Ref V) : Prop :=
  ((∀ p, ¬ r.IsProp env n p) → res = .err .notFound ∧ r' = r) ∧
  ∀ p, r.IsProp env n p →
    (p.readOnly = true → prot = false → res = .err .accessDenied ∧ r' = r) ∧
    ((p.readOnly = false ∨ prot = true) →
      (∀ w, Accepts env.lt p v w → res = .ok ∧ r' = r.write n (some w)) ∧
      ((∀ w, ¬ Accepts env.lt p v w) → (∃ e, res = .err e) ∧ r' = r))

/-- Clearing a value. -/
def Ref.Cleared (env : Env V) (r : Ref V) (n : Name) (prot : Bool) (res : Res) (r' : Ref V) : Prop :=
  ((∀ p, ¬ r.IsProp env n p) → res = .err .notFound ∧ r' = r) ∧
  ∀ p, r.IsProp env n p →
    (p.readOnly = true → prot = false → res = .err .accessDenied ∧ r' = r) ∧
    ((p.readOnly = false ∨ prot = true) → (res = .ok ∨ res = .ignored) ∧ r' = r.write n none)

/-- A call with its result. -/
def Ref.Step (env : Env V) (r : Ref V) (op : Op V) (res : Res) (r' : Ref V) : Prop :=
  if r.frozen = true then r' = r ∧ (res = .err .frozen ∨ op = .freeze)
  else match op with
    | .set n v => r.SetTo env n v false res r'
    | .setProtected n v => r.SetTo env n v true res r'
    | .clear n => r.Cleared env n false res r'
    | .clearProtected n => r.Cleared env n true res r'
    | .addProperty n p =>
      if (r.own n).isSome = true then res = .err .alreadyExists ∧ r' = r
      else res = .ok ∧ r' = { r with own := fun m => if m = n then some p else r.own m }
    | .removeProperty n =>
      if (r.own n).isNone = true then res = .err .notFound ∧ r' = r
      else res = .ok ∧ r' = { r with own := fun m => if m = n then none else r.own m, written := (r.write n none).written }
    | .setOrder _ => res = .ok ∧ r' = r
    | .freeze => res = .ok ∧ r' = { r with frozen := true }
    | _ => False

/-- A history with its results. -/
inductive Ref.Run (env : Env V) : Ref V → List (Op V) → List Res → Ref V → Prop where
  | nil (r) : Run env r [] [] r
  | cons (r r' r'' op ops res ress) : Step env r op res r' → Run env r' ops ress r'' → Run env r (op :: ops) (res :: ress) r''

/-- Operations that neither batch nor clear everything. -/
def IsSingle : Op V → Prop
  | .clearAll => False
  | .beginUpdate => False
  | .endUpdate => False
  | _ => True

/-! ## Updates -/

/-- Sets and clears, which an update records. -/
def isWrite : Op V → Bool
  | .set _ _ => true
  | .setProtected _ _ => true
  | .clear _ => true
  | .clearProtected _ => true
  | _ => false

/-- How many updates are open after the calls, beside the outermost one, if they are sets, clears and nested updates. -/
def depth : Nat → List (Op V) → Option Nat
  | d, [] => some d
  | d, .beginUpdate :: l => depth (d + 1) l
  | 0, .endUpdate :: _ => none
  | d + 1, .endUpdate :: l => depth d l
  | d, op :: l => if isWrite op then depth d l else none

/-- The calls one after the other, up to the first that fails. -/
def runUntil (env : Env V) (fuel : Nat) : Obj V → List (Op V) → Option (Obj V × Res)
  | o, [] => some (o, .ok)
  | o, op :: ops => match step env fuel o op with
    | none => none
    | some (o1, .err e, _) => some (o1, .err e)
    | some (o1, _, _) => runUntil env fuel o1 ops

/-- The handlers do not look at whether the event belongs to an update. -/
def UpdateBlind (env : Env V) : Prop :=
  (∀ n a b c d d', env.onClass n a b c d = env.onClass n a b c d') ∧
  (∀ n a b c d d', env.onName n a b c d = env.onName n a b c d') ∧ (∀ n a b c d d', env.onAny n a b c d = env.onAny n a b c d')

/-! ## Writes by handlers -/

/-- The action raises no exception. -/
def Act.Calm : Act V → Prop
  | .setArgs _ => True
  | .write _ _ strict => strict = false
  | .clear _ strict => strict = false
  | .fail => False

/-- The handlers of the class and of the whole object raise no exception; those of single properties may. -/
def Calm (env : Env V) : Prop :=
  (∀ n a b c d, ∀ x ∈ env.onClass n a b c d, x.Calm) ∧ ∀ n a b c d, ∀ x ∈ env.onAny n a b c d, x.Calm

/-- The only handler of `n` writes `h w` to `n` when `w` is being written, or does nothing, and ignores failures. -/
def Rewrites (env : Env V) (n : Name) (h : V → Option V) : Prop :=
  ∀ a old c u, env.onClass n a old c u = [] ∧ env.onAny n a old c u = [] ∧
    env.onName n a old c u = match h a with
      | some v => [.write n v false]
      | none => []

/-- The writes started by writing `w` come to rest with `z` after `m` more writes: the handler writes nothing, or a value
that is refused, or that amounts to the value being written; or a different value, and so on. -/
inductive Settles (lt : V → V → Bool) (p : PropDef V) (h : V → Option V) : V → V → Nat → Prop where
  | still (w) : h w = none → Settles lt p h w w 0
  | refused (w v) : h w = some v → (∀ w', ¬ Accepts lt p v w') → Settles lt p h w w 0
  | same (w v) : h w = some v → Accepts lt p v w → Settles lt p h w w 0
  | next (w v w' z m) : h w = some v → Accepts lt p v w' → w' ≠ w → Settles lt p h w' z m → Settles lt p h w z (m + 1)

/-- The only handler of `n` replaces the value `w` in the event by `g w`. -/
def Replaces (env : Env V) (n : Name) (g : V → V) : Prop :=
  ∀ a old c u, env.onClass n a old c u = [] ∧ env.onAny n a old c u = [] ∧ env.onName n a old c u = [.setArgs (g a)]

end Verif.PropObj
