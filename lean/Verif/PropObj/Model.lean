import Verif.AList
import Verif.Common

/-!
# Model of property objects

`obj` = /repo/core/coreobjects/include/coreobjects/property_object_impl.h
`util` = /repo/core/coreobjects/include/coreobjects/property_object_utils.h
`cls` = /repo/core/coreobjects/src/property_object_class_impl.cpp

A property object has properties of its class and local ones, stored values, a custom order, a frozen flag and the
bookkeeping of updates. The type `V` of values is arbitrary; names are numbers (only their equality matters).

Event handlers are modelled by the actions they take: changing the value in the event arguments, setting or clearing
properties through the public interface, or raising an exception. A handler that never stops writing overflows the
stack; the number given to `call` bounds the nesting and `none` stands for reaching the bound, and for undefined
behaviour.

Simplifications: no properties of object type and no dotted names; no reference properties; no properties given by
expressions; default values are present; list indices, read events, permissions and locks are left out; the type
conversion, the selection list, the coercer and the validator of a property are arbitrary functions.
-/

namespace Verif.PropObj

abbrev Name := Nat

/-- What is checked and changed when a property is written. -/
structure PropDef (V : Type) where
  dflt : V
  readOnly : Bool := false
  /-- `checkPropertyTypeAndConvert`, `checkContainerType`, `checkStructType`, `checkEnumerationType` (obj:1204-1240) -/
  convert : V → Option V := some
  /-- `checkSelectionValues` (obj:1025-1075) -/
  selection : V → Bool := fun _ => true
  /-- `coercePropertyWrite` (obj:814-837); `none` is an exception -/
  coerce : V → Option V := some
  /-- `validatePropertyWrite` (obj:840-863) -/
  valid : V → Bool := fun _ => true
  min : Option V := none
  max : Option V := none

inductive Err where
  | frozen | notFound | accessDenied | conversion | notInSelection | coerceFailed | validateFailed | invalidState
  | alreadyExists
  /-- An exception raised by a handler. -/
  | handler
  deriving DecidableEq, Repr

inductive Res where
  | ok | ignored
  | err (e : Err)
  deriving DecidableEq, Repr

/-- An action of a handler. With `strict` a failure of the inner call is an exception in the handler, otherwise the handler
goes on. -/
inductive Act (V : Type) where
  | setArgs (v : V)
  | write (n : Name) (v : V) (strict : Bool)
  | clear (n : Name) (strict : Bool)
  | fail

/-- The actions of a handler given the new value, the old value, and whether the event is for clearing and for an update. -/
abbrev Handler (V : Type) := V → V → Bool → Bool → List (Act V)

/-- What surrounds the object: the order of values, the class and the handlers. -/
structure Env (V : Type) where
  lt : V → V → Bool
  /-- The properties of the class, inherited ones first; of several with the same name the last one counts. -/
  cls : AList Name (PropDef V) := []
  onClass : Name → Handler V := fun _ _ _ _ _ => []
  onName : Name → Handler V := fun _ _ _ _ _ => []
  onAny : Name → Handler V := fun _ _ _ _ _ => []

/-- `PropertyUpdateStackItem` (util:71-82). -/
structure Item (V : Type) where
  value : Option V
  level : Nat
  pushed : Bool

/-- `UpdatingAction` with its property name; no value is a clear. -/
structure Action (V : Type) where
  name : Name
  value : Option V
  prot : Bool

structure Obj (V : Type) where
  locals : AList Name (PropDef V) := []
  values : AList Name V := []
  order : List Name := []
  frozen : Bool := false
  count : Nat := 0
  pending : List (Action V) := []
  stack : AList Name (Item V) := []

/-- `PropertyValueChanged` and `PropertyObjectUpdateEnd` core events. -/
inductive Core (V : Type) where
  | changed (n : Name) (v : Option V)
  | updateEnd (values : List (Name × V))

variable {V : Type} [DecidableEq V]

/-- `getUnboundPropertyOrNull` (obj:1331-1350). -/
def lookup (env : Env V) (o : Obj V) (n : Name) : Option (PropDef V) :=
  match AList.get o.locals n with
  | some p => some p
  | none => AList.get env.cls.reverse n

/-- `coerceMinMax` (obj:866-897). -/
def clampMin (env : Env V) (p : PropDef V) (v : V) : V :=
  match p.min with
  | some m => if env.lt v m then m else v
  | none => v

def clampMax (env : Env V) (p : PropDef V) (v : V) : V :=
  match p.max with
  | some m => if env.lt m v then m else v
  | none => v

def clamp (env : Env V) (p : PropDef V) (v : V) : V := clampMax env p (clampMin env p v)

/-- The checks and changes of a value before it is written (obj:1143-1151). -/
def process (env : Env V) (p : PropDef V) (v : V) : Except Err V :=
  match p.convert v with
  | none => .error .conversion
  | some v =>
    if !p.selection v then .error .notInSelection
    else match p.coerce v with
      | none => .error .coerceFailed
      | some v => if !p.valid v then .error .validateFailed else .ok (clamp env p v)

/-- The stored value or the default (obj:725-731, 1599-1608). -/
def current (o : Obj V) (n : Name) (p : PropDef V) : V := (AList.get o.values n).getD p.dflt

/-- `writeLocalValue` (obj:1264-1295) without `forceWrite`; with `shouldWriteLocalValue` (obj:1243-1261) telling whether
something was written. -/
def shouldWrite (o : Obj V) (n : Name) (p : PropDef V) (v : V) : Bool := !decide (current o n p = v)

def writeLocal (o : Obj V) (n : Name) (p : PropDef V) (v : V) : Obj V :=
  if shouldWrite o n p v then { o with values := AList.put o.values n v } else o

/-- `registerPropertyUpdating` (util:126-135); `none`: the value is being written already. -/
def register (s : AList Name (Item V)) (n : Name) (v : Option V) : Option (AList Name (Item V)) :=
  match AList.get s n with
  | none => some (AList.put s n ⟨v, 1, true⟩)
  | some it => if it.value = v then none else some (AList.put s n ⟨v, it.level + 1, true⟩)

/-- `unregisterPropertyUpdating` (util:137-148). -/
def unregister (s : AList Name (Item V)) (n : Name) : AList Name (Item V) × Bool :=
  match AList.get s n with
  | none => (s, false)
  | some it => if it.level - 1 = 0 then (AList.del s n, it.pushed) else (AList.put s n ⟨it.value, it.level - 1, false⟩, it.pushed)

/-- `isBaseStackLevel` (util:150-157). -/
def isBase (s : AList Name (Item V)) (n : Name) : Bool :=
  match AList.get s n with
  | none => false
  | some it => decide (it.level = 1)

/-- A call of `setPropertyValueInternal` (with events) or, without value, of `clearPropertyValueInternal`. `upd`: the call
is made by `endUpdate`. -/
structure Call (V : Type) where
  name : Name
  value : Option V
  prot : Bool
  batch : Bool
  upd : Bool

abbrev Ret (V : Type) := Option (Obj V × Res × List (Core V))

/-- The public `setPropertyValue` and `clearPropertyValue` (obj:913-923, 1938-1948) as handlers call them. -/
def publicCall (o : Obj V) (n : Name) (v : Option V) : Call V := ⟨n, v, false, decide (o.count > 0), false⟩

/-- The actions of a handler; the value is the one in the event arguments. The flag tells whether an exception is raised. -/
def runActs (rec : Obj V → Call V → Ret V) : Obj V → V → List (Act V) → Option (Obj V × V × Bool × List (Core V))
  | o, a, [] => some (o, a, false, [])
  | o, _, .setArgs v :: l => runActs rec o v l
  | o, a, .fail :: _ => some (o, a, true, [])
  | o, a, .write n v strict :: l =>
    match rec o (publicCall o n (some v)) with
    | none => none
    | some (o1, .err _, ev) =>
      if strict then some (o1, a, true, ev)
      else (runActs rec o1 a l).map fun r => (r.1, r.2.1, r.2.2.1, ev ++ r.2.2.2)
    | some (o1, _, ev) => (runActs rec o1 a l).map fun r => (r.1, r.2.1, r.2.2.1, ev ++ r.2.2.2)
  | o, a, .clear n strict :: l =>
    match rec o (publicCall o n none) with
    | none => none
    | some (o1, .err _, ev) =>
      if strict then some (o1, a, true, ev)
      else (runActs rec o1 a l).map fun r => (r.1, r.2.1, r.2.2.1, ev ++ r.2.2.2)
    | some (o1, _, ev) => (runActs rec o1 a l).map fun r => (r.1, r.2.1, r.2.2.1, ev ++ r.2.2.2)

/-- The three events of `callPropertyValueWrite` (obj:739-757): of the class, of the property, of the object. An exception
in the first or last is not caught (`true` in the first flag), one in the second is kept (second flag). -/
def runHandlers (env : Env V) (rec : Obj V → Call V → Ret V) (o : Obj V) (n : Name) (a old : V) (isClear upd : Bool) :
    Option (Obj V × V × Bool × Bool × List (Core V)) :=
  match runActs rec o a (if (AList.get o.locals n).isSome then [] else env.onClass n a old isClear upd) with
  | none => none
  | some (o1, a1, true, ev1) => some (o1, a1, true, false, ev1)
  | some (o1, a1, false, ev1) =>
    match runActs rec o1 a1 (env.onName n a1 old isClear upd) with
    | none => none
    | some (o2, a2, failed, ev2) =>
      match runActs rec o2 a2 (env.onAny n a2 old isClear upd) with
      | none => none
      | some (o3, a3, thrown, ev3) => some (o3, a3, thrown, failed, ev1 ++ ev2 ++ ev3)

/-- `setPropertyValueInternal` without events (obj:1143-1197), as it is called for a value changed by a handler
(obj:770): unless frozen, processed and written. -/
def setPlain (env : Env V) (o : Obj V) (n : Name) (v : V) : Obj V × Res :=
  if o.frozen then (o, .err .frozen)
  else match lookup env o n with
    | none => (o, .err .notFound)
    | some p => match process env p v with
      | .error e => (o, .err e)
      | .ok w => if shouldWrite o n p w then (writeLocal o n p w, .ok) else (o, .ignored)

/-- What `callPropertyValueWrite` leaves to its caller. -/
inductive Write (V : Type) where
  | err (e : Err)
  | ignored
  /-- `newValue` after a success -/
  | done (newValue : Option V)

/-- The end of `callPropertyValueWrite` (obj:759-773), after the handlers. -/
def finish (env : Env V) (o : Obj V) (n : Name) (p : PropDef V) (nv : Option V) (a : V) (failed : Bool) : Obj V × Write V :=
  let (s, should) := unregister o.stack n
  let o := { o with stack := s }
  if failed then (o, .err .handler)
  else if should then
    if nv = none ∧ a = p.dflt then (o, .done nv)
    else if nv = some a then (o, .done nv)
    else match setPlain env o n a with
      | (o, .err e) => (o, .err e)
      | (o, .ignored) => (o, .ignored)
      | (o, .ok) => (o, .done (some a))
  else (o, .ignored)

/-- A value is written that the property has already (obj:714-722). -/
def redundant (o : Obj V) (n : Name) (p : PropDef V) : Option V → Bool
  | some v => !shouldWrite o n p v
  | none => false

/-- `callPropertyValueWrite` (obj:702-775). -/
def callWrite (env : Env V) (rec : Obj V → Call V → Ret V) (o : Obj V) (n : Name) (p : PropDef V) (nv : Option V) (upd : Bool) :
    Option (Obj V × Write V × List (Core V)) :=
  match register o.stack n nv with
  | none => some (o, .ignored, [])
  | some s =>
    if isBase s n && redundant o n p nv then
      some ({ o with stack := (unregister s n).1 }, .ignored, [])
    else
      match runHandlers env rec { o with stack := s } n (nv.getD p.dflt) (current o n p) nv.isNone upd with
      | none => none
      | some (o1, _, true, _, ev) => some (o1, .err .handler, ev)
      | some (o1, a, false, failed, ev) => some ((finish env o1 n p nv a failed).1, (finish env o1 n p nv a failed).2, ev)

/-- The rest of `setPropertyValueInternal` (obj:1171-1196) and of `clearPropertyValueInternal` (obj:2110-2126). Erasing a
value that is not stored any more is undefined (`propValues.erase(propValues.end())`). -/
def applyWrite (o : Obj V) (n : Name) (p : PropDef V) (nv : Option V) (upd : Bool) (ev : List (Core V)) : Write V → Ret V
  | .err e => some (o, .err e, ev)
  | .ignored => some (o, .ok, ev)
  | .done (some w) =>
    some (if nv = some w then writeLocal o n p w else o, .ok, ev ++ (if upd then [] else [.changed n (some w)]))
  | .done none =>
    if (AList.get o.values n).isNone then none
    else some ({ o with values := AList.del o.values n }, .ok, ev ++ (if upd then [] else [.changed n none]))

/-- `callPropertyValueWrite` and what follows. -/
def writeWith (env : Env V) (rec : Obj V → Call V → Ret V) (o : Obj V) (n : Name) (p : PropDef V) (nv : Option V) (upd : Bool) : Ret V :=
  match callWrite env rec o n p nv upd with
  | none => none
  | some (o1, w, ev) => applyWrite o1 n p nv upd ev w

/-- `setPropertyValueInternal` (obj:1078-1201) and `clearPropertyValueInternal` (obj:2021-2137). -/
def callStep (env : Env V) (rec : Obj V → Call V → Ret V) (o : Obj V) (c : Call V) : Ret V :=
  if o.frozen then some (o, .err .frozen, [])
  else if c.batch then some ({ o with pending := o.pending ++ [⟨c.name, c.value, c.prot⟩] }, .ok, [])
  else match lookup env o c.name with
    | none => some (o, .err .notFound, [])
    | some p =>
      if !c.prot && p.readOnly then some (o, .err .accessDenied, [])
      else match c.value with
        | some v => match process env p v with
          | .error e => some (o, .err e, [])
          | .ok w => writeWith env rec o c.name p (some w) c.upd
        | none =>
          if (AList.get o.values c.name).isNone then some (o, .ignored, [])
          else writeWith env rec o c.name p none c.upd

/-- A call with at most the given number of nested calls. -/
def call (env : Env V) : Nat → Obj V → Call V → Ret V
  | 0, _, _ => none
  | n + 1, o, c => callStep env (call env n) o c

/-! ## The public interface -/

inductive Op (V : Type) where
  | set (n : Name) (v : V)
  | setProtected (n : Name) (v : V)
  | clear (n : Name)
  | clearProtected (n : Name)
  | clearAll
  | addProperty (n : Name) (p : PropDef V)
  | removeProperty (n : Name)
  | setOrder (l : List Name)
  | beginUpdate
  | endUpdate
  | freeze

/-- `getPropertyValue` (obj:1554-1644, 2140-2168): the value being written, the stored one or the default. -/
def read (env : Env V) (o : Obj V) (n : Name) : Option V :=
  match lookup env o n with
  | none => none
  | some p => match AList.get o.stack n with
    | some it => some (it.value.getD p.dflt)
    | none => some (current o n p)

/-- `PropertyOrderedMap::insert_or_assign`: an existing entry keeps its place. -/
def assign {β : Type} : List (Name × β) → Name → β → List (Name × β)
  | [], n, b => [(n, b)]
  | (k, b') :: l, n, b => if k = n then (k, b) :: l else (k, b') :: assign l n b

/-- Take the names of the order out of the map, in that order (obj:2476-2487). -/
def takeOrder {β : Type} : List (Name × β) → List Name → List (Name × β) × List (Name × β)
  | l, [] => ([], l)
  | l, n :: ns => match AList.get l n with
    | some b => ((n, b) :: (takeOrder (AList.del l n) ns).1, (takeOrder (AList.del l n) ns).2)
    | none => takeOrder l ns

/-- `getAllProperties` (obj:2416-2513), with `bind` and all visible. -/
def getAll (env : Env V) (o : Obj V) : List (Name × PropDef V) :=
  let all := (env.cls ++ o.locals).foldl (fun m e => assign m e.1 e.2) []
  let r := takeOrder all o.order
  r.1 ++ r.2

/-- `endApplyUpdate` (obj:2750-2780): the recorded calls in order; an error ends it. The list is what was applied. -/
def apply (env : Env V) (fuel : Nat) : Obj V → List (Action V) → Option (Obj V × Res × List (Name × V) × List (Core V))
  | o, [] => some (o, .ok, [], [])
  | o, a :: l =>
    match call env fuel o ⟨a.name, a.value, a.prot, false, true⟩ with
    | none => none
    | some (o1, .err e, ev) => some (o1, .err e, [], ev)
    | some (o1, .ignored, ev) => (apply env fuel o1 l).map fun r => (r.1, r.2.1, r.2.2.1, ev ++ r.2.2.2)
    | some (o1, .ok, ev) => (apply env fuel o1 l).map fun r =>
      (r.1, r.2.1, (match read env o1 a.name with | some v => (a.name, v) :: r.2.2.1 | none => r.2.2.1), ev ++ r.2.2.2)

/-- `endUpdate` (obj:2680-2719, 2750-2780, 3631-3650). -/
def endUpdate (env : Env V) (fuel : Nat) (o : Obj V) : Ret V :=
  if o.count = 0 then some (o, .err .invalidState, [])
  else if o.count - 1 ≠ 0 then some ({ o with count := o.count - 1 }, .ok, [])
  else match apply env fuel { o with count := 0, pending := [] } o.pending with
    | none => none
    | some (o1, .err e, _, ev) => some (o1, .err e, ev)
    | some (o1, _, applied, ev) => some (o1, .ok, ev ++ (if applied = [] then [] else [.updateEnd applied]))

/-- The loop of `clearPropertyValuesInternal` (obj:1969-2018). -/
def clearLoop (env : Env V) (fuel : Nat) : Obj V → List (Name × PropDef V) → Ret V
  | o, [] => some (o, .ok, [])
  | o, (n, p) :: l =>
    if p.readOnly then clearLoop env fuel o l
    else if (AList.get o.locals n).isNone then clearLoop env fuel o l
    else match call env fuel o (publicCall o n none) with
      | none => none
      | some (o1, .err e, ev) => some (o1, .err e, ev)
      | some (o1, _, ev) => (clearLoop env fuel o1 l).map fun r => (r.1, r.2.1, ev ++ r.2.2)

/-- Calls on the object. -/
def step (env : Env V) (fuel : Nat) (o : Obj V) : Op V → Ret V
  | .set n v => call env fuel o ⟨n, some v, false, decide (o.count > 0), false⟩
  | .setProtected n v => call env fuel o ⟨n, some v, true, decide (o.count > 0), false⟩
  | .clear n => call env fuel o ⟨n, none, false, decide (o.count > 0), false⟩
  | .clearProtected n => call env fuel o ⟨n, none, true, decide (o.count > 0), false⟩
  | .clearAll => if o.frozen then some (o, .err .frozen, []) else clearLoop env fuel o (getAll env o)
  | .addProperty n p =>
    if o.frozen then some (o, .err .frozen, [])
    else if (AList.get o.locals n).isSome then some (o, .err .alreadyExists, [])
    else some ({ o with locals := o.locals ++ [(n, p)] }, .ok, [])
  | .removeProperty n =>
    if o.frozen then some (o, .err .frozen, [])
    else if (AList.get o.locals n).isNone then some (o, .err .notFound, [])
    else some ({ o with locals := AList.del o.locals n, values := AList.del o.values n }, .ok, [])
  | .setOrder l => if o.frozen then some (o, .err .frozen, []) else some ({ o with order := l }, .ok, [])
  | .beginUpdate => if o.frozen then some (o, .err .frozen, []) else some ({ o with count := o.count + 1 }, .ok, [])
  | .endUpdate => endUpdate env fuel o
  | .freeze => if o.frozen then some (o, .ignored, []) else some ({ o with frozen := true }, .ok, [])

/-- A sequence of calls; `none` if one of them overflows the stack. -/
def run (env : Env V) (fuel : Nat) : Obj V → List (Op V) → Option (Obj V × List Res)
  | o, [] => some (o, [])
  | o, op :: ops => match step env fuel o op with
    | none => none
    | some (o1, r, _) => (run env fuel o1 ops).map fun x => (x.1, r :: x.2)

end Verif.PropObj
