import Verif.AList
import Verif.Common

/-!
# Model of reference properties and of adding and removing properties

`obj` = `core/coreobjects/include/coreobjects/property_object_impl.h`
`prp` = `core/coreobjects/include/coreobjects/property_impl.h`
`nod` = `core/coreobjects/src/eval_nodes.cpp`
`evl` = `core/coreobjects/src/eval_value_impl.cpp`
`par` = `core/coreobjects/src/eval_value_parser.cpp`

Several property objects share a heap of property definitions. A definition belongs to at most one object, the one it was
first handed to. A reference property has no value of its own: it is given by an expression that names other properties of
the same object, and reading, writing and clearing it are redirected to the property the expression yields.

Following references is recursive and nothing in the code looks for cycles. The number handed to the functions below is the
number of nested steps that fit on the stack; running out of it is the outcome `overflow`.

Simplifications: objects have no class, no nested objects and no update in progress; names without dots and brackets; a
reference expression is `%A` or `switch($C, v, %A, …)` with an optional last alternative; handlers are passive (they neither
write nor raise); only write handlers of a single property are kept; the checks of a written value (type, selection,
coercer, validator, limits) are those of `Verif.PropObj` and are left out; default values are present and are no
expressions.
-/

namespace Verif.Refs

abbrev Name := Nat

/-- The expression of a reference property: `%m`, or `switch($c, v₁, %m₁, v₂, %m₂, …, %other)` (par:273-306, par:178-191). -/
inductive Ref (V : Type) where
  | to (m : Name)
  | switch (c : Name) (cases : List (V × Name)) (other : Option Name)
  deriving DecidableEq, Repr

/-- The names after `%`, collected by the parser (par:300-301). -/
def Ref.targets {V : Type} : Ref V → List Name
  | .to m => [m]
  | .switch _ cs other => cs.map (·.2) ++ other.toList

/-- A property definition: its fields do not change once it is built (prp:1682-1705). -/
structure Decl (V : Type) where
  name : Name
  dflt : V
  readOnly : Bool := false
  ref : Option (Ref V) := none
  /-- The handlers given to the definition (`getClassOnPropertyValueWrite`, prp:889-898). -/
  handlers : List Nat := []
  deriving DecidableEq, Repr

/-- A property object: its local properties (the newest first; the code keeps an ordered map), the stored values and the
write handlers of single properties. -/
structure Obj (V : Type) where
  props : AList Name Nat := []
  values : AList Name V := []
  events : AList Name (List Nat) := []
  deriving DecidableEq, Repr

/-- The owner of a definition is kept in the definition, here in a map from definitions to objects. -/
structure World (V : Type) where
  owner : AList Nat Nat := []
  objs : AList Nat (Obj V) := []
  deriving DecidableEq, Repr

inductive Err where
  | notFound | accessDenied | alreadyExists | ownerAssigned | duplicateReference | invalidOperation
  /-- The expression names something that is missing, or no case matches (evl:245-252, evl:317-320). -/
  | unresolved
  deriving DecidableEq, Repr

/-- What a computation that may run out of stack yields. -/
inductive Out (α : Type) where
  | ok (a : α)
  | err (e : Err)
  | overflow
  deriving DecidableEq, Repr

def Out.map {α β : Type} (f : α → β) : Out α → Out β
  | .ok a => .ok (f a)
  | .err e => .err e
  | .overflow => .overflow

variable {V : Type} [DecidableEq V]

def World.obj (w : World V) (o : Nat) : Obj V := (w.objs.get o).getD {}

def World.putObj (w : World V) (o : Nat) (x : Obj V) : World V := { w with objs := w.objs.put o x }

/-- `hasProperty` (obj:3519-3550). -/
def Obj.has (x : Obj V) (n : Name) : Bool := x.props.has n

/-- `SwitchNode::getResult` (nod:201-218). -/
def pick (v : V) : List (V × Name) → Option Name → Option Name
  | [], other => other
  | (k, m) :: cs, other => if v = k then some m else pick v cs other

/-- Evaluating a reference expression: every reference in it is resolved first, also those of the cases that are not
chosen (`SwitchNode::visit` nod:185-199, `RefNode::resolveReference` nod:55-81, `getReferenceFromPrefix` evl:142-172,
`checkParseAndResolve` evl:245-253, `getResultNoLock` evl:305-321). -/
def choose (x : Obj V) (get : Name → Out V) : Ref V → Out Name
  | .to m => if x.has m then .ok m else .err .unresolved
  | .switch c cs other =>
    match get c with
    | .overflow => .overflow
    | .err _ => .err .unresolved
    | .ok v =>
      if (cs.all fun e => x.has e.2) && (other.toList.all fun m => x.has m) then
        match pick v cs other with
        | some m => .ok m
        | none => .err .unresolved
      else .err .unresolved

/-- The value of a plain property: the stored one or the default (obj:1598-1608). -/
def Obj.value (decl : Nat → Decl V) (x : Obj V) (p : Nat) : V := (x.values.get (decl p).name).getD (decl p).dflt

/-- `getUnboundPropertyOrNull` and `checkForRefPropAndGetBoundProp` (obj:1331-1350, obj:1353-1380): the property that a name
finally stands for. -/
def resolve (decl : Nat → Decl V) (x : Obj V) : Nat → Name → Out Nat
  | 0, _ => .overflow
  | d + 1, n =>
    match x.props.get n with
    | none => .err .notFound
    | some p =>
      match (decl p).ref with
      | none => .ok p
      | some r =>
        match choose x (fun c => (resolve decl x d c).map (x.value decl)) r with
        | .overflow => .overflow
        | .err e => .err e
        | .ok m => resolve decl x d m

/-- `getPropertyValue` (obj:1554-1640). -/
def read (decl : Nat → Decl V) (x : Obj V) (d : Nat) (n : Name) : Out V := (resolve decl x d n).map (x.value decl)

/-- `callPropertyValueWrite` (obj:702-774): the handlers of a property that are called. -/
def Obj.heard (x : Obj V) (n : Name) : List Nat := (x.events.get n).getD []

/-- The part of `setPropertyValue` after the property is found (obj:1139-1146, 1171-1188): nothing happens if the
value is the present one (`shouldWriteLocalValue` obj:1243-1261). -/
def Obj.write (decl : Nat → Decl V) (x : Obj V) (p : Nat) (v : V) : Out (Obj V × List Nat) :=
  if (decl p).readOnly then .err .accessDenied
  else if x.value decl p = v then .ok (x, [])
  else .ok ({ x with values := x.values.put (decl p).name v }, x.heard (decl p).name)

/-- The part of `clearPropertyValue` after the property is found (obj:2059-2065, 2086-2087, 2114-2131). -/
def Obj.clear (decl : Nat → Decl V) (x : Obj V) (p : Nat) : Out (Obj V × List Nat) :=
  if (decl p).readOnly then .err .accessDenied
  else if x.values.has (decl p).name then
    .ok ({ x with values := x.values.del (decl p).name }, x.heard (decl p).name)
  else .ok (x, [])

/-- `checkForReferences` (obj:2890-2918, `checkIsReferenced` obj:2871-2887): whether some property of the object names `n` in
its expression. -/
def Obj.isReferenced (decl : Nat → Decl V) (x : Obj V) (n : Name) : Bool :=
  x.props.any fun e => match (decl e.2).ref with
    | none => false
    | some r => r.targets.contains n

/-- `hasDuplicateReferences` (obj:1435-1449). -/
def Obj.hasDuplicate (decl : Nat → Decl V) (x : Obj V) (p : Nat) : Bool :=
  match (decl p).ref with
  | none => false
  | some r => r.targets.any fun m => x.has m && x.isReferenced decl m

/-- The handlers of a new property (obj:2320-2327): `emplace` does nothing if the map has an entry for the name. -/
def Obj.hookUp (x : Obj V) (d : Decl V) : Obj V :=
  if d.handlers.isEmpty then x else { x with events := x.events.add d.name d.handlers }

/-- `addProperty` (obj:2286-2348). The owner is assigned (`setOwner` prp:1641-1663) before the name is looked up. -/
def World.add (decl : Nat → Decl V) (w : World V) (o p : Nat) : World V × Out Unit :=
  if (w.obj o).hasDuplicate decl p then (w, .err .duplicateReference)
  else if w.owner.has p then (w, .err .ownerAssigned)
  else
    let w1 := { w with owner := w.owner.put p o }
    if (w.obj o).has (decl p).name then (w1, .err .alreadyExists)
    else
      (w1.putObj o (({ w.obj o with props := ((decl p).name, p) :: (w.obj o).props } : Obj V).hookUp (decl p)), .ok ())

/-- `removeProperty` (obj:2351-2377). -/
def World.remove (w : World V) (o : Nat) (n : Name) : World V × Out Unit :=
  if (w.obj o).has n then
    (w.putObj o { w.obj o with props := (w.obj o).props.del n, values := (w.obj o).values.del n }, .ok ())
  else (w, .err .notFound)

/-- `getOnPropertyValueWrite(name) += h` (obj:2516-2552). -/
def World.listen (decl : Nat → Decl V) (w : World V) (o : Nat) (n : Name) (h : Nat) : World V × Out Unit :=
  match (w.obj o).props.get n with
  | none => (w, .err .notFound)
  | some p =>
    if (decl p).ref.isSome then (w, .err .invalidOperation)
    else (w.putObj o { w.obj o with events := (w.obj o).events.put n ((w.obj o).heard n ++ [h]) }, .ok ())

/-- A write or a clear through a name: the name is resolved first (obj:1110-1116, obj:2048-2056). -/
def World.through (decl : Nat → Decl V) (w : World V) (d o : Nat) (n : Name)
    (act : Obj V → Nat → Out (Obj V × List Nat)) : World V × Out (List Nat) :=
  match resolve decl (w.obj o) d n with
  | .overflow => (w, .overflow)
  | .err e => (w, .err e)
  | .ok p =>
    match act (w.obj o) p with
    | .overflow => (w, .overflow)
    | .err e => (w, .err e)
    | .ok (x, hs) => (w.putObj o x, .ok hs)

/-- The calls a user makes on property objects. -/
inductive Op (V : Type) where
  | add (o p : Nat)
  | remove (o : Nat) (n : Name)
  | listen (o : Nat) (n : Name) (h : Nat)
  | set (o : Nat) (n : Name) (v : V)
  | clear (o : Nat) (n : Name)
  deriving DecidableEq, Repr

/-- One call. The result lists the handlers that were called. -/
def step (decl : Nat → Decl V) (d : Nat) (w : World V) : Op V → World V × Out (List Nat)
  | .add o p => let r := w.add decl o p; (r.1, r.2.map fun _ => [])
  | .remove o n => let r := w.remove o n; (r.1, r.2.map fun _ => [])
  | .listen o n h => let r := w.listen decl o n h; (r.1, r.2.map fun _ => [])
  | .set o n v => w.through decl d o n fun x p => x.write decl p v
  | .clear o n => w.through decl d o n fun x p => x.clear decl p

/-- The value read from a property of an object. -/
def get (decl : Nat → Decl V) (d : Nat) (w : World V) (o : Nat) (n : Name) : Out V := read decl (w.obj o) d n

/-- A sequence of calls. -/
def run (decl : Nat → Decl V) (d : Nat) : World V → List (Op V) → World V
  | w, [] => w
  | w, op :: ops => run decl d (step decl d w op).1 ops

end Verif.Refs
