import Verif.AList
import Verif.Common

/-!
# Model of updates of nested property objects

`obj` = `core/coreobjects/include/coreobjects/property_object_impl.h`
`fld` = `core/opendaq/component/include/opendaq/folder_impl.h`
`sgc` = `core/opendaq/signal/include/opendaq/signal_container_impl.h`

Property objects contain property objects, and components contain components. `beginUpdate` and `endUpdate` of an object
are passed on to those inside; a property of a nested object can be named by a dotted name.

A forest holds objects side by side, each with the forest of the objects inside. Objects are named by the names on the way
to them; `at` does something to the object with such a path.

Simplifications: what is checked and changed on a write is one function per property; write handlers, events, protected
access, reference properties, classes and locks are left out (see `Verif.PropObj`, `Verif.Refs`); object properties are not
read-only; `getAllProperties` lists values before objects; objects inside are visited in the order of the list (in the code
an unordered map).
-/

namespace Verif.Nest

variable {V : Type}

abbrev Name := Nat
abbrev Path := List Name

inductive Err where
  | frozen | notFound | accessDenied | refused | invalidState | alreadyExists
  deriving DecidableEq, Repr, Inhabited

inductive Res where
  | ok | err (e : Err)
  deriving DecidableEq, Repr, Inhabited

/-- A value property: `check` yields the value to be stored, or `none` if the value is refused. -/
structure Def (V : Type) where
  dflt : V
  readOnly : Bool := false
  check : V → Option V := some

/-- A set (with a value) or a clear that was recorded during an update; the way to the object it was made for and the
property (obj:1100, obj:2037). -/
structure Action (V : Type) where
  route : Path
  n : Name
  v : Option V

/-- An object without the objects inside. -/
structure Data (V : Type) where
  count : Nat := 0
  frozen : Bool := false
  defs : List (Name × Def V) := []
  vals : AList Name V := []
  pending : List (Action V) := []

/-- Objects side by side: name, object, the objects inside, and the others. -/
inductive Forest (V : Type) where
  | nil
  | cons (m : Name) (d : Data V) (below rest : Forest V)

/-- An object property exists. -/
def Forest.hasKid : Forest V → Name → Bool
  | .nil, _ => false
  | .cons m _ _ rest, n => decide (m = n) || rest.hasKid n

/-- Do something to the object with a path. With `chk` a frozen object on the way refuses to be passed (obj:1090-1091). -/
def Forest.at (chk : Bool) : Forest V → Path → (Data V → Forest V → Data V × Forest V × Res) → Forest V × Res
  | .nil, _, _ => (.nil, .err .notFound)
  | .cons m d below rest, [], _ => (.cons m d below rest, .err .notFound)
  | .cons m d below rest, k :: q, f =>
    if k = m then
      match q with
      | [] => (.cons m (f d below).1 (f d below).2.1 rest, (f d below).2.2)
      | _ :: _ =>
        if chk = true ∧ d.frozen = true then (.cons m d below rest, .err .frozen)
        else (.cons m d (below.at chk q f).1 rest, (below.at chk q f).2)
    else (.cons m d below (rest.at chk (k :: q) f).1, (rest.at chk (k :: q) f).2)

/-! ## Setting and clearing without an update -/

/-- The value a property has. -/
def Data.current [DecidableEq V] (d : Data V) (n : Name) (p : Def V) : V := (AList.get d.vals n).getD p.dflt

/-- `setPropertyValueInternal` for a property of the object itself, not recorded (obj:1078-1201). Values that change nothing
are not stored (obj:1242-1296). -/
def Data.set [DecidableEq V] (d : Data V) (below : Forest V) (n : Name) (v : V) : Data V × Res :=
  if d.frozen then (d, .err .frozen)
  else match AList.get d.defs n with
    | none => (d, .err (if below.hasKid n then .accessDenied else .notFound))
    | some p =>
      if p.readOnly then (d, .err .accessDenied)
      else match p.check v with
        | none => (d, .err .refused)
        | some w => if d.current n p = w then (d, .ok) else ({ d with vals := AList.put d.vals n w }, .ok)

/-- `clearPropertyValueInternal` for a value property of the object itself, not recorded (obj:2021-2137). -/
def Data.clear (d : Data V) (n : Name) (p : Def V) : Data V × Res :=
  if d.frozen then (d, .err .frozen)
  else if p.readOnly then (d, .err .accessDenied)
  else ({ d with vals := AList.del d.vals n }, .ok)

/-- Record a call (obj:1098-1102, obj:2035-2039). -/
def Data.push (d : Data V) (a : Action V) : Data V := { d with pending := d.pending ++ [a] }

/-- `clearPropertyValue` for each value property of an object, up to the first that fails (obj:2083-2106). -/
def Data.clearEach (d : Data V) : List (Name × Def V) → Data V × Res
  | [] => (d, .ok)
  | (n, p) :: ps =>
    if d.frozen then (d, .err .frozen)
    else if d.count > 0 then (d.push ⟨[], n, none⟩).clearEach ps
    else match d.clear n p with
      | (d', .ok) => d'.clearEach ps
      | (d', .err e) => (d', .err e)

/-- Record a clear of each object property. -/
def Data.pushKids (d : Data V) : Forest V → Data V
  | .nil => d
  | .cons m _ _ rest => (d.push ⟨[], m, none⟩).pushKids rest

/-- Whether there is any object. -/
def Forest.isNil : Forest V → Bool
  | .nil => true
  | .cons .. => false

/-- Clearing the object properties of an object after its values: `below` are the results for the objects inside. -/
def clearKids (d : Data V) (orig : Forest V) (below : Forest V × Res) : Data V × Forest V × Res :=
  if orig.isNil then (d, orig, .ok)
  else if d.frozen then (d, orig, .err .frozen)
  else if d.count > 0 then (d.pushKids orig, orig, .ok)
  else (d, below.1, below.2)

/-- Clearing one object: its value properties, then its object properties. -/
def resetOne (d : Data V) (orig : Forest V) (below : Forest V × Res) : Data V × Forest V × Res :=
  match d.clearEach d.defs with
  | (d', .err e) => (d', orig, .err e)
  | (d', .ok) => clearKids d' orig below

/-- Clearing all objects, one after the other, up to one that fails (obj:2093-2106). -/
def Forest.resetAll : Forest V → Forest V × Res
  | .nil => (.nil, .ok)
  | .cons m d below rest =>
    match resetOne d below below.resetAll with
    | (d', b', .err e) => (.cons m d' b' rest, .err e)
    | (d', b', .ok) => (.cons m d' b' rest.resetAll.1, rest.resetAll.2)

/-- Clearing the object with a name. -/
def Forest.resetKid : Forest V → Name → Forest V × Res
  | .nil, _ => (.nil, .err .notFound)
  | .cons m d below rest, n =>
    if m = n then
      (.cons m (resetOne d below below.resetAll).1 (resetOne d below below.resetAll).2.1 rest,
        (resetOne d below below.resetAll).2.2)
    else (.cons m d below (rest.resetKid n).1, (rest.resetKid n).2)

/-- Clearing a property, which may be an object, of the object itself, not recorded (obj:2050-2132). -/
def clearHere (d : Data V) (below : Forest V) (n : Name) : Data V × Forest V × Res :=
  if d.frozen then (d, below, .err .frozen)
  else match AList.get d.defs n with
    | some p => ((d.clear n p).1, below, (d.clear n p).2)
    | none => if below.hasKid n then (d, (below.resetKid n).1, (below.resetKid n).2) else (d, below, .err .notFound)

/-- `clearPropertyValue` of an object inside with a dotted name: each object on the way records the call if it is updating
(obj:2035-2039, obj:2067-2082). -/
def Forest.clearIn : Forest V → Path → Name → Forest V × Res
  | .nil, _, _ => (.nil, .err .notFound)
  | .cons m d below rest, [], _ => (.cons m d below rest, .err .notFound)
  | .cons m d below rest, k :: q, n =>
    if k = m then
      if d.frozen then (.cons m d below rest, .err .frozen)
      else if d.count > 0 then (.cons m (d.push ⟨q, n, none⟩) below rest, .ok)
      else match q with
        | [] => (.cons m (clearHere d below n).1 (clearHere d below n).2.1 rest, (clearHere d below n).2.2)
        | _ :: _ => (.cons m d (below.clearIn q n).1 rest, (below.clearIn q n).2)
    else (.cons m d below (rest.clearIn (k :: q) n).1, (rest.clearIn (k :: q) n).2)

/-- Clear with a name that may be dotted, not recorded by the object itself (obj:2021-2137). -/
def clearNow (d : Data V) (below : Forest V) (route : Path) (n : Name) : Data V × Forest V × Res :=
  match route with
  | [] => clearHere d below n
  | _ :: _ =>
    if d.frozen then (d, below, .err .frozen) else (d, (below.clearIn route n).1, (below.clearIn route n).2)

/-! ## Calls -/

/-- `setPropertyValue` of the object itself: recorded during an update (obj:1098-1102, obj:920-923). -/
def setSelf [DecidableEq V] (n : Name) (v : V) (d : Data V) (below : Forest V) : Data V × Forest V × Res :=
  if d.frozen then (d, below, .err .frozen)
  else if d.count > 0 then (d.push ⟨[], n, some v⟩, below, .ok)
  else ((d.set below n v).1, below, (d.set below n v).2)

/-- `setPropertyValue`; a dotted name is never recorded but passed on (obj:1096-1138). -/
def setNamed [DecidableEq V] (route : Path) (n : Name) (v : V) (d : Data V) (below : Forest V) : Data V × Forest V × Res :=
  match route with
  | [] => setSelf n v d below
  | _ :: _ =>
    if d.frozen then (d, below, .err .frozen)
    else (d, (below.at true route (setSelf n v)).1, (below.at true route (setSelf n v)).2)

/-- `clearPropertyValue`; recorded with its dotted name (obj:2030-2039, obj:1944-1948). -/
def clearNamed (route : Path) (n : Name) (d : Data V) (below : Forest V) : Data V × Forest V × Res :=
  if d.frozen then (d, below, .err .frozen)
  else if d.count > 0 then (d.push ⟨route, n, none⟩, below, .ok)
  else clearNow d below route n

/-- `beginUpdate` of the objects inside: frozen ones are left out (obj:2620-2634; fld:528-543, sgc:749-762). -/
def Forest.beginAll : Forest V → Forest V
  | .nil => .nil
  | .cons m d below rest =>
    if d.frozen then .cons m d below rest.beginAll
    else .cons m { d with count := d.count + 1 } below.beginAll rest.beginAll

/-- `beginUpdateInternal` (obj:2663-2677) -/
def beginHere (d : Data V) (below : Forest V) : Data V × Forest V × Res :=
  if d.frozen then (d, below, .err .frozen) else ({ d with count := d.count + 1 }, below.beginAll, .ok)

/-- The recorded calls, one after the other, up to one that fails (obj:2749-2776). -/
def applyAll [DecidableEq V] (d : Data V) (below : Forest V) : List (Action V) → Data V × Forest V × Res
  | [] => (d, below, .ok)
  | a :: as =>
    match (match a.v with
      | some v => ((d.set below a.n v).1, below, (d.set below a.n v).2)
      | none => clearNow d below a.route a.n) with
    | (d', b', .ok) => applyAll d' b' as
    | (d', b', .err e) => (d', b', .err e)

/-- `endUpdateInternal` (obj:2680-2720); `below` is what becomes of the objects inside. -/
def endOne [DecidableEq V] (d : Data V) (orig : Forest V) (below : Forest V × Res) : Data V × Forest V × Res :=
  if d.count = 0 then (d, orig, .err .invalidState)
  else match below.2 with
    | .err e => ({ d with count := d.count - 1 }, below.1, .err e)
    | .ok =>
      if d.count = 1 then applyAll { d with count := 0, pending := [] } below.1 d.pending
      else ({ d with count := d.count - 1 }, below.1, .ok)

/-- `endUpdate` of the objects inside, one after the other, up to one that fails (obj:2637-2651; fld:546-560, sgc:765-777). -/
def Forest.endAll [DecidableEq V] : Forest V → Forest V × Res
  | .nil => (.nil, .ok)
  | .cons m d below rest =>
    if d.frozen then (.cons m d below rest.endAll.1, rest.endAll.2)
    else match endOne d below below.endAll with
      | (d', b', .err e) => (.cons m d' b' rest, .err e)
      | (d', b', .ok) => (.cons m d' b' rest.endAll.1, rest.endAll.2)

/-- `endUpdate` -/
def endHere [DecidableEq V] (d : Data V) (below : Forest V) : Data V × Forest V × Res := endOne d below below.endAll

/-- Put an object at the end. -/
def Forest.snoc : Forest V → Name → Data V → Forest V → Forest V
  | .nil, n, d, b => .cons n d b .nil
  | .cons m d below rest, n, e, b => .cons m d below (rest.snoc n e b)

/-- `addProperty` of an object property (obj:2286-2348): its default value becomes the value. -/
def addHere (n : Name) (e : Data V) (b : Forest V) (d : Data V) (below : Forest V) : Data V × Forest V × Res :=
  if d.frozen then (d, below, .err .frozen)
  else if AList.has d.defs n || below.hasKid n then (d, below, .err .alreadyExists)
  else (d, below.snoc n e b, .ok)

/-- `freeze` (obj:3500-3507): the objects inside are not frozen. -/
def freezeHere (d : Data V) (below : Forest V) : Data V × Forest V × Res := ({ d with frozen := true }, below, .ok)

/-- Calls on the object with path `h`. -/
inductive Op (V : Type) where
  | set (h route : Path) (n : Name) (v : V)
  | clear (h route : Path) (n : Name)
  | startUpdate (h : Path)
  | endUpdate (h : Path)
  | add (h : Path) (n : Name) (d : Data V) (below : Forest V)
  | freeze (h : Path)

def step [DecidableEq V] (f : Forest V) : Op V → Forest V × Res
  | .set h route n v => f.at false h (setNamed route n v)
  | .clear h route n => f.at false h (clearNamed route n)
  | .startUpdate h => f.at false h beginHere
  | .endUpdate h => f.at false h endHere
  | .add h n d b => f.at false h (addHere n d b)
  | .freeze h => f.at false h freezeHere

/-- Many calls: the forest and the results. -/
def run [DecidableEq V] (f : Forest V) : List (Op V) → Forest V × List Res
  | [] => (f, [])
  | o :: os => ((run (step f o).1 os).1, (step f o).2 :: (run (step f o).1 os).2)

/-- The object with a path. -/
def Forest.find : Forest V → Path → Option (Data V × Forest V)
  | .nil, _ => none
  | .cons _ _ _ _, [] => none
  | .cons m d below rest, k :: q =>
    if k = m then (match q with | [] => some (d, below) | _ :: _ => below.find q) else rest.find (k :: q)

/-- `getPropertyValue` (obj:1553-1640, obj:2139-2168) -/
def read [DecidableEq V] (f : Forest V) (h : Path) (n : Name) : Option V :=
  match f.find h with
  | none => none
  | some (d, _) => (AList.get d.defs n).map (d.current n)

end Verif.Nest
