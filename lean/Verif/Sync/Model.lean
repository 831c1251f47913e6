import Verif.AList

/-!
# The synchronisation component of a device

`sc` = `core/opendaq/synchronization/include/opendaq/sync_component_impl.h`,
`po` = `core/coreobjects/include/coreobjects/property_object_impl.h`,
`ev` = `core/coreobjects/src/eval_value_impl.cpp`,
`tm` = `core/coretypes/src/type_manager_impl.cpp`.

The component holds an object "Interfaces" with one property for each interface, and a selection
"Source" whose list of choices is the list of the names of those properties (sc:78-79, ev:160-170).

Simplified: the interfaces are their class names, in the order in which they have been added (no
order of one's own is set on "Interfaces", and nothing is added to it but by this component); the
number of interfaces stays below 2^63, so that a negative index, turned into a size (po:1036), is
out of range; the flag "SynchronizationLocked", which nothing else looks at, is left out.
-/

namespace Verif.Sync

abbrev Name := String

/-- The name the code compares with, sc:170 and sc:193. -/
def baseName : Name := "SyncInterfaceBase"

/-- A type of the type manager: a class of property objects, with the name of its parent, or some
other type, sc:163-165. -/
inductive Ty where
  | cls (parent : Option Name)
  | other
deriving DecidableEq, Repr

/-- What a call answers. -/
inductive Code where
  | ok
  | notFound
  | invalidArgument
  | argumentNull
  | alreadyExists
  | invalidState
  | never      -- the call does not return
deriving DecidableEq, Repr

/-- The component: the names of the interfaces, the value of "Source", how many updates are open and
the values of "Source" waiting for the last of them to end (po:338, po:2669), and the types known to
the type manager of the context, if there is one. -/
structure St where
  names : List Name
  src : Int
  depth : Nat
  queue : List Int
  types : Option (AList Name Ty)

/-- The constructor, sc:70-81. -/
def create (types : Option (AList Name Ty)) : St := ⟨[], 0, 0, [], types⟩

/-- `checkClassNameIsSyncInterface`, sc:153-178, with at most `k` calls on the stack; `none`: these
do not suffice. -/
def check : Nat → AList Name Ty → Name → Option Code
  | 0, _, _ => none
  | k + 1, t, c => match t.get c with
    | none => some .invalidArgument
    | some .other => some .invalidArgument
    | some (.cls none) => some .invalidArgument
    | some (.cls (some p)) => if p = baseName then some .ok else check k t p

/-- `addProperty` of "Interfaces", po:2286-2346. -/
def addProperty (s : St) (c : Name) : St × Code :=
  if c ∈ s.names then (s, .alreadyExists) else ({ s with names := s.names ++ [c] }, .ok)

/-- `addInterface`, sc:180-214, of an object with the given class name. No two calls of
`checkClassNameIsSyncInterface` on the stack are about the same name unless it never returns, so
one more than there are types is enough. -/
def add (s : St) (c : Option Name) : St × Code :=
  match c with
  | none => (s, .invalidArgument)
  | some c =>
    if c = baseName then (s, .invalidArgument)
    else match s.types with
      | none => (s, .argumentNull)
      | some t => match check (t.length + 1) t c with
        | none => (s, .never)
        | some .ok => addProperty s c
        | some e => (s, e)

/-- Writing "Source" outside of updates, po:1024-1074 (index selection) and po:1150. -/
def write (s : St) (v : Int) : St × Code :=
  if 0 ≤ v ∧ v < s.names.length then ({ s with src := v }, .ok) else (s, .notFound)

/-- `setSelectedSource`, sc:118-122: a value is kept for later while an update is open, po:922 and
po:1098-1102. -/
def select (s : St) (v : Int) : St × Code :=
  if s.depth > 0 then ({ s with queue := s.queue ++ [v] }, .ok) else write s v

/-- The position the loop of `removeInterface` stops at, sc:230-255. -/
def locate (c : Name) : Nat → List Name → Option Nat
  | _, [] => none
  | i, n :: l => if n = c then some i else locate c (i + 1) l

/-- `removeInterface`, sc:216-257. -/
def remove (s : St) (c : Name) : St × Code :=
  match locate c 0 s.names with
  | none => (s, .notFound)
  | some i =>
    let s' : St := { s with names := s.names.erase c }
    if s.src = i then
      match select s' 0 with
      | (s'', .ok) => (s'', .ok)
      | (s'', .notFound) => (s'', .ok)
      | (s'', e) => (s'', e)
    else if s.src > i then ((select s' (s.src - 1)).1, .ok)
    else (s', .ok)

/-- The loop of `endApplyUpdate`, po:2757-2777: it is left at the first value refused. -/
def apply : St → List Int → St × Code
  | s, [] => (s, .ok)
  | s, v :: l => match write s v with
    | (s', .ok) => apply s' l
    | (s', e) => (s', e)

/-- `beginUpdate`, po:2664-2677. -/
def beginUpdate (s : St) : St × Code := ({ s with depth := s.depth + 1 }, .ok)

/-- `endUpdate`, po:2680-2720 with po:2750-2780. -/
def endUpdate (s : St) : St × Code :=
  if s.depth = 0 then (s, .invalidState)
  else if s.depth - 1 = 0 then apply { s with depth := 0, queue := [] } s.queue
  else ({ s with depth := s.depth - 1 }, .ok)

/-- The calls; `setTypes`: types are added to or removed from the type manager, tm:31-60, tm:72-85. -/
inductive Op where
  | add (c : Option Name)
  | remove (c : Name)
  | select (v : Int)
  | beginUpdate
  | endUpdate
  | setTypes (t : Option (AList Name Ty))

def step (s : St) : Op → St × Code
  | .add c => add s c
  | .remove c => remove s c
  | .select v => select s v
  | .beginUpdate => beginUpdate s
  | .endUpdate => endUpdate s
  | .setTypes t => ({ s with types := t }, .ok)

def run (s : St) : List Op → St × List Code
  | [] => (s, [])
  | o :: l => let r := step s o; let q := run r.1 l; (q.1, r.2 :: q.2)

/-- `getInterfaces`, sc:124-151 (the names), and `getSelectedSource`, sc:107-116. -/
def interfaces (s : St) : List Name := s.names
def selected (s : St) : Int := s.src

end Verif.Sync
