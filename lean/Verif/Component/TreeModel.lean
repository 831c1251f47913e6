import Verif.AList
import Verif.Common
import Verif.Graph
import Verif.Component.IdsModel

/-!
# Component trees

Model of the parts of `core/opendaq/component/include/opendaq/component_impl.h` (abbreviated `comp`) and
`folder_impl.h` (abbreviated `folder`) that concern local and global ids, the items of folders, removal, the active
state and `findComponent`; and of the lookup in `shared/libraries/config_protocol/src/config_protocol_server.cpp`
(abbreviated `srv`).

Components are numbered in the order of their creation. Simplifications: folders accept components of every type; all
components are visible, none is frozen, and their active attribute is not locked; no core events, permissions or
operation modes; no concurrency. A component that is no folder has no items.
-/

namespace Verif.Component
open Verif.Graph

structure Comp where
  localId : Str := []
  globalId : Str := []
  parent : Option Nat := none
  folder : Bool := false
  /-- `items` of a folder: an ordered map from local ids to components -/
  items : AList Str Nat := []
  removed : Bool := false
  localActive : Bool := true
  parentActive : Bool := true
  active : Bool := true
  deriving DecidableEq

structure St where
  count : Nat := 0
  comp : Nat → Comp := fun _ => {}

inductive Err where
  | localIdNotAssigned | slashInId | duplicateItem | notFound | componentRemoved
  deriving DecidableEq, Repr

inductive Out where
  | created (c : Nat)
  | ok
  | ignored
  | error (e : Err)
  /-- undefined behaviour -/
  | ub
  /-- not a call: no such component, or the component is no folder -/
  | noCall
  deriving DecidableEq, Repr

inductive Op where
  /-- constructor; `logger`: the context has a logger -/
  | create (parent : Option Nat) (localId : Str) (folder logger : Bool)
  | addItem (f c : Nat)
  | removeItem (f c : Nat)
  | removeItemWithLocalId (f : Nat) (k : Str)
  | clear (f : Nat)
  /-- `IRemovable::remove` -/
  | remove (c : Nat)
  | setActive (c : Nat) (b : Bool)
  deriving DecidableEq, Repr

/-- The parent given to the constructor. -/
def parentOk (s : St) : Option Nat → Bool
  | none => true
  | some p => decide (p < s.count)

/-- Global id (comp:250-253). -/
def makeGlobalId (s : St) (parent : Option Nat) (localId : Str) : Str :=
  match parent with
  | some p => (s.comp p).globalId ++ '/' :: localId
  | none => '/' :: localId

/-- Active state of the parent (comp:236, comp:276). -/
def initialParentActive (s : St) : Option Nat → Bool
  | some p => (s.comp p).active
  | none => true

/-- Constructor of a component (comp:225-279, comp:1432-1437). -/
def create (s : St) (parent : Option Nat) (localId : Str) (folder logger : Bool) : St × Out :=
  if !parentOk s parent then (s, .noCall)
  else if localId == [] then (s, .error .localIdNotAssigned)
  else if logger && localId.contains '/' then (s, .error .slashInId)
  else
    ({ count := s.count + 1
       comp := upd s.comp s.count
        { localId := localId, globalId := makeGlobalId s parent localId, parent := parent, folder := folder,
          parentActive := initialParentActive s parent, active := initialParentActive s parent } }, .created s.count)

/-! ## Removal -/

/-- What `remove` (comp:929-951) changes in the component itself, with `clearInternal` (folder:437-455) having emptied
its items. Emptying them is written before visiting the former items: no nested call looks at them again. -/
def removeOne (c : Comp) : Comp :=
  { c with removed := true, localActive := if c.active then false else c.localActive, active := false, items := [] }

/-- `remove` of the component and, for a folder, of all its items (comp:929-955, folder:437-463). -/
def removeAll (s : St) : (Nat → Comp) → Nat → (Nat → Comp) :=
  walk (fun c => c.removed) removeOne (fun c => c.items.map (·.2)) (s.count + 1)

/-- `items.erase` (folder:606). -/
def dropItem (c : Comp) (k : Str) : Comp := { c with items := AList.del c.items k }

/-- `items.clear` (folder:454). -/
def noItems (c : Comp) : Comp := { c with items := [] }

/-- `FolderImpl::removeItemWithLocalIdInternal` (folder:598-608). If the removal has emptied the folder itself, the
iterator is no longer valid. -/
def removeKey (s : St) (f : Nat) (k : Str) : St × Out :=
  match AList.get (s.comp f).items k with
  | none => (s, .error .notFound)
  | some i =>
    let m := removeAll s s.comp i
    if !(s.comp f).removed && (m f).removed then ({ s with comp := m }, .ub)
    else ({ s with comp := upd m f (dropItem (m f) k) }, .ok)

/-- `FolderImpl::clear` (folder:330-336, 437-455). If the removal of an item has emptied the folder itself, the loop
runs on an invalid iterator. -/
def clear (s : St) (f : Nat) : St × Out :=
  let m := ((s.comp f).items.map (·.2)).foldl (removeAll s) s.comp
  if !(s.comp f).removed && (m f).removed then ({ s with comp := m }, .ub)
  else ({ s with comp := upd m f (noItems (m f)) }, .ok)

/-! ## Active state -/

/-- The loop in `notifyItemsActiveChanged` (comp:410-416): an exception ends it. -/
def notifyAll (f : (Nat → Comp) → Nat → (Nat → Comp) × Bool) : List Nat → (Nat → Comp) → (Nat → Comp) × Bool
  | [], m => (m, true)
  | x :: xs, m => match f m x with
    | (m', true) => notifyAll f xs m'
    | (m', false) => (m', false)

/-- `setParentActive` (comp:424-470) of one component. -/
def setParentOne (v : Bool) (c : Comp) : Comp := { c with parentActive := v, active := v && c.localActive }

/-- `setParentActive` (comp:424-470), with `notifyActiveChanged` of folders (folder:216-225). The second component is
`false` if a removed component was met. -/
def setParentActive (v : Bool) : Nat → (Nat → Comp) → Nat → (Nat → Comp) × Bool
  | 0, m, _ => (m, true)
  | n + 1, m, x =>
    if (m x).removed then (m, false)
    else if (m x).parentActive == v then (m, true)
    else if (v && (m x).localActive) == (m x).active then (upd m x (setParentOne v (m x)), true)
    else notifyAll (setParentActive v n) ((m x).items.map (·.2)) (upd m x (setParentOne v (m x)))

/-- `localActive` and, with `updateActive` (comp:473-479), `active` (comp:380-381). -/
def setLocalOne (b : Bool) (c : Comp) : Comp := { c with localActive := b, active := c.parentActive && b }

/-- `setActive` (comp:350-407). -/
def setActive (s : St) (c : Nat) (b : Bool) : St × Out :=
  if (s.comp c).removed then (s, .error .componentRemoved)
  else if b == (s.comp c).localActive then (s, .ignored)
  else
    let m := upd s.comp c (setLocalOne b (s.comp c))
    if (m c).active == (s.comp c).active then ({ s with comp := m }, .ignored)
    else match notifyAll (setParentActive (m c).active (s.count + 1)) ((s.comp c).items.map (·.2)) m with
      | (m', true) => ({ s with comp := m' }, .ok)
      | (m', false) => ({ s with comp := m' }, .error .componentRemoved)

/-! ## Calls -/

def isFolder (s : St) (f : Nat) : Bool := decide (f < s.count) && (s.comp f).folder

/-- `items.emplace` (folder:471) of a new item: at the end. -/
def appendItem (f : Comp) (k : Str) (c : Nat) : Comp := { f with items := f.items ++ [(k, c)] }

/-- `FolderImpl::addItem` (folder:228-261, 466-474). -/
def addItem (s : St) (f c : Nat) : St × Out :=
  if AList.has (s.comp f).items (s.comp c).localId then (s, .error .duplicateItem)
  else ({ s with comp := upd s.comp f (appendItem (s.comp f) (s.comp c).localId c) }, .ok)

/-- `ComponentImpl::remove` (comp:929-955). -/
def remove (s : St) (c : Nat) : St × Out :=
  if (s.comp c).removed then (s, .ignored) else ({ s with comp := removeAll s s.comp c }, .ok)

def step (s : St) : Op → St × Out
  | .create p l f g => create s p l f g
  | .addItem f c => if isFolder s f && decide (c < s.count) then addItem s f c else (s, .noCall)
  | .removeItem f c => if isFolder s f && decide (c < s.count) then removeKey s f (s.comp c).localId else (s, .noCall)
  | .removeItemWithLocalId f k => if isFolder s f then removeKey s f k else (s, .noCall)
  | .clear f => if isFolder s f then clear s f else (s, .noCall)
  | .remove c => if c < s.count then remove s c else (s, .noCall)
  | .setActive c b => if c < s.count then setActive s c b else (s, .noCall)

def init : St := {}

/-! ## Queries -/

/-- `FolderImpl::getItem` (folder:158-171). -/
def getItem (s : St) (f : Nat) (k : Str) : Option Nat := AList.get (s.comp f).items k

/-- `FolderImpl::hasItem` (folder:186-199). -/
def hasItem (s : St) (f : Nat) (k : Str) : Bool := AList.has (s.comp f).items k

/-- `FolderImpl::getItems` (folder:121-156) without a filter. -/
def getItems (s : St) (f : Nat) : List Nat := (s.comp f).items.map (·.2)

theorem split_shorter {s a r : Str} (h : splitRelativeId s = some (a, r)) : r.length < s.length := by
  induction s generalizing a with
  | nil => cases h
  | cons c s ih =>
    unfold splitRelativeId at h
    split at h
    · cases h; simp
    · obtain ⟨⟨a', r'⟩, e1, e2⟩ := Option.map_eq_some_iff.mp h
      cases e2
      have : r'.length < s.length := ih e1
      simp; omega

/-- `ComponentFinderRootDevice::findComponentInternal` (srv:24-51). -/
def findBelow (s : St) (c : Nat) (name : Str) : Option Nat :=
  match _h : splitRelativeId name with
  | none => if (s.comp c).folder then getItem s c name else none
  | some (start, rest) =>
    if (s.comp c).folder then
      match getItem s c start with
      | none => none
      | some d => findBelow s d rest
    else none
  termination_by name.length
  decreasing_by exact split_shorter _h

/-- `ComponentImpl::findComponentInternal` (comp:1331-1358): as above, but the empty text is the component itself. -/
def findInternal (s : St) (c : Nat) (name : Str) : Option Nat :=
  if name == [] then some c
  else match _h : splitRelativeId name with
  | none => if (s.comp c).folder then getItem s c name else none
  | some (start, rest) =>
    if (s.comp c).folder then
      match getItem s c start with
      | none => none
      | some d => findInternal s d rest
    else none
  termination_by name.length
  decreasing_by exact split_shorter _h

inductive Found where
  | invalidParameter
  | nothing
  | found (c : Nat)
  deriving DecidableEq, Repr

def Found.of : Option Nat → Found
  | none => .nothing
  | some c => .found c

/-- `ComponentFinderRootDevice::findComponent` (srv:53-74). -/
def findGlobal (s : St) (root : Nat) : Str → Found
  | '/' :: name =>
    match splitRelativeId name with
    | none => if name == (s.comp root).localId then .found root else .nothing
    | some (start, rest) => if start == (s.comp root).localId then Found.of (findBelow s root rest) else .nothing
  | _ => .invalidParameter

/-- `ConfigProtocolServer::findComponent` (srv:406-414). -/
def serverFind (s : St) (root : Nat) (name : Str) : Found :=
  if name == ['/', '/', 'r', 'o', 'o', 't'] then .found root else findGlobal s root name

/-- The text in `findComponent` without the leading `/` and the own local id (comp:911-919). When splitting fails
the start stays empty. -/
def stripOwn (localId : Str) : Str → Str
  | '/' :: name =>
    match splitRelativeId name with
    | none => if localId == [] then [] else name
    | some (start, rest) => if start == localId then rest else name
  | name => name

/-- `ComponentImpl::findComponent` (comp:903-927). -/
def findComponent (s : St) (c : Nat) (name : Str) : Option Nat := findInternal s c (stripOwn (s.comp c).localId name)

end Verif.Component
