import Verif.AList
import Verif.Common
import Mathlib.Data.String.Basic

/-!
# Permissions

Model of `PermissionsBuilderImpl` (`core/coreobjects/src/permissions_builder_impl.cpp`, abbreviated
`builder`), `PermissionManagerImpl` (`core/coreobjects/src/permission_manager_impl.cpp`, abbreviated
`mgr`, the variant with `OPENDAQ_ENABLE_ACCESS_CONTROL`) and the group list of `UserImpl`
(`core/coreobjects/src/user_impl.cpp`, abbreviated `user`).

Simplifications:
* permission tables (`std::unordered_map`) are association lists, iterated in list order; every
  key occurs once, so that the order has no effect on the result;
* permission managers are numbered; a weak reference to a destroyed manager is empty;
* null pointers are not passed; calls are atomic.
-/

namespace Verif.Security

abbrev Group := String

/-- `Int` permission mask; `Permission::Read = 1`, `Write = 2`, `Execute = 4`
(permission_mask_builder.h:32-38). -/
abbrev Mask := BitVec 64

abbrev Table := AList Group Mask

/-- `getOrDefault(group, 0)`, and the value `operator[]` starts from. -/
def look (t : Table) (g : Group) : Mask := (AList.get t g).getD 0

/-- `PermissionsImpl`, and at the same time the state of `PermissionsBuilderImpl`. -/
structure Perms where
  inherited : Bool := false
  allowed : Table := []
  denied : Table := []
  assigned : Table := []
  deriving DecidableEq

/-- `assign` (builder:85-92). -/
def Perms.assign (b : Perms) (g : Group) (m : Mask) : Perms :=
  { b with assigned := AList.put b.assigned g m, allowed := AList.put b.allowed g m, denied := AList.put b.denied g 0 }

/-- `allow` (builder:94-102). -/
def Perms.allow (b : Perms) (g : Group) (m : Mask) : Perms :=
  { b with allowed := AList.put b.allowed g (look b.allowed g ||| m),
           denied := AList.put b.denied g (look b.denied g &&& ~~~m) }

/-- `deny` (builder:104-112). -/
def Perms.deny (b : Perms) (g : Group) (m : Mask) : Perms :=
  { b with denied := AList.put b.denied g (look b.denied g ||| m),
           allowed := AList.put b.allowed g (look b.allowed g &&& ~~~m) }

/-- `inherit` (builder:14-18). -/
def Perms.inherit (b : Perms) (i : Bool) : Perms := { b with inherited := i }

/-- `extend` (builder:59-74). -/
def Perms.extend (b c : Perms) : Perms :=
  let b := c.assigned.foldl (fun b e => b.assign e.1 e.2) b
  let b := c.allowed.foldl (fun b e => b.allow e.1 e.2) b
  c.denied.foldl (fun b e => b.deny e.1 e.2) b

/-- `DefaultPermissions` (mgr:16-34). -/
def defaultPerms : Perms := { inherited := true }

/-- `PermissionManagerImpl`: `parent`, `children`, `localPermissions`, `permissions`. -/
structure Mgr where
  parent : Option Nat := none
  children : List Nat := []
  own : Perms := defaultPerms
  eff : Perms := defaultPerms
  deriving DecidableEq

/-- All living permission managers. -/
abbrev St := AList Nat Mgr

/-- `getParentManager()->getPermissions()` (mgr:179-188, 154-160). -/
def parentEff (s : St) (m : Mgr) : Option Perms :=
  match m.parent with
  | none => none
  | some p => (AList.get s p).map Mgr.eff

/-- The permissions computed by `setPermissions` (mgr:58-76). -/
def compute (pe : Option Perms) (p : Perms) : Perms :=
  if p.inherited then
    match pe with
    | some pe => ((({} : Perms).inherit true).extend pe).extend p
    | none => ({} : Perms).extend p
  else p

/-- `updateChildPermissions` with `updateInheritedPermissions` (mgr:162-177); `again` is `setPermissions`. -/
def updateChildren (again : St → Nat → Perms → Option St) : List Nat → St → Option St
  | [], s => some s
  | c :: cs, s =>
    match AList.get s c with
    | none => updateChildren again cs s
    | some mc =>
      if mc.own.inherited then
        match again s c mc.own with
        | none => none
        | some s' => updateChildren again cs s'
      else updateChildren again cs s

/-- `setPermissions` (mgr:54-80). The recursion has a depth limit; `none`: not enough (stack overflow). -/
def setPerm : Nat → St → Nat → Perms → Option St
  | 0, _, _, _ => none
  | f + 1, s, id, p =>
    match AList.get s id with
    | none => some s
    | some m =>
      updateChildren (setPerm f) m.children
        (AList.put s id { m with own := p, eff := compute (parentEff s m) p })

/-- The depth no chain of owners exceeds. -/
def depth (s : St) : Nat := s.length + 1

/-- `children.erase` (mgr:148-152). -/
def removeChild (s : St) (p : Option Nat) (id : Nat) : St :=
  match p with
  | none => s
  | some p => match AList.get s p with
    | none => s
    | some m => AList.put s p { m with children := m.children.filter (· ≠ id) }

/-- `children.insert` (mgr:142-146). -/
def addChild (s : St) (p : Option Nat) (id : Nat) : St :=
  match p with
  | none => s
  | some p => match AList.get s p with
    | none => s
    | some m => AList.put s p { m with children := if id ∈ m.children then m.children else m.children ++ [id] }

/-- The pointer changes of `setParent` (mgr:128-136). -/
def relink (s : St) (id : Nat) (p : Option Nat) : St :=
  match AList.get s id with
  | none => s
  | some m =>
    let s := removeChild s m.parent id
    match AList.get s id with
    | none => s
    | some m => addChild (AList.put s id { m with parent := p }) p id

/-- `setParent` (mgr:126-140). -/
def setParent (s : St) (id : Nat) (p : Option Nat) : Option St :=
  match AList.get (relink s id p) id with
  | none => some s
  | some m => setPerm (depth s) (relink s id p) id m.own

/-- The constructor (mgr:37-43). -/
def construct (s : St) (id : Nat) (p : Option Nat) : Option St :=
  match p with
  | none => some (AList.put s id {})
  | some _ => setParent (AList.put s id {}) id p

/-- `isAuthorized` (mgr:82-115). -/
def isAuthorized (p : Perms) (groups : List Group) (perm : Mask) : Bool :=
  if groups.any fun g => look p.denied g &&& perm != 0 then false
  else groups.any fun g => look p.allowed g &&& perm != 0

/-- Insertion into `std::set<StringPtr>`. -/
def insertSorted (g : Group) : List Group → List Group
  | [] => [g]
  | h :: t => if g < h then g :: h :: t else if h < g then h :: insertSorted g t else h :: t

/-- `sanitizeGroupList` (user:139-155). -/
def userGroups (gs : List Group) : List Group := gs.foldl (fun s g => insertSorted g s) (insertSorted "everyone" [])

inductive Op where
  | create (id : Nat) (parent : Option Nat)
  | setPermissions (id : Nat) (p : Perms)
  | setParent (id : Nat) (p : Option Nat)
  | clone (id new : Nat)
  | destroy (id : Nat)
  | isAuthorized (id : Nat) (groups : List Group) (perm : Mask)
  deriving DecidableEq

inductive Out where
  | done
  | bool (b : Bool)
  /-- there is no such object -/
  | noObject
  /-- unbounded recursion -/
  | crash
  deriving DecidableEq

def finish (s : St) : Option St → St × Out
  | some s' => (s', .done)
  | none => (s, .crash)

/-- Is this an existing manager, or none? -/
def alive (s : St) (p : Option Nat) : Bool :=
  match p with
  | none => true
  | some p => AList.has s p

def step (s : St) : Op → St × Out
  | .create id p =>
    if AList.has s id || !alive s p then (s, .noObject)
    else finish s (construct s id p)
  | .setPermissions id p => if AList.has s id then finish s (setPerm (depth s) s id p) else (s, .noObject)
  | .setParent id p => if AList.has s id && alive s p then finish s (setParent s id p) else (s, .noObject)
  /- `clone` (mgr:117-124) -/
  | .clone id new =>
    match AList.get s id with
    | none => (s, .noObject)
    | some m =>
      if AList.has s new then (s, .noObject)
      else
        finish s ((construct s new (if alive s m.parent then m.parent else none)).bind fun s' =>
          setPerm (depth s') s' new m.own)
  /- destructor (mgr:45-52): the children keep what they computed -/
  | .destroy id =>
    match AList.get s id with
    | none => (s, .noObject)
    | some m => (AList.del (removeChild s m.parent id) id, .done)
  | .isAuthorized id gs perm =>
    match AList.get s id with
    | none => (s, .noObject)
    | some m => (s, .bool (isAuthorized m.eff gs perm))

def init : St := []

end Verif.Security
