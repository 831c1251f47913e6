import Verif.Common

/-!
# Device locks

Model of `UserLockImpl` (`core/opendaq/device/src/user_lock_impl.cpp`, abbreviated `ul`), of
`UserImpl::equals` and `isAnonymous` (`core/coreobjects/src/user_impl.cpp`, abbreviated `user`) and of
`lock`, `unlock` and `forceUnlock` of `GenericDevice`
(`core/opendaq/device/include/opendaq/device_impl.h`, abbreviated `dev`).

Simplifications:
* user objects are numbered; `Users` gives their (immutable) contents; a caller passes a user object or a
  null pointer;
* a device is given by its number, its sub-devices and its siblings; its parent device is the one it is a
  sub-device of; devices are neither added nor removed;
* `getDevices` returns the sub-devices in tree order and does not fail; core events are not modelled;
* calls are atomic.
-/

namespace Verif.Security.Lock

structure User where
  name : String
  hash : String
  groups : List String
  deriving DecidableEq

/-- The user objects. -/
abbrev Users := Nat → User

/-- The argument of a call: a user object, or a null pointer. -/
abbrev Caller := Option Nat

/-- `std::optional<UserPtr>` (user_lock_impl.h). -/
abbrev Lock := Option (Option Nat)

/-- `isAnonymous` (user:42-48). -/
def isAnonymous (u : User) : Bool := u.name == "" && u.hash == ""

/-- `compareObjectPtr` (objectptr.h:1086-1101) with `UserImpl::equals` (user:50-72): contents are compared. -/
def same (us : Users) : Option Nat → Option Nat → Bool
  | none, none => true
  | some a, some b => us a == us b
  | _, _ => false

/-- An anonymous user counts as a null pointer (ul:17-20). -/
def norm (us : Users) : Caller → Option Nat
  | none => none
  | some a => if isAnonymous (us a) then none else some a

inductive Err where
  | deviceLocked | accessDenied
  deriving DecidableEq, Repr

/-- `UserLockImpl::lock` (ul:15-27). -/
def Lock.lock (us : Users) (l : Lock) (u : Caller) : Except Err Lock :=
  match l with
  | some h => if same us h (norm us u) then .ok (some (norm us u)) else .error .deviceLocked
  | none => .ok (some (norm us u))

/-- `UserLockImpl::unlock` (ul:29-36). The owner is compared with a raw pointer: by identity
(`operator T*`, objectptr.h:448). -/
def Lock.unlock (l : Lock) (u : Caller) : Except Err Lock :=
  match l with
  | some (some h) => if some h = u then .ok none else .error .accessDenied
  | _ => .ok none

/-- Devices: number, sub-devices, next sibling. -/
inductive Devs where
  | nil
  | dev (id : Nat) (kids next : Devs)
  deriving DecidableEq

/-- The locks of all devices. -/
abbrev St := Nat → Lock

def St.set (s : St) (id : Nat) (l : Lock) : St := fun x => if x = id then l else s x

/-- `isLocked` (dev:1008-1015, 462-468). -/
def isLocked (s : St) (id : Nat) : Bool := (s id).isSome

def parentLocked (s : St) : Option Nat → Bool
  | none => false
  | some p => isLocked s p

/-- `lockInternal` (dev:1654-1658). -/
def lockInternal (us : Users) (s : St) (id : Nat) (u : Caller) : Except Err St :=
  match (s id).lock us u with
  | .ok l => .ok (s.set id l)
  | .error e => .error e

/-- `unlockInternal` (dev:1660-1669). -/
def unlockInternal (s : St) (par : Option Nat) (id : Nat) (u : Caller) : Except Err St :=
  if parentLocked s par then .error .deviceLocked
  else match (s id).unlock u with
    | .ok l => .ok (s.set id l)
    | .error e => .error e

/-- `forceUnlockInternal` (dev:1672-1681). -/
def forceUnlockInternal (s : St) (par : Option Nat) (id : Nat) : Except Err St :=
  if parentLocked s par then .error .deviceLocked else .ok (s.set id none)

inductive Call where
  | lock | unlock
  deriving DecidableEq

def Devs.length : Devs → Nat
  | .nil => 0
  | .dev _ _ next => next.length + 1

/-- The outcome of a loop over sub-devices: the index at which it failed. -/
abbrev Fail := Option (Nat × Err)

def Fail.next : Fail → Fail
  | none => none
  | some (i, e) => some (i + 1, e)

/-- The error returned after reverting (dev:405-409): that of `revertLockedDevices` if it fails. -/
def revertErr (e : Err) : Fail → Err
  | none => e
  | some (_, e') => e'

/-- `lock` (dev:380-418) and `unlock` (dev:420-460) of the first `n` of the given sibling devices that are
selected, in order, up to the first failure. The loops in `lock`, `unlock` and `revertLockedDevices`
(dev:1683-1705) are calls of this function. -/
def run (us : Users) (u : Caller) : Devs → Call → Option Nat → (Nat → Bool) → Nat → St → St × Fail
  | .nil, _, _, _, _, s => (s, none)
  | .dev _ _ _, _, _, _, 0, s => (s, none)
  | .dev id kids next, c, par, sel, n + 1, s =>
    if !sel id then ((run us u next c par sel n s).1, Fail.next (run us u next c par sel n s).2)
    else match c with
      | .lock =>
        match run us u kids .lock (some id) (fun _ => true) kids.length s with
        | (s1, some (i, e)) =>
          let r := run us u kids .unlock (some id) (fun x => !isLocked s x) i s1
          (r.1, some (0, revertErr e r.2))
        | (s1, none) =>
          match lockInternal us s1 id u with
          | .error e => (s1, some (0, e))
          | .ok s2 => ((run us u next .lock par sel n s2).1, Fail.next (run us u next .lock par sel n s2).2)
      | .unlock =>
        match unlockInternal s par id u with
        | .error e => (s, some (0, e))
        | .ok s1 =>
          match run us u kids .unlock (some id) (fun _ => true) kids.length s1 with
          | (s2, some (i, e)) =>
            let r := run us u kids .lock (some id) (fun x => isLocked s1 x) i s2
            (r.1, some (0, revertErr e r.2))
          | (s2, none) => ((run us u next .unlock par sel n s2).1, Fail.next (run us u next .unlock par sel n s2).2)

/-- `forceUnlock` (dev:470-492) of sibling devices, up to the first failure. -/
def force : Devs → Option Nat → St → St × Option Err
  | .nil, _, s => (s, none)
  | .dev id kids next, par, s =>
    match forceUnlockInternal s par id with
    | .error e => (s, some e)
    | .ok s1 =>
      match force kids (some id) s1 with
      | (s2, some e) => (s2, some e)
      | (s2, none) => force next par s2

/-- The sub-devices and the parent device of a device. -/
def find (id : Nat) : Devs → Option Nat → Option (Option Nat × Devs)
  | .nil, _ => none
  | .dev x kids next, par =>
    if x = id then some (par, kids)
    else match find id kids (some x) with
      | some r => some r
      | none => find id next par

inductive Op where
  | lock (id : Nat) (u : Caller)
  | unlock (id : Nat) (u : Caller)
  | forceUnlock (id : Nat)
  deriving DecidableEq

inductive Out where
  | ok
  | error (e : Err)
  /-- there is no such device -/
  | noDevice
  deriving DecidableEq

def out : Fail → Out
  | none => .ok
  | some (_, e) => .error e

def step (us : Users) (t : Devs) (s : St) : Op → St × Out
  | .lock id u =>
    match find id t none with
    | none => (s, .noDevice)
    | some (par, kids) =>
      let r := run us u (.dev id kids .nil) .lock par (fun _ => true) 1 s
      (r.1, out r.2)
  | .unlock id u =>
    match find id t none with
    | none => (s, .noDevice)
    | some (par, kids) =>
      let r := run us u (.dev id kids .nil) .unlock par (fun _ => true) 1 s
      (r.1, out r.2)
  | .forceUnlock id =>
    match find id t none with
    | none => (s, .noDevice)
    | some (par, kids) =>
      match force (.dev id kids .nil) par s with
      | (s', none) => (s', .ok)
      | (s', some e) => (s', .error e)

/-- No device is locked at first. -/
def init : St := fun _ => none

end Verif.Security.Lock
