import Verif.Security.LockModel

/-! # Specification vocabulary for device locks -/

namespace Verif.Security.Lock

def exec (us : Users) (t : Devs) (ops : List Op) : St × List (Op × Out) := runTrace (step us t) init ops

/-- All devices. -/
def ids : Devs → List Nat
  | .nil => []
  | .dev id kids next => id :: (ids kids ++ ids next)

/-- The siblings at the top: for the sub-devices of a device, those directly below it. -/
def tops : Devs → List Nat
  | .nil => []
  | .dev id _ next => id :: tops next

/-- `At t p0 par id kids`: below device `p0` with sub-devices `t` there is the device `id`; its parent device is
`par`, its sub-devices are `kids`. -/
inductive At : Devs → Option Nat → Option Nat → Nat → Devs → Prop
  | here (id kids next par) : At (.dev id kids next) par par id kids
  | kid {kids par id ks} (x next p0) : At kids (some x) par id ks → At (.dev x kids next) p0 par id ks
  | next {next par id ks} (x kids p0) : At next p0 par id ks → At (.dev x kids next) p0 par id ks

/-- Pairs of a device and a direct sub-device. -/
def edges : Option Nat → Devs → List (Nat × Nat)
  | _, .nil => []
  | par, .dev id kids next =>
    (match par with | none => [] | some p => [(p, id)]) ++ edges (some id) kids ++ edges par next

/-- Who a lock is held by: nobody in particular, or a named user. -/
def holder (us : Users) (s : St) (x : Nat) : Option (Option User) := (s x).map fun h => h.map us

/-- Who is calling: an anonymous user is nobody in particular. -/
def who (us : Users) : Caller → Option User
  | none => none
  | some a => if (us a).name = "" ∧ (us a).hash = "" then none else some (us a)

/-- The device is not locked, or by the caller. -/
def CanLock (us : Users) (s : St) (u : Caller) (x : Nat) : Prop :=
  holder us s x = none ∨ holder us s x = some (who us u)

/-- The device is not locked, or by nobody in particular, or by the very user object of the caller. -/
def CanUnlock (s : St) (u : Caller) (x : Nat) : Prop :=
  s x = none ∨ s x = some none ∨ ∃ a, u = some a ∧ s x = some (some a)

/-- Whenever a device is locked, its sub-devices are locked by the same user. -/
def Covered (us : Users) (s : St) (t : Devs) : Prop :=
  ∀ e ∈ edges none t, holder us s e.1 ≠ none → holder us s e.2 = holder us s e.1

/-- The caller of a call. -/
def Op.caller : Op → Option Caller
  | .lock _ u => some u
  | .unlock _ u => some u
  | .forceUnlock _ => none

end Verif.Security.Lock
