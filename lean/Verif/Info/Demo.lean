import Verif.Info.Spec

/-!
# Device information used in examples
-/

namespace Verif.Info

/-- Information of a device whose user name and location may be changed. -/
def fresh : Obj := create "dev" "daq://1" "3.0" ["username", "Location"]

/-- The same with a user name. -/
def named : Obj := { fresh with vals := ("userName", .text "old") :: fresh.vals }

/-- A device with information that was not asked for. -/
def demo : World := { info := fresh, dev := {}, devName := "dev" }

/-- The same after it was asked for. -/
def demo1 : World := (attach demo).1

/-- A device with information that had a user name before it was asked for. -/
def demo2 : World := (attach { info := named, dev := {}, devName := "dev" }).1

/-- The calls of clients on a new device, and the numbers they were given. -/
def runClients : Clients → List ClientOp → Clients × List Nat
  | c, [] => (c, [])
  | c, .add k who :: r =>
    let a := addClient c k who
    let b := runClients a.1 r
    (b.1, a.2.1 :: b.2)
  | c, .remove k :: r => runClients (removeClient c k).1 r

/-- Adding properties, some of which may be refused. -/
def addAll (o : Obj) (l : List (String × Field)) : Obj :=
  l.foldl (fun o e => match addField o e.1 e.2 with
    | .ok o => o
    | .error _ => o) o

/-- Connection strings added and set. -/
def runStrings (c : Cap) (l : List StringOp) : Cap :=
  l.foldl (fun c x => match x with
    | .add s => c.addString s
    | .set s => c.setString s) c

/-- Addresses added, some of which may be refused. -/
def addAddresses (c : Cap) (l : List String) : Cap :=
  l.foldl (fun c a => match c.addAddress a with
    | .ok c => c
    | .error _ => c) c

/-- Network interfaces added, some of which may be refused. -/
def addNets (n : Nets) (l : List (String × Nat)) : Nets :=
  l.foldl (fun n e => match addNet n e.1 e.2 with
    | .ok n => n
    | .error _ => n) n

end Verif.Info
