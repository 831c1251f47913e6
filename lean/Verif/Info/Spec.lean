import Verif.Info.Model

/-!
# What users expect of device information

Written without the functions of the model, apart from the types of its states.
-/

namespace Verif.Info

/-- Text without differences between capital and small letters. -/
def SameText (a b : String) : Prop := a.toList.map Char.toLower = b.toList.map Char.toLower

/-- The fields every device information has. -/
def standard : List String :=
  ["name", "connectionString", "sdkVersion", "serverCapabilities", "configurationConnectionInfo", "activeClientConnections",
    "hidden", "manufacturer", "manufacturerUri", "model", "productCode", "deviceRevision", "hardwareRevision",
    "softwareRevision", "deviceManual", "deviceClass", "serialNumber", "productInstanceUri", "revisionCounter", "assetId",
    "macAddress", "parentMacAddress", "platform", "position", "systemType", "systemUuid", "location", "userName"]

/-- Properties that may be added: truth values, numbers and text that are not selected from values. -/
def Simple (f : Field) : Prop := (f.ty = .bool ∨ f.ty = .int ∨ f.ty = .float ∨ f.ty = .string) ∧ f.selects = false

/-- The value an entry list gives to a name. -/
def valueOf (m : List (String × Val)) (n : String) : Option Val := (m.find? fun e => e.1 == n).map Prod.snd

/-- Clients connect when they are not connected. -/
def Orderly : List String → List Ev → Prop
  | _, [] => True
  | now, .connect id :: r => id ∉ now ∧ Orderly (now ++ [id]) r
  | now, .disconnect id :: r => Orderly (now.filter fun j => j ≠ id) r

/-- The clients that are connected, in the order they connected. -/
def connected : List String → List Ev → List String
  | now, [] => now
  | now, .connect id :: r => connected (now ++ [id]) r
  | now, .disconnect id :: r => connected (now.filter fun j => j ≠ id) r

/-- Calls of clients: registering with a number or 0, and unregistering. -/
inductive ClientOp where
  | add (number : Nat) (who : String)
  | remove (number : Nat)
  deriving DecidableEq, Repr

/-- Calls of a server capability: adding a connection string and setting the primary one. -/
inductive StringOp where
  | add (s : String)
  | set (s : String)
  deriving DecidableEq, Repr

/-- The string of a call. -/
def StringOp.str : StringOp → String
  | .add s => s
  | .set s => s

/-- The string that was set last, if any was set. -/
def lastSet : List StringOp → Option String
  | [] => none
  | .add _ :: r => lastSet r
  | .set s :: r => match lastSet r with
    | some t => some t
    | none => some s

/-- The primary connection string: the one that was set last, or the first one. -/
def primaryOf (l : List StringOp) : String :=
  match lastSet l, l with
  | some s, _ => s
  | none, [] => ""
  | none, x :: _ => x.str

/-- The letters of an address but `/`, `.`, `[` and `]`. -/
def letters (a : String) : List Char := a.toList.filter fun c => c ∉ ['/', '.', '[', ']']

end Verif.Info
