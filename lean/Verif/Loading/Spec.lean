import Verif.Loading.Model

/-!
# Specification of loading a configuration

What the documentation says about update modes, about the priority of what identifies a device to connect to, and where a saved
connection leads after devices were replaced. Nothing here uses how loading is done.
-/

namespace Verif.Loading.Spec

variable {C : Type}

/-- No device is to be replaced. -/
def NoRemap (opts : AList String Opt) : Prop := ∀ id o, opts.get id = some o → o.mode ≠ .remap

/-- The mode set for a device, or the default one. -/
def modeIn (opts : AList String Opt) (id : String) : Mode := ((opts.get id).map Opt.mode).getD .load

/-- The known device of a manufacturer with a serial number. -/
def Known (avail : List Info) (i : Info) (a : Info) : Prop :=
  i.man ≠ "" ∧ i.ser ≠ "" ∧ ∃ before after, avail = before ++ a :: after ∧ a.man = i.man ∧ a.ser = i.ser ∧
    ∀ b ∈ before, ¬ (b.man = i.man ∧ b.ser = i.ser)

/-- The connection string of a saved device: that of the discovered device, else the saved one. -/
def Conn (avail : List Info) (i : Info) (conn : String) : Prop :=
  (∃ a, Known avail i a ∧ conn = a.conn) ∨ ((∀ a, ¬ Known avail i a) ∧ conn = i.conn)

/-- A device is the one of a manufacturer with a serial number. -/
def SameSerial (i e : Info) : Prop := i.man ≠ "" ∧ i.ser ≠ "" ∧ e.man = i.man ∧ e.ser = i.ser

/-- A device has a connection string. -/
def SameConn (i e : Info) : Prop := i.conn ≠ "" ∧ e.conn = i.conn

/-- A global id: separators before each of the local ids. -/
def globalId : List String → List Char
  | [] => []
  | x :: l => '/' :: (x.toList ++ globalId l)

/-- The local ids of sub-devices are replaced, in the part of a global id after the root. -/
def moveBelow (m : String → String) : List String → List String
  | [] => []
  | [x] => [x]
  | x :: y :: l => if x = "Dev" then x :: m y :: moveBelow m l else x :: y :: l

/-- The local ids of sub-devices are replaced. -/
def move (m : String → String) : List String → List String
  | [] => []
  | x :: l => x :: moveBelow m l

/-- The local ids of all devices of a document, at any depth. -/
def allIds {α : Type} : Forest α → List String
  | .nil => []
  | .cons id _ below rest => id :: (allIds below ++ allIds rest)

/-- What is at a path. -/
def at_ {α : Type} : Forest α → List String → Option α
  | _, [] => none
  | f, [x] => (f.find x).map Prod.fst
  | f, x :: y :: l => match f.find x with
    | none => none
    | some e => at_ e.2 (y :: l)

/-- A document has devices without sub-devices only. -/
def Flat {α : Type} : Forest α → Prop
  | .nil => True
  | .cons _ _ below rest => below = .nil ∧ Flat rest

/-- What is not the local id of a sub-device, in the part of a global id after the root. -/
def othersBelow : List String → List String
  | [] => []
  | [x] => [x]
  | x :: y :: l => if x = "Dev" then x :: othersBelow l else x :: y :: l

/-- What is not the local id of a sub-device in a global id. -/
def others : List String → List String
  | [] => []
  | x :: l => x :: othersBelow l

/-- The device to replace a device: the chosen manufacturer and serial number, and the connection string to connect with. -/
def Goal (opts : AList String Opt) (avail : List Info) (id : String) (i : Info) : Prop :=
  ∃ o, opts.get id = some o ∧ o.mode = .remap ∧ i.man = o.new.man ∧ i.ser = o.new.ser ∧ Conn avail o.new i.conn

/-- Update options as a document keeps them: under the local id, which is not empty. -/
def Named : Forest Choice → Prop
  | .nil => True
  | .cons id c below rest => id = c.localId ∧ c.localId ≠ "" ∧ Named below ∧ Named rest

end Verif.Loading.Spec
