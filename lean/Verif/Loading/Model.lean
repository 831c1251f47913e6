import Verif.AList

/-!
# Loading a configuration into devices

Which devices are updated, added, removed or replaced when a configuration is loaded with update options, and where saved
connections lead afterwards.

Abbreviations: `dev` = `core/opendaq/device/include/opendaq/device_impl.h`,
`ctx` = `core/opendaq/component/include/opendaq/component_update_context_impl.h`,
`cmp` = `core/opendaq/component/include/opendaq/component_impl.h`,
`sgc` = `core/opendaq/signal/include/opendaq/signal_container_impl.h`,
`dfo` = `core/opendaq/utility/src/device_update_options_impl.cpp`.

Simplifications: the configuration of a device apart from its sub-devices is a value of any type `C`, which loading replaces;
sub-devices of the device with a local id are kept in order. A missing manufacturer, serial number or connection string is the
empty text. Creating a device for a connection string gives the same device each time; removing a device that is not fixed
succeeds. A fixed device is one without a registered type (dev:1761-1775).
-/

namespace Verif.Loading

/-- Things with local ids and things inside them. -/
inductive Forest (α : Type) where
  | nil
  | cons (id : String) (a : α) (below rest : Forest α)
  deriving DecidableEq, Repr, Inhabited

variable {α C : Type}

/-- The local ids, in order. -/
def Forest.ids : Forest α → List String
  | .nil => []
  | .cons id _ _ rest => id :: rest.ids

/-- `getItem`, `hasItem` -/
def Forest.find : Forest α → String → Option (α × Forest α)
  | .nil, _ => none
  | .cons id a below rest, x => if x = id then some (a, below) else rest.find x

/-- `removeItem` -/
def Forest.erase : Forest α → String → Forest α
  | .nil, _ => .nil
  | .cons id a below rest, x => if id = x then rest.erase x else .cons id a below (rest.erase x)

/-- An item is replaced. -/
def Forest.set : Forest α → String → α → Forest α → Forest α
  | .nil, _, _, _ => .nil
  | .cons id a below rest, x, b, f => if id = x then .cons id b f (rest.set x b f) else .cons id a below (rest.set x b f)

/-- `addItem` -/
def Forest.snoc : Forest α → String → α → Forest α → Forest α
  | .nil, x, b, f => .cons x b f .nil
  | .cons id a below rest, x, b, f => .cons id a below (rest.snoc x b f)

/-- Whether there is nothing. -/
def Forest.isNil : Forest α → Bool
  | .nil => true
  | .cons .. => false

/-- What identifies a device; the connection string is the one of the configuration connection, if there is one. -/
structure Info where
  man : String := ""
  ser : String := ""
  conn : String := ""
  deriving DecidableEq, Repr, Inhabited

/-- A device: its configuration, what identifies it, whether it cannot be removed and whether sub-devices can be added. -/
structure Dev (C : Type) where
  conf : C
  info : Info := {}
  fixed : Bool := false
  adds : Bool := true
  deriving DecidableEq, Repr, Inhabited

/-- A device in a document (dev:2015-2037). -/
structure Saved (C : Type) where
  conf : C
  info : Info := {}
  deriving DecidableEq, Repr, Inhabited

/-- `DeviceUpdateMode` -/
inductive Mode where
  | load | updateOnly | skip | remove | remap
  deriving DecidableEq, Repr, Inhabited

/-- Update options of a device, and whether they are those of the root. -/
structure Opt where
  mode : Mode := .load
  new : Info := {}
  deriving DecidableEq, Repr, Inhabited

/-- What loading depends on: options by local id, whether unused devices are removed, the devices that can be discovered and
what connecting to a device gives. -/
structure Ctx (C : Type) where
  opts : AList String Opt := []
  removeUnused : Bool := false
  avail : List Info := []
  make : String → Option (String × Dev C × Forest (Dev C)) := fun _ => none

/-- `recurseDeviceUpdateOptions` (ctx:118-131); local ids are not empty -/
def options : Forest Opt → AList String Opt → AList String Opt
  | .nil, m => m
  | .cons id o below rest, m => options rest (options below (m.put id o))

/-- `getDeviceUpdateOptionsWithLocalIdOrNull` (ctx:277-284), `getUpdateMode` (dev:2080-2084) -/
def Ctx.mode (c : Ctx C) (id : String) : Mode :=
  match c.opts.get id with
  | some o => o.mode
  | none => .load

/-- `removeDeviceIfNotStatic` (dev:1761-1775) -/
def removeDev (f : Forest (Dev C)) (id : String) : Forest (Dev C) :=
  match f.find id with
  | none => f
  | some e => if e.1.fixed = true then f else f.erase id

/-- `removeRemappedDevices` (dev:2418-2440) for the devices of a document -/
def removeRemapped (c : Ctx C) : List String → Forest (Dev C) → Forest (Dev C)
  | [], f => f
  | id :: r, f => removeRemapped c r (if c.mode id = .remap then removeDev f id else f)

/-- The devices without reference are removed (dev:2479-2486). -/
def removeAll : List String → Forest (Dev C) → Forest (Dev C)
  | [], f => f
  | id :: r, f => removeAll r (removeDev f id)

/-- The search among available devices (dev:2149-2169) -/
def discover (avail : List Info) (man ser : String) : Option Info :=
  if man ≠ "" ∧ ser ≠ "" then avail.find? fun i => i.man = man ∧ i.ser = ser else none

/-- Manufacturer, serial number and connection string of the device to connect to (dev:2133-2176) -/
def target (c : Ctx C) (id : String) (d : Saved C) : Info :=
  let from_ := match c.opts.get id with
    | some o => if o.mode = .remap then o.new else d.info
    | none => d.info
  match discover c.avail from_.man from_.ser with
  | some i => { from_ with conn := i.conn }
  | none => from_

/-- `findConnectedDeviceForRemap` (dev:2223-2271) -/
def findConnected (i : Info) : Forest (Dev C) → Option String
  | .nil => none
  | .cons id e _ rest =>
    if (i.man ≠ "" ∧ i.ser ≠ "" ∧ e.info.man = i.man ∧ e.info.ser = i.ser) ∨ (i.conn ≠ "" ∧ e.info.conn = i.conn) then some id
    else findConnected i rest

/-- The sub-devices, the devices that were remapped, and the sub-devices without reference. -/
structure St (C : Type) where
  devs : Forest (Dev C)
  map : AList String String := []
  unref : List String := []

/-- What updating a device does to it, its sub-devices and the remapped devices. -/
abbrev Upd (C : Type) := Dev C → Forest (Dev C) → AList String String → Dev C × Forest (Dev C) × AList String String

/-- `updateInternal` of the sub-device -/
def apply (upd : Upd C) (id : String) (s : St C) : St C :=
  match s.devs.find id with
  | none => s
  | some e =>
    let r := upd e.1 e.2 s.map
    { s with devs := s.devs.set id r.1 r.2.1, map := r.2.2 }

/-- `onAddDevice` (dev:1384-1396): nothing if devices cannot be added, there is none, or its local id is taken -/
def create (c : Ctx C) (adds : Bool) (conn : String) (f : Forest (Dev C)) : Option (String × Dev C × Forest (Dev C)) :=
  if adds = false ∨ conn = "" then none
  else match c.make conn with
    | none => none
    | some r => if (f.find r.1).isSome = true then none else some r

/-- `updateDevice` (dev:2073-2220); errors are logged only -/
def loadOne (c : Ctx C) (adds : Bool) (id : String) (d : Saved C) (upd : Upd C) (s : St C) : St C :=
  match c.mode id with
  | .skip => s
  | .remove => { s with devs := removeDev s.devs id }
  | .updateOnly => apply upd id s
  | .load =>
    if (s.devs.find id).isSome = true then apply upd id s
    else match create c adds (target c id d).conn s.devs with
      | none => s
      | some r => apply upd r.1 { s with devs := s.devs.snoc r.1 r.2.1 r.2.2 }
  | .remap =>
    let s := { s with devs := removeDev s.devs id }
    if (target c id d).conn = "" then s
    else match findConnected (target c id d) s.devs with
      | some t => apply upd t { s with map := s.map.put id t }
      | none => match create c adds (target c id d).conn s.devs with
        | none => s
        | some r => apply upd r.1 { s with devs := s.devs.snoc r.1 r.2.1 r.2.2, map := s.map.put id r.1 }

/-- The device is referenced, and so is the one it was remapped to (dev:2471-2476). -/
def refer (id : String) (s : St C) : St C :=
  { s with unref := (s.unref.filter fun x => x ≠ id).filter fun x => s.map.get id ≠ some x }

/-- The loop of `updateObject` over the devices of a document (dev:2457-2477, sgc:800-813, cmp:1213-1229) and, for each of them,
`updateObject` (dev:2443-2487). A device without sub-devices has no `Dev` in the document (sgc:548-566). -/
def loadAll (c : Ctx C) : Forest (Saved C) → Bool → St C → St C
  | .nil, _, s => s
  | .cons id d below rest, adds, s =>
    let upd : Upd C := fun e sub m =>
      if below.isNil = true then ({ e with conf := d.conf }, sub, m)
      else
        let f := removeRemapped c below.ids sub
        let r := loadAll c below e.adds { devs := f, map := m, unref := f.ids }
        ({ e with conf := d.conf }, if c.removeUnused = true then removeAll r.unref r.devs else r.devs, r.map)
    loadAll c rest adds (refer id (loadOne c adds id d upd s))

/-- `updateObject` of a device with these sub-devices (dev:2443-2487) -/
def load (c : Ctx C) (docs : Forest (Saved C)) (adds : Bool) (devs : Forest (Dev C)) (m : AList String String) :
    Forest (Dev C) × AList String String :=
  if docs.isNil = true then (devs, m)
  else
    let f := removeRemapped c docs.ids devs
    let r := loadAll c docs adds { devs := f, map := m, unref := f.ids }
    (if c.removeUnused = true then removeAll r.unref r.devs else r.devs, r.map)

/-! ## Connections -/

/-- The parts of a text between separators. -/
def split : List Char → List (List Char)
  | [] => [[]]
  | c :: r =>
    if c = '/' then [] :: split r
    else match split r with
      | [] => [[c]]
      | x :: l => (c :: x) :: l

/-- Parts with separators between them. -/
def join : List (List Char) → List Char
  | [] => []
  | [x] => x
  | x :: y :: l => x ++ '/' :: join (y :: l)

/-- `remapDeviceLocalIds` (ctx:459-485) -/
def remapId (m : AList String String) (id : List Char) : List Char :=
  '/' :: join ((split (id.drop 1)).map fun x => match m.get (String.ofList x) with
    | some y => y.toList
    | none => x)

/-! ## Update options as documents -/

/-- Update options: local id, what the document says about the device and what was set. -/
structure Choice where
  root : Bool := false
  localId : String := ""
  old : Info := {}
  opt : Opt := {}
  deriving DecidableEq, Repr, Inhabited

/-- `setNewManufacturer`, `setNewSerialNumber`, `setNewConnectionString` (dfo:95-136): refused for the root -/
def Choice.setNew (c : Choice) (i : Info) : Option Choice := if c.root = true then none else some { c with opt := { c.opt with new := i } }

/-- `setUpdateMode` (dfo:154-158) -/
def Choice.setMode (c : Choice) (m : Mode) : Choice := { c with opt := { c.opt with mode := m } }

/-- `readDevice` and `readFolder` (dfo:380-422) for the devices of a document -/
def readAll : Forest (Saved C) → Forest Choice
  | .nil => .nil
  | .cons id d below rest => .cons id { localId := id, old := d.info } (readAll below) (readAll rest)

/-- The number of a mode. -/
def Mode.code : Mode → Nat
  | .load => 0
  | .updateOnly => 1
  | .skip => 2
  | .remove => 3
  | .remap => 4

/-- The mode with a number. -/
def Mode.ofCode : Nat → Mode
  | 0 => .load
  | 1 => .updateOnly
  | 2 => .skip
  | 3 => .remove
  | _ => .remap

/-- The members of the document of update options other than `ChildOptions`. -/
structure Members where
  texts : AList String String
  mode : Option Nat
  root : Option Bool
  deriving DecidableEq, Repr, Inhabited

/-- `serialize` (dfo:197-246) without children -/
def Choice.write (c : Choice) : Members :=
  { texts := [("LocalId", c.localId), ("Manufacturer", c.old.man), ("SerialNumber", c.old.ser), ("ConnectionString", c.old.conn),
      ("NewManufacturer", c.opt.new.man), ("NewSerialNumber", c.opt.new.ser), ("NewConnectionString", c.opt.new.conn)].filter
        fun e => e.2 ≠ ""
    mode := if c.opt.mode = .load then none else some c.opt.mode.code
    root := if c.root = true then some true else none }

/-- `Deserialize` (dfo:286-311) without children -/
def Members.read (m : Members) : Choice :=
  { root := m.root.getD false
    localId := (m.texts.get "LocalId").getD ""
    old := { man := (m.texts.get "Manufacturer").getD ""
             ser := (m.texts.get "SerialNumber").getD ""
             conn := (m.texts.get "ConnectionString").getD "" }
    opt := { mode := Mode.ofCode (m.mode.getD 0)
             new := { man := (m.texts.get "NewManufacturer").getD ""
                      ser := (m.texts.get "NewSerialNumber").getD ""
                      conn := (m.texts.get "NewConnectionString").getD "" } } }

/-- `serialize` of children (dfo:248-264): those without local id are left out, the others are kept by local id. -/
def writeAll : Forest Choice → Forest Members
  | .nil => .nil
  | .cons _ c below rest => if c.localId = "" then writeAll rest else .cons c.localId c.write (writeAll below) (writeAll rest)

/-- `Deserialize` of children (dfo:313-322) -/
def readOptions : Forest Members → Forest Choice
  | .nil => .nil
  | .cons id m below rest => .cons id m.read (readOptions below) (readOptions rest)

/-- The options of a tree by local id. -/
def chosen : Forest Choice → Forest Opt
  | .nil => .nil
  | .cons _ c below rest => .cons c.localId c.opt (chosen below) (chosen rest)

end Verif.Loading
