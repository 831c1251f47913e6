import Verif.AList

/-!
# Device information

The information object of a device: its fields, the two fields it shares with the device it belongs
to, the capabilities of servers, connected clients and network interfaces, and what the native
streaming server registers there.

Abbreviations: `inf` = `core/opendaq/device/include/opendaq/device_info_impl.h`,
`cap` = `core/opendaq/device/include/opendaq/server_capability_impl.h`,
`dev` = `core/opendaq/device/include/opendaq/device_impl.h`,
`cmp` = `core/opendaq/component/include/opendaq/component_impl.h`,
`poi` = `core/coreobjects/include/coreobjects/property_object_impl.h`,
`ctp` = `core/coretypes/include/coretypes/coretype.h`,
`nsv` = `modules/native_streaming_server_module/src/native_streaming_server_impl.cpp`.

Simplifications: a field has a value of its own type, so that the conversion of a written value
(poi:1151) does nothing; there are no handlers, no batches and no events; names of properties and
protocols contain no dot. Deleting and adding a property keep the order of the others.
-/

namespace Verif.Info

/-- Errors. -/
inductive Err where
  | frozen
  | notFound
  | accessDenied
  | alreadyExists
  | duplicateItem
  | invalidParameter
  deriving DecidableEq, Repr, Inhabited

/-- Types of values (ctp:31-47). -/
inductive Ty where
  | bool | int | float | string | list | dict | ratio | proc | object | binary | func | complex | struct | enumeration | undefined
  deriving DecidableEq, Repr, Inhabited

/-- The number of a type (ctp:31-47). -/
def Ty.code : Ty → Nat
  | .bool => 0
  | .int => 1
  | .float => 2
  | .string => 3
  | .list => 4
  | .dict => 5
  | .ratio => 6
  | .proc => 7
  | .object => 8
  | .binary => 9
  | .func => 10
  | .complex => 11
  | .struct => 12
  | .enumeration => 13
  | .undefined => 0xFFFF

/-- A value of a field. -/
inductive Val where
  | text (s : String)
  | num (i : Int)
  | part
  deriving DecidableEq, Repr, Inhabited

/-- A property: whether only protected calls change it, its type, default value and whether it selects from values. -/
structure Field where
  readOnly : Bool := false
  ty : Ty := .string
  dflt : Val := .text ""
  selects : Bool := false
  deriving DecidableEq, Repr, Inhabited

/-- A property object: properties in the order they were added, values that were written, frozen. -/
structure Obj where
  props : AList String Field := []
  vals : AList String Val := []
  frozen : Bool := false
  deriving DecidableEq, Repr, Inhabited

/-- `addProperty` (poi:2286-2348) -/
def Obj.addProp (o : Obj) (n : String) (f : Field) : Except Err Obj :=
  if o.frozen = true then .error .frozen
  else if o.props.has n = true then .error .alreadyExists
  else .ok { o with props := o.props ++ [(n, f)] }

/-- `removeProperty` (poi:2351-2377) -/
def Obj.removeProp (o : Obj) (n : String) : Except Err Obj :=
  if o.frozen = true then .error .frozen
  else if o.props.has n = true then .ok { o with props := o.props.del n, vals := o.vals.del n }
  else .error .notFound

/-- `getPropertyValue` (poi:1554-1635) -/
def Obj.read (o : Obj) (n : String) : Except Err Val :=
  match o.props.get n with
  | none => .error .notFound
  | some f => .ok ((o.vals.get n).getD f.dflt)

/-- `writeLocalValue` (poi:1264-1295) for a property with default value `d` -/
def Obj.store (o : Obj) (n : String) (d v : Val) : Obj :=
  if o.vals.has n = true then { o with vals := o.vals.put n v }
  else if d = v then o
  else { o with vals := o.vals.put n v }

/-- `setPropertyValueInternal` (poi:1078-1201), protected or not -/
def Obj.write (o : Obj) (prot : Bool) (n : String) (v : Val) : Except Err Obj :=
  if o.frozen = true then .error .frozen
  else match o.props.get n with
    | none => .error .notFound
    | some f => if prot = false ∧ (f.readOnly = true ∨ f.ty = .object) then .error .accessDenied else .ok (o.store n f.dflt v)

/-- `clearPropertyValueInternal` (poi:2021-2137), protected or not -/
def Obj.clear (o : Obj) (prot : Bool) (n : String) : Except Err Obj :=
  if o.frozen = true then .error .frozen
  else match o.props.get n with
    | none => .error .notFound
    | some f => if prot = false ∧ f.readOnly = true then .error .accessDenied else .ok { o with vals := o.vals.del n }

/-! ## Creating -/

/-- `toLowerCase` -/
def lower (s : String) : List Char := s.toList.map Char.toLower

/-- `isPropertyChangeable` (inf:721-725) -/
def changeable (names : List String) (n : String) : Bool := (names.map lower).contains (lower n)

/-- `createAndSetStringProperty` (inf:728-733) -/
def text (names : List String) (n : String) : String × Field := (n, { readOnly := !changeable names n })

/-- `createAndSetIntProperty` (inf:736-741) -/
def number (names : List String) (n : String) : String × Field := (n, { readOnly := !changeable names n, ty := .int, dflt := .num 0 })

/-- The constructor without parameters (inf:206-221) -/
def bare : Obj :=
  { props := [text [] "name", text [] "connectionString", text [] "sdkVersion",
      ("serverCapabilities", { readOnly := true, ty := .object, dflt := .part }),
      ("configurationConnectionInfo", { readOnly := true, ty := .object, dflt := .part }),
      ("activeClientConnections", { readOnly := true, ty := .object, dflt := .part }),
      ("hidden", { ty := .bool, dflt := .num 0 })] }

/-- The fields the other constructors add (inf:239-259) -/
def fields (names : List String) : AList String Field :=
  [text names "manufacturer", text names "manufacturerUri", text names "model", text names "productCode",
    text names "deviceRevision", text names "hardwareRevision", text names "softwareRevision", text names "deviceManual",
    text names "deviceClass", text names "serialNumber", text names "productInstanceUri", number names "revisionCounter",
    text names "assetId", text names "macAddress", text names "parentMacAddress", text names "platform",
    number names "position", text names "systemType", text names "systemUuid", text names "location", text names "userName"]

/-- The constructor with names of changeable fields (inf:223-270); the fields of `bare` are created before the names
are known. `version` is the version of the package. -/
def create (name connection version : String) (names : List String) : Obj :=
  { props := bare.props ++ fields names
    vals := [("name", .text name), ("connectionString", .text connection), ("sdkVersion", .text version)].filter
      fun e => decide (e.2 ≠ .text "") }

/-- `defaultDeviceInfoPropertyNames` (inf:172-202) -/
def defaultNames : List String :=
  ["name", "manufacturer", "manufacturerUri", "model", "productCode", "deviceRevision", "hardwareRevision",
    "softwareRevision", "deviceManual", "deviceClass", "serialNumber", "productInstanceUri", "revisionCounter", "assetId",
    "macAddress", "parentMacAddress", "platform", "position", "systemType", "systemUuid", "connectionString", "sdkVersion",
    "location", "userName", "serverCapabilities", "configurationConnectionInfo", "activeClientConnections", "hidden"]

/-- `addProperty` of device information (inf:651-679) -/
def addField (o : Obj) (n : String) (f : Field) : Except Err Obj :=
  if f.ty.code > 3 then .error .invalidParameter
  else if f.selects = true then .error .invalidParameter
  else o.addProp n f

/-- `getCustomInfoPropertyNames` (inf:498-515) -/
def custom (o : Obj) : List String := (o.props.map Prod.fst).filter fun n => !defaultNames.contains n

/-! ## Belonging to a device -/

/-- Device information and the device it is the information of. -/
structure World where
  info : Obj
  dev : Obj
  /-- The device returned the information at least once and is its owner. -/
  attached : Bool := false
  /-- The device is the mirror of a remote device. -/
  mirrored : Bool := false
  devName : String := ""
  nameLocked : Bool := false
  deriving DecidableEq, Repr, Inhabited

/-- The fields the device may own (inf:1104). -/
def shared (n : String) : Bool := n = "userName" ∨ n = "location"

/-- `getOwnerOfProperty` (inf:1102-1108): whether the device owns the field -/
def owned (w : World) (n : String) : Except Err Bool :=
  if shared n = true then
    match w.info.props.get n with
    | none => .error .notFound
    | some f => .ok (!f.readOnly && w.attached)
  else .ok false

/-- `getPropertyValueNoLock` (inf:1110-1119) -/
def get (w : World) (n : String) : Except Err Val :=
  match owned w n with
  | .error e => .error e
  | .ok true => w.dev.read n
  | .ok false => w.info.read n

/-- `setPropertyValueNoLock`, `setProtectedPropertyValue` (inf:1121-1141) -/
def set (w : World) (prot : Bool) (n : String) (v : Val) : Except Err World :=
  match owned w n with
  | .error e => .error e
  | .ok true => (w.dev.write prot n v).map fun d => { w with dev := d }
  | .ok false => (w.info.write prot n v).map fun o => { w with info := o }

/-- `clearPropertyValue` of a property object (poi:1940-1948), which device information does not replace -/
def clear (w : World) (n : String) : Except Err World := (w.info.clear false n).map fun o => { w with info := o }

/-- `setValueInternal` (inf:1025-1031), called by `setManufacturer` and the like -/
def setField (w : World) (n : String) (v : Val) : Except Err World := set w (!w.attached) n v

/-- `setName` of a component (cmp:526-565); the error is reported in addition to the state. -/
def renameComponent (w : World) (s : String) : World × Option Err :=
  if w.dev.frozen = true then (w, some .frozen)
  else if w.devName = s then (w, none)
  else if w.nameLocked = true then (w, none)
  else ({ w with devName := s }, none)

/-- `setName` of a device (dev:1568-1578) -/
def renameDevice (w : World) (s : String) : World × Option Err :=
  match set w true "name" (.text s) with
  | .error e => (w, some e)
  | .ok w => renameComponent w s

/-- `setName` of device information (inf:278-286) -/
def rename (w : World) (s : String) : World × Option Err :=
  if w.attached = true then renameDevice w s
  else match setField w "name" (.text s) with
    | .error e => (w, some e)
    | .ok w => (w, none)

/-- One round of the loop of `setOwner` (inf:1182-1201) -/
def adopt (w : World) (n : String) : World × Option Err :=
  match w.info.props.get n with
  | none => (w, some .notFound)
  | some f =>
    if f.readOnly = true then (w, none)
    else match w.dev.addProp n {} with
      | .error .alreadyExists => (w, none)
      | .error e => (w, some e)
      | .ok d =>
        let w := { w with dev := d }
        match w.info.read n with
        | .error e => (w, some e)
        | .ok v =>
          match w.dev.write false n v with
          | .error e => (w, some e)
          | .ok d => ({ w with dev := d }, none)

/-- `getInfo` (dev:326-347) with `setOwner` (inf:1143-1204) -/
def attach (w : World) : World × Option Err :=
  if w.attached = true then (w, none)
  else
    let w := { w with attached := true }
    match set w true "name" (.text w.devName) with
    | .error e => (w, some e)
    | .ok w =>
      if w.mirrored = true then (w, none)
      else match adopt w "userName" with
        | (w, some e) => (w, some e)
        | (w, none) => adopt w "location"

/-! ## Saving and restoring -/

/-- A saved configuration of a device. -/
structure Doc where
  name : String
  dev : AList String Val
  info : AList String Val
  deriving DecidableEq, Repr, Inhabited

/-- `serializePropertyValue` for an update (inf:1033-1049) over the values of the information -/
def saved (o : Obj) : AList String Val :=
  o.vals.filter fun e => match o.props.get e.1 with
    | some f => !f.readOnly
    | none => false

/-- `serializeForUpdate` of a device (poi:3759-3779, dev:1978-2045) -/
def save (w : World) : World × Doc :=
  let w := (attach w).1
  (w, { name := w.devName, dev := w.dev.vals, info := saved w.info })

/-- One round of the loop of `updateObjectProperties` (poi:3668-3692) -/
def restoreProp (doc : AList String Val) (o : Obj) (n : String) : Obj :=
  match doc.get n with
  | none => match o.clear true n with
    | .ok o => o
    | .error _ => o
  | some v => match o.write true n v with
    | .ok o => o
    | .error _ => o

/-- `updateInternal` of a property object (poi:3716-3734) -/
def restoreObj (doc : AList String Val) (o : Obj) : Obj :=
  if o.frozen = true then o else (o.props.map Prod.fst).foldl (restoreProp doc) o

/-- The name in `updateObject` of a component (cmp:1263-1269) -/
def restoreName (s : String) (w : World) : World := if w.nameLocked = true then w else { w with devName := s }

/-- One round of the loop of `updateInternal` (inf:1080-1094) -/
def restoreField (w : World) (e : String × Val) : World :=
  match w.info.props.get e.1 with
  | none => w
  | some f =>
    if f.readOnly = true then w
    else match set w true e.1 e.2 with
      | .ok w => w
      | .error _ => w

/-- `updateInternal` of device information (inf:1064-1099) -/
def restoreInfo (doc : AList String Val) (w : World) : World :=
  if w.info.frozen = true then w else doc.foldl restoreField w

/-- `update` of a device (cmp:965-978, dev:2442-2534): its properties, its name, then its information -/
def restore (doc : Doc) (w : World) : World :=
  let w := { w with dev := restoreObj doc.dev w.dev }
  let w := restoreName doc.name w
  restoreInfo doc.info (attach w).1

/-- Calls. -/
inductive Op where
  | getInfo
  | set (n : String) (v : Val)
  | setField (n : String) (v : Val)
  | clear (n : String)
  | devSet (n : String) (v : Val)
  | devClear (n : String)
  | rename (s : String)
  | renameDevice (s : String)
  | addField (n : String) (f : Field)
  | restore (doc : Doc)
  deriving DecidableEq, Repr

/-- The state after a call; a call that fails changes nothing unless the model of the call says so. -/
def step (w : World) : Op → World
  | .getInfo => (attach w).1
  | .set n v => match Info.set w false n v with
    | .ok w => w
    | .error _ => w
  | .setField n v => match Info.setField w n v with
    | .ok w => w
    | .error _ => w
  | .clear n => match Info.clear w n with
    | .ok w => w
    | .error _ => w
  | .devSet n v => match w.dev.write false n v with
    | .ok d => { w with dev := d }
    | .error _ => w
  | .devClear n => match w.dev.clear false n with
    | .ok d => { w with dev := d }
    | .error _ => w
  | .rename s => (Info.rename w s).1
  | .renameDevice s => (Info.renameDevice w s).1
  | .addField n f => match Info.addField w.info n f with
    | .ok o => { w with info := o }
    | .error _ => w
  | .restore doc => Info.restore doc w

/-! ## Capabilities of servers -/

/-- A capability of a server: the identifier of the protocol, connection strings and addresses. -/
structure Cap where
  id : String := ""
  primary : String := ""
  strings : List String := []
  /-- Addresses with the names they are kept under. -/
  addresses : AList (List Char) String := []
  deriving DecidableEq, Repr, Inhabited

/-- `addConnectionString` (cap:196-217) -/
def Cap.addString (c : Cap) (s : String) : Cap :=
  if s ∈ c.strings then c
  else
    let c := { c with strings := c.strings ++ [s] }
    if c.strings.length = 1 then { c with primary := s } else c

/-- `setConnectionString` (cap:177-186) -/
def Cap.setString (c : Cap) (s : String) : Cap := Cap.addString { c with primary := s } s

/-- The name an address is kept under (cap:470-475) -/
def key (a : String) : List Char := a.toList.filter fun c => !(c == '/' || c == '.' || c == '[' || c == ']')

/-- `addAddressInfo` (cap:447-478) -/
def Cap.addAddress (c : Cap) (a : String) : Except Err Cap :=
  if (c.addresses.map Prod.snd).contains a = true then .error .duplicateItem
  else if c.addresses.has (key a) = true then .error .alreadyExists
  else .ok { c with addresses := c.addresses ++ [(key a, a)] }

/-- `getAddressInfo` (cap:420-445) -/
def Cap.listed (c : Cap) : List String := c.addresses.map Prod.snd

/-- The capabilities of a device: names of properties and capabilities, in the order they were added. -/
abbrev Caps := AList String Cap

/-- `addServerCapability` (inf:773-800) -/
def addCap (cs : Caps) (c : Cap) : Except Err Caps :=
  if (cs.map fun e => e.2.id).contains c.id = true then .error .duplicateItem
  else if cs.has c.id = true then .error .alreadyExists
  else .ok (cs ++ [(c.id, c)])

/-- `removeServerCapability` (inf:802-817) -/
def removeCap (cs : Caps) (id : String) : Except Err Caps := if cs.has id = true then .ok (cs.del id) else .error .notFound

/-- `hasServerCapability` (inf:841-855) -/
def hasCap (cs : Caps) (id : String) : Bool := cs.has id

/-- `getServerCapability` (inf:857-878) -/
def getCap (cs : Caps) (id : String) : Except Err Cap :=
  match cs.get id with
  | some c => .ok c
  | none => .error .notFound

/-- `getServerCapabilities` (inf:880-906) -/
def caps (cs : Caps) : List Cap := cs.map Prod.snd

/-- A change of the capability kept under a name, through the object `getServerCapability` returned. -/
def change (cs : Caps) (id : String) (f : Cap → Cap) : Caps := cs.map fun e => if e.1 = id then (e.1, f e.2) else e

/-- Calls concerning capabilities. -/
inductive CapOp where
  | add (c : Cap)
  | remove (id : String)
  | clearAll
  | setId (id to : String)
  | addString (id s : String)
  deriving DecidableEq, Repr

/-- The capabilities after a call; `clearServerStreamingCapabilities` (inf:819-839) removes all of them, `setProtocolId`
(cap:258-262) leaves the name of the property. -/
def capStep (cs : Caps) : CapOp → Caps
  | .add c => match addCap cs c with
    | .ok cs => cs
    | .error _ => cs
  | .remove id => match removeCap cs id with
    | .ok cs => cs
    | .error _ => cs
  | .clearAll => []
  | .setId id to => change cs id fun c => { c with id := to }
  | .addString id s => change cs id fun c => c.addString s

/-! ## Connected clients -/

/-- The clients of a device: how many were ever registered, and those registered now. -/
structure Clients where
  total : Nat := 0
  now : AList Nat String := []
  deriving DecidableEq, Repr, Inhabited

/-- `addConnectedClient` (inf:963-980): the clients, the number of the client and the error -/
def addClient (c : Clients) (number : Nat) (who : String) : Clients × Nat × Option Err :=
  let fresh := number = 0 ∨ number > c.total
  let total := if fresh then c.total + 1 else c.total
  let number := if fresh then total else number
  let c := { c with total := total }
  if c.now.has number = true then (c, number, some .alreadyExists)
  else ({ c with now := c.now ++ [(number, who)] }, number, none)

/-- `removeConnectedClient` (inf:982-994) -/
def removeClient (c : Clients) (number : Nat) : Clients × Option Err :=
  if c.now.has number = true then ({ c with now := c.now.del number }, none) else (c, some .notFound)

/-- `getConnectedClientsInfo` (inf:996-1022) -/
def clients (c : Clients) : List String := c.now.map Prod.snd

/-- Information read from a document (inf:694-718): the clients of the document, and none ever registered (inf:210) -/
def loadClients (c : Clients) : Clients := { total := 0, now := c.now }

/-- A native streaming server: the clients of its device, numbers of connected and disconnected clients. -/
structure Server where
  clients : Clients := {}
  registered : AList String Nat := []
  gone : AList String Nat := []
  deriving DecidableEq, Repr, Inhabited

/-- `clientConnectedHandler` (nsv:352-373) -/
def connect (s : Server) (id : String) : Server :=
  let number := (s.gone.get id).getD 0
  let r := addClient s.clients number id
  { clients := r.1, registered := s.registered.add id r.2.1, gone := s.gone.del id }

/-- `clientDisconnectedHandler` (nsv:375-387) -/
def disconnect (s : Server) (id : String) : Server :=
  match s.registered.get id with
  | none => s
  | some number =>
    { clients := (removeClient s.clients number).1
      registered := s.registered.del id
      gone := s.gone.add id number }

/-- What clients do. -/
inductive Ev where
  | connect (id : String)
  | disconnect (id : String)
  deriving DecidableEq, Repr

/-- The server after an event. -/
def serve (s : Server) : Ev → Server
  | .connect id => connect s id
  | .disconnect id => disconnect s id

/-! ## Network interfaces -/

/-- The network interfaces of a device by name. -/
structure Nets where
  items : AList String Nat := []
  frozen : Bool := false
  deriving DecidableEq, Repr, Inhabited

/-- `addNetworkInteface` (inf:919-938) -/
def addNet (n : Nets) (name : String) (i : Nat) : Except Err Nets :=
  if n.frozen = true then .error .frozen
  else if name = "" then .error .invalidParameter
  else if n.items.has name = true then .error .duplicateItem
  else .ok { n with items := n.items.put name i }

/-- `getNetworkInterface` (inf:950-961) -/
def getNet (n : Nets) (name : String) : Except Err Nat :=
  match n.items.get name with
  | none => .error .notFound
  | some i => .ok i

/-- A caller sets an entry of the dictionary `getNetworkInterfaces` (inf:940-948) returned: it is the one that is kept. -/
def setReturned (n : Nets) (name : String) (i : Nat) : Nets := { n with items := n.items.put name i }

end Verif.Info
