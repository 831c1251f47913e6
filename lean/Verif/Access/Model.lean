/-!
# Requests to the configuration server

A model of how the native configuration server treats a client's request: which checks it makes, in which
order, and which calls it then makes on the components behind it.

Sources (paths relative to the repository root):
`acl` = `shared/libraries/config_protocol/include/config_protocol/config_server_access_control.h`,
`csc` = `shared/libraries/config_protocol/include/config_protocol/config_server_component.h`,
`csd` = `shared/libraries/config_protocol/include/config_protocol/config_server_device.h`,
`csp` = `shared/libraries/config_protocol/include/config_protocol/config_server_input_port.h`,
`csr` = `shared/libraries/config_protocol/include/config_protocol/config_server_recorder.h`,
`css` = `shared/libraries/config_protocol/include/config_protocol/config_server_server.h`,
`csg` = `shared/libraries/config_protocol/include/config_protocol/config_server_signal.h`,
`cps` = `shared/libraries/config_protocol/src/config_protocol_server.cpp`,
`ids` = `core/opendaq/utility/include/opendaq/ids_parser.h`,
`optr` = `core/coretypes/include/coretypes/objectptr.h`.

The components themselves are a parameter (`Api`): any type of states, any answers to the questions the
server asks, and any effect and result of the calls it makes, including user code run by a call. The model
fixes only what the server does with them.

Simplified: the parameters of a request are decoded into a record (a missing key, reported as "not found",
and the JSON text are not modelled); error messages are left out; questions that run no user code (looking
up an item, a lock, a permission) do not change the state; requests run one at a time.
-/

namespace Verif.Access

abbrev Obj := Nat
abbrev User := Nat
abbrev Name := List Char

/-- The permissions asked for (`csc:72`, `csc:92`, `csc:225`). -/
inductive Perm where
  | read | write | execute
  deriving DecidableEq, Repr

/-- The kinds of client (`acl:85`). -/
inductive ClientType where
  | control | exclusive | viewOnly
  deriving DecidableEq, Repr

/-- The interfaces the server asks an object for. -/
inductive Intf where
  | component | folder | device | block | signal | port | recorder | server | propertyObject
  | external
  deriving DecidableEq, Repr

/-- The errors of the server itself; `other n` stands for the errors the components report. -/
inductive Err where
  | notFound | invalidParameter | noInterface | accessDenied | locked | invalidState | notSupported
  | invalidProperty | invalidCall | general | other (n : Nat)
  deriving DecidableEq, Repr

/-- The values passed to and from components; `func` and `proc` are callable values. -/
inductive Val where
  | null | int (i : Int) | str (s : Name) | obj (o : Obj) | func (n : Nat) | proc (n : Nat)
  | list (l : List Int) | blob (n : Nat)
  deriving DecidableEq, Repr

/-- The attributes that can be set (`csc:325-330`). -/
inductive Attr where
  | name | description | active
  deriving DecidableEq, Repr

/-- The calls the server makes on the components. -/
inductive Call where
  | getValue (o : Obj) (n : Name)
  | suggested (o : Obj) (n : Name)
  | selections (o : Obj) (n : Name)
  | setValue (o : Obj) (n : Name) (v : Val)
  | setProtected (o : Obj) (n : Name) (v : Val)
  | setSelection (o : Obj) (n : Name) (v : Val)
  | clearValue (o : Obj) (n : Name)
  | clearProtected (o : Obj) (n : Name)
  | invoke (o : Obj) (n : Name) (f : Val) (args : Val)
  | clearAll (o : Obj)
  | beginUpdate (o : Obj)
  | endUpdate (o : Obj)
  | setAttr (o : Obj) (a : Attr) (v : Val)
  | update (o : Obj) (text : Val)
  | blockTypes (o : Obj)
  | addBlock (o : Obj) (type : Name) (config : Val)
  | removeBlock (o : Obj) (b : Obj)
  | componentConfig (o : Obj)
  | deviceInfo (o : Obj)
  | ticks (o : Obj)
  | lock (o : Obj) (u : User)
  | unlock (o : Obj) (u : User)
  | forceUnlock (o : Obj)
  | logInfos (o : Obj)
  | log (o : Obj) (n : Name)
  | availableDevices (o : Obj)
  | addDevice (o : Obj) (cs : Name) (config : Val)
  | addDevices (o : Obj) (args : Val)
  | removeDevice (o : Obj) (d : Obj)
  | deviceTypes (o : Obj)
  | modes (o : Obj)
  | setMode (o : Obj) (m : Name)
  | setModeRecursive (o : Obj) (m : Name)
  | mode (o : Obj)
  | addDeviceConfig (o : Obj)
  | lastValue (o : Obj)
  | lastValueTimed (o : Obj)
  | accepts (p : Obj) (s : Obj)
  | connect (p : Obj) (s : Obj)
  | disconnect (p : Obj)
  | addExternal (text : Val)
  | attach (st : Obj) (s : Obj)
  | setSource (s : Obj) (protocol : Name)
  | removeExternal (ids : Val)
  | startRecording (o : Obj)
  | stopRecording (o : Obj)
  | isRecording (o : Obj)
  | enableDiscovery (o : Obj)
  | disableDiscovery (o : Obj)
  | tree (o : Obj)
  | typeManager
  deriving DecidableEq, Repr

/-- What the server can ask of the components behind it. `chain` lists a component and its parents, nearest
first; `plan` lists the devices below a device in the order of `csd:308-318`, each with whether it is
mirrored, a mirrored one without the devices below it; `shown` is the text form of a value (`optr:776-798`). -/
structure Api (W : Type) where
  root : Obj
  supports : W → Obj → Intf → Bool
  localId : W → Obj → Name
  item : W → Obj → Name → Option Obj
  chain : W → Obj → List Obj
  locked : W → Obj → Bool
  auth : W → User → Obj → Perm → Bool
  info : W → Obj → Obj
  constant : W → Obj → Name → Except Err Bool
  blocks : W → Obj → Name → List Obj
  devices : W → Obj → Name → List Obj
  plan : W → Obj → List (Obj × Bool)
  portSignal : W → Obj → Option Obj
  domain : W → Obj → Option Obj
  streamings : W → List Obj
  shown : Val → Name
  exec : W → Call → W × Except Err Val

/-- The state while a request is handled: the components and the calls made so far, each with the state it
was made in. -/
abbrev S (W : Type) := W × List (W × Call)

/-- A part of a request's handling: it may make calls, and gives a result or fails. -/
def M (W α : Type) := S W → S W × Except Err α

instance {W : Type} : Monad (M W) where
  pure a := fun s => (s, .ok a)
  bind m f := fun s =>
    match m s with
    | (s', .ok a) => f a s'
    | (s', .error e) => (s', .error e)

section
variable {W : Type}

/-- Throw an error. -/
def fail {α : Type} (e : Err) : M W α := fun s => (s, .error e)

/-- Ask a question about the components. -/
def ask {α : Type} (q : W → α) : M W α := fun s => (s, .ok (q s.1))

/-- Throw an error unless a condition holds. -/
def require (b : Bool) (e : Err) : M W Unit := if b then pure () else fail e

/-- An answer that may be an error. -/
def lift {α : Type} (r : Except Err α) : M W α := fun s => (s, r)

variable (A : Api W)

/-- Make a call on the components. -/
def call (c : Call) : M W Val := fun s => (((A.exec s.1 c).1, s.2 ++ [(s.1, c)]), (A.exec s.1 c).2)

/-- Make a call and return nothing. -/
def callVoid (c : Call) : M W Val := do
  let _ ← call A c
  pure .null

end

/-- The client (`cps:114-117`). -/
structure Ctx where
  version : Nat
  user : User
  type : ClientType
  deriving DecidableEq, Repr

/-- One entry of the property edits sent with the end of an update (`csc:380-393`). -/
structure Edit where
  set : Bool
  name : Name
  value : Val
  protect : Bool
  deriving DecidableEq, Repr

/-- The parameters of a request. -/
structure Params where
  id : Name := []
  property : Name := []
  value : Val := .null
  path : Option Name := none
  props : Option (List Edit) := none
  attr : Name := []
  typeId : Name := []
  localId : Name := []
  mode : Name := []
  signal : Name := []
  signals : List Name := []
  protocol : Option Name := none
  deriving DecidableEq, Repr

section
variable {W : Type} (A : Api W)

/-- `protectObject` (`acl:46-57`). -/
def protect (u : User) (o : Obj) : List Perm → M W Unit
  | [] => pure ()
  | p :: ps => do
    let b ← ask fun w => A.auth w u o p
    require b .accessDenied
    protect u o ps

/-- `getParentDevice` (`acl:89-102`). -/
def parentDevice (w : W) (o : Obj) : Option Obj := (A.chain w o).find? fun x => A.supports w x .device

/-- `protectLockedComponent` (`acl:75-81`). -/
def protectLocked (o : Obj) : M W Unit := do
  let b ← ask fun w => (parentDevice A w o).any (A.locked w)
  require (!b) .locked

/-- `protectViewOnlyConnection` (`acl:83-87`). -/
def protectViewOnly (t : ClientType) : M W Unit := require (t != .viewOnly) .accessDenied

/-- Text before the last dot, if there is a dot (`acl:64-69`). -/
def beforeLastDot (n : Name) : Option Name :=
  match n.reverse.dropWhile (· != '.') with
  | [] => none
  | _ :: r => some r.reverse

/-- The property object in a value: a null value and any other object are refused (`optr:1993-2010`). -/
def asObject (v : Val) : M W Obj :=
  match v with
  | .obj o => do
    let b ← ask fun w => A.supports w o .propertyObject
    require b .noInterface
    pure o
  | .null => fail .invalidParameter
  | _ => fail .noInterface

/-- `getFirstPropertyParent` (`acl:59-73`). -/
def firstParent (o : Obj) (n : Name) : M W Obj :=
  match beforeLastDot n with
  | none => pure o
  | some pre => do
    let v ← call A (.getValue o pre)
    asObject A v

/-- Whether a text occurs in another. -/
def occurs (p : Name) : Name → Bool
  | [] => p.isEmpty
  | c :: cs => p.isPrefixOf (c :: cs) || occurs p cs

/-- The prefix of the names of device info properties (`csc:400`). -/
def infoPrefix : Name := "DaqDeviceInfo".toList

/-- `parseAndGetDeviceInfo` (`csc:397-406`). -/
def parseInfo (o : Obj) (n : Name) : M W (Obj × Name) :=
  if occurs infoPrefix n = false then pure (o, n)
  else do
    require (decide (infoPrefix.length + 1 ≤ n.length)) .general
    let b ← ask fun w => A.supports w o .device
    require b .noInterface
    let i ← ask fun w => A.info w o
    pure (i, n.drop (infoPrefix.length + 1))

/-! ### Property requests -/

/-- `getPropertyValue` (`csc:61-75`). -/
def getPropertyValue (x : Ctx) (o : Obj) (p : Params) : M W Val := do
  let t ← parseInfo A o p.property
  let v ← call A (.getValue t.1 t.2)
  let h ← firstParent A t.1 t.2
  protect A x.user h [.read]
  pure v

/-- `setPropertyValue` (`csc:77-97`). -/
def setPropertyValue (x : Ctx) (o : Obj) (p : Params) : M W Val := do
  protectLocked A o
  protectViewOnly x.type
  let t ← parseInfo A o p.property
  let h ← firstParent A t.1 t.2
  protect A x.user h [.read, .write]
  callVoid A (.setValue t.1 t.2 p.value)

/-- The text form of a value; a null value is refused (`optr:1650-1656`). -/
def asText (v : Val) : M W Name := if v = .null then fail .invalidParameter else pure (A.shown v)

/-- `setProtectedPropertyValue` (`csc:99-118`). -/
def setProtectedPropertyValue (x : Ctx) (o : Obj) (p : Params) : M W Val := do
  protectLocked A o
  protectViewOnly x.type
  let v ← asText A p.value
  let t ← parseInfo A o p.property
  let h ← firstParent A t.1 t.2
  protect A x.user h [.read, .write]
  callVoid A (.setProtected t.1 t.2 (.str v))

/-- `setPropertySelectionValue` (`csc:120-139`). -/
def setPropertySelectionValue (x : Ctx) (o : Obj) (p : Params) : M W Val := do
  protectLocked A o
  protectViewOnly x.type
  let t ← parseInfo A o p.property
  let h ← firstParent A t.1 t.2
  protect A x.user h [.read, .write]
  callVoid A (.setSelection t.1 t.2 p.value)

/-- `clearPropertyValue` (`csc:141-159`). -/
def clearPropertyValue (x : Ctx) (o : Obj) (p : Params) : M W Val := do
  protectLocked A o
  protectViewOnly x.type
  let t ← parseInfo A o p.property
  let h ← firstParent A t.1 t.2
  protect A x.user h [.read, .write]
  callVoid A (.clearValue t.1 t.2)

/-- `clearProtectedPropertyValue` (`csc:161-179`). -/
def clearProtectedPropertyValue (x : Ctx) (o : Obj) (p : Params) : M W Val := do
  protectLocked A o
  protectViewOnly x.type
  let t ← parseInfo A o p.property
  let h ← firstParent A t.1 t.2
  protect A x.user h [.read, .write]
  callVoid A (.clearProtected t.1 t.2)

/-- `getSuggestedValues` (`csc:181-194`). -/
def getSuggestedValues (x : Ctx) (o : Obj) (p : Params) : M W Val := do
  let t ← parseInfo A o p.property
  let h ← firstParent A t.1 t.2
  protect A x.user h [.read]
  call A (.suggested t.1 t.2)

/-- `getSelectionValues` (`csc:196-209`). -/
def getSelectionValues (x : Ctx) (o : Obj) (p : Params) : M W Val := do
  let t ← parseInfo A o p.property
  let h ← firstParent A t.1 t.2
  protect A x.user h [.read]
  call A (.selections t.1 t.2)

/-- The lock check on an object that has to be a component (`csc:240`, `optr:1188-1198`). -/
def protectLockedObject (o : Obj) : M W Unit := do
  let b ← ask fun w => A.supports w o .component
  require b .noInterface
  protectLocked A o

/-- The checks before a function that is not declared constant is called (`csc:238-242`). -/
def protectCall (x : Ctx) (o : Obj) (constant : Bool) : M W Unit :=
  if constant then pure ()
  else do
    protectLockedObject A o
    protectViewOnly x.type

/-- The last part of `callProperty`, with what was asked about the property (`csc:221-252`). -/
def callAt (x : Ctx) (t : Obj × Name) (k : Except Err Bool) (args : Val) : M W Val := do
  let v ← call A (.getValue t.1 t.2)
  let h ← firstParent A t.1 t.2
  protect A x.user h [.read, .execute]
  match v with
  | .func f => do
    let c ← lift k
    protectCall A x t.1 c
    call A (.invoke t.1 t.2 (.func f) args)
  | .proc f => do
    let c ← lift k
    protectCall A x t.1 c
    callVoid A (.invoke t.1 t.2 (.proc f) args)
  | .null => fail .invalidParameter
  | _ => fail .invalidProperty

/-- `callProperty` (`csc:211-253`). -/
def callProperty (x : Ctx) (o : Obj) (p : Params) : M W Val := do
  let t ← parseInfo A o p.property
  let k ← ask fun w => A.constant w t.1 t.2
  callAt A x t k p.value

/-- The object a request with a path is about (`csc:262-265`, `csc:281-284`, `csc:297-300`). -/
def atPath (o : Obj) : Option Name → M W Obj
  | none => pure o
  | some n => do
    let v ← call A (.getValue o n)
    asObject A v

/-- `clearPropertyValues` (`csc:255-269`). -/
def clearPropertyValues (x : Ctx) (o : Obj) (p : Params) : M W Val := do
  protectLocked A o
  protect A x.user o [.read, .write]
  protectViewOnly x.type
  let t ← atPath A o p.path
  callVoid A (.clearAll t)

/-- `beginUpdate` (`csc:271-287`). -/
def beginUpdate (x : Ctx) (o : Obj) (p : Params) : M W Val := do
  protectLocked A o
  protect A x.user o [.read, .write]
  protectViewOnly x.type
  let t ← atPath A o p.path
  callVoid A (.beginUpdate t)

/-- `applyProps` (`csc:378-395`). -/
def applyProps (o : Obj) : List Edit → M W Unit
  | [] => pure ()
  | e :: es => do
    let _ ← call A (if e.set then (if e.protect then .setProtected o e.name e.value else .setValue o e.name e.value)
      else .clearValue o e.name)
    applyProps o es

/-- `endUpdate` (`csc:289-312`). -/
def endUpdate (x : Ctx) (o : Obj) (p : Params) : M W Val := do
  protectLocked A o
  protect A x.user o [.read, .write]
  protectViewOnly x.type
  let t ← atPath A o p.path
  match p.props with
  | none => pure ()
  | some l => do
    require (decide (1 ≤ x.version)) .notSupported
    applyProps A t l
  callVoid A (.endUpdate t)

/-- `setAttributeValue` (`csc:314-335`). -/
def setAttributeValue (x : Ctx) (o : Obj) (p : Params) : M W Val := do
  protectLocked A o
  protect A x.user o [.read, .write]
  protectViewOnly x.type
  if p.attr = "Name".toList then callVoid A (.setAttr o .name p.value)
  else if p.attr = "Description".toList then callVoid A (.setAttr o .description p.value)
  else if p.attr = "Active".toList then callVoid A (.setAttr o .active p.value)
  else fail .invalidParameter

/-- `update` (`csc:337-376`); the update parameters and the reply carrying the update context are left out. -/
def update (x : Ctx) (o : Obj) (p : Params) : M W Val := do
  protectLocked A o
  protect A x.user o [.read, .write]
  protectViewOnly x.type
  let t ← atPath A o p.path
  callVoid A (.update t p.value)

/-! ### Function blocks -/

/-- `getAvailableFunctionBlockTypes` (`csc:408-423`). -/
def getAvailableFunctionBlockTypes (x : Ctx) (o : Obj) (_ : Params) : M W Val := do
  protect A x.user o [.read]
  let b ← ask fun w => A.supports w o .device || A.supports w o .block
  require b .invalidState
  call A (.blockTypes o)

/-- `addFunctionBlock` (`csc:425-445`). -/
def addFunctionBlock (x : Ctx) (o : Obj) (p : Params) : M W Val := do
  protectLocked A o
  protect A x.user o [.read, .write]
  protectViewOnly x.type
  let b ← ask fun w => A.supports w o .device || A.supports w o .block
  require b .invalidState
  call A (.addBlock o p.typeId p.value)

/-- The single element of a list (`csc:457-465`, `csd:224-228`). -/
def single (l : List Obj) : M W Obj :=
  match l with
  | [] => fail .notFound
  | [b] => pure b
  | _ => fail .invalidState

/-- `removeFunctionBlock` (`csc:447-485`). -/
def removeFunctionBlock (x : Ctx) (o : Obj) (p : Params) : M W Val := do
  protectLocked A o
  protect A x.user o [.read, .write]
  protectViewOnly x.type
  let b ← ask fun w => A.supports w o .device || A.supports w o .block
  require b .invalidState
  let l ← ask fun w => A.blocks w o p.localId
  let f ← single l
  callVoid A (.removeBlock o f)

/-- `getComponentConfig` (`csc:487-496`). -/
def getComponentConfig (x : Ctx) (o : Obj) (_ : Params) : M W Val := do
  protect A x.user o [.read]
  call A (.componentConfig o)

/-! ### Devices -/

/-- A request that reads something of a component: `getInfo`, `getTicksSinceOrigin`, `getLogFileInfos`,
`getLog`, `getAvailableDevices`, `getAvailableDeviceTypes`, `getAvailableOperationModes`, `getOperationMode`,
`getDefaultAddDeviceConfig` (`csd:55-69`, `csd:104-131`, `csd:235-243`, `csd:281-287`, `csd:323-337`),
`getLastValue`, `getLastValueWithTimestamp` (`csg:32-49`), `getIsRecording` (`csr:54-60`). -/
def readOne (x : Ctx) (o : Obj) (c : Call) : M W Val := do
  protect A x.user o [.read]
  call A c

/-- `lock` (`csd:71-80`). -/
def lockDevice (x : Ctx) (o : Obj) (_ : Params) : M W Val := do
  protect A x.user o [.read, .write]
  protectViewOnly x.type
  callVoid A (.lock o x.user)

/-- `unlock` (`csd:82-91`). -/
def unlockDevice (x : Ctx) (o : Obj) (_ : Params) : M W Val := do
  protect A x.user o [.read, .write]
  protectViewOnly x.type
  callVoid A (.unlock o x.user)

/-- `forceUnlock` (`csd:93-102`). -/
def forceUnlockDevice (x : Ctx) (o : Obj) (_ : Params) : M W Val := do
  protect A x.user o [.read, .write]
  protectViewOnly x.type
  callVoid A (.forceUnlock o)

/-- `addDevice` (`csd:133-146`). -/
def addDevice (x : Ctx) (o : Obj) (p : Params) : M W Val := do
  protectLocked A o
  protect A x.user o [.read, .write]
  protectViewOnly x.type
  call A (.addDevice o p.typeId p.value)

/-- `addDevices` (`csd:148-210`); how its result is packed is left out. -/
def addDevices (x : Ctx) (o : Obj) (p : Params) : M W Val := do
  protectLocked A o
  protect A x.user o [.read, .write]
  protectViewOnly x.type
  call A (.addDevices o p.value)

/-- `removeDevice` (`csd:212-233`). -/
def removeDevice (x : Ctx) (o : Obj) (p : Params) : M W Val := do
  protectLocked A o
  protect A x.user o [.read, .write]
  protectViewOnly x.type
  let l ← ask fun w => A.devices w o p.localId
  let d ← single l
  callVoid A (.removeDevice o d)

/-- `setOperationMode` (`csd:289-297`). -/
def setOperationMode (x : Ctx) (o : Obj) (p : Params) : M W Val := do
  protect A x.user o [.write]
  callVoid A (.setMode o p.mode)

/-- The devices below a device in turn (`csd:308-318`). -/
def setModes (x : Ctx) (m : Name) : List (Obj × Bool) → M W Unit
  | [] => pure ()
  | (d, mirrored) :: ds => do
    if mirrored then do
      let _ ← call A (.setModeRecursive d m)
    else do
      protect A x.user d [.write]
      let _ ← call A (.setMode d m)
    setModes x m ds

/-- `setOperationModeRecursive` (`csd:299-321`). -/
def setOperationModeRecursive (x : Ctx) (o : Obj) (p : Params) : M W Val := do
  protect A x.user o [.write]
  let _ ← call A (.setMode o p.mode)
  let l ← ask fun w => A.plan w o
  setModes A x p.mode l
  pure .null

/-! ### Finding components -/

/-- The parts of an id between slashes (`ids:26-37`, applied again and again in `cps:24-51`). -/
def parts : Name → List Name
  | [] => [[]]
  | c :: cs => if c = '/' then [] :: parts cs else
      match parts cs with
      | [] => [[c]]
      | p :: ps => (c :: p) :: ps

/-- `findComponentInternal` (`cps:24-51`). -/
def walk (w : W) (o : Obj) : List Name → Option Obj
  | [] => some o
  | p :: ps => if A.supports w o .folder then (A.item w o p).bind fun i => walk w i ps else none

/-- `ComponentFinderRootDevice::findComponent` (`cps:53-73`) and `findComponent` (`cps:406-414`). -/
def findComponent (id : Name) : M W (Option Obj) :=
  if id = "//root".toList then pure (some A.root)
  else match id with
  | '/' :: rest => ask fun w =>
      match parts rest with
      | [] => none
      | p :: ps => if p = A.localId w A.root then walk A w A.root ps else none
  | _ => fail .invalidParameter

/-! ### Ports -/

/-- `ConfigServerInputPort::connect` (`csp:33-48`). -/
def connectPort (x : Ctx) (o : Obj) (s : Option Obj) : M W Val :=
  match s with
  | none => fail .notFound
  | some s => do
    protectViewOnly x.type
    protectLocked A o
    protect A x.user o [.read, .write]
    protect A x.user s [.read]
    callVoid A (.connect o s)

/-- A signal by its id: nothing, or a component that has to be a signal (`cps:441`, `cps:542`). -/
def findSignal (id : Name) : M W (Option Obj) := do
  let s ← findComponent A id
  match s with
  | none => pure none
  | some s => do
    let b ← ask fun w => A.supports w s .signal
    require b .noInterface
    pure (some s)

/-- `connectSignal` (`cps:438-445`). -/
def connectSignal (x : Ctx) (o : Obj) (p : Params) : M W Val := do
  let s ← findSignal A p.signal
  let b ← ask fun w => s.any fun i => A.supports w i .external
  require (!b) .invalidParameter
  connectPort A x o s

/-- The domain signal of a signal, if it has one, and the signal (`cps:462-465`, `cps:517-520`). -/
def withDomain (s : Obj) : M W (List Obj) := ask fun w => (A.domain w s).toList ++ [s]

/-- A call for every element. -/
def callEach (f : Obj → Call) : List Obj → M W Unit
  | [] => pure ()
  | o :: os => do
    let _ ← call A (f o)
    callEach f os

/-- The signals attached to every streaming, and the streaming selected (`cps:467-496`); an error other than
a duplicate is passed on by `attach` itself. -/
def attachAll (sigs : List Obj) (protocol : Option Name) : List Obj → M W Unit
  | [] => pure ()
  | st :: sts => do
    callEach A (.attach st) sigs
    match protocol with
    | none => pure ()
    | some n => callEach A (fun s => .setSource s n) sigs
    attachAll sigs protocol sts

/-- `connectExternalSignal` (`cps:447-501`). -/
def connectExternalSignal (x : Ctx) (o : Obj) (p : Params) : M W Val := do
  protectViewOnly x.type
  protectLocked A o
  protect A x.user o [.read, .write]
  let v ← call A (.addExternal p.value)
  match v with
  | .obj s => do
    if 18 ≤ x.version then do
      let sigs ← withDomain A s
      let sts ← ask A.streamings
      attachAll A sigs p.protocol sts
    else pure ()
    connectPort A x o (some s)
  | _ => fail .invalidParameter

/-- `changeInputPortStreamingSource` (`cps:503-528`). -/
def changeInputPortStreamingSource (_ : Ctx) (o : Obj) (p : Params) : M W Val := do
  let s ← ask fun w => (A.portSignal w o).filter fun s => A.supports w s .external
  match s with
  | none => pure .null
  | some s =>
    match p.protocol with
    | none => pure .null
    | some n => do
      let sigs ← withDomain A s
      callEach A (fun s => .setSource s n) sigs
      pure .null

/-- `disconnect` (`csp:50-60`). -/
def disconnectSignal (x : Ctx) (o : Obj) (_ : Params) : M W Val := do
  protectLocked A o
  protect A x.user o [.read, .write]
  protectViewOnly x.type
  callVoid A (.disconnect o)

/-- `accepts` (`csp:62-74`). -/
def acceptsOne (x : Ctx) (o : Obj) (s : Option Obj) : M W Val :=
  match s with
  | none => fail .notFound
  | some s => do
    protect A x.user o [.read]
    protect A x.user s [.read]
    call A (.accepts o s)

/-- `acceptsSignal` (`cps:539-544`). -/
def acceptsSignal (x : Ctx) (o : Obj) (p : Params) : M W Val := do
  let s ← findSignal A p.signal
  acceptsOne A x o s

/-- `acceptsSignals` (`cps:546-556`). -/
def acceptsAll (x : Ctx) (o : Obj) : List Name → M W (List Int)
  | [] => pure []
  | n :: ns => do
    let s ← findSignal A n
    let v ← acceptsOne A x o s
    let r ← acceptsAll x o ns
    pure ((if v = .int 0 then 0 else 1) :: r)

/-- `acceptsSignals` (`cps:546-556`). -/
def acceptsSignals (x : Ctx) (o : Obj) (p : Params) : M W Val := do
  let r ← acceptsAll A x o p.signals
  pure (.list r)

/-! ### Recorders and servers -/

/-- `startRecording`, `stopRecording` (`csr:32-52`), `enableDiscovery`, `disableDiscovery` (`css:31-51`). -/
def switch (x : Ctx) (o : Obj) (c : Call) : M W Val := do
  protectViewOnly x.type
  protectLocked A o
  protect A x.user o [.read, .write]
  callVoid A c

/-! ### Requests without a component -/

/-- `getComponent` (`cps:416-426`). -/
def getComponent (x : Ctx) (p : Params) : M W Val := do
  let o ← findComponent A p.id
  match o with
  | none => fail .notFound
  | some o => readOne A x o (.tree o)

/-- `getSerializedRootDevice` (`cps:428-436`). -/
def getRoot (x : Ctx) (_ : Params) : M W Val := readOne A x A.root (.tree A.root)

/-- `getTypeManager` (`cps:711-717`). -/
def getTypeManager (x : Ctx) (_ : Params) : M W Val := readOne A x A.root .typeManager

/-- `removeExternalSignals` (`cps:530-537`). -/
def removeExternalSignals (x : Ctx) (p : Params) : M W Val := do
  protectLocked A A.root
  protectViewOnly x.type
  callVoid A (.removeExternal p.value)

/-! ### Dispatch -/

/-- `addHandler` (`cps:109-130`): the component is found and asked for an interface first. -/
def handler (i : Intf) (f : Ctx → Obj → Params → M W Val) (x : Ctx) (p : Params) : M W Val := do
  let o ← findComponent A p.id
  match o with
  | none => fail .notFound
  | some o => do
    let b ← ask fun w => A.supports w o i
    require b .noInterface
    f x o p

/-- `buildRpcDispatchStructure` (`cps:132-197`): the handlers in the order in which they are registered. -/
def table : List (String × (Ctx → Params → M W Val)) := [
  ("GetComponent", getComponent A),
  ("GetTypeManager", getTypeManager A),
  ("GetSerializedRootDevice", getRoot A),
  ("RemoveExternalSignals", removeExternalSignals A),
  ("SetPropertyValue", handler A .component (setPropertyValue A)),
  ("GetPropertyValue", handler A .component (getPropertyValue A)),
  ("SetProtectedPropertyValue", handler A .component (setProtectedPropertyValue A)),
  ("SetPropertySelectionValue", handler A .component (setPropertySelectionValue A)),
  ("ClearPropertyValue", handler A .component (clearPropertyValue A)),
  ("ClearProtectedPropertyValue", handler A .component (clearProtectedPropertyValue A)),
  ("GetSuggestedValues", handler A .component (getSuggestedValues A)),
  ("GetSelectionValues", handler A .component (getSelectionValues A)),
  ("CallProperty", handler A .component (callProperty A)),
  ("BeginUpdate", handler A .component (beginUpdate A)),
  ("EndUpdate", handler A .component (endUpdate A)),
  ("SetAttributeValue", handler A .component (setAttributeValue A)),
  ("Update", handler A .component (update A)),
  ("ClearPropertyValues", handler A .component (clearPropertyValues A)),
  ("GetAvailableFunctionBlockTypes", handler A .component (getAvailableFunctionBlockTypes A)),
  ("AddFunctionBlock", handler A .component (addFunctionBlock A)),
  ("RemoveFunctionBlock", handler A .component (removeFunctionBlock A)),
  ("GetComponentConfig", handler A .component (getComponentConfig A)),
  ("GetInfo", handler A .device (fun x o _ => readOne A x o (.deviceInfo o))),
  ("GetTicksSinceOrigin", handler A .device (fun x o _ => readOne A x o (.ticks o))),
  ("Lock", handler A .device (lockDevice A)),
  ("Unlock", handler A .device (unlockDevice A)),
  ("ForceUnlock", handler A .device (forceUnlockDevice A)),
  ("getLogFileInfos", handler A .device (fun x o _ => readOne A x o (.logInfos o))),
  ("AddDevice", handler A .device (addDevice A)),
  ("AddDevices", handler A .device (addDevices A)),
  ("RemoveDevice", handler A .device (removeDevice A)),
  ("GetAvailableDeviceTypes", handler A .device (fun x o _ => readOne A x o (.deviceTypes o))),
  ("GetLog", handler A .device (fun x o p => readOne A x o (.log o p.localId))),
  ("GetAvailableDevices", handler A .device (fun x o _ => readOne A x o (.availableDevices o))),
  ("SetPropertyValue", handler A .device (fun x o p => do
    protectLocked A o
    protectViewOnly x.type
    let h ← firstParent A o p.property
    protect A x.user h [.read, .write]
    callVoid A (.setValue o p.property p.value))),
  ("SetProtectedPropertyValue", handler A .device (fun x o p => do
    protectLocked A o
    protectViewOnly x.type
    let v ← asText A p.value
    let h ← firstParent A o p.property
    protect A x.user h [.read, .write]
    callVoid A (.setProtected o p.property (.str v)))),
  ("GetAvailableOperationModes", handler A .device (fun x o _ => readOne A x o (.modes o))),
  ("SetOperationMode", handler A .device (setOperationMode A)),
  ("SetOperationModeRecursive", handler A .device (setOperationModeRecursive A)),
  ("GetOperationMode", handler A .device (fun x o _ => readOne A x o (.mode o))),
  ("GetDefaultAddDeviceConfig", handler A .device (fun x o _ => readOne A x o (.addDeviceConfig o))),
  ("GetLastValue", handler A .signal (fun x o _ => readOne A x o (.lastValue o))),
  ("GetLastValueWithTimestamp", handler A .signal (fun x o _ => readOne A x o (.lastValueTimed o))),
  ("ConnectSignal", handler A .port (connectSignal A)),
  ("ConnectExternalSignal", handler A .port (connectExternalSignal A)),
  ("ChangeInputPortStreamingSource", handler A .port (changeInputPortStreamingSource A)),
  ("DisconnectSignal", handler A .port (disconnectSignal A)),
  ("AcceptsSignal", handler A .port (acceptsSignal A)),
  ("AcceptsSignals", handler A .port (acceptsSignals A)),
  ("StartRecording", handler A .recorder (fun x o _ => switch A x o (.startRecording o))),
  ("StopRecording", handler A .recorder (fun x o _ => switch A x o (.stopRecording o))),
  ("GetIsRecording", handler A .recorder (fun x o _ => readOne A x o (.isRecording o))),
  ("EnableDiscovery", handler A .server (fun x o _ => switch A x o (.enableDiscovery o))),
  ("DisableDiscovery", handler A .server (fun x o _ => switch A x o (.disableDiscovery o)))]

/-- `callRpc` (`cps:393-404`): `insert` keeps the first handler registered under a name. -/
def callRpc (x : Ctx) (name : String) (p : Params) : M W Val :=
  match List.lookup name (table A) with
  | none => fail .invalidCall
  | some h => h x p

/-- A request in a state: the new state, the calls made and the reply (`cps:327-360`). -/
def request (x : Ctx) (name : String) (p : Params) (w : W) : (W × List (W × Call)) × Except Err Val :=
  callRpc A x name p (w, [])

end

end Verif.Access
