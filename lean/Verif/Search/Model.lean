/-!
# Search filters and the listing of components

Sources (abbreviations used in the comments below):

* `csf` = `core/coretypes/src/search_filter_impl.cpp`
* `osf` = `core/opendaq/component/src/search_filter_impl.cpp`
* `comp` = `core/opendaq/component/include/opendaq/component_impl.h`
* `fold` = `core/opendaq/component/include/opendaq/folder_impl.h`
* `cont` = `core/opendaq/signal/include/opendaq/signal_container_impl.h`
* `keys` = `core/opendaq/component/include/opendaq/component_keys.h`
* `dev` = `core/opendaq/device/include/opendaq/device_impl.h`
* `fbi` = `core/opendaq/functionblock/include/opendaq/function_block_impl.h`

A component is a node of a finite tree of any depth and width.  Global ids, local ids and tags are
only compared with each other, so they are numbers here.  The default folders of a device or a
function block (`Sig`, `FB`, `IP`, `Dev`, `IO`) are ordinary children that carry a mark saying
which of the members `signals`, `functionBlocks`, `inputPorts`, `devices`, `ioFolder` points to them.

Simplifications: the tree does not change during a search (the code holds a lock per folder only);
every object given to a filter is a component (`validateType` never fails); filters built from user
functions are total and see the attributes of the component; the `removed` state of a device is
not modelled; the folders `Sig`, `IP`, `FB` and `Dev` hold only signals, ports, function blocks and
devices (the folder checks the interface when an item is added), so the casts of the elements of
those folders themselves never fail.  The cast that can fail is modelled in `fbRec`.
-/

namespace Verif.Search

/-- What a component is: the interface that matters for listing. -/
inductive Kind where
  | signal | port | fb | channel | device | ioFolder | folder | other
deriving DecidableEq, Repr

/-- Interfaces a filter can ask for. -/
inductive Intf where
  | component | folder | functionBlock | channel | device | signal | inputPort | ioFolder
deriving DecidableEq, Repr

/-- `supportsInterface`: `IFunctionBlock` and `IDevice` extend `IFolder`, `IChannel` extends
`IFunctionBlock`, `IIoFolderConfig` is implemented by io folders, which are folders. -/
def Kind.supports : Kind → Intf → Bool
  | _, .component => true
  | .fb, .folder | .channel, .folder | .device, .folder | .ioFolder, .folder | .folder, .folder => true
  | .fb, .functionBlock | .channel, .functionBlock => true
  | .channel, .channel => true
  | .device, .device => true
  | .signal, .signal => true
  | .port, .inputPort => true
  | .ioFolder, .ioFolder => true
  | _, _ => false

/-- The members of a device or function block that point to a default folder
(dev:302-303, cont:173-174). -/
inductive Role where
  | sig | fb | ip | dev | io
deriving DecidableEq, Repr

/-- Attributes of a component. -/
structure Info where
  gid : Nat
  localId : Nat
  kind : Kind
  visible : Bool
  tags : List Nat
  role : Option Role
deriving DecidableEq, Repr

/-- A component with its children in order. -/
inductive Comp where
  | mk (info : Info) (items : List Comp)
deriving Repr

def Comp.info : Comp → Info
  | .mk i _ => i

def Comp.items : Comp → List Comp
  | .mk _ cs => cs

/-- The filters (csf:6-154, osf:16-196).  `custom` takes the two user functions, the second one may
be missing. -/
inductive Filter where
  | any
  | visible
  | required (tags : List Nat)
  | excluded (tags : List Nat)
  | intf (i : Intf)
  | localId (n : Nat)
  | or (l r : Filter)
  | and (l r : Filter)
  | not (f : Filter)
  | custom (accepts : Info → Bool) (visit : Option (Info → Bool))
  | recursive (f : Filter)

/-- `acceptsObject` (csf:8-14, 30-37, 53-60, 75-82, 98-111, 139-146; osf:18-31, 54-78, 96-120, 137-154,
171-186). -/
def Filter.accepts : Filter → Info → Bool
  | .any, _ => true
  | .visible, i => i.visible
  | .required ts, i => ts.all fun t => i.tags.contains t
  | .excluded ts, i => !(i.tags.any fun t => ts.contains t)
  | .intf x, i => i.kind.supports x
  | .localId n, i => i.localId == n
  | .or l r, i => l.accepts i || r.accepts i
  | .and l r, i => l.accepts i && r.accepts i
  | .not f, i => !f.accepts i
  | .custom a _, i => a i
  | .recursive f, i => f.accepts i

/-- `visitChildren` (csf:16-22, 39-45, 62-68, 84-90, 113-132, 148-154; osf:33-46, 80-88, 122-130, 156-164,
188-196). -/
def Filter.visit : Filter → Info → Bool
  | .any, _ => true
  | .visible, i => i.visible
  | .required _, _ => true
  | .excluded _, _ => true
  | .intf _, _ => true
  | .localId _, _ => true
  | .or l r, i => l.visit i || r.visit i
  | .and l r, i => l.visit i && r.visit i
  | .not _, _ => true
  | .custom _ none, _ => true
  | .custom _ (some v), i => v i
  | .recursive f, i => f.visit i

/-- `supportsInterface<IRecursiveSearch>`: only the outermost filter is asked. -/
def Filter.isRecursive : Filter → Bool
  | .recursive _ => true
  | _ => false

/-- Insertion into `tsl::ordered_set` with `ComponentHash` and `ComponentEqualTo` (keys:23-37):
elements with the same global id are one element, the first one stays. -/
def insertC (s : List Comp) (c : Comp) : List Comp :=
  if s.any (fun x => x.info.gid == c.info.gid) then s else s ++ [c]

/-- A set filled from a list, copied into a list in order of insertion. -/
def ordSet (l : List Comp) : List Comp := l.foldl insertC []

mutual
/-- The lists returned by `folder.getItems(filter)` for the visited children that are folders
(comp:1174-1183). -/
def below (f : Filter) : List Comp → List Comp
  | [] => []
  | c :: cs => (if f.visit c.info && c.info.kind.supports .folder then getItems f c else []) ++ below f cs

/-- `FolderImpl::getItems` and `SignalContainerImpl::getItems` with a filter (fold:128-141,
cont:227-236), which call `searchItems` (comp:1166-1191). -/
def getItems (f : Filter) : Comp → List Comp
  | .mk _ cs =>
    ordSet (cs.filter (fun c => f.accepts c.info) ++ (if f.isRecursive then below f cs else []))
end

/-- `getItems` without a filter: the visible items (fold:143-154, cont:238-244). -/
def visibleItems : Comp → List Comp
  | .mk _ cs => cs.filter fun c => c.info.visible

/-- The default folder a member points to; an absent one is an empty folder. -/
def part (r : Role) (c : Comp) : Comp :=
  match c.items.find? (fun x => x.info.role == some r) with
  | some x => x
  | none => .mk ⟨0, 0, .folder, true, [], some r⟩ []

mutual
/-- `getChannelsFromFolder` for one item (dev:1266-1275). -/
def channelsAt (f : Filter) (filterChannels : Bool) : Comp → List Comp
  | .mk i cs =>
    if i.kind.supports .channel then
      (if filterChannels && !f.accepts i then [] else [Comp.mk i cs])
    else if i.kind.supports .ioFolder && f.visit i then channelsFrom f filterChannels cs
    else []

/-- `getChannelsFromFolder` for the items of a folder (dev:1263-1277). -/
def channelsFrom (f : Filter) (filterChannels : Bool) : List Comp → List Comp
  | [] => []
  | c :: rest => channelsAt f filterChannels c ++ channelsFrom f filterChannels rest
end

mutual
/-- `getSignalsRecursiveInternal` of a device (dev:636-666) and of a function block (fbi:198-215).
For a device: channels, own signals, function blocks, devices; for a function block: own signals,
function blocks. -/
def sigRec (f : Filter) : Comp → List Comp
  | .mk i cs =>
    if i.kind.supports .device then
      ordSet (sigIo f cs ++ getItems f (part .sig (.mk i cs)) ++ sigPart f .fb cs ++ sigPart f .dev cs)
    else
      ordSet (getItems f (part .sig (.mk i cs)) ++ sigPart f .fb cs)

/-- The loop over the items of one default folder: `if visitChildren(x) … x.getSignals(filter)`
(dev:649-652, 654-657; fbi:205-208). -/
def sigPart (f : Filter) (r : Role) : List Comp → List Comp
  | [] => []
  | .mk i ds :: rest => if i.role == some r then sigOf f ds else sigPart f r rest

def sigOf (f : Filter) : List Comp → List Comp
  | [] => []
  | c :: cs => (if f.visit c.info then sigRec f c else []) ++ sigOf f cs

/-- The loop over the channels of the io folder (dev:640-644): the channels are collected without asking the
filter, then those it visits are searched. -/
def sigIo (f : Filter) : List Comp → List Comp
  | [] => []
  | .mk i ds :: rest => if i.role == some .io then sigCh f ds else sigIo f rest

def sigCh (f : Filter) : List Comp → List Comp
  | [] => []
  | .mk i cs :: rest =>
    (if i.kind.supports .channel then (if f.visit i then sigRec f (.mk i cs) else [])
    else if i.kind.supports .ioFolder && f.visit i then sigCh f cs
    else []) ++ sigCh f rest
end

mutual
/-- `getInputPortsRecursiveInternal` of a function block (fbi:241-258). -/
def portRec (f : Filter) : Comp → List Comp
  | .mk i cs => ordSet (getItems f (part .ip (.mk i cs)) ++ portPart f cs)

def portPart (f : Filter) : List Comp → List Comp
  | [] => []
  | .mk i ds :: rest => if i.role == some .fb then portOf f ds else portPart f rest

def portOf (f : Filter) : List Comp → List Comp
  | [] => []
  | c :: cs => (if f.visit c.info then portRec f c else []) ++ portOf f cs
end

mutual
/-- `getChannelsRecursiveInternal` of a device (dev:1087-1106). -/
def chRec (f : Filter) : Comp → List Comp
  | .mk i cs => ordSet (channelsFrom f true (part .io (.mk i cs)).items ++ chPart f cs)

def chPart (f : Filter) : List Comp → List Comp
  | [] => []
  | .mk i ds :: rest => if i.role == some .dev then chOf f ds else chPart f rest

def chOf (f : Filter) : List Comp → List Comp
  | [] => []
  | c :: cs => (if f.visit c.info then chRec f c else []) ++ chOf f cs
end

mutual
/-- `getDevicesRecursive` of a device (dev:1634-1652). -/
def devRec (f : Filter) : Comp → List Comp
  | .mk i cs =>
    ordSet ((part .dev (.mk i cs)).items.filter (fun c => f.accepts c.info) ++ devPart f cs)

def devPart (f : Filter) : List Comp → List Comp
  | [] => []
  | .mk i ds :: rest => if i.role == some .dev then devOf f ds else devPart f rest

def devOf (f : Filter) : List Comp → List Comp
  | [] => []
  | c :: cs => (if f.visit c.info then devRec f c else []) ++ devOf f cs
end

mutual
/-- `getFunctionBlocksRecursive` of a device (dev:877-895): its own function blocks, then those of the
visited devices. -/
def devFbRec (f : Filter) : Comp → List Comp
  | .mk i cs =>
    ordSet ((part .fb (.mk i cs)).items.filter (fun c => f.accepts c.info) ++ devFbPart f cs)

def devFbPart (f : Filter) : List Comp → List Comp
  | [] => []
  | .mk i ds :: rest => if i.role == some .dev then devFbOf f ds else devFbPart f rest

def devFbOf (f : Filter) : List Comp → List Comp
  | [] => []
  | c :: cs => (if f.visit c.info then devFbRec f c else []) ++ devFbOf f cs
end

/-- `asPtr<IFunctionBlock>()` on every element of a list; `none` when one of the casts throws. -/
def castFbs (l : List Comp) : Option (List Comp) :=
  if l.all (fun c => c.info.kind.supports .functionBlock) then some l else none

mutual
/-- `getFunctionBlocksRecursiveInternal` of a function block (fbi:387-404).  The first loop lists the
folder of function blocks with the *recursive* filter and casts every element to a function block;
`none` is the exception thrown by the cast. -/
def fbRec (f : Filter) : Comp → Option (List Comp)
  | .mk i cs =>
    match castFbs (getItems f (part .fb (.mk i cs))), fbPart f cs with
    | some own, some nested => some (ordSet (own ++ nested))
    | _, _ => none

def fbPart (f : Filter) : List Comp → Option (List Comp)
  | [] => some []
  | .mk i ds :: rest => if i.role == some .fb then fbOf f ds else fbPart f rest

def fbOf (f : Filter) : List Comp → Option (List Comp)
  | [] => some []
  | c :: cs =>
    match (if f.visit c.info then fbRec f c else some []), fbOf f cs with
    | some a, some b => some (a ++ b)
    | _, _ => none
end

/-- `getSignals` of a device or a function block (dev:587-610, fbi:156-176). -/
def getSignals (c : Comp) : Option Filter → List Comp
  | none => visibleItems (part .sig c)
  | some f => if f.isRecursive then sigRec f c else getItems f (part .sig c)

/-- `getSignalsRecursive` (dev:613-633, fbi:179-195). -/
def getSignalsRecursive (c : Comp) : Option Filter → List Comp
  | none => sigRec (.recursive .visible) c
  | some f => sigRec (.recursive f) c

/-- `getInputPorts` of a function block (fbi:218-238). -/
def getInputPorts (c : Comp) : Option Filter → List Comp
  | none => visibleItems (part .ip c)
  | some f => if f.isRecursive then portRec f c else getItems f (part .ip c)

/-- `getChannels` of a device (dev:898-929). -/
def getChannels (c : Comp) : Option Filter → List Comp
  | none => channelsFrom .visible true (part .io c).items
  | some f => if f.isRecursive then chRec f c else channelsFrom f true (part .io c).items

/-- `getChannelsRecursive` of a device (dev:932-951). -/
def getChannelsRecursive (c : Comp) : Option Filter → List Comp
  | none => chRec (.recursive .visible) c
  | some f => chRec (.recursive f) c

/-- `getDevices` of a device (dev:1581-1604). -/
def getDevices (c : Comp) : Option Filter → List Comp
  | none => visibleItems (part .dev c)
  | some f => if f.isRecursive then devRec f c else getItems f (part .dev c)

/-- `getFunctionBlocks` of a device (dev:851-874) and of a function block (fbi:364-384); `none` is the
exception. -/
def getFunctionBlocks (c : Comp) : Option Filter → Option (List Comp)
  | none => some (visibleItems (part .fb c))
  | some f =>
    if f.isRecursive then
      (if c.info.kind.supports .device then some (devFbRec f c) else fbRec f c)
    else some (getItems f (part .fb c))

end Verif.Search
