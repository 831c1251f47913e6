import Verif.AList
/-!
# Which streaming connections a device gets, and what is streamed over them

* `ssm` = `core/opendaq/streaming/include/opendaq/streaming_source_manager.h`
* `mdi` = `core/opendaq/streaming/include/opendaq/mirrored_device_impl.h`
* `idp` = `core/opendaq/utility/include/opendaq/ids_parser.h`

Simplifications: the strings that the code compares are texts, a missing or empty protocol group is the
empty text; which streamings the modules create is a function of the connection string; the global ids
of components are paths.
-/
namespace Verif.Sources

abbrev Text := List Char

/-- Whether an address answered. -/
inductive Reach where
  | unknown | reachable | unreachable
  deriving DecidableEq, Repr

/-- `IAddressInfo`. -/
structure Addr where
  addr : Text
  type : Text
  conn : Text
  reach : Reach
  deriving DecidableEq, Repr

/-- `IServerCapability`. -/
structure Cap where
  streaming : Bool
  proto : Text
  group : Text
  conn : Option Text
  addrs : List Addr
  deriving DecidableEq, Repr

/-- A streaming: connection string, protocol group, and whether input ports can be fed over it. -/
structure Strm where
  conn : Text
  group : Text
  toDevice : Bool
  deriving DecidableEq, Repr

/-- The general part of the configuration.  ssm:80-90 -/
structure Cfg where
  minHops : Bool
  primary : Text
  allowed : List Text
  preferred : List Text
  deriving DecidableEq, Repr

/-- What is known about a device: its capabilities, those that discovery found (none if manufacturer or
serial number is missing), its own connection string, and the configuration connection. -/
structure Info where
  caps : List Cap
  found : List Cap
  conn : Option Text
  config : Option (Text × List Addr)
  deriving DecidableEq, Repr

/-- `getDeviceConnectionAddress`.  ssm:429-449 -/
def deviceAddr (i : Info) : Option Addr :=
  match i.config with
  | none => none
  | some (c, addrs) =>
    addrs.find? fun a => a.conn == (match i.conn with
      | some s => if s = [] then c else s
      | none => c)

/-- `buildDiscoveredStreamingAddrsByProtocol`, for one protocol: the last one counts.  ssm:627-658 -/
def foundAddrs (i : Info) (proto : Text) : Option (List Addr) :=
  (i.found.filter fun c => c.streaming && c.proto == proto).getLast?.map (·.addrs)

/-- The first address that is that of the device connection. -/
def sameAddr (avail : List Addr) (dev : Option Addr) : Option Addr :=
  match dev with
  | none => none
  | some d => avail.find? fun a => a.addr == d.addr

/-- `findMatchingAddress`.  ssm:398-427 -/
def findAddr (primary : Text) (avail : List Addr) (dev : Option Addr) : Option Addr :=
  if primary = "IPv4".toList ∨ primary = "IPv6".toList then
    match if dev.map (·.type) = some primary then sameAddr avail dev else none with
    | some a => some a
    | none =>
      match avail.find? fun a => a.type == primary with
      | some a => some a
      | none => sameAddr avail dev
  else sameAddr avail dev

/-- `capabilityPriority`.  ssm:493-507 -/
def priority (cfg : Cfg) (c : Cap) : Option Nat :=
  if c.streaming = false then none
  else if cfg.allowed ≠ [] ∧ c.proto ∉ cfg.allowed then none
  else cfg.preferred.idxOf? c.proto

/-- `bestPriorityPerGroup`, for one group.  ssm:515-529 -/
def best (cfg : Cfg) (group : Text) : List Cap → Option Nat
  | [] => none
  | c :: l =>
    match if c.group = group then priority cfg c else none, best cfg group l with
    | some a, some b => some (min a b)
    | some a, none => some a
    | none, r => r

/-- The connection string for a capability.  ssm:580-588 -/
def choose (cfg : Cfg) (i : Info) (c : Cap) : Option Text :=
  match findAddr cfg.primary ((foundAddrs i c.proto).getD c.addrs) (deviceAddr i) with
  | some a => some a.conn
  | none => c.conn

/-- One round of the loop over the capabilities; `got` are the sources there are, attached or not.
ssm:532-612 -/
def connect (cfg : Cfg) (make : Text → Option Strm) (i : Info) (got : List Strm) (c : Cap) : Option (Nat × Strm) :=
  match priority cfg c with
  | none => none
  | some p =>
    if c.group ≠ [] ∧ (best cfg c.group i.caps ≠ some p ∨ (got.any fun x => x.group == c.group) = true) then none
    else
      match choose cfg i c with
      | none => none
      | some s => if (got.any fun x => x.conn == s) = true then none else (make s).map fun x => (p, x)

/-- The loop. -/
def pick (cfg : Cfg) (make : Text → Option Strm) (i : Info) (old : List Strm) :
    List Cap → List (Nat × Strm) → List (Nat × Strm)
  | [], acc => acc
  | c :: l, acc =>
    match connect cfg make i (old ++ acc.map (·.2)) c with
    | none => pick cfg make i old l acc
    | some x => pick cfg make i old l (acc ++ [x])

/-- Put an entry after all that are not larger. -/
def ins (x : Nat × Strm) : List (Nat × Strm) → List (Nat × Strm)
  | [] => [x]
  | y :: l => if x.1 < y.1 then x :: y :: l else y :: ins x l

/-- `std::stable_sort` by priority.  ssm:614-616 -/
def sort : List (Nat × Strm) → List (Nat × Strm) → List (Nat × Strm)
  | [], acc => acc
  | x :: l, acc => sort l (ins x acc)

/-- `addStreamingSource` for each; `false` if one is refused.  ssm:619-624, mdi:134-174 -/
def addAll (old : List Strm) : List Strm → List Strm × Bool
  | [] => (old, true)
  | x :: l => if (old.any fun y => y.conn == x.conn) = true then (old, false) else addAll (old ++ [x]) l

/-- `attachStreamingsToDevice`.  ssm:470-625 -/
def attach (cfg : Cfg) (make : Text → Option Strm) (i : Info) (old : List Strm) : List Strm × Bool :=
  addAll old ((sort (pick cfg make i old i.caps []) []).map (·.2))

/-! ## Components -/

abbrev Path := List Nat

/-- What components there are.  A signal: whether it is public, whether it has a domain signal, its
streaming sources and the active one. -/
inductive Kind where
  | device (info : Info) (sources : List Strm)
  | folder
  | signal (pub domain : Bool) (sources : List Text) (active : Option Text)
  | port (sources : List Text) (active : Option Text)
  deriving DecidableEq, Repr

structure Node where
  path : Path
  kind : Kind
  deriving DecidableEq, Repr

/-- All components, each after those it is below. -/
abbrev Tree := List Node

def look (t : Tree) (p : Path) : Option Kind := (t.find? fun n => n.path == p).map (·.kind)

def Kind.isDevice : Kind → Bool
  | .device _ _ => true
  | _ => false

def isDevice (t : Tree) (p : Path) : Bool :=
  match look t p with
  | some k => k.isDevice
  | none => false

def sourcesOf (t : Tree) (p : Path) : List Strm :=
  match look t p with
  | some (.device _ l) => l
  | _ => []

/-- The devices whose sources count for a component: the owner, and with MinHops all below it that the
component is in, from top to bottom.  All of them are found: devices are in the folders of
sub-devices.  ssm:192-203, idp:39-42 -/
def ancestors (cfg : Cfg) (owner : Path) (t : Tree) (p : Path) : List Path :=
  owner :: (if cfg.minHops = true then
    ((List.range (p.length + 1)).map p.take).filter fun q =>
      (owner.isPrefixOf q && owner != q) && isDevice t q
  else [])

/-- The sources of the closest device come first.  ssm:205-217 -/
def allSources (cfg : Cfg) (owner : Path) (t : Tree) (p : Path) : List Strm :=
  ((ancestors cfg owner t p).map (sourcesOf t)).reverse.flatten

/-- Add all sources; one that is there already is no error. -/
def addTo : List Strm → List Text → List Text
  | [], l => l
  | x :: all, l => if x.conn ∈ l then addTo all l else addTo all (l ++ [x.conn])

/-- The active source, if there was none. -/
def activate (all : List Strm) (sources : List Text) (active : Option Text) : Option Text :=
  match active with
  | some a => some a
  | none => (all.find? fun x => decide (x.conn ∈ sources)).map (·.conn)

/-- `setupStreamingForSignal`, `setupStreamingForInputPort`.  ssm:222-265, ssm:279-322 -/
def Kind.setup (all : List Strm) : Kind → Kind
  | .signal pub domain sources active =>
    if pub = true then .signal pub domain (addTo all sources) (activate all (addTo all sources) active)
    else .signal pub domain sources active
  | .port sources active =>
    .port (addTo (all.filter (·.toDevice)) sources)
      (activate (all.filter (·.toDevice)) (addTo (all.filter (·.toDevice)) sources) active)
  | k => k

/-- `enableStreamingForAddedComponent`.  ssm:187-335 -/
def enable (cfg : Cfg) (owner : Path) (t : Tree) (p : Path) : Tree :=
  if allSources cfg owner t p = [] then t
  else t.map fun n =>
    if p.isPrefixOf n.path = true then { n with kind := n.kind.setup (allSources cfg owner t p) } else n

def Kind.attach (cfg : Cfg) (make : Text → Option Strm) : Kind → Kind
  | .device i l => .device i (Sources.attach cfg make i l).1
  | k => k

/-- `completeStreamingConnections`.  The order is not modelled, as the connections of a device do not
depend on those of another one; that `addStreamingSource` refuses a source is not modelled either.
ssm:451-468 -/
def complete (cfg : Cfg) (make : Text → Option Strm) (t : Tree) (p : Path) : Tree :=
  t.map fun n =>
    if n.path = p ∨ (cfg.minHops = true ∧ p.isPrefixOf n.path = true) then { n with kind := n.kind.attach cfg make } else n

/-- `getAllDevicesRecursively`: the lower ones first.  ssm:379-396 -/
def devicesBelow (t : Tree) (p : Path) : List Path :=
  ((t.filter fun n => n.kind.isDevice && p.isPrefixOf n.path).map (·.path)).reverse

def enableAll (cfg : Cfg) (owner : Path) : Tree → List Path → Tree
  | t, [] => t
  | t, p :: l => enableAll cfg owner (enable cfg owner t p) l

/-- `componentAdded`.  ssm:115-152 -/
def added (cfg : Cfg) (make : Text → Option Strm) (owner : Path) (t : Tree) (p : Path) : Tree :=
  if owner.isPrefixOf p = false then t
  else if isDevice t p = true then
    let t1 := if p = owner ∨ cfg.minHops = true then complete cfg make t p else t
    if cfg.minHops = true then enableAll cfg owner t1 (devicesBelow t1 p) else enable cfg owner t1 p
  else enable cfg owner t p

/-- The signals without sources at and below a component. -/
def newSignals (domain : Bool) (t : Tree) (p : Path) : List Path :=
  (t.filter fun n => p.isPrefixOf n.path && (match n.kind with
    | .signal _ d [] _ => d == domain
    | _ => false)).map (·.path)

/-- `enableStreamingForUpdatedComponent`: domain signals first.  ssm:337-377 -/
def enableUpdated (cfg : Cfg) (owner : Path) (t : Tree) (p : Path) : Tree :=
  match look t p with
  | some (.signal _ _ sources _) => if sources = [] then enable cfg owner t p else t
  | some (.port _ _) => t
  | none => t
  | some _ => enableAll cfg owner t (newSignals false t p ++ newSignals true t p)

def isSignal (t : Tree) (p : Path) : Bool :=
  match look t p with
  | some (.signal _ _ _ _) => true
  | _ => false

/-- `componentUpdated`; `none` is an exception: with MinHops, a signal is taken for a device.
`completeDeviceCapabilities` is not modelled.  ssm:154-185 -/
def updated (cfg : Cfg) (make : Text → Option Strm) (owner : Path) (t : Tree) (p : Path) : Option Tree :=
  if p.isPrefixOf owner = true then some (enableUpdated cfg owner (complete cfg make t owner) owner)
  else if owner.isPrefixOf p = true then
    if isSignal t p = true ∧ cfg.minHops = true then none else some (enableUpdated cfg owner t p)
  else some t

end Verif.Sources
