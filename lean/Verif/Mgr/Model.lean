import Verif.AList
import Mathlib.Data.List.Nodup
/-!
# The module manager

Loading modules, choosing the module that creates something, connection strings and configurations,
discovery and smart connections.

* `mmi` = `core/opendaq/modulemanager/src/module_manager_impl.cpp`
* `mau` = `core/opendaq/opendaq/include/opendaq/module_authenticator_impl.h`
* `dii` = `core/opendaq/device/include/opendaq/device_info_impl.h`

Modules are given by what they answer; time, threads, logging and the network are left out.
-/

namespace Verif.Mgr

/-- Strings. -/
abbrev Text := List Char

/-- The errors that matter. -/
inductive Err where
  | invalidParameter | invalidOperation | invalidState | duplicate | alreadyExists | accessDenied
  | notFound | general | module (e : Nat)
  deriving DecidableEq, Repr

/-! ## Loading modules -/

/-- A module that was added: its file, if it has one, its id, and the object.  An id that is missing
is given as the empty one. -/
structure Lib where
  path : Option Text
  name : Text
  obj : Nat
  deriving DecidableEq, Repr

/-- What is at a path. -/
inductive File where
  | missing | folder | broken (e : Nat) | library (name : Text)
  deriving DecidableEq, Repr

/-- What an authenticator says about a file.  When it throws, the call fails and gives neither a
verdict nor a key.  mau:35-49 -/
inductive Verdict where
  | valid (key : Text) | invalid | throws
  deriving DecidableEq, Repr

/-- The module manager. -/
structure Mgr where
  libs : List Lib
  authOnly : Bool
  auth : Option (Text → Verdict)
  loaded : Bool
  keys : AList Text Text
  next : Nat

/-- How a call ends. -/
inductive Code where
  | ok | ignored | err (e : Err)
  deriving DecidableEq, Repr

/-- `authenticateModuleBinary` as it is used: `valid` is not initialised, and that the call failed is
not noticed, so after a failure it is whatever was on the stack (`junk`).  mmi:346-358, mau:35-49 -/
def accepts (v : Verdict) (junk : Bool) : Option Text :=
  match v with
  | .valid key => some key
  | .invalid => none
  | .throws => if junk then some [] else none

/-- `tryLoadAndAddModule`; gives the object of the module too.  Without an authenticator it is not
called when only authenticated modules are wanted.  mmi:312-436 -/
def tryLoad (disk : Text → File) (junk : Bool) (s : Mgr) (path : Text) : Mgr × Code × Option Nat :=
  match disk path with
  | .missing => (s, .err .invalidParameter, none)
  | .folder => (s, .err .invalidParameter, none)
  | file =>
    match s.libs.find? (fun l => l.path == some path) with
    | some l => (s, .ignored, some l.obj)
    | none =>
      let key : Option Text :=
        if s.authOnly then
          match s.auth with
          | some a => accepts (a path) junk
          | none => none
        else some []
      match key with
      | none => (s, .err .accessDenied, none)
      | some key =>
        match file with
        | .library name =>
          if name ≠ [] ∧ (s.libs.any fun l => l.name == name) = true then
            (s, .err .alreadyExists, none)
          else
            ({ s with
                libs := s.libs ++ [{ path := some path, name, obj := s.next }]
                keys := if s.authOnly ∧ name ≠ [] then AList.put s.keys name key else s.keys
                next := s.next + 1 }, .ok, some s.next)
        | .broken e => (s, .err (.module e), none)
        | _ => (s, .err .invalidParameter, none)

/-- `addModule`; `obj` is the number of the object.  mmi:129-154 -/
def addModule (s : Mgr) (name : Text) (obj : Nat) : Mgr × Code :=
  if s.authOnly then (s, .err .invalidOperation)
  else if (s.libs.any fun l => l.obj == obj) = true then (s, .err .duplicate)
  else ({ s with libs := s.libs ++ [{ path := none, name, obj }] }, .ok)

/-- Loading all that was found, one after the other; failures are logged.  mmi:245-268 -/
def loadAll (disk : Text → File) (junk : Bool) (s : Mgr) : List Text → Mgr × Bool
  | [] => (s, false)
  | p :: ps =>
    let r := tryLoad disk junk s p
    let t := loadAll disk junk r.1 ps
    (t.1, decide (r.2.1 = .ok) || t.2)

/-- What users do.  `junk` is what an uninitialised variable holds. -/
inductive LOp where
  | add (name : Text) (obj : Nat)
  | load (path : Text) (junk : Bool)
  | loadAll (paths : List Text) (junk : Bool)
  | authOnly (b : Bool)
  | authenticator (a : Text → Verdict)

/-- The calls; `loadModule` and `loadModules` need an authenticator when only authenticated modules
are wanted, and `loadModule` needs a `loadModules` before.  The checks of the text of the path are left out.  mmi:129-310, mmi:439-451 -/
def Mgr.step (disk : Text → File) (s : Mgr) : LOp → Mgr × Code
  | .add name obj => addModule s name obj
  | .load path junk =>
    if s.loaded = false then (s, .err .invalidState)
    else if s.authOnly ∧ s.auth.isNone then (s, .err .invalidOperation)
    else ((tryLoad disk junk s path).1, (tryLoad disk junk s path).2.1)
  | .loadAll paths junk =>
    if s.authOnly ∧ s.auth.isNone then (s, .err .invalidOperation)
    else
      ({ (loadAll disk junk s paths).1 with loaded := true },
        if (loadAll disk junk s paths).2 then .ok else .ignored)
  | .authOnly b => ({ s with authOnly := b }, .ok)
  | .authenticator a => ({ s with auth := some a }, .ok)

/-- Many calls. -/
def Mgr.run (disk : Text → File) (s : Mgr) : List LOp → Mgr
  | [] => s
  | op :: ops => (s.step disk op).1.run disk ops

/-- A new module manager. -/
def Mgr.init : Mgr :=
  { libs := [], authOnly := false, auth := none, loaded := false, keys := [], next := 1000000 }

/-! ## Local ids of function blocks -/

/-- A digit. -/
def isDigit (c : Char) : Bool := decide (48 ≤ c.toNat ∧ c.toNat ≤ 57)

/-- What `stoi` skips. -/
def isSpace (c : Char) : Bool := decide (c.toNat = 32 ∨ (9 ≤ c.toNat ∧ c.toNat ≤ 13))

/-- The number that digits stand for. -/
def value (s : Text) : Nat := s.foldl (fun a c => a * 10 + (c.toNat - 48)) 0

/-- The largest `int`. -/
def intMax : Nat := 2147483647

/-- A sign, and what is after it. -/
def sign : Text → Bool × Text
  | [] => (false, [])
  | c :: s => if c = '-' then (true, s) else if c = '+' then (false, s) else (false, c :: s)

/-- The value of digits, if there are any and it is not too large. -/
def number (neg : Bool) (d : Text) : Option Int :=
  if d = [] then none
  else if neg then
    if value d ≤ intMax + 1 then some (-(value d : Int)) else none
  else if value d ≤ intMax then some (value d : Int) else none

/-- `std::stoi`: spaces, a sign, digits, and anything after that; none if there is no digit or the
number is too large. -/
def stoi (s : Text) : Option Int :=
  number (sign (s.dropWhile isSpace)).1 ((sign (s.dropWhile isSpace)).2.takeWhile isDigit)

/-- What is after the last underscore. -/
def afterLast : Text → Option Text
  | [] => none
  | c :: s =>
    match afterLast s with
    | some t => some t
    | none => if c = '_' then some s else none

/-- One turn of the loop over the items.  mmi:1109-1130 -/
def maxNum (type : Text) (m : Int) (item : Text) : Int :=
  if type.isPrefixOf item then
    match afterLast item with
    | none => m
    | some t =>
      match stoi t with
      | none => m
      | some n => if n > m then n else m
  else m

/-- Digits. -/
def digits (n : Nat) : Text :=
  if n < 10 then [Char.ofNat (48 + n)] else digits (n / 10) ++ [Char.ofNat (48 + n % 10)]
termination_by n
decreasing_by omega

/-- The local id of a new function block; none if the number overflows, which is undefined.
mmi:1107-1133 -/
def freshId (type : Text) (items : List Text) : Option Text :=
  let m := items.foldl (maxNum type) 0
  if m = intMax then none else some (type ++ '_' :: digits (m.toNat + 1))

/-! ## Which module creates -/

/-- What a module answers when asked for what it offers. -/
inductive Answer (α : Type) where
  | offers (l : α) | nothing | notImplemented | fails (e : Nat)

/-- A module: the ids of the function blocks and servers it offers; the ids of the devices and
streamings with the prefixes of their connection strings; and how creating ends (`none` if it is
successful). -/
structure Module where
  fbs : Answer (List Text)
  servers : Answer (List Text)
  devices : Answer (List (Text × Text))
  streamings : Answer (List (Text × Text))
  makeFb : Text → Option Nat
  makeServer : Text → Option Nat
  makeDevice : Text → Option Nat
  makeStreaming : Text → Option Nat

/-- How creating ends: with an object made by the module at a position, with nothing, or with an
error. -/
inductive Out where
  | made (k : Nat) | null | err (e : Err)
  deriving DecidableEq, Repr

/-- What one module makes. -/
def made (k : Nat) : Option Nat → Out
  | none => .made k
  | some e => .err (.module e)

/-- Ids of function blocks that were renamed.  mmi:985-1004 -/
def oldFb : List (Text × Text) :=
  [("ref_fb_module_classifier".toList, "RefFBModuleClassifier".toList),
   ("ref_fb_module_fft".toList, "RefFBModuleFFT".toList),
   ("ref_fb_module_power".toList, "RefFBModulePower".toList),
   ("ref_fb_module_renderer".toList, "RefFBModuleRenderer".toList),
   ("ref_fb_module_scaling".toList, "RefFBModuleScaling".toList),
   ("ref_fb_module_statistics".toList, "RefFBModuleStatistics".toList),
   ("ref_fb_module_trigger".toList, "RefFBModuleTrigger".toList),
   ("audio_device_module_wav_writer".toList, "AudioDeviceModuleWavWriter".toList)]

/-- Ids of protocols that were renamed.  mmi:1006-1023 -/
def oldProtocol : List (Text × Text) :=
  [("opendaq_native_config".toList, "OpenDAQNativeConfiguration".toList),
   ("opendaq_opcua_config".toList, "OpenDAQOPCUAConfiguration".toList),
   ("opendaq_native_streaming".toList, "OpenDAQNativeStreaming".toList),
   ("opendaq_lt_streaming".toList, "OpenDAQLTStreaming".toList),
   ("openDAQ LT Streaming".toList, "OpenDAQLTStreaming".toList),
   ("openDAQ Native Streaming".toList, "OpenDAQNativeStreaming".toList),
   ("openDAQ OpcUa".toList, "OpenDAQOPCUA".toList)]

/-- The new id. -/
def convert (table : List (Text × Text)) (x : Text) : Text :=
  match table.find? (fun p => p.1 == x) with
  | some p => p.2
  | none => x

/-- `createFunctionBlock`, from the module at position `k` on; which modules are asked to create, and
how it ends.  mmi:1064-1154 -/
def fbFrom (x : Text) : List Module → Nat → List Nat × Out
  | [], _ => ([], .err .notFound)
  | m :: ms, k =>
    match m.fbs with
    | .offers l => if x ∈ l then ([k], made k (m.makeFb x)) else fbFrom x ms (k + 1)
    | _ => fbFrom x ms (k + 1)

/-- `createFunctionBlock`. -/
def createFb (ms : List Module) (x : Text) : List Nat × Out := fbFrom (convert oldFb x) ms 0

/-- `createServer`: what a module throws that is not "not implemented" ends the call.
mmi:1242-1272 -/
def serverFrom (x : Text) : List Module → Nat → List Nat × Out
  | [], _ => ([], .err .notFound)
  | m :: ms, k =>
    match m.servers with
    | .offers l => if x ∈ l then ([k], made k (m.makeServer x)) else serverFrom x ms (k + 1)
    | .fails e => ([], .err (.module e))
    | _ => serverFrom x ms (k + 1)

/-- `createServer`. -/
def createServer (ms : List Module) (x : Text) : List Nat × Out := serverFrom (convert oldProtocol x) ms 0

/-- The part of a connection string before `://`, or all of it.  mmi:1757-1769 -/
def prefixOf : Text → Text
  | [] => []
  | c :: s => if ['/', '/'].isPrefixOf s ∧ c = ':' then [] else c :: prefixOf s

/-- The type with a prefix.  mmi:1491-1495, mmi:1537-1544 -/
def withPrefix (p : Text) (l : List (Text × Text)) : Option Text :=
  (l.find? (fun t => t.2 == p)).map (·.1)

/-- The loop of `createDevice`: a module that fails to say what it offers ends the call.
mmi:809-846, mmi:1476-1498 -/
def deviceFrom (conn : Text) : List Module → Nat → List Nat × Out
  | [], _ => ([], .err .notFound)
  | m :: ms, k =>
    match m.devices with
    | .offers l =>
      match withPrefix (prefixOf conn) l with
      | some _ => ([k], made k (m.makeDevice conn))
      | none => deviceFrom conn ms (k + 1)
    | .fails e => ([], .err (.module e))
    | _ => deviceFrom conn ms (k + 1)

/-- `createDevice`, for connection strings that are not smart. -/
def createDevice (ms : List Module) (conn : Text) : List Nat × Out := deviceFrom conn ms 0

/-- `onCreateStreaming`: the loop goes on after a streaming was created.  mmi:1515-1574 -/
def streamingFrom (conn : Text) : List Module → Nat → Out → List Nat × Out
  | [], _, last => ([], last)
  | m :: ms, k, last =>
    match m.streamings with
    | .offers l =>
      match withPrefix (prefixOf conn) l with
      | some _ =>
        match m.makeStreaming conn with
        | none => (k :: (streamingFrom conn ms (k + 1) (.made k)).1, (streamingFrom conn ms (k + 1) (.made k)).2)
        | some e => ([k], .err (.module e))
      | none => streamingFrom conn ms (k + 1) last
    | _ => streamingFrom conn ms (k + 1) last

/-- `createStreaming`. -/
def createStreaming (ms : List Module) (conn : Text) : List Nat × Out := streamingFrom conn ms 0 .null

/-! ## Connection strings -/

/-- `boost::split`: the parts between the separators. -/
def splitAt (c : Char) : Text → List Text
  | [] => [[]]
  | x :: s =>
    if x = c then [] :: splitAt c s
    else
      match splitAt c s with
      | h :: t => (x :: h) :: t
      | [] => [[x]]

/-- The options, in order; the first of several with the same name counts.  mmi:1786-1796 -/
def readOptions : List Text → AList Text Text → Option (AList Text Text)
  | [], acc => some acc
  | o :: os, acc =>
    match splitAt '=' o with
    | [k, v] => readOptions os (if AList.has acc k then acc else acc ++ [(k, v)])
    | _ => none

/-- `SplitConnectionStringAndOptions`; none if it throws.  mmi:1771-1799 -/
def splitConn (s : Text) : Option (Text × AList Text Text) :=
  match splitAt '?' s with
  | [a] => some (a, [])
  | [a, b] => (readOptions (splitAt '&' b) []).map (fun o => (a, o))
  | _ => none

/-! ## Configurations -/

/-- A configuration: names, with what they are by default and what they are. -/
structure Item where
  name : Text
  dflt : Nat
  val : Nat
  deriving DecidableEq, Repr

abbrev Config := List Item

/-- The value of a property. -/
def Config.get (c : Config) (n : Text) : Option Nat := (c.find? (fun p => p.name == n)).map (·.val)

/-- Setting it. -/
def Config.set (c : Config) (n : Text) (v : Nat) : Config :=
  c.map fun p => if p.name == n then { p with val := v } else p

/-- A property takes a value that is given for it, if it has another. -/
def take (source : Config) (p : Item) : Item :=
  match source.get p.name with
  | some v => if p.val ≠ v then { p with val := v } else p
  | none => p

/-- `OverrideConfigProperties`.  mmi:1673-1696 -/
def override (target source : Config) : Config := target.map (take source)

/-- One of the general properties is copied to a configuration that has it, if it has the default of
the general one there.  mmi:1922-1939 -/
def copyOne (target : Config) (g : Item) : Config :=
  match target.get g.name with
  | some v => if v = g.dflt then target.set g.name g.val else target
  | none => target

/-- All of them. -/
def copyCommon (general target : Config) : Config := general.foldl copyOne target

/-- The options of the connection string.  mmi:1025-1034 -/
def applyOptions (c : Config) (o : AList Text Nat) : Config := o.foldl (fun c p => c.set p.1 p.2) c

/-- What the user passes to `addDevice`: nothing or some properties, or a configuration made from the
default one, of which the general part and that for the type of the device matter. -/
inductive Input where
  | plain (c : Config)
  | full (general typed : Config)

/-- The configuration that the module gets; `general` and `typed` are the defaults.
mmi:770-790, mmi:1036-1058 -/
def deviceConfig (general typed : Config) (inp : Input) (o : AList Text Nat) : Config :=
  match inp with
  | .plain c => applyOptions (override (copyCommon (override general c) typed) c) o
  | .full g t => applyOptions (copyCommon g t) o

/-! ## Discovery -/

/-- Whether an address can be reached. -/
inductive Reach where
  | unknown | reachable | unreachable
  deriving DecidableEq, Repr

/-- An address: its type, its connection string and its status. -/
structure Addr where
  type : Text
  conn : Text
  reach : Reach
  deriving DecidableEq, Repr

/-- The type of a protocol. -/
inductive PType where
  | unknown | streaming | config | both
  deriving DecidableEq, Repr

/-- A server capability. -/
structure Cap where
  proto : Text
  type : PType
  conn : Text
  addrs : List Addr
  deriving DecidableEq, Repr

/-- What is known of a device. -/
structure Info where
  manufacturer : Text
  serial : Text
  conn : Text
  hidden : Bool
  caps : List Cap
  deriving DecidableEq, Repr

/-- The smart connection string.  mmi:655, mmi:1740 -/
def smartId (d : Info) : Text := "daq://".toList ++ d.manufacturer ++ '_' :: d.serial

/-- The capabilities that are not there yet are added.  mmi:661-663, mmi:671-673 -/
def addCaps (caps : List Cap) : List Cap → List Cap
  | [] => caps
  | c :: cs => addCaps (if (caps.any fun x => x.proto == c.proto) = true then caps else caps ++ [c]) cs

/-- One device more.  `ipMod` are the devices of which the network configuration can be changed.
mmi:643-686 -/
def groupOne (ipMod : AList Text Info) (g : AList Text Info) (d : Info) : AList Text Info :=
  if d.manufacturer = [] ∨ d.serial = [] ∨ d.caps = [] then AList.put g d.conn d
  else
    match AList.get g (smartId d) with
    | some v => AList.put g (smartId d) { v with caps := addCaps v.caps d.caps }
    | none =>
      match AList.get ipMod (smartId d) with
      | some v => AList.put g (smartId d) { v with caps := addCaps v.caps d.caps, conn := smartId d }
      | none => AList.put g (smartId d) { d with conn := smartId d }

/-- All devices that the modules found, in order; modules that fail are left out.  mmi:625-689 -/
def group (ipMod : AList Text Info) (found : List Info) : AList Text Info :=
  found.foldl (groupOne ipMod) []

/-- What is listed.  mmi:711-722 -/
def visible (g : AList Text Info) : List Info := (g.map (·.2)).filter (fun d => !d.hidden)

/-- The connection string of a capability follows its addresses: the last of unknown status, up to
the first that can be reached.  mmi:571-583 -/
def bestConn (conn : Text) : List Addr → Text
  | [] => conn
  | a :: l =>
    match a.reach with
    | .unknown => bestConn a.conn l
    | .reachable => a.conn
    | .unreachable => bestConn conn l

/-- `GetServerCapabilityPriority`.  mmi:1329-1348 -/
def priority (c : Cap) : Nat :=
  if c.proto = "OpenDAQNativeConfiguration".toList then 42
  else
    match c.type with
    | .unknown => 0
    | .streaming => 1
    | .config => 2
    | .both => 3

/-- The capability to connect to.  mmi:1436-1447 -/
def select (c : Cap) : List Cap → Cap
  | [] => c
  | d :: l => if priority d > priority c then select d l else select c l

/-- `getConnectionStringWithType`, with what was found so far and whether its status is unknown.
mmi:1383-1425 -/
def typedConn (type : Text) (found : Option Text) (unknown : Bool) : List Addr → Option Text
  | [] => found
  | a :: l =>
    if a.type = type then
      match a.reach with
      | .unknown => typedConn type (if unknown then found else some a.conn) true l
      | .reachable => some a.conn
      | .unreachable => typedConn type (found.or (some a.conn)) unknown l
    else typedConn type found unknown l

/-- `resolveSmartConnectionString`; none if the device has no capabilities.  mmi:1427-1474 -/
def resolve (d : Info) (primary : Text) : Option Text :=
  match d.caps with
  | [] => none
  | c :: cs =>
    let s := select c (c :: cs)
    if primary = "IPv4".toList ∨ primary = "IPv6".toList then
      some ((typedConn primary none false s.addrs).getD s.conn)
    else some s.conn

/-! ## Several devices at once -/

/-- How the call for several devices ends. -/
inductive Many where
  | all | some | none | noArgs
  deriving DecidableEq, Repr

/-- `createDevices`, given how creating each ends: what is made, the errors, and the code.
mmi:857-948 -/
def createMany (rs : AList Text (Except Nat Nat)) :
    AList Text (Option Nat) × AList Text (Option Nat) × Many :=
  if rs = [] then ([], [], .noArgs)
  else
    let made := (rs.filter fun r => match r.2 with | .ok _ => true | .error _ => false).length
    (rs.map fun r => (r.1, match r.2 with | .ok d => Option.some d | .error _ => Option.none),
      rs.map fun r => (r.1, match r.2 with | .ok _ => Option.none | .error e => Option.some e),
      if made = rs.length then .all else if made = 0 then .none else .some)

/-! ## The capabilities of a connected device -/

/-- A capability as properties: protocol and what it consists of. -/
structure PCap where
  proto : Text
  props : Config
  deriving DecidableEq, Repr

/-- `addServerCapability`; none if it fails.  dii:774-800 -/
def addCap (caps : List PCap) (c : PCap) : Option (List PCap) :=
  if (caps.any fun x => x.proto == c.proto) = true then none else some (caps ++ [c])

/-- `removeServerCapability`.  dii:803-817 -/
def removeCap (caps : List PCap) (p : Text) : List PCap := caps.filter fun x => !(x.proto == p)

/-- The ids are replaced one after the other, in the list of the beginning; none if it throws.
mmi:1801-1819 -/
def renameAll (caps : List PCap) : List PCap → Option (List PCap)
  | [] => some caps
  | c :: cs =>
    match addCap (removeCap caps c.proto) { c with proto := convert oldProtocol c.proto } with
    | some caps' => renameAll caps' cs
    | none => none

/-- `MergeDiscoveryAndDeviceCapability`.  mmi:1854-1877 -/
def mergeProps (disc dev : Config) : Config :=
  disc.foldl (fun m p =>
    match m.get p.name with
    | none => m ++ [p]
    | some _ => if p.val ≠ p.dflt then m.set p.name p.val else m) dev

/-- `mergeDiscoveryAndDeviceCapabilities`.  mmi:1879-1911 -/
def mergeCaps (caps : List PCap) : List PCap → List PCap
  | [] => caps
  | c :: cs =>
    match caps.find? (fun x => x.proto == c.proto) with
    | some x => mergeCaps (removeCap caps c.proto ++ [{ c with props := mergeProps c.props x.props }]) cs
    | none => mergeCaps (caps ++ [c]) cs

end Verif.Mgr
