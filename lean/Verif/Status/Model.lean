import Verif.Mgr.Model
/-!
# Connection statuses and streaming sources of a device

* `csc` = `core/opendaq/device/include/opendaq/connection_status_container_impl.h`
* `mdi` = `core/opendaq/streaming/include/opendaq/mirrored_device_impl.h`
* `sti` = `core/opendaq/streaming/include/opendaq/streaming_impl.h`

The handlers of the events do not call back.
-/

namespace Verif.Status

/-- Strings. -/
abbrev Text := List Char

/-- A value of an enumeration: its type and its name. -/
structure Val where
  type : Nat
  text : Text
  deriving DecidableEq, Repr

/-- The errors that matter. -/
inductive Err where
  | invalidParameter | alreadyExists | notFound | invalidType | duplicate
  deriving DecidableEq, Repr

/-- How a call ends. -/
inductive Code where
  | ok | ignored | err (e : Err)
  deriving DecidableEq, Repr

/-- "ConnectionStatusChanged".  `config` is the type of the protocol. -/
structure Event where
  name : Option Text
  val : Val
  conn : Text
  config : Bool
  obj : Option Nat
  msg : Option Text
  deriving DecidableEq, Repr

/-- The container: statuses, messages and names, all by connection string.  csc:62-66 -/
structure Box where
  statuses : AList Text Val
  messages : AList Text Text
  names : AList Text Text
  count : Nat
  added : Bool
  deriving DecidableEq, Repr

/-- A new container. -/
def Box.init : Box := { statuses := [], messages := [], names := [], count := 0, added := false }

/-- csc:30 -/
def configName : Text := "ConfigurationStatus".toList

/-- `getStreamingStatusNameAlias`, given the ids and prefixes of the types of streaming.  csc:390-405 -/
def streamName (types : List (Text × Text)) (conn : Text) (n : Nat) : Text :=
  match types.find? (fun t => t.2.isPrefixOf conn) with
  | some t => "StreamingStatus".toList ++ '_' :: t.1 ++ '_' :: Mgr.digits n
  | none => "StreamingStatus".toList ++ '_' :: Mgr.digits n

/-- The entry of a name, if it is in a dictionary too. -/
def find (names : AList Text Text) (d : AList Text α) (name : Text) : Option α :=
  match names with
  | [] => none
  | e :: l =>
    match if e.2 = name then AList.get d e.1 else none with
    | some v => some v
    | none => find l d name

/-- `getStatus`; `none` if there is an error.  csc:81-102 -/
def Box.getStatus (s : Box) (name : Text) : Option Val :=
  if name = [] then none else find s.names s.statuses name

/-- `getStatusMessage`.  csc:104-125 -/
def Box.getMessage (s : Box) (name : Text) : Option Text :=
  if name = [] then none else find s.names s.messages name

/-- The loop of `getStatuses`. -/
def collect (d : AList Text Val) : AList Text Text → AList Text Val → AList Text Val
  | [], acc => acc
  | e :: l, acc =>
    match AList.get d e.1 with
    | some v => collect d l (AList.put acc e.2 v)
    | none => collect d l acc

/-- `getStatuses`.  csc:127-143 -/
def Box.getStatuses (s : Box) : AList Text Val := collect s.statuses s.names []

/-- `addConfigurationConnectionStatus`.  csc:145-179 -/
def Box.addConfig (s : Box) (conn : Text) (v : Val) : Box × Code × List Event :=
  if conn = [] then (s, .err .invalidParameter, [])
  else if s.added ∨ AList.has s.statuses conn ∨ AList.has s.messages conn then (s, .err .alreadyExists, [])
  else
    ({ s with
        statuses := AList.put s.statuses conn v
        messages := AList.put s.messages conn []
        names := AList.put s.names conn configName
        added := true }, .ok,
      [{ name := some configName, val := v, conn, config := true, obj := none, msg := some [] }])

/-- `addStreamingConnectionStatus`.  csc:181-216 -/
def Box.addStreaming (s : Box) (types : List (Text × Text)) (conn : Text) (v : Val) (obj : Option Nat) :
    Box × Code × List Event :=
  if conn = [] then (s, .err .invalidParameter, [])
  else if AList.has s.statuses conn ∨ AList.has s.messages conn then (s, .err .alreadyExists, [])
  else
    ({ s with
        statuses := AList.put s.statuses conn v
        messages := AList.put s.messages conn []
        names := AList.put s.names conn (streamName types conn (s.count + 1))
        count := s.count + 1 }, .ok,
      [{ name := some (streamName types conn (s.count + 1)), val := v, conn, config := false, obj,
         msg := some [] }])

/-- `removeStreamingConnectionStatus`.  csc:218-250 -/
def Box.remove (s : Box) (conn : Text) : Box × Code × List Event :=
  match AList.get s.statuses conn, AList.get s.messages conn with
  | some v, some _ =>
    ({ s with
        statuses := AList.del s.statuses conn
        messages := AList.del s.messages conn
        names := AList.del s.names conn }, .ok,
      [{ name := AList.get s.names conn, val := { v with text := "Removed".toList }, conn,
         config := false, obj := none, msg := none }])
  | _, _ => (s, .err .notFound, [])

/-- `updateConnectionStatusWithMessage`.  csc:257-309 -/
def Box.update (s : Box) (conn : Text) (v : Val) (obj : Option Nat) (msg : Text) :
    Box × Code × List Event :=
  if conn = [] then (s, .err .invalidParameter, [])
  else
    match AList.get s.statuses conn, AList.get s.messages conn with
    | some old, some oldMsg =>
      if v.type ≠ old.type then (s, .err .invalidType, [])
      else if v = old ∧ oldMsg = msg then (s, .ignored, [])
      else
        ({ s with
            statuses := AList.put s.statuses conn v
            messages := AList.put s.messages conn msg }, .ok,
          [{ name := AList.get s.names conn, val := v, conn,
             config := decide (AList.get s.names conn = some configName), obj, msg := some msg }])
    | _, _ => (s, .err .notFound, [])

/-- Writing and reading: only the status of the configuration connection is read.  csc:311-326,
csc:345-388 -/
def Box.reload (s : Box) : Box :=
  match s.names.find? (fun e => e.2 == configName && AList.has s.statuses e.1) with
  | none => .init
  | some e =>
    match AList.get s.statuses e.1 with
    | none => .init
    | some v =>
      match AList.get s.messages e.1 with
      | some m => ((Box.init.addConfig e.1 v).1.update e.1 v none m).1
      | none => (Box.init.addConfig e.1 v).1

/-- The calls. -/
inductive Op where
  | addConfig (conn : Text) (v : Val)
  | addStreaming (types : List (Text × Text)) (conn : Text) (v : Val) (obj : Option Nat)
  | remove (conn : Text)
  | update (conn : Text) (v : Val) (obj : Option Nat) (msg : Text)

def Box.step (s : Box) : Op → Box × Code × List Event
  | .addConfig conn v => s.addConfig conn v
  | .addStreaming types conn v obj => s.addStreaming types conn v obj
  | .remove conn => s.remove conn
  | .update conn v obj msg => s.update conn v obj msg

/-- Many calls, with the events. -/
def Box.run (s : Box) : List Op → Box × List Event
  | [] => (s, [])
  | op :: ops => (((s.step op).1.run ops).1, (s.step op).2.2 ++ ((s.step op).1.run ops).2)

/-! ## Streaming sources -/

/-- A mirrored device: its container, its streaming sources, which streamings know it as their
device, and the status of every streaming. -/
structure Dev where
  box : Box
  sources : List Nat
  owned : List Nat
  cur : AList Nat Val
  deriving DecidableEq, Repr

/-- A new device. -/
def Dev.init (cur : AList Nat Val) : Dev := { box := .init, sources := [], owned := [], cur }

/-- `getConnectionStatus` of a streaming. -/
def Dev.status (d : Dev) (o : Nat) : Val := (AList.get d.cur o).getD ⟨0, []⟩

/-- `addStreamingSource` up to the call of `setOwnerDevice`; `conn` is the connection string of each
streaming.  mdi:134-174 -/
def Dev.addBegin (conn : Nat → Text) (types : List (Text × Text)) (d : Dev) (o : Nat) : Dev × Code :=
  if (d.sources.any fun x => conn x == conn o) = true then (d, .err .duplicate)
  else
    let r := d.box.addStreaming types (conn o) (d.status o) (some o)
    ({ d with sources := d.sources ++ [o], box := r.1 }, r.2.1)

/-- The rest of it: `setOwnerDevice`.  mdi:176-181, sti:688-699 -/
def Dev.addEnd (d : Dev) (o : Nat) : Dev := { d with owned := o :: d.owned }

/-- `addStreamingSource`, without interruption. -/
def Dev.addSource (conn : Nat → Text) (types : List (Text × Text)) (d : Dev) (o : Nat) : Dev × Code :=
  match d.addBegin conn types o with
  | (d', .ok) => (d'.addEnd o, .ok)
  | r => r

/-- `removeStreamingSource`.  mdi:184-225 -/
def Dev.removeSource (conn : Nat → Text) (d : Dev) (c : Text) : Dev × Code :=
  match d.sources.find? (fun x => conn x == c) with
  | none => (d, .err .notFound)
  | some o =>
    match d.box.remove c with
    | (b, .ok, _) => ({ d with box := b, owned := d.owned.filter (· ≠ o), sources := d.sources.erase o }, .ok)
    | (b, e, _) => ({ d with box := b }, e)

/-- A streaming changes its status, and tells its device.  sti:793-814 -/
def Dev.setStatus (conn : Nat → Text) (d : Dev) (o : Nat) (v : Val) (msg : Text) : Dev :=
  if o ∈ d.owned then
    { d with cur := AList.put d.cur o v, box := (d.box.update (conn o) v (some o) msg).1 }
  else { d with cur := AList.put d.cur o v }

/-- What happens to a device.  `begin` and `finish` are the parts of `addStreamingSource`. -/
inductive DOp where
  | config (conn : Text) (v : Val)
  | configStatus (conn : Text) (v : Val) (msg : Text)
  | add (types : List (Text × Text)) (o : Nat)
  | remove (conn : Text)
  | status (o : Nat) (v : Val) (msg : Text)
  | start (types : List (Text × Text)) (o : Nat)
  | finish (o : Nat)

def Dev.step (conn : Nat → Text) (d : Dev) : DOp → Dev × Code
  | .config c v => ({ d with box := (d.box.addConfig c v).1 }, (d.box.addConfig c v).2.1)
  | .configStatus c v msg => ({ d with box := (d.box.update c v none msg).1 }, (d.box.update c v none msg).2.1)
  | .add types o => d.addSource conn types o
  | .remove c => d.removeSource conn c
  | .status o v msg => (d.setStatus conn o v msg, .ok)
  | .start types o => d.addBegin conn types o
  | .finish o => (d.addEnd o, .ok)

def Dev.run (conn : Nat → Text) (d : Dev) : List DOp → Dev
  | [] => d
  | op :: ops => (d.step conn op).1.run conn ops

end Verif.Status
