import Verif.Common

/-!
# Model of the notifications of the configuration server

`srv` = `shared/libraries/config_protocol/src/config_protocol_server.cpp`,
`con` = `shared/libraries/config_protocol/src/config_protocol_streaming_consumer.cpp`,
`cli` = `shared/libraries/config_protocol/include/config_protocol/config_protocol_client.h`,
`pro` = `shared/libraries/config_protocol/include/config_protocol/config_protocol.h`,
`lst` = `core/corecontainers/src/listobject_impl.cpp`,
`dic` = `core/corecontainers/src/dictobject_impl.cpp`,
`cea` = `core/coreobjects/include/coreobjects/core_event_args_impl.h`,
`cmp` = `core/opendaq/component/include/opendaq/component_impl.h`.

What is modelled: one configuration server (of one client), from the core events that threads raise to
the packets it gives to the transport: which core events are forwarded, how they are packed and
collected while calls of the client are under way, when they are sent, and the choice of the protocol
version.

Threads take turns between any two of: raising an event (up to the list of packed events), reading the
counter of calls, sending, beginning a call, ending it, replying. What is done under `coreEventsLock` is
one step, and so is what a thread does before it takes the lock. Reading the version and counting a call (srv:399-402) is one step.

Simplifications: what a call does is the events it raises and the external signals it adds and removes;
texts (JSON) are left out, an object can be serialised or not. -/

namespace Verif.Notify

/-- Values of event parameters: nothing, something that can be serialised, something that cannot
(functions and procedures are not `ISerializable`), and lists or dictionaries of values. -/
inductive Val where
  | null
  | plain
  | call
  | list (l : List Val)

mutual
  /-- Equality of values. -/
  def Val.beq : Val → Val → Bool
    | .null, .null => true
    | .plain, .plain => true
    | .call, .call => true
    | .list a, .list b => Val.beqs a b
    | _, _ => false
  /-- Equality of lists of values. -/
  def Val.beqs : List Val → List Val → Bool
    | [], [] => true
    | a :: l, b :: m => Val.beq a b && Val.beqs l m
    | _, _ => false
end

mutual
  /-- Whether `serialize` succeeds: lists and dictionaries fail if an element is not `ISerializable` or
  fails itself (lst:458-477, dic:435-450). -/
  def Val.ser : Val → Bool
    | .null => true
    | .plain => true
    | .call => false
    | .list l => Val.sers l
  /-- `Val.ser` of all elements. -/
  def Val.sers : List Val → Bool
    | [] => true
    | v :: l => Val.ser v && Val.sers l
end

/-- `parameterValue.assigned() && !parameterValue.supportsInterface<ISerializable>()` is false (srv:628). -/
def Val.ok : Val → Bool
  | .call => false
  | _ => true

/-- Kinds of core events as the server tells them apart (srv:570-624, con:91-123). `ext id` are events of
an external signal, its addition to and removal from the folder of external signals, and the connection of
an input port to it; `moved` are the others whose arguments are processed by
`processCoreEventArgs` (srv:595-604); `ended ser` is the end of an update of a component that can be
serialised or not; `other` are passed on as they are (srv:613-623). -/
inductive What where
  | attr (name : String)
  | conn (status : String)
  | added (client : Bool)
  | ext (signal : String) (processed : Bool)
  | moved
  | ended (ser : Bool)
  | other
deriving DecidableEq

/-- A core event: the component (its global id, `""` if there is none), the kind and the parameters.
`readable`: the user of the client may read the component. -/
structure Ev where
  src : String
  what : What
  pars : List (String × Val)
  readable : Bool := true

/-- A packed core event. `raiser` is the thread that raised it (not part of what is sent). -/
structure Item where
  raiser : Nat
  src : String
  what : What
  pars : List (String × Val)

/-- What a thread is: raising events of its own, serving a call (counted, srv:402, or not, srv:399),
leaving the scope of the call (the counter is already decremented, srv:760), or about to reply. -/
inductive Base where
  | free
  | rpc
  | old
  | ending
  | done
deriving DecidableEq

/-- Where a thread is in `coreEventCallback` (srv:558-566): not in it, past `packCoreEvent`, or past the
check. -/
inductive Act where
  | idle
  | packed
  | sending
deriving DecidableEq

/-- A thread. -/
structure Th where
  id : Nat
  base : Base
  act : Act := .idle

/-- What can be seen, in order: `heard` is a core event that reaches the server in a thread, `note` a
notification packet, `lost` a list that was not sent, `threw` an exception out of the callback (it is
logged, cmp:1378-1387). -/
inductive Obs where
  | heard (thread : Nat) (e : Ev)
  | threw (thread : Nat)
  | note (l : List Item)
  | lost (l : List Item)
  | replied (thread : Nat)
  | upgraded (version : Nat) (ok : Bool)
  | mine (signal : String)
  | mineGone (signal : String)
  | refused (signal : String)

/-- The server. `own` is `mirroredExternalSignalsIds`, `mine` `mirroredExternalSignals`, `folder` the items of the
folder of external signals (of all clients). `oldFormat`: the serializer of notifications was replaced
(srv:734-737). -/
structure St where
  ver : Nat := 0
  oldFormat : Bool := false
  rpcs : Nat := 0
  queue : List Item := []
  ths : List Th := []
  own : List String := []
  mine : List (Nat × String) := []
  folder : List String := []

/-- `ConfigProtocolStreamingConsumer::isForwardedCoreEvent` (con:91-123, con:78-84). -/
def St.forwardsExt (st : St) (e : Ev) : Bool :=
  match e.what with
  | .ext s _ => decide (s ∉ st.own)
  | _ => true

/-- `isForwardedCoreEvent` (srv:568-586). -/
def St.forwards (st : St) (e : Ev) : Bool :=
  match e.what with
  | .conn s => if s ≠ "ConfigurationStatus" then false else st.forwardsExt e
  | .added c => if st.ver < 11 ∧ c = true then false else st.forwardsExt e
  | _ => st.forwardsExt e

/-- `processCoreEventArgs` (srv:642-679): the owner is removed; components become ids or holders. -/
def processArgs (l : List (String × Val)) : List (String × Val) :=
  (l.filter (fun p => p.1 ≠ "Owner")).map (fun p =>
    if p.1 = "Signal" ∨ p.1 = "DomainSignal" ∨ p.1 = "RelatedSignals" ∨ p.1 = "Component" then (p.1, .plain) else p)

/-- What becomes of an event in `packCoreEvent`. -/
inductive Packed where
  | item (pars : List (String × Val))
  | dropped
  | threw

/-- The arguments by kind (srv:593-624); `processAttributeChangedCoreEvent` is srv:693-709,
`processUpdateEndCoreEvent` srv:681-691. -/
def St.args (st : St) (e : Ev) : Packed :=
  match e.what with
  | .attr a =>
    if a = "Active" then
      if 21 < st.ver ∧ (e.pars.any (fun p => p.1 = "LocalActive")) = false then .dropped
      else if 23 < st.ver then .dropped
      else .item (processArgs e.pars)
    else .item (processArgs e.pars)
  | .added _ => .item (processArgs e.pars)
  | .moved => .item (processArgs e.pars)
  | .ext _ true => .item (processArgs e.pars)
  | .ended true => .item [("SerializedComponent", .plain)]
  | .ended false => .threw
  | .ext _ false => .item e.pars
  | .conn _ => .item e.pars
  | .other => .item e.pars

/-- `packCoreEvent` up to the lock (srv:588-635). -/
def St.pack (st : St) (e : Ev) : Packed :=
  match st.args e with
  | .item l => if l.all (fun p => p.2.ok) then .item l else .dropped
  | r => r

/-- The whole list can be serialised (srv:248-253, cea:126-150). -/
def serialises (l : List Item) : Bool := l.all (fun i => i.pars.all (fun p => p.2.ser))

/-- `SendOutCoreEvents` (srv:740-750) with `sendNotification` (srv:234-262). -/
def St.sendOut (st : St) : St × List Obs :=
  if st.queue.isEmpty then (st, [])
  else ({ st with queue := [] }, [if serialises st.queue then .note st.queue else .lost st.queue])

/-- The thread with this id. -/
def St.th? (st : St) (n : Nat) : Option Th := st.ths.find? (fun t => t.id = n)

/-- A thread goes on. -/
def St.put (st : St) (t : Th) : St := { st with ths := st.ths.map (fun u => if u.id = t.id then t else u) }

/-- A thread leaves. -/
def St.leave (st : St) (n : Nat) : St := { st with ths := st.ths.filter (fun t => t.id ≠ n) }

/-- A packed event joins the list (srv:637-639). -/
def St.push (st : St) (i : Item) : St := { st with queue := st.queue ++ [i] }

/-- `coreEventCallback` up to the end of `packCoreEvent` (srv:560-562). -/
def St.callback (st : St) (t : Th) (e : Ev) : St × List Obs :=
  if st.forwards e then
    match st.pack e with
    | .item l =>
      ((st.push ⟨t.id, e.src, e.what, l⟩).put { t with act := .packed }, [.heard t.id e])
    | .dropped => (st.put { t with act := .packed }, [.heard t.id e])
    | .threw => (st, [.heard t.id e, .threw t.id])
  else (st, [.heard t.id e])

/-- `setProtocolVersion` (srv:729-738; the serializer srv:764-770: version 0 gives the default one). -/
def St.setVersion (st : St) (v : Nat) : St :=
  { st with ver := v, oldFormat := if v < 11 then decide (0 < v) else st.oldFormat }

/-- The versions the server supports (srv:90). -/
def serverVersions : List Nat := [17, 18, 19, 20, 21, 22, 23, 24]

/-- Steps of the threads. `enter`, `begin`: a thread comes in, the latter to serve a call; `raise`: a
thread raises a core event; `check`, `send`, `finish`, `reply` go on where the thread is; `upgrade`: the
packet of the handshake; `addExt`, `removeExt`: a call adds or removes an external signal of the client;
`foreign`, `foreignGone`: another client does. -/
inductive Op where
  | enter (n : Nat)
  | begin (n : Nat)
  | raise (n : Nat) (e : Ev)
  | check (n : Nat)
  | send (n : Nat)
  | finish (n : Nat)
  | reply (n : Nat)
  | upgrade (v : Nat)
  | addExt (n : Nat) (num : Nat) (signal : String)
  | removeExt (n : Nat) (num : Nat)
  | foreign (n : Nat) (signal : String)
  | foreignGone (n : Nat) (signal : String)

/-- A thread can raise events. -/
def Th.runs (t : Th) : Bool :=
  decide (t.act = .idle) && (decide (t.base = .free) || decide (t.base = .rpc) || decide (t.base = .old))

/-- The core event for an external signal that is added (`ComponentAdded` of the folder). -/
def extAdded (s : String) : Ev := ⟨"/ExtSigs", .ext s true, [("Component", .plain)], true⟩

/-- The core event for an external signal that is removed (`ComponentRemoved` of the folder). -/
def extGone (s : String) : Ev := ⟨"/ExtSigs", .ext s false, [("Id", .plain)], true⟩

/-- A call begins (srv:393-404, srv:752-756). -/
def St.beginRpc (st : St) (n : Nat) : St :=
  if st.ver < 20 then { st with ths := st.ths ++ [⟨n, .old, .idle⟩] }
  else { st with rpcs := st.rpcs + 1, ths := st.ths ++ [⟨n, .rpc, .idle⟩] }

/-- The check in `coreEventCallback` (srv:563). -/
def St.check (st : St) (t : Th) : St :=
  if st.ver < 20 ∨ st.rpcs = 0 then st.put { t with act := .sending } else st.put { t with act := .idle }

/-- Sending at the end of `coreEventCallback` (srv:564) or of the scope of a call (srv:761). -/
def St.send (st : St) (t : Th) : St × List Obs :=
  if t.act = .sending then ((st.sendOut.1).put { t with act := .idle }, st.sendOut.2)
  else if t.base = .ending then ((st.sendOut.1).put { t with base := .done }, st.sendOut.2)
  else (st, [])

/-- A call or thread ends (srv:758-760). -/
def St.finish (st : St) (t : Th) : St :=
  if t.act = .idle then
    match t.base with
    | .rpc => ({ st with rpcs := st.rpcs - 1 }).put { t with base := .ending }
    | .old => st.put { t with base := .done }
    | .free => st.leave t.id
    | _ => st
  else st

/-- `addExternalSignal` for a numeric id that is not known (con:199-204, con:140-155): the id is noted
before the signal is added to the folder, which fails if the folder has one with that id. -/
def St.addExt (st : St) (t : Th) (num : Nat) (s : String) : St × List Obs :=
  if st.mine.any (fun p => p.1 = num) then (st, [])
  else
    let st1 := { st with own := if s ∈ st.own then st.own else st.own ++ [s] }
    if s ∈ st.folder then (st1, [.refused s])
    else
      let r := ({ st1 with folder := st1.folder ++ [s] }).callback t (extAdded s)
      ({ r.1 with mine := r.1.mine ++ [(num, s)] }, .mine s :: r.2)

/-- `removeExternalSignals` for one id (con:125-138, con:157-173). -/
def St.removeExt (st : St) (t : Th) (num : Nat) : St × List Obs :=
  match st.mine.find? (fun p => p.1 = num) with
  | none => (st, [])
  | some (_, s) =>
    let st1 := { st with mine := st.mine.filter (fun p => p.1 ≠ num), folder := st.folder.filter (· ≠ s) }
    let r := st1.callback t (extGone s)
    ({ r.1 with own := r.1.own.filter (· ≠ s) }, r.2 ++ [.mineGone s])

/-- One step. Steps of threads that are not there, or not at that point, do nothing. -/
def St.step (st : St) : Op → St × List Obs
  | .enter n => if (st.th? n).isSome then (st, []) else ({ st with ths := st.ths ++ [⟨n, .free, .idle⟩] }, [])
  | .begin n => if (st.th? n).isSome then (st, []) else (st.beginRpc n, [])
  | .raise n e =>
    match st.th? n with
    | some t => if t.runs then st.callback t e else (st, [])
    | none => (st, [])
  | .check n =>
    match st.th? n with
    | some t => if t.act = .packed then (st.check t, []) else (st, [])
    | none => (st, [])
  | .send n =>
    match st.th? n with
    | some t => st.send t
    | none => (st, [])
  | .finish n =>
    match st.th? n with
    | some t => (st.finish t, [])
    | none => (st, [])
  | .reply n =>
    match st.th? n with
    | some t => if t.base = .done then (st.leave n, [.replied n]) else (st, [])
    | none => (st, [])
  | .upgrade v => (st.setVersion v, [.upgraded v (decide (v ∈ serverVersions))])
  | .addExt n num s =>
    match st.th? n with
    | some t => if t.runs then st.addExt t num s else (st, [])
    | none => (st, [])
  | .removeExt n num =>
    match st.th? n with
    | some t => if t.runs then st.removeExt t num else (st, [])
    | none => (st, [])
  | .foreign n s =>
    match st.th? n with
    | some t =>
      if t.runs ∧ s ∉ st.folder then ({ st with folder := st.folder ++ [s] }).callback t (extAdded s) else (st, [])
    | none => (st, [])
  | .foreignGone n s =>
    match st.th? n with
    | some t =>
      if t.runs ∧ s ∈ st.folder ∧ s ∉ st.mine.map (·.2) then
        ({ st with folder := st.folder.filter (· ≠ s) }).callback t (extGone s)
      else (st, [])
    | none => (st, [])

/-- A history. -/
def St.run (st : St) : List Op → St × List Obs
  | [] => (st, [])
  | op :: l =>
    let r := st.step op
    let q := r.1.run l
    (q.1, r.2 ++ q.2)

/-- Why a handshake fails (cli:322-352). -/
inductive Bad where
  | client
  | server
  | noCommon
  | refused
deriving DecidableEq

/-- `protocolHandshake` (cli:307-365) with a client that knows the versions `0..latest` (pro:181-196) and a server that announces
`offers`: the version that is asked for, or why not. -/
def choose (latest : Nat) (offers : List Nat) (asked : Nat) : Except Bad Nat :=
  if asked ≠ latest then
    if asked ∉ List.range (latest + 1) then .error .client
    else if asked ∉ offers then .error .server
    else .ok asked
  else
    match (List.range (latest + 1)).reverse.find? (fun v => decide (v ∈ offers)) with
    | none => .error .noCommon
    | some v => .ok v

/-- The handshake with this server: the client's version, if it goes well, and the server after it
(cli:345-354, srv:290-297). -/
def St.handshake (st : St) (latest asked : Nat) : Except Bad Nat × St :=
  match choose latest serverVersions asked with
  | .error b => (.error b, st)
  | .ok v =>
    let r := st.step (.upgrade v)
    (match r.2 with
     | [.upgraded _ true] => .ok v
     | _ => .error .refused, r.1)

end Verif.Notify
