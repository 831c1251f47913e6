import Verif.Common

/-!
# Model of the sessions of the native streaming server

`hnd` = `shared/libraries/native_streaming_protocol/src/native_streaming_server_handler.cpp`,
`ses` = `shared/libraries/native_streaming_protocol/src/server_session_handler.cpp`,
`hdr` = `shared/libraries/native_streaming_protocol/include/native_streaming_protocol/server_session_handler.h`,
`mgr` = `shared/libraries/native_streaming_protocol/src/streaming_manager.cpp`,
`srv` = `modules/native_streaming_server_module/src/native_streaming_server_impl.cpp`,
`inf` = `core/opendaq/device/include/opendaq/device_info_impl.h`,
`cty` = `core/opendaq/opendaq/include/opendaq/client_type.h`.

What is modelled: accepting connections, the transport layer properties a client announces, the first
configuration packet (connection limit, exclusive control), the request for streaming, loss of a
session, the counters of connections and the list of connected clients in the device info.

Simplifications: a session is identified by the number it got when it was accepted; host names and
users are numbers; all handlers run on the one thread of the transport (`io_context`), one at a time; what the configuration server answers and what is streamed is in other parts of the model (`Access`,
`Streaming`); activity monitoring, write timeouts, log output and error texts are left out; the root
device is there and is not removed. `threw` stands for an exception that leaves the handler.
-/

namespace Verif.Sessions

/-- `ClientType` (cty). -/
inductive Kind where
  | control
  | exclusive
  | viewOnly
deriving DecidableEq, Repr

/-- Ids of clients: `"AssignedByServer/n"` (hnd:923) or any other string. -/
inductive Cid where
  | assigned (n : Nat)
  | own (s : Nat)
deriving DecidableEq, Repr

/-- A session handler (hdr:72-77, ses:12-37) that is stored under its client id. `serves` is the
kind of client that the configuration server of the session was created for (hnd:594); it is `none` as
long as `onFirstConfigPacketReceived` handles configuration packets (hnd:938-947). -/
structure Sess where
  sid : Nat
  user : Nat
  cid : Cid
  reconnected : Bool := false
  config : Bool := false
  kind : Kind := .control
  drop : Bool := false
  host : Nat := 0
  serves : Option Kind := none
deriving DecidableEq, Repr

/-- Entry of the list of connected clients (srv:363-369): streaming or configuration with its kind of
client, host name, and whether the client was connected before. -/
structure Info where
  service : Option Kind
  host : Nat
  again : Bool
deriving DecidableEq, Repr

/-- Transport layer properties (hnd:456-566) as far as they are present and of the right type. `id` are
`ClientId` and `Reconnected`. `kind` is `none` also for an invalid number (cty:63-76). -/
structure Props where
  host : Option Nat := none
  id : Option (Cid × Bool) := none
  kind : Option Kind := none
  drop : Option Bool := none
deriving DecidableEq, Repr

/-- Why a configuration connection is rejected. -/
inductive Why where
  | limit
  | control
deriving DecidableEq, Repr

/-- What happens at the server. -/
inductive Ev where
  | closed (sid : Nat)
  | rejected (sid : Nat) (why : Why)
  | passed (sid : Nat) (k : Kind)
  | initDone (sid : Nat)
  | announced (l : List Cid)
  | threw
deriving DecidableEq, Repr

/-- A registered streaming client with the settings of its packet server (mgr:291-310): the largest payload
that is cached and the number of packets after which releases are sent. The packet server of a client
is erased when the client is unregistered (mgr:343-345), so every registration creates one. -/
structure Stm where
  cid : Cid
  payloadMax : Nat
  threshold : Nat
deriving DecidableEq, Repr

/-- The server: handler (`payloadMax` is the property `StreamingCacheablePayloadSizeMax`, `threshold`
`StreamingPacketReleaseThreshold`, `max` `MaxAllowedConfigConnections` with 0 for no limit, `next` is `connectedClientIndex`, counters are `SizeT`), registered streaming
clients (mgr:291), connected clients of the server module (`reg` = `registeredClientIds`, `gone` =
`disconnectedClientIds`, srv:291-298) and of the device info (`total` =
`totalCountOfConnectedClientsEverRegistered`, `info` = `activeClientConnections`, inf:964-994). -/
structure St where
  max : Nat
  payloadMax : Nat
  threshold : Nat
  next : Nat := 0
  sess : List Sess := []
  cfg : Nat := 0
  ctl : Nat := 0
  exc : Nat := 0
  streams : List Stm := []
  reg : List (Cid × Nat) := []
  gone : List (Cid × Nat) := []
  total : Nat := 0
  info : List (Nat × Info) := []
deriving DecidableEq, Repr

/-- `counter++` of a `SizeT`. -/
def inc (n : Nat) : Nat := (n + 1) % 2 ^ 64

/-- `counter--` of a `SizeT`. -/
def dec (n : Nat) : Nat := (n + (2 ^ 64 - 1)) % 2 ^ 64

/-- The session handler of a session (hnd:419-425). -/
def St.get (st : St) (sid : Nat) : Option Sess := st.sess.find? (fun s => s.sid == sid)

/-- The session handler stored under a client id. -/
def St.byId (st : St) (c : Cid) : Option Sess := st.sess.find? (fun s => s.cid == c)

/-- Whether a client is registered for streaming (mgr:112-120). -/
def St.streaming (st : St) (c : Cid) : Bool := st.streams.any (fun x => x.cid == c)

/-- Replaces the handler of a session. -/
def St.put (st : St) (s : Sess) : St :=
  { st with sess := st.sess.map (fun x => if x.sid == s.sid then s else x) }

/-- `clientConnectedHandler` (srv:352-373) with `addConnectedClient` (inf:964-980); `false`: it threw,
because the number is in the list already. -/
def St.join (st : St) (c : Cid) (service : Option Kind) (host : Nat) : St × Bool :=
  let num := (st.gone.lookup c).getD 0
  let gone := st.gone.filter (fun x => x.1 != c)
  let fresh := num = 0 ∨ st.total < num
  let n := if fresh then st.total + 1 else num
  let total := if fresh then st.total + 1 else st.total
  if n ∈ st.info.map (·.1) then ({ st with gone := gone, total := total }, false)
  else
    ({ st with gone := gone, total := total, info := st.info ++ [(n, ⟨service, host, (st.gone.lookup c).isSome⟩)],
               reg := if (st.reg.lookup c).isSome then st.reg else st.reg ++ [(c, n)] }, true)

/-- `clientDisconnectedHandler` (srv:375-388) with `removeConnectedClient` (inf:983-994); `false`: it
threw, because the number is not in the list. -/
def St.leave (st : St) (c : Cid) : St × Bool :=
  match st.reg.lookup c with
  | none => (st, true)
  | some n =>
    if n ∈ st.info.map (·.1) then
      ({ st with info := st.info.filter (fun x => x.1 != n),
                 gone := if (st.gone.lookup c).isSome then st.gone else st.gone ++ [(c, n)],
                 reg := st.reg.filter (fun x => x.1 != c) }, true)
    else (st, false)

/-- `incrementConfigConnectionCount` (hnd:696-704). -/
def St.count (st : St) (k : Kind) : St :=
  { st with cfg := inc st.cfg, ctl := if k = .control then inc st.ctl else st.ctl,
            exc := if k = .exclusive then inc st.exc else st.exc }

/-- `decrementConfigConnectionCount` (hnd:706-717). -/
def St.uncount (st : St) (s : Sess) : St :=
  if s.config then
    { st with cfg := dec st.cfg, ctl := if s.kind = .control then dec st.ctl else st.ctl,
              exc := if s.kind = .exclusive then dec st.exc else st.exc }
  else st

/-- `releaseSessionHandlerInternal` (hnd:407-454). -/
def St.release (st : St) (sid : Nat) : St × List Ev :=
  match st.get sid with
  | none => (st, [])
  | some s =>
    let r := if st.streaming s.cid ∨ s.config then st.leave s.cid else (st, true)
    if r.2 then
      let st := r.1.uncount s
      ({ st with streams := st.streams.filter (fun x => x.cid != s.cid),
                 sess := st.sess.filter (fun x => x.sid != sid) }, [.closed sid])
    else (r.1, [.threw])

/-- Releases sessions one after the other (hnd:805-809). -/
def St.releaseAll : St → List Nat → St × List Ev
  | st, [] => (st, [])
  | st, sid :: l =>
    let r := st.release sid
    let t := r.1.releaseAll l
    (t.1, r.2 ++ t.2)

/-- `initSessionHandler` (hnd:864-956): the new handler is stored unless its id is taken
(`insert`, hnd:953), in which case it is destroyed at once. -/
def St.accept (st : St) (user : Nat) : St × List Ev :=
  let s : Sess := { sid := st.next, user := user, cid := .assigned st.next }
  if (st.byId s.cid).isSome then ({ st with next := st.next + 1 }, [])
  else ({ st with next := st.next + 1, sess := st.sess ++ [s] }, [])

/-- The part of `handleTransportLayerProps` about `ClientId` and `Reconnected` (hnd:490-541): the
handler with its new id, `none` if it threw. -/
def St.rename (st : St) (s : Sess) (c : Cid) (again : Bool) : St × List Ev × Option Sess :=
  let r : St × List Ev × Bool :=
    match st.byId c with
    | some o => if again then let r := st.release o.sid; (r.1, r.2, true) else (st, [], false)
    | none => (st, [], true)
  if r.2.2 then
    match r.1.byId s.cid with
    | some _ => (r.1, r.2.1, some { s with cid := c, reconnected := again })
    | none => (r.1, r.2.1 ++ [.threw], none)
  else (r.1, r.2.1, some { s with reconnected := again })

/-- `handleTransportLayerProps` (hnd:456-566). -/
def St.announce (st : St) (sid : Nat) (p : Props) : St × List Ev :=
  match st.get sid with
  | none => (st, [])
  | some s =>
    let s := { s with host := p.host.getD s.host }
    let r : St × List Ev × Option Sess :=
      match p.id with
      | some (c, again) => st.rename s c again
      | none => (st, [], some s)
    match r.2.2 with
    | none => (r.1, r.2.1)
    | some s =>
      (r.1.put { s with kind := p.kind.getD .control, drop := p.drop.getD false }, r.2.1)

/-- The sessions `releaseOtherControlConnectionsInternal` releases (hnd:784-803). -/
def St.others (st : St) (sid : Nat) : List Nat :=
  (st.sess.filter (fun x => x.sid != sid && x.config && (x.kind == .control || x.kind == .exclusive))).map (·.sid)

/-- The end of `connectConfigProtocol` (hnd:655-665) with `setUpConfigProtocolCallbacks`
(hnd:581-604). -/
def St.grant (st : St) (s : Sess) : St × List Ev :=
  let st := (st.put { s with config := true }).count s.kind
  let r := st.join s.cid (some s.kind) s.host
  if r.2 then
    (r.1.put { s with config := true, serves := some s.kind }, [.passed s.sid s.kind])
  else (r.1, [.threw])

/-- A configuration packet: `connectConfigProtocol` (hnd:606-666) for the first one, otherwise it is
passed to the configuration server of the session. -/
def St.config (st : St) (sid : Nat) : St × List Ev :=
  match st.get sid with
  | none => (st, [])
  | some s =>
    match s.serves with
    | some k => (st, [.passed sid k])
    | none =>
      if st.max ≠ 0 ∧ st.cfg = st.max then (st, [.rejected sid .limit])
      else if s.kind = .control ∧ 0 < st.exc then (st, [.rejected sid .control])
      else if s.kind = .exclusive ∧ (0 < st.exc ∨ 0 < st.ctl) then
        if s.drop ∧ ¬ s.reconnected then
          let r := st.releaseAll (st.others sid)
          let t := r.1.grant s
          (t.1, r.2 ++ t.2)
        else (st, [.rejected sid .control])
      else st.grant s

/-- `registerClient` (mgr:274-323) for an id that is not registered. -/
def St.register (st : St) (c : Cid) (releaseThreshold cacheablePayloadMax : Nat) : St :=
  { st with streams := st.streams ++ [⟨c, cacheablePayloadMax, releaseThreshold⟩] }

/-- `handleStreamingInit` (hnd:740-770) with `registerClient`, which throws if the id is registered
(mgr:282-287). The call gives the size first and the threshold second (hnd:747-748), the function takes
them in the other order (mgr:277-278). -/
def St.init (st : St) (sid : Nat) : St × List Ev :=
  match st.get sid with
  | none => (st, [])
  | some s =>
    if st.streaming s.cid then (st, [.threw])
    else
      let r := (st.register s.cid st.payloadMax st.threshold).join s.cid none s.host
      if r.2 then (r.1, [.initDone sid]) else (r.1, [.initDone sid, .threw])

/-- `addSignal` (hnd:104-115): the signal is announced to every streaming client; `at` throws if the
client has no session handler. -/
def St.addSignal (st : St) : St × List Ev :=
  if st.streams.all (fun x => (st.byId x.cid).isSome) then (st, [.announced (st.streams.map (·.cid))]) else (st, [.threw])

/-- What happens to the server. -/
inductive Op where
  | accept (user : Nat)
  | announce (sid : Nat) (p : Props)
  | config (sid : Nat)
  | init (sid : Nat)
  | lost (sid : Nat)
  | addSignal
deriving DecidableEq, Repr

/-- One step; `lost` is `onSessionError` (hnd:772-782). -/
def St.step (st : St) : Op → St × List Ev
  | .accept u => st.accept u
  | .announce sid p => st.announce sid p
  | .config sid => st.config sid
  | .init sid => st.init sid
  | .lost sid => st.release sid
  | .addSignal => st.addSignal

/-- A history: the final state and all that happened. -/
def St.run : St → List Op → St × List Ev
  | st, [] => (st, [])
  | st, op :: l =>
    let r := st.step op
    let t := r.1.run l
    (t.1, r.2 ++ t.2)

/-- The server as it is started (hnd:30-63). -/
def start (max payloadMax threshold : Nat) : St := { max := max, payloadMax := payloadMax, threshold := threshold }

end Verif.Sessions
