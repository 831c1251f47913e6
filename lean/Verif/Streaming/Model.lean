import Verif.AList
import Verif.Common

/-!
# Model of the streaming manager of the native streaming server

Source: `/repo/shared/libraries/native_streaming_protocol/src/streaming_manager.cpp` (cited as `mgr`),
`…/src/native_streaming_server_handler.cpp` (cited as `hnd`).

Simplifications: signals and clients are identified by numbers instead of strings; the signal object
stored next to its string id is not represented; a descriptor parameter is an opaque number (`none`:
unassigned); the packet streaming server of a client is represented by the packets handed to it, in
order, and by its two settings (its inner workings are modelled in `Verif.PacketStreaming`, its only
visible refusal, a data packet of a signal without announced descriptor, is `Server.accepts`); the
iteration order of the unordered containers is the order of the lists. Locks are not represented: each
call is atomic, as every method holds the mutex for its whole duration. Log output is dropped.
-/

namespace Verif.Streaming

/-- Packets as far as the manager looks at them. `desc` is the descriptor-changed event. -/
inductive Pk where
  | data (id : Nat)
  | desc (value domain : Option Nat)
  | other (id : Nat)
  deriving DecidableEq, Repr

/-- `RegisteredServerSignal` (`streaming_manager.h`): numeric id, subscribed clients, last descriptor
parameters. -/
structure Sig where
  num : Nat
  subs : List Nat
  lastV : Option Nat
  lastD : Option Nat
  deriving DecidableEq, Repr

/-- A packet streaming server: settings (`PacketStreamingServer` constructor) and packets accepted. -/
structure Server where
  cacheMax : Nat
  threshold : Nat
  log : List (Nat × Pk)
  deriving DecidableEq, Repr

/-- `RegisteredClientSignal`: numeric id and owner. -/
structure ClientSig where
  num : Nat
  owner : Nat
  deriving DecidableEq, Repr

/-- Server settings relevant here: `StreamingCacheablePayloadSizeMax` and
`StreamingPacketReleaseThreshold` (hnd:316-345). -/
structure Settings where
  cacheablePayloadSizeMax : Nat
  packetReleaseThreshold : Nat
  deriving DecidableEq, Repr

/-- `StreamingManager` fields (`streaming_manager.h`). -/
structure Mgr where
  settings : Settings
  counter : Nat
  sigs : AList Nat Sig
  clients : List Nat
  servers : AList Nat Server
  csigs : AList Nat ClientSig

/-- Constructor (mgr:12-20). -/
def Mgr.init (st : Settings) : Mgr := ⟨st, 0, [], [], [], []⟩

/-- Results of the calls. `signals` is the list returned by `unregisterClient`. -/
inductive Out where
  | num (n : Nat)
  | done
  | bool (b : Bool)
  | signals (l : List Nat)
  | found (x : Option ClientSig)
  | notRegistered
  | alreadyRegistered
  /-- `std::out_of_range` of `packetStreamingServers.at` -/
  | noServer
  /-- the packet streaming server refused the packet: no descriptor announced -/
  | noDescriptor
  deriving DecidableEq, Repr

/-- `addDataPacket` (packet_streaming_server.cpp:329-332): a data packet is refused unless a value
descriptor was announced for the signal. -/
def Server.accepts (v : Server) (n : Nat) : Pk → Bool
  | .data _ => v.log.any fun e => e.1 == n && (match e.2 with | .desc (some _) _ => true | _ => false)
  | _ => true

/-- `sendDaqPacket`/`pushToPacketStreamingServer` for one client (mgr:122-133, 487-492), including the
lookup `packetStreamingServers.at(clientId)`. `none` in the first component: everything went well. -/
def Mgr.pushTo (m : Mgr) (c n : Nat) (p : Pk) : Mgr × Option Out :=
  match m.servers.get c with
  | none => (m, some .noServer)
  | some v =>
    if v.accepts n p then
      ({ m with servers := m.servers.put c { v with log := v.log ++ [(n, p)] } }, none)
    else (m, some .noDescriptor)

/-- The loop over the subscribers of a signal (mgr:46-55, 93-102): stops at the first exception. -/
def Mgr.pushAll (m : Mgr) (n : Nat) (p : Pk) : List Nat → Mgr × Option Out
  | [] => (m, none)
  | c :: cs =>
    match m.pushTo c n p with
    | (m', none) => m'.pushAll n p cs
    | (m', some e) => (m', some e)

/-- Update of the last descriptor parameters by a descriptor-changed event (mgr:32-44, 78-91). -/
def Sig.note (g : Sig) : Pk → Sig
  | .desc v d => { g with lastV := v.orElse fun _ => g.lastV, lastD := d.orElse fun _ => g.lastD }
  | _ => g

/-- `sendPacketToSubscribers` (mgr:22-61). -/
def Mgr.send (m : Mgr) (s : Nat) (p : Pk) : Mgr × Out :=
  match m.sigs.get s with
  | none => (m, .notRegistered)
  | some g =>
    let m1 := { m with sigs := m.sigs.put s (g.note p) }
    match m1.pushAll g.num p g.subs with
    | (m2, none) => (m2, .done)
    | (m2, some e) => (m2, e)

/-- The packets of one signal in `processPackets` (mgr:74-103). -/
def Mgr.processSignal (m : Mgr) (s : Nat) : List Pk → Mgr × Option Out
  | [] => (m, none)
  | p :: ps =>
    match m.sigs.get s with
    | none => (m, some .notRegistered)
    | some g =>
      let m1 := { m with sigs := m.sigs.put s (g.note p) }
      match m1.pushAll g.num p g.subs with
      | (m2, none) => m2.processSignal s ps
      | (m2, some e) => (m2, some e)

/-- `processPackets` (mgr:63-110): packets grouped by signal, in order. -/
def Mgr.process (m : Mgr) : List (Nat × List Pk) → Mgr × Out
  | [] => (m, .done)
  | (s, ps) :: rest =>
    match m.sigs.get s with
    | none => (m, .notRegistered)
    | some _ =>
      match m.processSignal s ps with
      | (m', none) => m'.process rest
      | (m', some e) => (m', e)

/-- `registerSignal` (mgr:222-238); `SignalNumericIdType` is `uint32_t`. -/
def Mgr.registerSignal (m : Mgr) (s : Nat) : Mgr × Out :=
  match m.sigs.get s with
  | some _ => (m, .alreadyRegistered)
  | none =>
    let n := (m.counter + 1) % 4294967296
    ({ m with counter := n, sigs := m.sigs.put s ⟨n, [], none, none⟩ }, .num n)

/-- `isSignalSubscribed` (mgr:255-272). -/
def Mgr.isSubscribed (m : Mgr) (s : Nat) : Out :=
  match m.sigs.get s with
  | some g => .bool (!g.subs.isEmpty)
  | none => .notRegistered

/-- `removeComponentSignals` for one signal (hnd:130-135): the result tells whether the unsubscribed
handler is called, i.e. `isSignalSubscribed`; then `removeSignal` (mgr:240-253). -/
def Mgr.removeSignal (m : Mgr) (s : Nat) : Mgr × Out :=
  match m.sigs.get s with
  | some g => ({ m with sigs := m.sigs.del s }, .bool (!g.subs.isEmpty))
  | none => (m, .notRegistered)

/-- `registerClient` (mgr:274-323); parameters in the order of the declaration. -/
def Mgr.registerClient (m : Mgr) (c : Nat) (reconnected : Bool)
    (packetStreamingReleaseThreshold cacheablePacketPayloadSizeMax : Nat) : Mgr × Out :=
  if m.clients.contains c then (m, .alreadyRegistered)
  else
    let sv := if reconnected then m.servers else m.servers.del c
    let sv := sv.add c ⟨cacheablePacketPayloadSizeMax, packetStreamingReleaseThreshold, []⟩
    ({ m with clients := c :: m.clients, servers := sv }, .done)

/-- `handleStreamingInit` (hnd:740-748): registers the client with the settings of the server; the
arguments are passed in the order written in the source. -/
def Mgr.streamingInit (m : Mgr) (c : Nat) (reconnected : Bool) : Mgr × Out :=
  m.registerClient c reconnected m.settings.cacheablePayloadSizeMax m.settings.packetReleaseThreshold

/-- `removeSignalSubscriberNoLock` (mgr:418-442) on the entry of the signal: new entry and whether the
last subscriber was removed. -/
def Sig.drop (g : Sig) (c : Nat) : Sig × Bool :=
  if g.subs.contains c then
    let subs := g.subs.filter (· != c)
    ({ g with subs := subs }, subs.isEmpty)
  else (g, false)

/-- `unregisterClient` (mgr:325-361). -/
def Mgr.unregisterClient (m : Mgr) (c : Nat) : Mgr × Out :=
  if m.clients.contains c then
    ({ m with
        clients := m.clients.filter (· != c)
        servers := m.servers.del c
        sigs := m.sigs.map fun e => (e.1, (e.2.drop c).1) },
      .signals ((m.sigs.filter fun e => (e.2.drop c).2).map Prod.fst))
  else (m, .signals [])

/-- `registerSignalSubscriber` (mgr:363-409). -/
def Mgr.subscribe (m : Mgr) (s c : Nat) : Mgr × Out :=
  match m.sigs.get s with
  | none => (m, .notRegistered)
  | some g =>
    if g.subs.contains c then (m, .bool false)
    else if g.subs.isEmpty then
      ({ m with sigs := m.sigs.put s { g with subs := c :: g.subs } }, .bool true)
    else
      match g.lastV with
      | none => ({ m with sigs := m.sigs.put s { g with subs := c :: g.subs } }, .bool false)
      | some v =>
        match m.pushTo c g.num (.desc (some v) g.lastD) with
        | (m', some e) => (m', e)
        | (m', none) => ({ m' with sigs := m'.sigs.put s { g with subs := c :: g.subs } }, .bool false)

/-- `removeSignalSubscriber` (mgr:411-442). -/
def Mgr.unsubscribe (m : Mgr) (s c : Nat) : Mgr × Out :=
  match m.sigs.get s with
  | none => (m, .notRegistered)
  | some g => ({ m with sigs := m.sigs.put s (g.drop c).1 }, .bool (g.drop c).2)

/-- `findSignalNumericId` (mgr:444-454). -/
def Mgr.numericId (m : Mgr) (s : Nat) : Out :=
  match m.sigs.get s with
  | some g => .num g.num
  | none => .notRegistered

/-- `registerClientSignal` (mgr:522-540). -/
def Mgr.clientSignalAvailable (m : Mgr) (n s c : Nat) : Mgr × Out :=
  match m.csigs.get s with
  | none => ({ m with csigs := m.csigs.put s ⟨n, c⟩ }, .done)
  | some _ => (m, .done)

/-- `unregisterClientSignal` (mgr:542-549): neither the numeric id nor the client is looked at. -/
def Mgr.clientSignalUnavailable (m : Mgr) (_n s _c : Nat) : Mgr × Out :=
  ({ m with csigs := m.csigs.del s }, .done)

/-- `unregisterClientSignals` (mgr:551-565); the result lists the signals the callback gets. -/
def Mgr.clientSignalsGone (m : Mgr) (c : Nat) : Mgr × Out :=
  ({ m with csigs := m.csigs.filter fun e => e.2.owner != c },
    .signals ((m.csigs.filter fun e => e.2.owner == c).map Prod.fst))

/-- Calls on the manager. `init` is the streaming request of a client; `clientLookup` is
`doClientSignalSubscription` (mgr:585-593), reporting what the callback gets. -/
inductive Op where
  | registerSignal (s : Nat)
  | removeSignal (s : Nat)
  | isSubscribed (s : Nat)
  | numericId (s : Nat)
  | init (c : Nat) (reconnected : Bool)
  | unregisterClient (c : Nat)
  | subscribe (s c : Nat)
  | unsubscribe (s c : Nat)
  | send (s : Nat) (p : Pk)
  | clientAvailable (n s c : Nat)
  | clientUnavailable (n s c : Nat)
  | clientGone (c : Nat)
  | clientLookup (s : Nat)
  deriving DecidableEq, Repr

def Mgr.step (m : Mgr) : Op → Mgr × Out
  | .registerSignal s => m.registerSignal s
  | .removeSignal s => m.removeSignal s
  | .isSubscribed s => (m, m.isSubscribed s)
  | .numericId s => (m, m.numericId s)
  | .init c r => m.streamingInit c r
  | .unregisterClient c => m.unregisterClient c
  | .subscribe s c => m.subscribe s c
  | .unsubscribe s c => m.unsubscribe s c
  | .send s p => m.send s p
  | .clientAvailable n s c => m.clientSignalAvailable n s c
  | .clientUnavailable n s c => m.clientSignalUnavailable n s c
  | .clientGone c => m.clientSignalsGone c
  | .clientLookup s => (m, .found (m.csigs.get s))

/-- A history of calls on a fresh manager. -/
def exec (st : Settings) (ops : List Op) : Mgr × List (Op × Out) := runTrace Mgr.step (Mgr.init st) ops

end Verif.Streaming
