import Verif.AList

/-!
# Signals of the client at input ports of a device

`ip` = `shared/libraries/config_protocol/include/config_protocol/config_client_input_port_impl.h`,
`cc` = `shared/libraries/config_protocol/src/config_protocol_client.cpp`,
`sp` = `shared/libraries/config_protocol/src/config_protocol_streaming_producer.cpp`,
`sc` = `shared/libraries/config_protocol/src/config_protocol_streaming_consumer.cpp`,
`cs` = `shared/libraries/config_protocol/src/config_protocol_server.cpp`,
`si` = `shared/libraries/config_protocol/include/config_protocol/config_server_input_port.h`,
`gp` = `core/opendaq/signal/include/opendaq/input_port_impl.h`.

An input port of a device the client is connected to may be given a signal of the device ("inside")
or any other signal the client has ("external"). For an external signal the client registers it with
its streaming producer, which reads its packets and sends them to the device, where a mirrored signal
stands in for it.

Simplified: a signal comes with its domain signal, the domain signal of that, and so on, as they are
when a function is called; whether a signal is inside (`isComponentNested`, cc:679-686, together with
being an object of the configuration protocol) is part of it; the numbers of signals are natural
numbers (`uint32_t` in the code); the map of the signals registered with each streaming
(`registerStreamedClientSignals`) and the thread reading packets are left out; of the events the
device sends, the one for a disconnected port is modelled, and `RemoveExternalSignals` is not refused
by the device. Messages for the log at level debug are left out, as in release builds.
-/

namespace Verif.Ext

abbrev Gid := String

/-- A signal object and its global id. -/
structure Node where
  obj : Nat
  gid : Gid
deriving DecidableEq, Repr

/-- A signal: the object, the chain of its domain signals, and whether the device has it. -/
structure Sig where
  node : Node
  doms : List Node
  inside : Bool
deriving DecidableEq, Repr

/-- `StreamedSignal`, config_protocol_streaming_producer.h: the object (`none`: released), the number,
the object being read and the components because of which it is streamed. -/
structure Entry where
  sig : Option Nat
  num : Nat
  reading : Option Nat
  triggers : List Gid
deriving DecidableEq, Repr

/-- `ConfigProtocolStreamingProducer`: the signals registered, the last number given and
`readingEnabled`, sp:8-20. -/
structure Producer where
  entries : AList Gid Entry
  counter : Nat
  enabled : Bool
deriving DecidableEq, Repr

/-- What a call answers. -/
inductive Code where
  | ok
  | ignored
  | notAccepted   -- OPENDAQ_ERR_SIGNAL_NOT_ACCEPTED
  | denied        -- the device refuses the request
  | failed        -- an exception of the client
  | tooLow        -- OPENDAQ_ERR_SERVER_VERSION_TOO_LOW
  | general       -- OPENDAQ_ERR_GENERALERROR
deriving DecidableEq, Repr

/-- `registerOrUpdateSignal`, sp:28-47. -/
def Producer.register (P : Producer) (s : Node) : Producer × Nat :=
  match P.entries.get s.gid with
  | some e =>
    let e' := if e.sig.isSome then e else { e with sig := some s.obj }
    ({ P with entries := P.entries.put s.gid e' }, e.num)
  | none =>
    ({ P with entries := P.entries.put s.gid ⟨some s.obj, P.counter + 1, none, []⟩,
              counter := P.counter + 1 }, P.counter + 1)

/-- `addStreamingTrigger` with `startReadSignal`, sp:96-112 and sp:143-150; `true`: the exception for
a signal not registered. -/
def Producer.addTrigger (P : Producer) (s : Node) (t : Gid) : Producer × Bool :=
  match P.entries.get s.gid with
  | none => (P, true)
  | some e =>
    let r := if e.triggers.isEmpty && P.enabled then e.sig else e.reading
    let e' : Entry := ⟨e.sig, e.num, r, if t ∈ e.triggers then e.triggers else t :: e.triggers⟩
    ({ P with entries := P.entries.put s.gid e' }, false)

/-- `addConnection`, sp:61-75. -/
def Producer.addConnection (P : Producer) (s : Sig) (port : Gid) : Producer × Bool :=
  match s.doms with
  | [] => P.addTrigger s.node port
  | d :: _ =>
    let r := P.addTrigger d s.node.gid
    if r.2 then r else r.1.addTrigger s.node port

/-- `unusedSignals`: numbers with the object, `none` for a null pointer. -/
abbrev Unused := AList Nat (Option Nat)

/-- The end of `removeStreamingTrigger` for a signal without triggers, with `stopReadSignal`,
sp:133-134 and sp:152-160. -/
def Producer.finish (P : Producer) (u : Unused) (gid : Gid) : Producer × Unused :=
  match P.entries.get gid with
  | none => (P, u)
  | some e =>
    ({ P with entries := P.entries.put gid { e with sig := none, reading := if P.enabled then none else e.reading } },
     u.put e.num e.sig)

/-- `removeStreamingTrigger`, sp:114-141, for the signal at the head of the chain; `true`: the
exception for a signal not registered. -/
def Producer.removeTrigger (P : Producer) (u : Unused) : List Node → Gid → Producer × Unused × Bool
  | [], _ => (P, u, false)
  | s :: ds, t =>
    match P.entries.get s.gid with
    | none => (P, u, true)
    | some e =>
      let ts := e.triggers.filter (fun x => !decide (x = t))
      let P1 : Producer := { P with entries := P.entries.put s.gid { e with triggers := ts } }
      if ts.isEmpty then
        let r := P1.removeTrigger u ds s.gid
        if r.2.2 then r
        else
          let f := r.1.finish r.2.1 s.gid
          (f.1, f.2, false)
      else (P1, u, false)

/-- What the device has connected to a port: a signal of its own, or the mirrored signal with a
number. -/
inductive Far where
  | own (gid : Gid)
  | ext (num : Nat)
deriving DecidableEq, Repr

/-- The client and the device: the producer, the signals the ports of the client have, the mirrored
signals of the device (`mirroredExternalSignals`), the signals the ports of the device have, and the
events for disconnected ports on their way to the client. -/
structure Client where
  prod : Producer
  ports : AList Gid Sig
  mirrored : List Nat
  conn : AList Gid Far
  pending : List Gid
deriving DecidableEq, Repr

/-- The protocol version in use, and whether the port has sources of streaming. -/
structure Cfg where
  version : Nat
  sources : Bool

/-- A client right after the connection, where reading is enabled below version 18,
config_protocol_client.h:358-360. -/
def fresh (cfg : Cfg) : Client := ⟨⟨[], 0, cfg.version < 18⟩, [], [], [], []⟩

/-- The ports of the device that have one of the mirrored signals. -/
def Client.holders (c : Client) (ns : List Nat) : List Gid :=
  (c.conn.map (·.1)).filter (fun p => match c.conn.get p with
    | some (.ext n) => decide (n ∈ ns)
    | _ => false)

/-- `removeExternalSignals` of the device, sc:126-138 with sc:157-173: the mirrored signals are
removed, ports connected to them are disconnected and say so, gp:543-560 with gp:274-280. -/
def Client.removeFar (c : Client) (ns : List Nat) : Client :=
  { c with mirrored := c.mirrored.filter (fun n => !decide (n ∈ ns))
           conn := c.conn.filter (fun e => !decide (e.1 ∈ c.holders ns))
           pending := c.pending ++ c.holders ns }

/-- `disconnectExternalSignalFromServerInputPort`, cc:709-733 with sp:77-87; `true`: an exception, of
the producer, or because of a null pointer among the signals given to the streamings, cc:722-728. -/
def Client.drop (cfg : Cfg) (c : Client) (s : Sig) (port : Gid) : Client × Bool :=
  let r := c.prod.removeTrigger [] (s.node :: s.doms) port
  let c1 := { c with prod := r.1 }
  if r.2.2 then (c1, true)
  else if r.2.1.isEmpty then (c1, false)
  else if 18 ≤ cfg.version ∧ cfg.sources = true ∧ r.2.1.any (fun e => e.2.isNone) = true then (c1, true)
  else (c1.removeFar (r.2.1.map (·.1)), false)

/-- `assignSignal(nullptr)`, ip:153-167, for the event of a disconnected port, ip:324-326. -/
def Client.release (cfg : Cfg) (c : Client) (port : Gid) : Client × Code :=
  match c.ports.get port with
  | none => (c, .ok)
  | some o =>
    if o.inside then ({ c with ports := c.ports.del port }, .ok)
    else
      let r := c.drop cfg o port
      if r.2 then (r.1, .failed) else ({ r.1 with ports := r.1.ports.del port }, .ok)

/-- The client handles the oldest event on its way, ip:314-326. -/
def Client.deliver (cfg : Cfg) (c : Client) : Client :=
  match c.pending with
  | [] => c
  | p :: ps => (Client.release cfg { c with pending := ps } p).1

/-- The client handles `k` events. -/
def Client.deliverN (cfg : Cfg) (c : Client) : Nat → Client
  | 0 => c
  | k + 1 => (c.deliver cfg).deliverN cfg k

/-- How the device answers a request to connect: it does, it refuses at once (access, si:76-81), or it
refuses once the mirrored signals have been made (si:46, after cs:455). -/
inductive Reply where
  | yes
  | no
  | late
deriving DecidableEq, Repr

/-- A mirrored signal with the number exists afterwards, sc:187-195 and sc:199-209. -/
def getOrAdd (ns : List Nat) (n : Nat) : List Nat := if n ∈ ns then ns else n :: ns

/-- `getOrAddExternalSignal`, sc:175-212, for the number of the domain signal (0: none) and that of
the signal. -/
def Client.mirror (c : Client) (dn n : Nat) : Client :=
  { c with mirrored := getOrAdd (if dn = 0 then c.mirrored else getOrAdd c.mirrored dn) n }

/-- The registration of the domain signal, if there is one, cc:762-766; its number, 0 without. -/
def Client.registerDomain (c : Client) (s : Sig) : Client × Nat :=
  match s.doms with
  | [] => (c, 0)
  | d :: _ => ({ c with prod := (c.prod.register d).1 }, (c.prod.register d).2)

/-- `connectExternalSignalToServerInputPort`, cc:735-782, with `connectExternalSignal`, cs:447-501. -/
def Client.connectExt (c : Client) (s : Sig) (port : Gid) (reply : Reply) : Client × Code :=
  let c1 := c.registerDomain s
  let r2 := c1.1.prod.register s.node
  let c2 := { c1.1 with prod := r2.1 }
  match reply with
  | .no => (c2, .denied)
  | .late => (c2.mirror c1.2 r2.2, .denied)
  | .yes =>
    let c3 := c2.mirror c1.2 r2.2
    let a := r2.1.addConnection s port
    ({ c3 with conn := c3.conn.put port (.ext r2.2), prod := a.1 }, if a.2 then .failed else .ok)

/-- The part of `connect` before the new connection, ip:103-111; the exception of cc:709-733 is
passed on. -/
def Client.leave (cfg : Cfg) (c : Client) (port : Gid) : Client × Bool :=
  match c.ports.get port with
  | none => (c, false)
  | some o => if o.inside then (c, false) else c.drop cfg o port

/-- `connect`, ip:83-133; `k` events are handled before the port of the client takes the signal,
ip:129. -/
def Client.connect (cfg : Cfg) (c : Client) (port : Gid) (s : Sig) (reply : Reply) (k : Nat) : Client × Code :=
  if (c.ports.get port).map (·.node.obj) = some s.node.obj then (c, .ignored)
  else
    let l := c.leave cfg port
    if l.2 then (l.1, .failed)
    else if s.inside then
      if reply = .yes then
        let c1 := { l.1 with conn := l.1.conn.put port (.own s.node.gid) }
        let c2 := c1.deliverN cfg k
        ({ c2 with ports := c2.ports.put port s }, .ok)
      else (l.1, .denied)
    else if 2 ≤ cfg.version then
      let r := l.1.connectExt s port reply
      if r.2 = .ok then
        let c2 := r.1.deliverN cfg k
        ({ c2 with ports := c2.ports.put port s }, .ok)
      else r
    else (l.1, .notAccepted)

/-- `disconnect`, ip:140-151: the request to the device, which disconnects its port and says so
(si:50-60, gp:284-300); `k` events are handled before the port of the client lets the signal go. -/
def Client.disconnect (cfg : Cfg) (c : Client) (port : Gid) (reply : Reply) (k : Nat) : Client × Code :=
  if reply = .yes then
    let c1 := if (c.conn.get port).isSome
      then { c with conn := c.conn.del port, pending := c.pending ++ [port] } else c
    let c2 := c1.deliverN cfg k
    ({ c2 with ports := c2.ports.del port }, .ok)
  else (c, .denied)

/-- What may happen: calls at ports, events handled, and signals given other domain signals. -/
inductive Op where
  | connect (port : Gid) (s : Sig) (reply : Reply) (k : Nat)
  | disconnect (port : Gid) (reply : Reply) (k : Nat)
  | deliver
  | setDomain (obj : Nat) (doms : List Node)
deriving DecidableEq, Repr

/-- A signal object is given another domain signal. -/
def Sig.setDomain (s : Sig) (obj : Nat) (doms : List Node) : Sig :=
  if s.node.obj = obj then { s with doms := doms } else s

def Client.step (cfg : Cfg) (c : Client) : Op → Client × Code
  | .connect p s r k => c.connect cfg p s r k
  | .disconnect p r k => c.disconnect cfg p r k
  | .deliver => (c.deliver cfg, .ok)
  | .setDomain o ds => ({ c with ports := c.ports.map (fun e => (e.1, e.2.setDomain o ds)) }, .ok)

/-- One after the other. -/
def Client.run (cfg : Cfg) : Client → List Op → Client
  | c, [] => c
  | c, o :: os => Client.run cfg (c.step cfg o).1 os

/-! ## Asking whether signals are accepted -/

/-- `acceptsSignal`, ip:169-194, with the answer of the device to the request. -/
def acceptsOne (version : Nat) (srv : Gid → Except Code Bool) (s : Sig) : Except Code Bool :=
  if version < 4 then .error .tooLow
  else if s.inside then srv s.node.gid
  else .ok true

/-- `acceptsSignals` of the device, cs:546-556. -/
def farMany (srv : Gid → Except Code Bool) : List Gid → Except Code (List Bool)
  | [] => .ok []
  | g :: gs =>
    match srv g with
    | .error e => .error e
    | .ok b =>
      match farMany srv gs with
      | .error e => .error e
      | .ok bs => .ok (b :: bs)

/-- The loop writing the answers of the device over the flags that are not set, ip:249-258; `none`:
an answer is missing. -/
def fill : List Bool → List Bool → Option (List Bool)
  | [], _ => some []
  | true :: fs, as => (fill fs as).map (true :: ·)
  | false :: _, [] => none
  | false :: fs, a :: as => (fill fs as).map (a :: ·)

/-- The loop for versions below 23, ip:205-217: the answer `True` stays when the call fails. -/
def acceptsOld (version : Nat) (srv : Gid → Except Code Bool) : List Sig → List Bool
  | [] => []
  | s :: ss =>
    (match acceptsOne version srv s with
     | .ok b => b
     | .error _ => true) :: acceptsOld version srv ss

/-- `acceptsSignals`, ip:196-266. -/
def acceptsMany (version : Nat) (srv : Gid → Except Code Bool) (ss : List Sig) : Except Code (List Bool) :=
  if version < 23 then .ok (acceptsOld version srv ss)
  else
    let flags := ss.map (fun s => !s.inside)
    let ids := (ss.filter (fun s => s.inside)).map (·.node.gid)
    match farMany srv ids with
    | .error e => .error e
    | .ok as =>
      if as.length + flags.count true = ss.length then
        match fill flags as with
        | some bs => .ok bs
        | none => .error .general
      else .error .general

end Verif.Ext
