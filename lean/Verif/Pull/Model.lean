import Mathlib.Data.List.Basic

/-!
# Reading packets one by one

A packet reader listens at an input port and hands out the packets of the connection of the port.  One
port, the packet reader that listens at it, the signal connected to it and one external listener are
modelled.  A data packet carries its descriptor and a number; the descriptor of the domain, gaps and
notifications by an empty queue are left out.

* `pr` = `core/opendaq/reader/src/packet_reader_impl.cpp`
* `ip` = `core/opendaq/signal/include/opendaq/input_port_impl.h`
* `cn` = `core/opendaq/signal/src/connection_impl.cpp`
* `sg` = `core/opendaq/signal/include/opendaq/signal_impl.h`
-/

namespace Verif.Pull

/-- A packet: a change of the descriptor, or data described by a descriptor. -/
inductive Pkt
  | desc (d : Nat)
  | data (d n : Nat)
  deriving DecidableEq, Repr

/-- A connection: the packets not yet taken and the descriptor announced last (cn:710-738). -/
structure Conn where
  queue : List Pkt
  last : Option Nat
  deriving DecidableEq, Repr

/-- What the procedure of a client does when data is available: it reads that many packets, or all of
them, and may then fail. -/
structure Callback where
  takes : Option Nat
  fails : Bool
  deriving DecidableEq, Repr

/-- What the external listener is told. -/
inductive Notice
  | connected | disconnected | packet
  deriving DecidableEq, Repr

/-- The external listener: whether it refuses connections (pr:142-153). -/
structure Ext where
  refuses : Bool
  deriving DecidableEq, Repr

/-- The reader, its port and its signal.  `held` is the connection of the reader, `live` says that the
port and the signal know it too; `pending` counts notifications that wait in the scheduler; `got` are
the packets the client has received, also in its callback. -/
structure State where
  held : Option Conn
  live : Bool
  active : Bool
  desc : Nat
  sched : Bool
  pending : Nat
  callback : Option Callback
  ext : Option Ext
  got : List Pkt
  calls : Nat
  told : List Notice
  deriving DecidableEq, Repr

/-- A reader at a port without signal. -/
def init : State := ⟨none, false, true, 0, false, 0, none, none, [], 0, []⟩

/-- The packets waiting for the reader. -/
def State.waiting (s : State) : List Pkt :=
  match s.held with
  | none => []
  | some c => c.queue

/-- The first packets are taken off the connection and given to the client (cn:226-247). -/
def State.take (s : State) (n : Option Nat) : State :=
  match s.held with
  | none => s
  | some c =>
    match n with
    | none => { s with held := some { c with queue := [] }, got := s.got ++ c.queue }
    | some n => { s with held := some { c with queue := c.queue.drop n }, got := s.got ++ c.queue.take n }

/-- The external listener is told something, if there is one. -/
def State.tell (s : State) (n : Notice) : State :=
  match s.ext with
  | none => s
  | some _ => { s with told := s.told ++ [n] }

/-- `packetReceived` (pr:171-189): after an error of the callback the external listener is not told. The
error is logged by the port (ip:361-379). -/
def State.received (s : State) : State :=
  match s.callback with
  | none => s.tell .packet
  | some c =>
    let t := { s.take c.takes with calls := s.calls + 1 }
    if c.fails then t else t.tell .packet

/-- A packet is put into the queue (cn:34-66): a port that is not active takes events only. -/
def State.put (s : State) (p : Pkt) : State :=
  match s.held with
  | none => s
  | some c =>
    match p with
    | .desc d => { s with held := some ⟨c.queue ++ [p], some d⟩ }
    | .data _ _ => { s with held := some ⟨c.queue ++ [p], c.last⟩ }

/-- `notifyPacketEnqueued` (ip:389-421). -/
def State.notify (s : State) : State :=
  if s.sched then { s with pending := s.pending + 1 } else s.received

/-- A packet of the signal arrives (cn:69-76). -/
def State.arrive (s : State) (p : Pkt) : State :=
  if !s.live then s
  else match p with
    | .desc _ => (s.put p).notify
    | .data _ _ => if s.active then (s.put p).notify else s

/-- What a call answers. -/
inductive Out
  | none
  | refused
  | noMore
  | nothing
  | packet (p : Pkt)
  | packets (ps : List Pkt)
  | count (n : Nat)
  | empty (b : Bool)
  deriving DecidableEq, Repr

/-- `connect` at the port (ip:655-720, pr:142-153, sg:866-904): the connection before is dropped, the
reader takes the new one, and the signal announces its descriptor on the thread of the call.  When the
external listener refuses, the port forgets the connection again. -/
def State.connect (s : State) (d : Nat) : State × Out :=
  let t := { s with held := some ⟨[], Option.none⟩, live := false, desc := d }
  match s.ext with
  | some e =>
    if e.refuses then (t.tell .connected, .refused)
    else (({ t with live := true }.tell .connected).put (.desc d) |>.received, .none)
  | Option.none => (({ t with live := true }).put (.desc d) |>.received, .none)

/-- `disconnect` at the port (ip:283-300, ip:245-279, pr:155-169). -/
def State.disconnect (s : State) : State :=
  if s.live then ({ s with held := none, live := false }).tell .disconnected else s

/-- Another reader is made from the port while the one before is dropped (pr:31-53, ip:464-500,
cn:764-776): the descriptor announced last is put in front of the waiting packets. -/
def State.takeOver (s : State) (scheduler : Bool) : State :=
  let h := if s.live then
      match s.held with
      | none => none
      | some c =>
        match c.last with
        | none => some c
        | some d => some { c with queue := .desc d :: c.queue }
    else none
  { s with held := h, sched := scheduler, pending := 0, callback := none, ext := none }

/-- `read` (pr:93-104). -/
def State.read (s : State) : State × Out :=
  match s.held with
  | Option.none => (s, .nothing)
  | some c =>
    match c.queue with
    | [] => (s, .noMore)
    | p :: _ => (s.take (some 1), .packet p)

/-- `readAll` (pr:106-129). -/
def State.readAll (s : State) : State × Out :=
  match s.held with
  | Option.none => (s, .packets [])
  | some c => (s.take (some c.queue.length), .packets (c.queue.take c.queue.length))

/-- The calls of the client, the acts of the signal, and the work of the scheduler. -/
inductive Op
  | connect (d : Nat)
  | disconnect
  | send (n : Nat)
  | setDesc (d : Nat)
  | setActive (b : Bool)
  | takeOver (scheduler : Bool)
  | setCallback (c : Option Callback)
  | setExt (e : Option Ext)
  | work
  | read
  | readAll
  | available
  | isEmpty
  deriving DecidableEq, Repr

/-- One act. `setOnDataAvailable` and `setExternalListener` (pr:79-91); `getAvailableCount` (pr:61-68);
`getEmpty` (pr:70-77); work of the scheduler (ip:478-494). -/
def State.step (s : State) : Op → State × Out
  | .connect d => s.connect d
  | .disconnect => (s.disconnect, .none)
  | .send n => (s.arrive (.data s.desc n), .none)
  | .setDesc d => (({ s with desc := d }).arrive (.desc d), .none)
  | .setActive b => ({ s with active := b }, .none)
  | .takeOver b => (s.takeOver b, .none)
  | .setCallback c => ({ s with callback := c }, .none)
  | .setExt e => ({ s with ext := e }, .none)
  | .work => (if s.pending = 0 then s else ({ s with pending := s.pending - 1 }).received, .none)
  | .read => s.read
  | .readAll => s.readAll
  | .available =>
    (s, .count (match s.held with | Option.none => 0 | some c => c.queue.length))
  | .isEmpty =>
    (s, .empty (match s.held with | Option.none => true | some c => c.queue.length = 0))

/-- Many acts. -/
def run : State → List Op → State
  | s, [] => s
  | s, op :: ops => run (s.step op).1 ops

end Verif.Pull
