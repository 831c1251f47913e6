/-!
# Model of signals, input ports and the connections between them

`sig` = /repo/core/opendaq/signal/include/opendaq/signal_impl.h
`port` = /repo/core/opendaq/signal/include/opendaq/input_port_impl.h
`lvc` = /repo/core/opendaq/signal/include/opendaq/last_value_cache.h
`dp` = /repo/core/opendaq/signal/include/opendaq/data_packet_impl.h
`ut` = /repo/core/opendaq/signal/include/opendaq/event_packet_utils.h
`comp` = /repo/core/opendaq/component/include/opendaq/component_impl.h

Signals, ports and connections are numbered. What a connection does with the packets added to it is the subject of
`Verif.Connection`; here it is the list of the packets added to it.

Simplifications:
* calls are atomic, listeners do not call back, adding a packet to a connection does not fail;
* signals are not destroyed without being removed; data descriptors are numbers, and equal when the numbers are;
* whether a connection would close a cycle (`Verif.Signal`) and whether the listener agrees are part of the call;
* a signal is active or not (`Verif.Component` has the rules); attributes are not locked; related signals, timestamps, core events
  of signals and the type manager are left out;
* erasing a connection that is not in the list, an error in the code, does nothing (it does not happen, see `C66_agree`);
* samples have at least one byte.
-/

namespace Verif.Link

/-- The descriptor object of a data packet: its identity, the size of a sample, the size of a sample before scaling, and whether there is a
scaling, or samples of any length. -/
structure DescObj where
  id : Nat
  size : Nat
  raw : Nat
  scaled : Bool
  var : Bool
  deriving DecidableEq, Repr

inductive Pkt where
  /-- `DATA_DESCRIPTOR_CHANGED` with the descriptors; `none`: not changed; 0 is the `NullDataDescriptor` (ut:44-47). -/
  | event (val dom : Option Nat)
  /-- A data packet with `n` samples and `bytes` bytes of raw data. -/
  | data (id n : Nat) (desc : Option DescObj) (bytes : Nat)
  deriving DecidableEq, Repr

/-- The last value: the `i`-th sample of a packet, or a value that was set. -/
inductive Last where
  | sample (id i : Nat)
  | value (v : Nat)
  deriving DecidableEq, Repr

/-- `SignalBase` with its `LastValueCache`; `bufDesc` and `buf` are the descriptor and the size of the buffer for the last value.
`listened` is what `onListenedStatusChanged` was told last. -/
structure Sig where
  desc : Option Nat := none
  domain : Option Nat := none
  refs : List Nat := []
  conns : List Nat := []
  remote : List Nat := []
  active : Bool := true
  isPublic : Bool := true
  keep : Bool := true
  removed : Bool := false
  last : Option Last := none
  bufDesc : Option DescObj := none
  buf : Nat := 0
  listened : Bool := false
  deriving DecidableEq, Repr

structure Conn where
  sig : Nat := 0
  port : Nat := 0
  isRemote : Bool := false
  log : List Pkt := []
  deriving DecidableEq, Repr

/-- Core events of a port. -/
inductive Core where
  | connected (s : Nat)
  | disconnected
  deriving DecidableEq, Repr

/-- `GenericInputPortImpl`; `notes` are the calls of `connected` (`true`) and `disconnected` of the listener. -/
structure Port where
  conn : Option Nat := none
  removed : Bool := false
  listener : Bool := false
  notes : List Bool := []
  core : List Core := []
  deriving DecidableEq, Repr

structure W where
  sigs : Nat → Sig
  ports : Nat → Port
  conns : Nat → Conn
  /-- the number of the next connection -/
  next : Nat

def upd {α : Type} (f : Nat → α) (i : Nat) (g : α → α) : Nat → α := fun j => if j = i then g (f j) else f j

def W.sig (w : W) (s : Nat) (g : Sig → Sig) : W := { w with sigs := upd w.sigs s g }
def W.port (w : W) (p : Nat) (g : Port → Port) : W := { w with ports := upd w.ports p g }

/-- `enqueue` of a connection. -/
def W.enqueue (w : W) (c : Nat) (ps : List Pkt) : W := { w with conns := upd w.conns c fun x => { x with log := x.log ++ ps } }

/-- `enqueuePacketToConnections` (sig:688-707), `enqueuePacketsToConnections` (sig:710-733), the loop of `sendPacketInternal`
(sig:923-952). -/
def W.deliver (w : W) (cs : List Nat) (ps : List Pkt) : W := cs.foldl (fun w c => w.enqueue c ps) w

/-- `descriptorToEventPacketParam` (ut:44-47). -/
def param (d : Option Nat) : Option Nat := some (d.getD 0)

inductive Err where
  | invalidSampleType | invalidState | cyclic | refused | removed | duplicate
  deriving DecidableEq, Repr

inductive Res where
  | ok
  | ignored
  | err (e : Err)
  /-- memory behind the buffer of the last value is written -/
  | overflow
  | value (v : Last)
  deriving DecidableEq, Repr

/-- `setLastValueFromPacket` with null: `cacheValue` and `cacheTimestamp` reset the cache (sig:1339-1342, lvc:190-220). -/
def Sig.reset (s : Sig) : Sig := { s with last := none, bufDesc := none, buf := 0 }

/-- `setKeepLastPacket` (sig:1269-1277). -/
def Sig.setKeep (s : Sig) : Sig := if s.keep && s.isPublic then s else s.reset

/-- `cacheValue` (lvc:190-220) with `getRawLastValue` (dp:721-759); `none`: more is copied than the buffer holds. -/
def Sig.cache (s : Sig) (id n : Nat) (desc : Option DescObj) (bytes : Nat) : Option Sig :=
  match desc with
  | none => some s.reset
  | some d =>
    let changed := s.bufDesc != some d
    let size := if changed || d.var then (if d.var then bytes else d.size) else s.buf
    let copied := if d.var then bytes else if d.scaled then d.raw else d.size
    if copied ≤ size then some { s with last := some (.sample id (n - 1)), bufDesc := some d, buf := size } else none

/-- `checkKeepLastPacket` (sig:675-685). -/
def Sig.check (s : Sig) : Pkt → Option Sig
  | .event _ _ => some s
  | .data id n d b => if s.keep && s.isPublic && n != 0 then s.cache id n d b else some s

/-- `keepLastPacketAndEnqueue` (sig:737-770). -/
def W.send (w : W) (s : Nat) (p : Pkt) : W × Res :=
  if !(w.sigs s).active then (w, .ignored)
  else match (w.sigs s).check p with
    | none => (w, .overflow)
    | some x => ((w.sig s fun _ => x).deliver (w.sigs s).conns [p], .ok)

/-- `keepLastPacketAndEnqueueMultiple` (sig:774-794). -/
def W.sendMany (w : W) (s : Nat) (ps : List Pkt) : W × Res :=
  match ps.getLast? with
  | none => (w, .ignored)
  | some p =>
    if !(w.sigs s).active then (w, .ignored)
    else match (w.sigs s).check p with
      | none => (w, .overflow)
      | some x => ((w.sig s fun _ => x).deliver (w.sigs s).conns ps, .ok)

/-- `setDescriptor` (sig:391-464). -/
def W.setDescriptor (w : W) (s : Nat) (d : Option Nat) : W × Res :=
  if d = some 0 then (w, .err .invalidSampleType)
  else if d = (w.sigs s).desc then (w, .ignored)
  else
    let w1 := (w.sig s fun x => { x with desc := d }).deliver (w.sigs s).conns [.event (param d) none]
    (w.sigs s).refs.foldl (fun a v =>
      let y := a.1.send v (.event none (param d))
      (y.1, if y.2 = .ok then a.2 else .ignored)) (w1, .ok)

/-- The domain of a signal is no longer its domain: `domainSignalReferenceRemoved` (sig:1050-1069). -/
def W.leave (w : W) (s : Nat) : W := match (w.sigs s).domain with
  | some o => w.sig o fun x => { x with refs := x.refs.erase s }
  | none => w

/-- `setDomainSignal` (sig:482-522) with `domainSignalReferenceSet` (sig:1030-1047). -/
def W.setDomain (w : W) (s : Nat) (d : Option Nat) : W × Res :=
  if d = (w.sigs s).domain then (w, .ignored)
  else
    let w := (w.leave s).sig s fun x => { x with domain := d }
    match d with
    | none => (w, .ok)
    | some d => if (w.sigs d).refs.contains s then (w, .err .duplicate)
      else (w.sig d fun x => { x with refs := x.refs ++ [s] }, .ok)

/-- `listenerDisconnected` (sig:996-1027). -/
def W.unlisten (w : W) (c : Nat) : W :=
  w.sig (w.conns c).sig fun x =>
    if (w.conns c).isRemote then { x with remote := x.remote.erase c }
    else { x with conns := x.conns.erase c, listened := if (x.conns.erase c).isEmpty then false else x.listened }

/-- `createDataDescriptorChangedEventPacket` (sig:288-298). -/
def W.announce (w : W) (s : Nat) : Pkt :=
  .event (param (w.sigs s).desc) (param (match (w.sigs s).domain with | some d => (w.sigs d).desc | none => none))

/-- `listenerConnectedInternal` (sig:866-904) for a new connection. -/
def W.listen (w : W) (c : Nat) : W :=
  let s := (w.conns c).sig
  if (w.conns c).isRemote then w.sig s fun x => { x with remote := x.remote ++ [c] }
  else (w.sig s fun x => { x with conns := x.conns ++ [c], listened := if x.conns.isEmpty then true else x.listened }).enqueue c
    [w.announce s]

/-- `disconnectSignalInternal` (port:246-281) of the connection the port had; it is no longer the connection of the port. -/
def W.drop (w : W) (p : Nat) (notifyListener notifySignal core : Bool) : W :=
  match (w.ports p).conn with
  | none => w
  | some c =>
    let w := w.port p fun x => { x with conn := none }
    let w := if notifySignal then w.unlisten c else w
    w.port p fun x => { x with
      notes := if notifyListener && x.listener then x.notes ++ [false] else x.notes,
      core := if core && !x.removed then x.core ++ [.disconnected] else x.core }

/-- `connectInternal` (port:656-725), `canConnectSignal` (port:222-237); `cyclic`: the connection would close a cycle, `accept`:
what the listener says to `connected`. -/
def W.connect (w : W) (p s : Nat) (remote cyclic accept : Bool) : W × Res :=
  if (w.sigs s).removed then (w, .err .invalidState)
  else if cyclic then (w, .err .cyclic)
  else if (w.ports p).removed then (w, .err .invalidState)
  else
    let w := w.drop p false true false
    let c := w.next
    let w := { w with conns := upd w.conns c fun _ => { sig := s, port := p, isRemote := remote, log := [] }, next := c + 1 }
    let w := w.port p fun x => { x with conn := some c, notes := if x.listener then x.notes ++ [true] else x.notes }
    if (w.ports p).listener && !accept then (w.port p fun x => { x with conn := none }, .err .refused)
    else ((w.listen c).port p fun x => { x with core := x.core ++ [.connected s] }, .ok)

/-- `remove` of a signal (comp:930-952; sig:1170-1209). -/
def W.removeSig (w : W) (s : Nat) : W × Res :=
  if (w.sigs s).removed then (w, .ignored)
  else
    let x := w.sigs s
    let w := (x.conns ++ x.remote).foldl (fun w c => w.drop (w.conns c).port true false true) w
    let w := x.refs.foldl (fun w v => w.sig v fun y => { y with domain := none }) w
    (w.sig s fun y => { y with removed := true, active := false, conns := [], remote := [], refs := [] }, .ok)

/-- `remove` of a port (comp:930-952; port:575-597). -/
def W.removePort (w : W) (p : Nat) : W × Res :=
  if (w.ports p).removed then (w, .ignored)
  else ((w.port p fun x => { x with removed := true }).drop p false true false, .ok)

inductive Op where
  | setDescriptor (s : Nat) (d : Option Nat)
  | setDomain (s : Nat) (d : Option Nat)
  | send (s : Nat) (p : Pkt)
  | sendMany (s : Nat) (ps : List Pkt)
  | setActive (s : Nat) (b : Bool)
  | setPublic (s : Nat) (b : Bool)
  | keepLast (s : Nat) (b : Bool)
  | setLast (s : Nat) (v : Option Nat)
  | getLast (s : Nat)
  | connect (p s : Nat) (remote cyclic accept : Bool)
  | disconnect (p : Nat)
  | removeSig (s : Nat)
  | removePort (p : Nat)
  deriving DecidableEq, Repr

def step (w : W) : Op → W × Res
  | .setDescriptor s d => w.setDescriptor s d
  | .setDomain s d => w.setDomain s d
  | .send s p => w.send s p
  | .sendMany s ps => w.sendMany s ps
  /- `setActive` (comp:350-407) -/
  | .setActive s b => if (w.sigs s).removed then (w, .err .removed)
    else if (w.sigs s).active = b then (w, .ignored) else (w.sig s fun x => { x with active := b }, .ok)
  /- `setPublic` (sig:237-270) -/
  | .setPublic s b => (w.sig s fun x => { x with isPublic := b }.setKeep, .ok)
  /- `enableKeepLastValue` (sig:1259-1266) -/
  | .keepLast s b => (w.sig s fun x => { x with keep := b }.setKeep, .ok)
  /- `setLastValue` (sig:856-863) -/
  | .setLast s v => (w.sig s fun x => { x.reset with last := v.map .value }, .ok)
  /- `getLastValueImpl` (sig:1345-1366) -/
  | .getLast s => (w, match (w.sigs s).last with | some v => .value v | none => .ignored)
  | .connect p s r c a => w.connect p s r c a
  /- `disconnect` (port:284-300) -/
  | .disconnect p => (w.drop p true true true, .ok)
  | .removeSig s => w.removeSig s
  | .removePort p => w.removePort p

def run : W → List Op → W × List Res
  | w, [] => (w, [])
  | w, op :: ops => ((run (step w op).1 ops).1, (step w op).2 :: (run (step w op).1 ops).2)

/-- At the start nothing is connected, and no signal is the domain of another; `listener` says which ports have a listener. -/
def start (desc : Nat → Option Nat) (listener : Nat → Bool) : W :=
  { sigs := fun s => { desc := desc s }, ports := fun p => { listener := listener p }, conns := fun _ => {}, next := 0 }

end Verif.Link
