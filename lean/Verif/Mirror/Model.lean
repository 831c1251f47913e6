import Verif.Component.IdsModel

/-!
# Streaming sources and the signals of a client

Sources (abbreviations used in the comments below):

* `str` = `core/opendaq/streaming/include/opendaq/streaming_impl.h`
* `mir` = `core/opendaq/streaming/include/opendaq/mirrored_signal_impl.h`
* `sgi` = `core/opendaq/signal/include/opendaq/signal_impl.h`

A client has signals that mirror signals of a device and streaming objects ("sources") from which
the data of those signals can be received.  A source keeps, for every signal added to it, the
number of subscriptions; it sends requests to the server of the device.  A signal has a list of
sources and at most one active source.  The state below holds any number of both.

Signals and sources are numbers.  The connection string of a source is its number.  Identifiers of
signals are texts: the remote id of a signal, and the id under which the server offers a signal
("streaming id"), which must be an ending of the remote id (`IdsParser::idEndsWith`).

Simplifications: calls run one after the other; `streamingSignalsItems` and `availableSignalIds` are
lists in the order of insertion (the code uses hash tables, whose order is not specified);
handlers of a concrete protocol do nothing else than send a request, and a request for one of the
ids in `deny` throws; a signal object is destroyed only after it was removed from the tree, so weak
references to signals are alive; the calls get mirrored signals (no `NOINTERFACE`); input ports and
streaming from client to device are left out; a source whose last reference is released is
destroyed at once; several connections of one signal are a count.
-/

namespace Verif.Mirror
open Verif.Component (Str idEndsWith)

/-- Error codes that matter. `denied` is the error of a request that failed. -/
inductive R where
  | ok | ignored | duplicate | notFound | invalidState | invalidParameter | denied
deriving DecidableEq, Repr

/-- `OPENDAQ_FAILED`: neither success nor ignored. -/
def R.failed : R → Bool
  | .ok | .ignored => false
  | _ => true

/-- What passes between a source and the server: requests of the client, and what the server says
about the signals it offers. `reset` is the loss of the connection. -/
inductive Msg where
  | subscribe (a : Str)
  | unsubscribe (a : Str)
  | offered (a : Str)
  | withdrawn (a : Str)
  | reset
deriving DecidableEq, Repr

/-- An entry of `streamingSignalsItems`: the key, the number of subscriptions and the signal. -/
structure Item where
  key : Str
  cnt : Nat
  sig : Nat
deriving DecidableEq, Repr

/-- `StreamingImpl`. `log` is not in the code: the messages exchanged so far, newest first. -/
structure Src where
  items : List Item := []
  avail : List Str := []
  active : Bool := false
  reconnecting : Bool := false
  skipDomain : Bool := false
  alive : Bool := true
  deny : List Str := []
  log : List Msg := []

/-- `MirroredSignalBase` and what it inherits from `SignalBase` (`conns` connections that are not remote).
`remote`, `pub` are the remote id and whether the signal is public. `got` is not in the code:
the packets the signal sent to its connections, newest first. -/
structure Sig where
  remote : Str
  pub : Bool := true
  domain : Option Nat := none
  sources : List Nat := []
  active : Option Nat := none
  listened : Bool := false
  streamed : Bool := true
  conns : Nat := 0
  removed : Bool := false
  got : List Nat := []

/-- The client: `n` signals and any number of sources. -/
structure W where
  n : Nat
  sig : Nat → Sig
  src : Nat → Src

/-- Replaces one value of a function. -/
def upd {α : Type} (f : Nat → α) (i : Nat) (x : α) : Nat → α := fun j => if j = i then x else f j

/-- The state with one signal replaced. -/
def W.setSig (w : W) (v : Nat) (x : Sig) : W := { w with sig := upd w.sig v x }

/-- The state with one source replaced. -/
def W.setSrc (w : W) (t : Nat) (x : Src) : W := { w with src := upd w.src t x }

/-! ## The source -/

/-- `getSignalStreamingId` (str:829-844): an available id that is an ending of the remote id. -/
def Src.streamingId (s : Src) (remote : Str) : Option Str := s.avail.find? fun a => idEndsWith remote a

/-- The key that every function uses (str:321-328, 393-400, 479-486, 558-564, 662-666): the
streaming id, or the remote id of a signal that is not available. -/
def Src.key (s : Src) (remote : Str) : Str := (s.streamingId remote).getD remote

/-- `streamingSignalsItems.find`. -/
def Src.find (s : Src) (k : Str) : Option Item := s.items.find? fun i => i.key == k

/-- Changes the number of subscriptions of an entry. -/
def Src.setCnt (s : Src) (k : Str) (c : Nat) : Src :=
  { s with items := s.items.map fun i => if i.key == k then { i with cnt := c } else i }

/-- `streamingSignalsItems.erase`. -/
def Src.erase (s : Src) (k : Str) : Src := { s with items := s.items.filter fun i => !(i.key == k) }

/-- Sends a request; it throws when the id is in `deny`. -/
def Src.request (s : Src) (a : Str) (m : Msg) : Src × R :=
  if s.deny.contains a then (s, .denied) else ({ s with log := m :: s.log }, .ok)

/-- `doSubscribeSignal` (str:473-514): the number is raised before the request is sent and stays
raised when the request fails. -/
def Src.doSubscribe (s : Src) (remote : Str) : Src × R :=
  match s.find (s.key remote) with
  | none => (s, .notFound)
  | some i =>
    let s' := s.setCnt i.key (i.cnt + 1)
    if (s.streamingId remote).isNone || i.cnt > 0 then (s', .ok) else s'.request i.key (.subscribe i.key)

/-- `doUnsubscribeSignal` (str:552-603). -/
def Src.doUnsubscribe (s : Src) (remote : Str) : Src × R :=
  match s.find (s.key remote) with
  | none => (s, .notFound)
  | some i =>
    if i.cnt == 0 then (s, .invalidState)
    else
      let s' := s.setCnt i.key (i.cnt - 1)
      if (s.streamingId remote).isNone || i.cnt - 1 > 0 then (s', .ok) else s'.request i.key (.unsubscribe i.key)

/-- `subscribeSignal` (str:517-549): the domain signal first, and it stays subscribed when the signal
itself fails. -/
def Src.subscribe (s : Src) (remote : Str) (dom : Option Str) : Src × R :=
  if some remote = dom then (s, .invalidParameter)
  else match (if s.skipDomain then none else dom) with
    | none => s.doSubscribe remote
    | some d =>
      let r := s.doSubscribe d
      if r.2.failed then r else r.1.doSubscribe remote

/-- `unsubscribeSignal` (str:606-638): the domain signal first; the signal itself is left alone
when that fails. -/
def Src.unsubscribe (s : Src) (remote : Str) (dom : Option Str) : Src × R :=
  if some remote = dom then (s, .invalidParameter)
  else match (if s.skipDomain then none else dom) with
    | none => s.doUnsubscribe remote
    | some d =>
      let r := s.doUnsubscribe d
      if r.2.failed then r else r.1.doUnsubscribe remote

/-- Extracts an entry and inserts it again under another key. An entry that has that key already
stays and the extracted one is lost (`insert` of a node, str:911-913, 934-936). -/
def Src.rekey (s : Src) (old k : Str) (i : Item) : Src :=
  let rest := s.items.filter fun j => !(j.key == old)
  { s with items := if rest.any (fun j => j.key == k) then rest else rest ++ [{ i with key := k }] }

/-- `remapAvailableSignal` (str:888-917). -/
def Src.remapAvailable (s : Src) (a : Str) : Src :=
  match s.items.find? fun i => idEndsWith i.key a with
  | none => s
  | some i => if i.key = a then s else s.rekey i.key a i

/-- `resubscribeAvailableSignal` (str:641-655). -/
def Src.resubscribe (s : Src) (a : Str) : Src × R :=
  match s.find a with
  | none => (s, .ok)
  | some i => if i.cnt > 0 then s.request a (.subscribe a) else (s, .ok)

/-- `addToAvailableSignals` (str:847-865). -/
def Src.offer (s : Src) (a : Str) : Src × R :=
  if s.avail.contains a then (s, .duplicate)
  else (({ s with avail := s.avail ++ [a], log := .offered a :: s.log } : Src).remapAvailable a).resubscribe a

/-- `remapUnavailableSignal` (str:920-941): back to the remote id of the signal. -/
def Src.remapUnavailable (remote : Nat → Str) (s : Src) (a : Str) : Src :=
  match s.find a with
  | none => s
  | some i => if remote i.sig = a then s else s.rekey a (remote i.sig) i

/-- `removeFromAvailableSignals` (str:868-885). -/
def Src.withdraw (remote : Nat → Str) (s : Src) (a : Str) : Src × R :=
  if s.avail.contains a then
    (({ s with avail := s.avail.filter fun b => !(b == a), log := .withdrawn a :: s.log } : Src).remapUnavailable remote a, .ok)
  else (s, .notFound)

/-- `startReconnection` (str:944-952). -/
def Src.lost (remote : Nat → Str) (s : Src) : Src :=
  { s.avail.foldl (Src.remapUnavailable remote) { s with log := .reset :: s.log } with avail := [], reconnecting := true }

/-- `completeReconnection` (str:955-961). -/
def Src.connected (s : Src) : Src × R :=
  if s.reconnecting then ({ s with reconnecting := false }, .ok) else (s, .invalidState)

/-! ## The signal -/

/-- The remote id of a signal. -/
def W.remote (w : W) (v : Nat) : Str := (w.sig v).remote

/-- `activeStreamingSourceRef.getRef()`: the active source unless it is destroyed. -/
def W.activeSrc (w : W) (v : Nat) : Option Nat :=
  match (w.sig v).active with
  | none => none
  | some t => if (w.src t).alive then some t else none

/-- The id of the domain signal given to the source (mir:681-687): none when there is no domain
signal or it was removed. -/
def W.domainRemote (w : W) (v : Nat) : Option Str :=
  match (w.sig v).domain with
  | none => none
  | some d => if (w.sig d).removed then none else some (w.remote d)

/-- `subscribeInternal` (mir:672-694). -/
def W.subscribeInternal (w : W) (v : Nat) : W × R :=
  match w.activeSrc v with
  | none => (w, .ignored)
  | some t =>
    let r := (w.src t).subscribe (w.remote v) (w.domainRemote v)
    (w.setSrc t r.1, r.2)

/-- `unsubscribeInternal` (mir:697-719). -/
def W.unsubscribeInternal (w : W) (v : Nat) : W × R :=
  match w.activeSrc v with
  | none => (w, .ignored)
  | some t =>
    let r := (w.src t).unsubscribe (w.remote v) (w.domainRemote v)
    (w.setSrc t r.1, r.2)

/-- `if (listened && streamed) unsubscribeInternal()`. -/
def W.stop (w : W) (v : Nat) : W × R :=
  if (w.sig v).listened && (w.sig v).streamed then w.unsubscribeInternal v else (w, .ok)

/-- `if (listened && streamed) subscribeInternal()`. -/
def W.start (w : W) (v : Nat) : W × R :=
  if (w.sig v).listened && (w.sig v).streamed then w.subscribeInternal v else (w, .ok)

/-- `addStreamingSource` (mir:255-285). -/
def W.addSource (w : W) (v t : Nat) : W × R :=
  if (w.sig v).sources.contains t then (w, .duplicate)
  else (w.setSig v { w.sig v with sources := (w.sig v).sources ++ [t] }, .ok)

/-- `removeStreamingSource` (mir:288-339): the source is taken off the list first; when the
subscription cannot be undone, it stays the active source. -/
def W.removeSource (w : W) (v t : Nat) : W × R :=
  if (w.sig v).sources.contains t then
    let w1 := w.setSig v { w.sig v with sources := (w.sig v).sources.erase t }
    match (w1.sig v).active with
    | none => (w1, .ok)
    | some u =>
      if (w1.src u).alive = false then (w1.setSig v { w1.sig v with active := none }, .ok)
      else if u = t then
        let r := w1.stop v
        if r.2.failed then r else (r.1.setSig v { r.1.sig v with active := none }, .ok)
      else (w1, .ok)
  else (w, .notFound)

/-- `setActiveStreamingSource` (mir:522-582). -/
def W.setActive (w : W) (v t : Nat) : W × R :=
  if w.activeSrc v = some t then (w, .ignored)
  else if (w.sig v).sources.contains t = false then (w, .notFound)
  else if (w.src t).alive = false then (w, .notFound)
  else
    let r := w.stop v
    if r.2.failed then r
    else
      let w1 := r.1.setSig v { r.1.sig v with active := some t }
      let r2 := w1.start v
      if r2.2.failed then r2 else (r2.1, .ok)

/-- `deactivateStreaming` (mir:600-614): the source is given up even when the request fails. -/
def W.deactivate (w : W) (v : Nat) : W × R :=
  let r := w.stop v
  (r.1.setSig v { r.1.sig v with active := none }, if r.2.failed then r.2 else .ok)

/-- `onListenedStatusChanged` (mir:483-499): the flag is changed first and stays changed when the
request fails; nothing happens when the flag does not change. -/
def W.setListened (w : W) (v : Nat) (b : Bool) : W × R :=
  if (w.sig v).listened = b then (w, .ok)
  else
    let w1 := w.setSig v { w.sig v with listened := b }
    if (w1.sig v).streamed then
      let r := if b then w1.subscribeInternal v else w1.unsubscribeInternal v
      (r.1, if r.2.failed then r.2 else .ok)
    else (w1, .ok)

/-- `setStreamed` (mir:732-755). -/
def W.setStreamed (w : W) (v : Nat) (b : Bool) : W × R :=
  if (w.sig v).streamed = b then (w, .ignored)
  else
    let w1 := w.setSig v { w.sig v with streamed := b }
    if (w1.sig v).listened then
      let r := if b then w1.subscribeInternal v else w1.unsubscribeInternal v
      (r.1, if r.2.failed then r.2 else .ok)
    else (w1, .ok)

/-- `listenerConnectedInternal` for a new connection (sgi:866-904): the first connection makes the
signal a listened one; when that fails there is no connection. -/
def W.connect (w : W) (v : Nat) : W × R :=
  let r := if (w.sig v).conns = 0 then w.setListened v true else (w, .ok)
  if r.2.failed then r
  else (r.1.setSig v { r.1.sig v with conns := (r.1.sig v).conns + 1 }, .ok)

/-- `listenerDisconnected` for a connection of the signal (sgi:996-1027). -/
def W.disconnect (w : W) (v : Nat) : W × R :=
  if (w.sig v).conns = 0 then (w, .notFound)
  else
    let w1 := w.setSig v { w.sig v with conns := (w.sig v).conns - 1 }
    if (w1.sig v).conns = 0 then w1.setListened v false else (w1, .ok)

/-- `detachRemovedSignal` (str:658-685) of every source of the list that is not destroyed
(mir:198-202). -/
def W.detachAll (w : W) (v : Nat) : List Nat → W
  | [] => w
  | t :: ts =>
    let s := w.src t
    (if s.alive then w.setSrc t (s.erase (s.key (w.remote v))) else w).detachAll v ts

/-- Removal of a signal from the tree (`removed`, mir:184-206, and sgi:1190-1209): the connections are dropped
without a change of `listened`. A second removal is ignored. -/
def W.remove (w : W) (v : Nat) : W × R :=
  if (w.sig v).removed then (w, .ignored)
  else
    let w0 := w.setSig v { w.sig v with removed := true }
    let w1 := (w0.stop v).1
    let w2 := w1.setSig v { w1.sig v with active := none }
    let w3 := w2.detachAll v (w2.sig v).sources
    (w3.setSig v { w3.sig v with sources := [], conns := 0 }, .ok)

/-! ## Calls of the source that touch signals -/

/-- `addSignals` (str:298-363): private signals are skipped, the first error ends the call. -/
def W.addSignals (w : W) (t : Nat) : List Nat → W × R
  | [] => (w, .ok)
  | v :: vs =>
    if (w.sig v).pub then
      let s := w.src t
      let k := s.key (w.remote v)
      match s.find k with
      | some _ => (w, .duplicate)
      | none =>
        let r := (w.setSrc t { s with items := s.items ++ [⟨k, 0, v⟩] }).addSource v t
        if r.2.failed then r else r.1.addSignals t vs
    else w.addSignals t vs

/-- `removeSignals` (str:366-429). -/
def W.removeSignals (w : W) (t : Nat) : List Nat → W × R
  | [] => (w, .ok)
  | v :: vs =>
    let r := w.removeSource v t
    if r.2.failed then r
    else
      let s := r.1.src t
      match s.find (s.key (r.1.remote v)) with
      | none => (r.1, .notFound)
      | some i => (r.1.setSrc t (s.erase i.key)).removeSignals t vs

/-- `removeStreamingSourceForAllSignals` (str:702-726). -/
def W.removeFromAll (w : W) (t : Nat) : List Nat → W × R
  | [] => (w, .ok)
  | v :: vs =>
    let r := w.removeSource v t
    if r.2.failed then r else r.1.removeFromAll t vs

/-- `removeAllSignals` (str:432-450). -/
def W.removeAll (w : W) (t : Nat) : W × R :=
  let r := w.removeFromAll t ((w.src t).items.map (·.sig))
  if r.2.failed then r else (r.1.setSrc t { r.1.src t with items := [] }, .ok)

/-- The destructor (str:241-253): weak references to the source are already dead, the entries go in any
case. -/
def W.destroy (w : W) (t : Nat) : W × R :=
  let w1 := w.setSrc t { w.src t with alive := false }
  let r := w1.removeFromAll t ((w1.src t).items.map (·.sig))
  (r.1.setSrc t { r.1.src t with items := [] }, .ok)

/-- `onPacket` with a data packet (str:735-760): the signal that sent it on, if any. -/
def W.receiver (w : W) (t : Nat) (a : Str) : Option Nat :=
  if (w.src t).active then
    match (w.src t).find a with
    | none => none
    | some i => if (w.sig i.sig).streamed && w.activeSrc i.sig = some t then some i.sig else none
  else none

/-! ## Histories -/

/-- What can happen in a client. -/
inductive Op where
  | addSignals (t : Nat) (vs : List Nat)
  | removeSignals (t : Nat) (vs : List Nat)
  | removeAll (t : Nat)
  | destroy (t : Nat)
  | setSourceActive (t : Nat) (b : Bool)
  | setActive (v t : Nat)
  | deactivate (v : Nat)
  | setStreamed (v : Nat) (b : Bool)
  | connect (v : Nat)
  | disconnect (v : Nat)
  /-- the domain signal of a signal changes (the client follows the device) -/
  | setDomain (v : Nat) (d : Option Nat)
  | remove (v : Nat)
  | offer (t : Nat) (a : Str)
  | withdraw (t : Nat) (a : Str)
  | lost (t : Nat)
  | connected (t : Nat)
  | packet (t : Nat) (a : Str) (x : Nat)
  /-- from now on requests for these ids fail -/
  | deny (t : Nat) (l : List Str)
deriving DecidableEq, Repr

/-- One call. Calls of a source that is destroyed do not exist: they are ignored. -/
def step (w : W) : Op → W × R
  | .addSignals t vs => if (w.src t).alive then w.addSignals t vs else (w, .ignored)
  | .removeSignals t vs => if (w.src t).alive then w.removeSignals t vs else (w, .ignored)
  | .removeAll t => if (w.src t).alive then w.removeAll t else (w, .ignored)
  | .destroy t => if (w.src t).alive then w.destroy t else (w, .ignored)
  | .setSourceActive t b => (w.setSrc t { w.src t with active := b }, .ok)
  | .setActive v t => w.setActive v t
  | .deactivate v => w.deactivate v
  | .setStreamed v b => w.setStreamed v b
  | .connect v => w.connect v
  | .disconnect v => w.disconnect v
  | .setDomain v d => (w.setSig v { w.sig v with domain := d }, .ok)
  | .remove v => w.remove v
  | .offer t a =>
    if (w.src t).alive then let r := (w.src t).offer a; (w.setSrc t r.1, r.2) else (w, .ignored)
  | .withdraw t a =>
    if (w.src t).alive then let r := (w.src t).withdraw w.remote a; (w.setSrc t r.1, r.2) else (w, .ignored)
  | .lost t => if (w.src t).alive then (w.setSrc t ((w.src t).lost w.remote), .ok) else (w, .ignored)
  | .connected t =>
    if (w.src t).alive then let r := (w.src t).connected; (w.setSrc t r.1, r.2) else (w, .ignored)
  | .packet t a x =>
    if (w.src t).alive then
      match w.receiver t a with
      | none => (w, .ignored)
      | some v => (w.setSig v { w.sig v with got := x :: (w.sig v).got }, .ok)
    else (w, .ignored)
  | .deny t l => (w.setSrc t { w.src t with deny := l }, .ok)

/-- The state after a history. -/
def run (w : W) : List Op → W
  | [] => w
  | o :: os => run (step w o).1 os

end Verif.Mirror
