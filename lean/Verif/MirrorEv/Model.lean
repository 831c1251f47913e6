import Verif.Common

/-!
# Descriptor events of the signals of a client

Sources (abbreviations used in the comments below):

* `mir` = `core/opendaq/streaming/include/opendaq/mirrored_signal_impl.h`
* `str` = `core/opendaq/streaming/include/opendaq/streaming_impl.h`
* `sgi` = `core/opendaq/signal/include/opendaq/signal_impl.h`
* `epu` = `core/opendaq/signal/include/opendaq/event_packet_utils.h`

A mirrored signal keeps the descriptor of its values and the one of its domain as the server told them.  Events of the
server that tell nothing new are not passed on to the connections; a connection that is made is told what the signal knows.

Descriptors are numbers, `none` is a missing descriptor.  Simplifications: only descriptor events; the descriptors that the
component has in the configuration are an argument of the connection; calls run one after the other.
-/

namespace Verif.MirrorEv

abbrev Desc := Option Nat

/-- What one connection was told last: the descriptor of the values and the one of the domain. -/
structure Told where
  val : Desc
  dom : Desc
deriving DecidableEq, Repr

/-- `mirroredDataDescriptor`, `mirroredDomainDataDescriptor`, `mirroredDomainSignal`, what `onGetDomainSignal` returns, and the
connections. -/
structure Sig where
  val : Desc := none
  dom : Desc := none
  mirDomain : Option Nat := none
  domain : Option Nat := none
  told : List Told := []
deriving DecidableEq, Repr

abbrev W := Nat → Sig

/-- The state with one signal replaced. -/
def W.set (w : W) (v : Nat) (x : Sig) : W := fun u => if u = v then x else w u

/-- A descriptor event: for each of the two descriptors nothing, or the new one. A new descriptor that is missing travels as
`NullDataDescriptor` (`descriptorToEventPacketParam`, `parseDataDescriptorEventPacket`, epu:25-47). -/
structure Event where
  val : Option Desc
  dom : Option Desc
deriving DecidableEq, Repr

/-- The event that a value signal triggers at its domain signal (mir:156-157): the descriptor is not passed through
`descriptorToEventPacketParam`, so a missing one tells nothing. -/
def forDomain (d : Desc) : Event := ⟨d.map some, none⟩

/-- The part of `onTriggerEvent` for the values (mir:146-150). -/
def Sig.applyVal (s : Sig) (e : Event) : Sig × Bool :=
  match e.val with
  | none => (s, false)
  | some x => if x = s.val then (s, false) else ({ s with val := x }, true)

/-- `onTriggerEvent` (mir:130-168). Whether the domain signal would pass its event on is ignored. The event of the domain signal has
no domain part, so it goes no further. -/
def trigger (w : W) (v : Nat) (e : Event) : W × Bool :=
  let r := (w v).applyVal e
  let w1 := w.set v r.1
  match e.dom with
  | none => (w1, r.2)
  | some y =>
    if y = (w1 v).dom then (w1, r.2)
    else
      let w2 := w1.set v { w1 v with dom := y }
      match (w2 v).mirDomain with
      | none => (w2, true)
      | some d => (w2.set d ((w2 d).applyVal (forDomain y)).1, true)

/-- What a connection makes of an event. -/
def Told.apply (t : Told) (e : Event) : Told := ⟨e.val.getD t.val, e.dom.getD t.dom⟩

/-- `handleEventPacket` (str:763-768): the event is passed on when it was news. -/
def event (w : W) (v : Nat) (e : Event) : W :=
  let r := trigger w v e
  if r.2 then r.1.set v { r.1 v with told := (r.1 v).told.map (·.apply e) } else r.1

/-- `createDataDescriptorChangedEventPacket` (mir:635-669); `cv` and `cd` are the descriptors of the signal and of its domain
signal in the configuration (sgi:288-298). -/
def learn (w : W) (v : Nat) (cv cd : Desc) : W :=
  if (w v).val = none then
    let w1 := w.set v { w v with val := cv }
    if (w1 v).dom = none then
      let w2 := w1.set v { w1 v with dom := cd }
      match (w2 v).mirDomain with
      | some d => w2.set d { w2 d with val := cd }
      | none =>
        match (w2 v).domain with
        | some d => w2.set d { w2 d with val := cd }
        | none => w2
    else w1
  else w

/-- A new connection (sgi:888-902): it is told what the signal knows now. -/
def connect (w : W) (v : Nat) (cv cd : Desc) : W :=
  let w1 := learn w v cv cd
  w1.set v { w1 v with told := (w1 v).told ++ [⟨(w1 v).val, (w1 v).dom⟩] }

inductive Op where
  /-- the server sends an event of a signal -/
  | event (v : Nat) (e : Event)
  | connect (v : Nat) (cv cd : Desc)
  /-- one of the connections of the signal goes -/
  | disconnect (v k : Nat)
deriving DecidableEq, Repr

def step (w : W) : Op → W
  | .event v e => event w v e
  | .connect v cv cd => connect w v cv cd
  | .disconnect v k => w.set v { w v with told := (w v).told.eraseIdx k }

def run (w : W) : List Op → W
  | [] => w
  | o :: os => run (step w o) os

end Verif.MirrorEv
