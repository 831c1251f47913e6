import Verif.Common
import Verif.Connection.Model

/-!
# Specification vocabulary for connections

Everything here is stated on the recorded history of calls (what was called and what it returned)
and on plain packet lists; none of it uses the connection's internal counters or flags.
-/

namespace Verif.Connection

/-- A history: each call with what it returned. -/
abbrev Trace := List (Op × Out)

/-- State and history after running `ops` on a new connection. -/
def exec (gapChecking : Bool) (ops : List Op) : State × Trace := runTrace step (init gapChecking) ops

/-- Packets the connection accepted in one call. -/
def acceptedBy : Op × Out → List Packet
  | (.enqueue _ p, o) => if o.ret = .success then [p] else []
  | (.enqueueMultiple ps, o) => if o.ret = .success then ps else []
  | _ => []

/-- Packets accepted from the producer so far, in order. -/
def accepted (t : Trace) : List Packet := t.flatMap acceptedBy

/-- Packets handed to the consumer so far, in order. -/
def delivered (t : Trace) : List Packet := t.flatMap (fun x => x.2.packets)

/-- Packets accepted one by one (these are the ones subject to the gap check). -/
def checkedBy : Op × Out → List Packet
  | (.enqueue _ p, o) => if o.ret = .success then [p] else []
  | _ => []

def checked (t : Trace) : List Packet := t.flatMap checkedBy

def IsData (p : Packet) : Prop := ∃ i n d, p = .data i n d
def IsEvent (p : Packet) : Prop := ∃ i k, p = .event i k
def IsDescriptorChange (p : Packet) : Prop := ∃ i v d, p = .event i (.descChanged v d)
def IsGap (p : Packet) : Prop := ∃ i d, p = .event i (.gap d)

/-- Samples carried by a packet. -/
def samplesOf : Packet → Nat
  | .data _ n _ => n
  | .event _ _ => 0
  | .none _ => 0

/-- Samples carried by a list of packets. -/
def totalSamples (ps : List Packet) : Nat := (ps.map samplesOf).sum

/-- `n` is the number of samples in `ps` before its first packet satisfying `Q`
(all of them if there is none). -/
def SamplesBeforeFirst (Q : Packet → Prop) (ps : List Packet) (n : Nat) : Prop :=
  (∃ pre q post, ps = pre ++ q :: post ∧ (∀ p ∈ pre, ¬ Q p) ∧ Q q ∧ n = totalSamples pre) ∨
    ((∀ p ∈ ps, ¬ Q p) ∧ n = totalSamples ps)

/-- The new domain descriptor announced by a packet, if it announces one
(`some none`: the domain signal was removed). -/
def domainChange : Packet → Option (Option DomDesc)
  | .event _ (.descChanged _ d) => d
  | _ => none

def domainOf : Packet → Option DomPacket
  | .data _ _ d => d
  | _ => none

/-- The domain descriptor in force after the packets `past` (most recent first): the one most
recently announced. -/
def domainInForce (past : List Packet) : Option DomDesc := (past.findSome? domainChange).join

/-- The domain packet of the most recent data packet since the domain descriptor was announced
(`past` is most recent first). -/
def prevDomain (past : List Packet) : Option DomPacket :=
  (past.takeWhile (fun p => (domainChange p).isNone)).findSome? domainOf

/-- The gap between two consecutive domain packets under a linear rule: the amount by which `cur`
misses `prev.offset + prev.count * delta`. For floating point domains a deviation up to a tenth of
the delta is not a gap; other sample types and non-linear rules are not checked. -/
def gapBetween (dd : DomDesc) (prev cur : DomPacket) : Option Num :=
  match dd.linear, dd.ty with
  | true, .int64 =>
    let diff := cur.offset.toInt - (prev.offset.toInt + prev.count * dd.delta.toInt)
    if diff = 0 then none else some (.int diff)
  | true, .float64 =>
    let diff := cur.offset.toRat - (prev.offset.toRat + prev.count * dd.delta.toRat)
    if -(dd.delta.toRat / 10) ≤ diff ∧ diff ≤ dd.delta.toRat / 10 then none else some (.flt diff)
  | _, _ => none

/-- The gap revealed by packet `p` arriving after `past` (most recent first). -/
def gapBefore (past : List Packet) (p : Packet) : Option Num :=
  match domainInForce past, prevDomain past, domainOf p with
  | some dd, some prev, some cur => gapBetween dd prev cur
  | _, _, _ => none

/-- The packet stream the consumer should see for the recorded history: the accepted packets in
order, each packet enqueued on its own preceded by the gap packet it reveals, if any.
`past` are the packets enqueued on their own before, most recent first. -/
def expectedStream (past : List Packet) : Trace → List Packet
  | [] => []
  | (.enqueue _ p, o) :: t =>
    if o.ret = .success then
      (gapBefore past p).toList.map (fun g => Packet.event 0 (.gap g)) ++ p :: expectedStream (p :: past) t
    else expectedStream past t
  | (.enqueueMultiple ps, o) :: t =>
    (if o.ret = .success then ps else []) ++ expectedStream past t
  | _ :: t => expectedStream past t

/-- The consumer has been told by `dequeue` that there are no more packets (or nothing ever
happened) and no packet was accepted since. `t` is most recent first. -/
def drained : Trace → Bool
  | [] => true
  | (.enqueue _ _, o) :: t => if o.ret = .success then false else drained t
  | (.enqueueMultiple _, o) :: t => if o.ret = .success then false else drained t
  | (.dequeue, o) :: t => if o.ret = .noMoreItems then true else drained t
  | _ :: t => drained t

/-- The packet is a descriptor-changed event. -/
def isDescB : Packet → Bool
  | .event _ (.descChanged _ _) => true
  | _ => false

/-- No descriptor-changed event among the packets. -/
def noDesc (past : List Packet) : Bool := past.all (fun p => !isDescB p)

/-- What enqueueing packet `p` on its own must return, given the history before (`past`: packets
enqueued on their own before, most recent first): an inactive port ignores everything but events;
with gap checking, data before the first descriptor is an invalid state, gap packets from outside
are an invalid operation, and a data packet without a domain packet under a checkable domain rule is
the caller's contract violation (`crash`). Everything else is accepted. -/
def expectedRet (gapChecking active : Bool) (past : List Packet) : Packet → Ret
  | .data _ _ d =>
    if active = false then .ignored
    else if gapChecking = false then .success
    else if noDesc past then .errInvalidState
    else match domainInForce past with
      | none => .success
      | some dd => if dd.linear = true ∧ dd.ty ≠ .other ∧ d = none then .crash else .success
  | .event _ (.gap _) => if gapChecking then .errInvalidOperation else .success
  | .event _ _ => .success
  | .none _ => if active = false then .ignored else .success

/-- The value descriptor parameter announced by a packet, if any. -/
def valueChange : Packet → Option (Option Nat)
  | .event _ (.descChanged v _) => v
  | _ => none

/-- Activity of the port after the calls `ops` (ports start active). -/
def activeAfter (ops : List Op) : Bool :=
  (ops.reverse.findSome? (fun | .setActive b => some b | _ => none)).getD true

/-- Notification method of the port after the calls `ops` (initially none). -/
def notifyAfter (ops : List Op) : NotifyMethod :=
  (ops.reverse.findSome? (fun | .setNotify m => some m | _ => none)).getD .none

/-- How the listener must be told about an accepted packet. -/
def expectedNotification (m : NotifyMethod) (mode : EnqueueMode) (wasDrained : Bool) :
    Option Notification :=
  match m, mode with
  | .none, _ => none
  | .sameThread, .plain => some .sameThread
  | .scheduler, .plain => some .scheduled
  | .schedulerQueueWasEmpty, .plain => if wasDrained then some .scheduled else none
  | _, .onThisThread => some .sameThread
  | _, .withScheduler => some .scheduled

/-- An upper bound on the number of packets a call can add to the queue (each packet enqueued on its
own can bring one gap packet along). -/
def opLoad : Op → Nat
  | .enqueue _ _ => 2
  | .enqueueMultiple ps => ps.length
  | .enqueueLastDescriptor => 1
  | _ => 0

def load (ops : List Op) : Nat := (ops.map opLoad).sum

/-- The producer does not submit gap packets itself; the code's contract forbids it
(connection_impl.cpp:685-688). -/
def NoExternalGap : Op → Prop
  | .enqueue _ p => ¬ IsGap p
  | .enqueueMultiple ps => ∀ p ∈ ps, ¬ IsGap p
  | _ => True

/-- The only events the producer submits are descriptor changes. -/
def OnlyDescriptorEvents : Op → Prop
  | .enqueue _ p => IsEvent p → IsDescriptorChange p
  | .enqueueMultiple ps => ∀ p ∈ ps, IsEvent p → IsDescriptorChange p
  | _ => True

end Verif.Connection
