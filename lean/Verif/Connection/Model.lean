/-!
# Model of `ConnectionImpl`

Source: `/repo/core/opendaq/signal/src/connection_impl.cpp` (cited as `cpp`),
`/repo/core/opendaq/signal/include/opendaq/connection_impl.h` (cited as `h`),
`/repo/core/opendaq/signal/include/opendaq/input_port_impl.h` (cited as `port`),
`/repo/core/opendaq/signal/include/opendaq/event_packet_utils.h` (cited as `utils`).

Each public method holds the connection mutex for the part modelled by one `step`
(`withLock`, h:74-87, when built with `OPENDAQ_THREAD_SAFE`), so a concurrent execution is one of these sequential histories.

Simplifications (global): packets are identified by a number `id`; descriptor contents other
than what the gap checker looks at are a number; `int64_t` offsets are unbounded `Int`; `double`
offsets are exact rationals; logging is dropped.
-/

namespace Verif.Connection

/-- `NumberPtr`: integer or floating point number (floating point idealised as a rational). -/
inductive Num where
  | int (i : Int)
  | flt (q : Rat)
  deriving DecidableEq, Repr

/-- Conversion `NumberPtr → int64_t` (cpp:778-794); floats are truncated toward zero. -/
def Num.toInt : Num → Int
  | .int i => i
  | .flt q => q.num.tdiv q.den

/-- Conversion `NumberPtr → double` (cpp:778-794), idealised. -/
def Num.toRat : Num → Rat
  | .int i => (i : Rat)
  | .flt q => q

/-- The sample types distinguished by the gap checker (cpp:664-675): `Int64`/`UInt64`,
`Float64`, or anything else. -/
inductive DomType where
  | int64
  | float64
  | other
  deriving DecidableEq, Repr

/-- A domain data descriptor, reduced to what `initGapCheck` reads (cpp:655-672): whether the rule
is linear, its `delta` parameter and the sample type. `tag` stands for the rest of the contents. -/
structure DomDesc where
  tag : Nat
  linear : Bool
  delta : Num
  ty : DomType
  deriving DecidableEq, Repr

/-- A descriptor parameter of a `DATA_DESCRIPTOR_CHANGED` event (utils:22-43): the parameter can be
unassigned (`none`: unchanged), the `NullDataDescriptor` (`some none`), or a descriptor. -/
abbrev Param (α : Type) := Option (Option α)

/-- Event packet: id and parameters. -/
inductive EventKind where
  | descChanged (value : Param Nat) (domain : Param DomDesc)
  | gap (diff : Num)
  | other (eventId : Nat)
  deriving DecidableEq, Repr

/-- The domain packet attached to a data packet: its offset and its own sample count. -/
structure DomPacket where
  offset : Num
  count : Nat
  deriving DecidableEq, Repr

/-- A packet, by `PacketType` (`Data`, `Event`, `None`). -/
inductive Packet where
  | data (id : Nat) (samples : Nat) (domain : Option DomPacket)
  | event (id : Nat) (kind : EventKind)
  | none (id : Nat)
  deriving DecidableEq, Repr

/-- `GapCheckState` (h:96). -/
inductive GapState where
  | disabled | uninitialized | notAvailable | initialized | running
  deriving DecidableEq, Repr

/-- `PacketReadyNotification`; `Unspecified` behaves as `None` (port:414-416). -/
inductive NotifyMethod where
  | none | sameThread | scheduler | schedulerQueueWasEmpty
  deriving DecidableEq, Repr

/-- The effect on the listener: called on the calling thread or scheduled. -/
inductive Notification where
  | sameThread
  | scheduled
  deriving DecidableEq, Repr

/-- Return codes. `crash` stands for dereferencing a null domain packet (the `assert` at cpp:544 is
absent in release builds); the C++ has no defined behaviour there. -/
inductive Ret where
  | success | ignored | noMoreItems | errInvalidState | errInvalidOperation | crash
  deriving DecidableEq, Repr

/-- Fields of `ConnectionImpl` (h:98-142), plus the two attributes of the input port that influence
it: `active` and `notifyMethod`. `nextInt`/`nextRat` and `deltaInt`/`deltaRat` are the two members of
the union `DomainValue` (h:90-94). -/
structure State where
  packets : List Packet
  queueEmpty : Bool
  gap : GapState
  nextInt : Int
  nextRat : Rat
  deltaInt : Int
  deltaRat : Rat
  domTy : DomType
  samplesCnt : Nat
  eventCnt : Nat
  gapCnt : Nat
  valueDesc : Param Nat
  domainDesc : Param DomDesc
  active : Bool
  notify : NotifyMethod

/-- `SizeT` is 64 bit. -/
def W : Nat := 2 ^ 64

/-- `SizeT` addition. -/
def wadd (a b : Nat) : Nat := (a + b) % W

/-- `SizeT` subtraction (wraps around). -/
def wsub (a b : Nat) : Nat := if b % W ≤ a then a - b % W else a + (W - b % W)

/-- Constructor (cpp:15-33): gap checking starts `uninitialized` iff enabled on the port. The port
starts with notification method `None` (port:169); ports are active by default. -/
def init (gapChecking : Bool) : State where
  packets := []
  queueEmpty := true
  gap := if gapChecking then .uninitialized else .disabled
  nextInt := 0
  nextRat := 0
  deltaInt := 0
  deltaRat := 0
  domTy := .other
  samplesCnt := 0
  eventCnt := 0
  gapCnt := 0
  valueDesc := none
  domainDesc := none
  active := true
  notify := .none

/-- `getSampleCount` of a data packet, as seen by the loops over the queue. -/
def Packet.sampleCount : Packet → Nat
  | .data _ n _ => n
  | _ => 0

def Packet.isEvent : Packet → Bool
  | .event _ _ => true
  | _ => false

def Packet.isDescriptor : Packet → Bool
  | .event _ (.descChanged _ _) => true
  | _ => false

def Packet.isGap : Packet → Bool
  | .event _ (.gap _) => true
  | _ => false

/-- `countPackets` (cpp:691-708): recomputes samples and events; the gap counter is untouched. -/
def countPackets (s : State) : State :=
  { s with
    samplesCnt := s.packets.foldl (fun acc p => wadd acc p.sampleCount) 0
    eventCnt := s.packets.foldl (fun acc p => if p.isEvent then wadd acc 1 else acc) 0 }

/-- `onPacketEnqueued` (cpp:710-738). -/
def onPacketEnqueued (s : State) : Packet → State
  | .data _ n _ => { s with samplesCnt := wadd s.samplesCnt n }
  | .event _ (.descChanged v d) =>
    { s with
      eventCnt := wadd s.eventCnt 1
      valueDesc := if v.isSome then v else s.valueDesc
      domainDesc := if d.isSome then d else s.domainDesc }
  | .event _ _ => { s with eventCnt := wadd s.eventCnt 1 }
  | .none _ => s

/-- `onPacketDequeued` (cpp:740-762): only descriptor events decrement the event counter and only
gap events decrement the gap counter. -/
def onPacketDequeued (s : State) : Packet → State
  | .data _ n _ => { s with samplesCnt := wsub s.samplesCnt n }
  | .event _ (.descChanged _ _) => { s with eventCnt := wsub s.eventCnt 1 }
  | .event _ (.gap _) => { s with gapCnt := wsub s.gapCnt 1 }
  | .event _ (.other _) => s
  | .none _ => s

/-- `enqueueGapPacket` (cpp:566-578). The id of the created gap packet is fixed to 0. -/
def enqueueGapPacket (s : State) (diff : Num) : State :=
  { s with gapCnt := wadd s.gapCnt 1, packets := s.packets ++ [.event 0 (.gap diff)] }

/-- `beginGapCheck` (cpp:580-590). -/
def beginGapCheck (s : State) (d : DomPacket) : State :=
  if s.domTy = .float64 then
    { s with nextRat := d.offset.toRat + (d.count : Rat) * s.deltaRat, gap := .running }
  else
    { s with nextInt := d.offset.toInt + (d.count : Int) * s.deltaInt, gap := .running }

/-- `std::abs` on the idealised double (cpp:603). -/
def ratAbs (q : Rat) : Rat := if q < 0 then -q else q

/-- `doGapCheck` (cpp:592-631): the detected difference, if any, and the new expectation. -/
def doGapCheck (s : State) (d : DomPacket) : Option Num × State :=
  if s.domTy = .float64 then
    let diff := d.offset.toRat - s.nextRat
    (if ratAbs diff > s.deltaRat / 10 then some (.flt diff) else none,
      { s with nextRat := d.offset.toRat + (d.count : Rat) * s.deltaRat })
  else
    let diff := d.offset.toInt - s.nextInt
    (if diff ≠ 0 then some (.int diff) else none,
      { s with nextInt := d.offset.toInt + (d.count : Int) * s.deltaInt })

/-- `initGapCheck` (cpp:633-689). `none` = `InvalidOperationException`. -/
def initGapCheck (s : State) : EventKind → Option State
  | .descChanged _ none =>
    if s.gap = .uninitialized then some { s with gap := .notAvailable } else some s
  | .descChanged _ (some none) => some { s with gap := .notAvailable }
  | .descChanged _ (some (some dd)) =>
    if !dd.linear then some { s with gap := .notAvailable }
    else match dd.ty with
      | .float64 => some { s with domTy := .float64, deltaRat := dd.delta.toRat, gap := .initialized }
      | .int64 => some { s with domTy := .int64, deltaInt := dd.delta.toInt, gap := .initialized }
      | .other => some { s with domTy := .other, gap := .notAvailable }
  | .gap _ => none
  | .other _ => some s

/-- `checkForGaps` (cpp:529-564). -/
def checkForGaps (s : State) : Packet → Except Ret State
  | .data _ _ dom =>
    if s.gap = .uninitialized then .error .errInvalidState
    else if s.gap = .notAvailable then .ok s
    else match dom with
      | none => .error .crash
      | some d =>
        if s.gap = .initialized then .ok (beginGapCheck s d)
        else match doGapCheck s d with
          | (some diff, s') => .ok (enqueueGapPacket s' diff)
          | (none, s') => .ok s'
  | .event _ k => match initGapCheck s k with
    | some s' => .ok s'
    | none => .error .errInvalidOperation
  | .none _ => .ok s

/-- Which of `enqueue`, `enqueueOnThisThread`, `enqueueWithScheduler` is called (cpp:70-95). -/
inductive EnqueueMode where
  | plain | onThisThread | withScheduler
  deriving DecidableEq, Repr

/-- `notifyPacketEnqueued`, `notifyPacketEnqueuedOnThisThread`, `notifyPacketEnqueuedWithScheduler`
(port:389-460). -/
def notification (m : NotifyMethod) (mode : EnqueueMode) (queueWasEmpty : Bool) : Option Notification :=
  match mode, m with
  | _, .none => none
  | .plain, .sameThread => some .sameThread
  | .plain, .scheduler => some .scheduled
  | .plain, .schedulerQueueWasEmpty => if queueWasEmpty then some .scheduled else none
  | .onThisThread, _ => some .sameThread
  | .withScheduler, _ => some .scheduled

/-- Observable result of one call. -/
structure Out where
  ret : Ret
  packets : List Packet := []
  notified : Option Notification := none
  deriving DecidableEq

/-- `enqueueInternal` (cpp:35-68). -/
def enqueue (s : State) (mode : EnqueueMode) (p : Packet) : State × Out :=
  if !s.active && !p.isEvent then (s, { ret := .ignored })
  else
    let queueWasEmpty := s.queueEmpty
    match (if s.gap = .disabled then .ok s else checkForGaps s p) with
    | .error e => (s, { ret := e })
    | .ok s1 =>
      let s2 := onPacketEnqueued s1 p
      ({ s2 with packets := s2.packets ++ [p], queueEmpty := false },
        { ret := .success, notified := notification s.notify mode queueWasEmpty })

/-- The body of the loop in `enqueueMultipleInternal` (cpp:170-184). -/
def pushOne (s : State) (p : Packet) : State :=
  let s1 := onPacketEnqueued s p
  { s1 with packets := s1.packets ++ [p] }

/-- `enqueueMultipleInternal` (cpp:97-198): no gap check, and an inactive port drops everything. -/
def enqueueMultiple (s : State) (ps : List Packet) : State × Out :=
  if !s.active then (s, { ret := .ignored })
  else
    let queueWasEmpty := s.queueEmpty
    let s' := ps.foldl pushOne s
    ({ s' with queueEmpty := false },
      { ret := .success, notified := notification s.notify .plain queueWasEmpty })

/-- `dequeue` (cpp:226-247). -/
def dequeue (s : State) : State × Out :=
  match s.packets with
  | [] => ({ s with queueEmpty := true }, { ret := .noMoreItems })
  | p :: rest => (onPacketDequeued { s with packets := rest } p, { ret := .success, packets := [p] })

/-- `dequeueAll` (cpp:249-269): the gap counter and `queueEmpty` are not reset. -/
def dequeueAll (s : State) : State × Out :=
  ({ s with samplesCnt := 0, eventCnt := 0, packets := [] },
    { ret := .noMoreItems, packets := s.packets })

/-- `dequeueUpTo` (cpp:502-522). -/
def dequeueUpTo (s : State) (count : Nat) : State × Out :=
  let n := min count s.packets.length
  (countPackets { s with packets := s.packets.drop n }, { ret := .success, packets := s.packets.take n })

/-- `enqueueLastDescriptor` (cpp:764-776). The id of the created packet is fixed to 0. -/
def enqueueLastDescriptor (s : State) : State × Out :=
  if s.valueDesc.isSome || s.domainDesc.isSome then
    ({ s with
        eventCnt := wadd s.eventCnt 1
        packets := .event 0 (.descChanged s.valueDesc s.domainDesc) :: s.packets },
      { ret := .success })
  else (s, { ret := .success })

/-- `peek` (cpp:271-288). -/
def peek (s : State) : Option Packet := s.packets.head?

/-- `getPacketCount` (cpp:290-300). -/
def getPacketCount (s : State) : Nat := s.packets.length

/-- `getAvailableSamples` (cpp:302-313). -/
def getAvailableSamples (s : State) : Nat := s.samplesCnt

/-- The loop shared by the three `getSamplesUntil…` methods (cpp:325-349, 365-394, 410-439): add up
samples until the first packet satisfying `stop`. -/
def scanUntil (stop : Packet → Bool) : List Packet → Nat → Nat
  | [], acc => acc
  | p :: ps, acc => if stop p then acc else scanUntil stop ps (wadd acc p.sampleCount)

/-- `getSamplesUntilNextEventPacket` (cpp:315-353). -/
def getSamplesUntilNextEventPacket (s : State) : Nat :=
  if s.eventCnt = 0 ∧ s.gapCnt = 0 then s.samplesCnt else scanUntil Packet.isEvent s.packets 0

/-- `getSamplesUntilNextDescriptor` (cpp:355-398). -/
def getSamplesUntilNextDescriptor (s : State) : Nat :=
  if s.eventCnt = 0 then s.samplesCnt else scanUntil Packet.isDescriptor s.packets 0

/-- `getSamplesUntilNextGapPacket` (cpp:400-443). -/
def getSamplesUntilNextGapPacket (s : State) : Nat :=
  if s.gapCnt = 0 then s.samplesCnt else scanUntil Packet.isGap s.packets 0

/-- `hasEventPacket` (cpp:445-455). -/
def hasEventPacket (s : State) : Bool := s.eventCnt != 0 || s.gapCnt != 0

/-- `hasGapPacket` (cpp:457-467). -/
def hasGapPacket (s : State) : Bool := s.gapCnt != 0

/-- Calls on a connection, plus the changes of the two input-port attributes it depends on. -/
inductive Op where
  | enqueue (mode : EnqueueMode) (p : Packet)
  | enqueueMultiple (ps : List Packet)
  | dequeue
  | dequeueAll
  | dequeueUpTo (count : Nat)
  | enqueueLastDescriptor
  | setActive (b : Bool)
  | setNotify (m : NotifyMethod)
  deriving DecidableEq

def step (s : State) : Op → State × Out
  | .enqueue m p => enqueue s m p
  | .enqueueMultiple ps => enqueueMultiple s ps
  | .dequeue => dequeue s
  | .dequeueAll => dequeueAll s
  | .dequeueUpTo n => dequeueUpTo s n
  | .enqueueLastDescriptor => enqueueLastDescriptor s
  | .setActive b => ({ s with active := b }, { ret := .success })
  | .setNotify m => ({ s with notify := m }, { ret := .success })

end Verif.Connection
