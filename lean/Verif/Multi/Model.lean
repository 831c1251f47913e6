/-!
# Model of the multi reader

`mr` = /repo/core/opendaq/reader/src/multi_reader_impl.cpp
`sr` = /repo/core/opendaq/reader/src/signal_reader.cpp
`tr` = /repo/core/opendaq/reader/src/typed_reader.cpp
`mt` = /repo/core/opendaq/reader/include/opendaq/multi_typed_reader.h
`di` = /repo/core/opendaq/reader/include/opendaq/reader_domain_info.h
`ru` = /repo/core/opendaq/reader/include/opendaq/reader_utils.h

A multi reader reads several signals from a common start on. The queue of each connection is the list of its packets (its own
behaviour is the subject of `Verif.Connection`). Sample `i` of the data packet with identity `id` is the token `(id, i)`, and
stands for the value and the domain value.

Simplifications:
* domains are linear with integer parameters and are read as 64-bit integers (`getSampleRate` rejects other rules, ru:147-150);
  the tick of the first sample of a packet is the start of the rule plus the reference domain offset plus the packet offset;
* which descriptors can be converted is part of the descriptor; descriptors are never null; there are only data and event packets;
* integers are unbounded except where a subtraction wraps (`wrapSub`) and where a tick goes through `double` (`rnd53`); the
  division of two doubles is taken to be exact, which it is for dividends below 2^52;
* all inputs are used, connected and active; there is no tick offset tolerance; reads do not wait (timeout 0);
* calls are atomic, and every packet is announced to the reader when it is added to the queue;
* resolutions are compared exactly, not as doubles.
-/

namespace Verif.Multi

abbrev Tok := Nat × Nat

/-- A domain descriptor: tick resolution, origin (in ticks of the system clock, 10^-9 s), delta of the linear rule, and whether
its samples can be converted. -/
structure DomDesc where
  num : Int
  den : Int
  epoch : Int
  delta : Int
  ok : Bool
  deriving DecidableEq, Repr

inductive Ev where
  /-- `DATA_DESCRIPTOR_CHANGED`: whether the new value descriptor can be converted, and the new domain descriptor. -/
  | desc (val : Option Bool) (dom : Option DomDesc)
  /-- `IMPLICIT_DOMAIN_GAP_DETECTED` -/
  | gap
  | other
  deriving DecidableEq, Repr

/-- A data packet, with the tick of its first sample and the delta of the rule of its domain packet. -/
structure DP where
  id : Nat
  n : Nat
  first : Int
  delta : Int
  deriving DecidableEq, Repr

inductive Pkt where
  | data (p : DP)
  | event (e : Ev)
  deriving DecidableEq, Repr

/-- The nearest `double` of an integer (ties to even). -/
def rnd53 (x : Int) : Int :=
  if x.natAbs < 2 ^ 53 then x
  else
    let u := 2 ^ (Nat.log2 x.natAbs - 52)
    let q := x.natAbs / u
    let r := x.natAbs % u
    let q := if u < 2 * r ∨ (2 * r = u ∧ q % 2 = 1) then q + 1 else q
    x.sign * (q * u : Nat)

/-- `Ratio::simplify` -/
def simplify (n d : Int) : Int × Int := (n.tdiv (Int.gcd n d), d.tdiv (Int.gcd n d))

/-- `ReaderDomainInfo` (di:23-85): the resolution and origin of the signal; multiplier and offset to the common ones. -/
structure Dom where
  num : Int
  den : Int
  epoch : Int
  mulNum : Int := 1
  mulDen : Int := 1
  off : Int := 0
  deriving DecidableEq, Repr

/-- Ticks of the signal in ticks of the common resolution (mt:102; tr:558). -/
def Dom.scale (d : Dom) (t : Int) : Int := (rnd53 (t * d.mulNum)).tdiv d.mulDen

/-- `ComparableValue` (mt:97-138): a tick of the signal in ticks of the common resolution since the common origin. -/
def Dom.comp (d : Dom) (t : Int) : Int := d.scale t + d.off

inductive Sync where
  | unsync | syncing | synced
  deriving DecidableEq, Repr

/-- `SignalReader` with its connection; `prev` is `info.prevSampleIndex`. `sampleRateDivider` is not initialised. -/
structure Sig where
  queue : List Pkt := []
  cur : Option DP := none
  prev : Nat := 0
  dom : Option Dom := none
  rate : Int := -1
  div : Nat
  sync : Sync := .unsync
  invalid : Bool := false
  deriving DecidableEq, Repr

/-- `static_cast<SizeT>(-1)` -/
def npos : Nat := 2 ^ 64 - 1

/-- Subtraction of `SizeT`. -/
def wrapSub (a b : Nat) : Nat := if b ≤ a then a - b else 2 ^ 64 + a - b

/-- `getSamplesUntilNextEventPacket` of the connection. -/
def untilEvent : List Pkt → Nat
  | .data p :: q => p.n + untilEvent q
  | _ => 0

/-- `getSamplesUntilNextGapPacket` of the connection. -/
def untilGap : List Pkt → Nat
  | .data p :: q => p.n + untilGap q
  | .event .gap :: _ => 0
  | .event _ :: q => untilGap q
  | [] => 0

/-- What is left of the packet being read (sr:80-83). -/
def Sig.left (s : Sig) : Nat := match s.cur with
  | some p => wrapSub p.n s.prev
  | none => 0

/-- `getAvailable` (sr:77-90). -/
def Sig.avail (s : Sig) (across : Bool) : Nat :=
  (s.left + (if across then untilGap s.queue else untilEvent s.queue)) * s.div

/-- `isFirstPacketEvent` (sr:240-273). -/
def Sig.isFirst (s : Sig) : Sig × Bool :=
  match s.cur with
  | some _ => (s, false)
  | none => match s.queue with
    | [] => (s, false)
    | .data p :: q => ({ s with queue := q, cur := some p, prev := 0 }, false)
    | .event _ :: _ => (s, true)

/-- `getSampleRate` (ru:141-162); `none` is the exception. -/
def rateOf (d : DomDesc) : Option Int :=
  let r := simplify d.num d.den
  if r.1 * d.delta = 0 then none
  else if r.2 % (r.1 * d.delta) = 0 then some (r.2 / (r.1 * d.delta)) else none

/-- `handleDescriptorChanged` (sr:122-202). -/
def Sig.handleDesc (s : Sig) (val : Option Bool) (dom : Option DomDesc) : Sig :=
  let s := match val with
    | some ok => { s with invalid := !ok }
    | none => s
  match dom with
  | none => s
  | some d =>
    if !d.ok then { s with invalid := true }
    else
      let same := match s.dom with
        | some o => o.num == d.num && o.den == d.den && o.epoch == d.epoch
        | none => false
      let s := { s with
        dom := some (match s.dom with
          | some o => { o with num := d.num, den := d.den, epoch := d.epoch }
          | none => { num := d.num, den := d.den, epoch := d.epoch }),
        sync := if same then s.sync else .unsync }
      match rateOf d with
      | none => { s with invalid := true }
      | some r => if s.rate = -1 then { s with rate := r } else if s.rate ≠ r then { s with invalid := true } else s

/-- The loop of `readUntilNextDataPacket` (sr:287-329): the rest of the queue, the data packet, whether it ended with a gap to
be returned, and the descriptors found. -/
def collect : List Pkt → Option Bool → Option DomDesc → List Pkt × Option DP × Bool × Option Bool × Option DomDesc
  | [], v, d => ([], none, false, v, d)
  | .data p :: q, v, d => (q, some p, false, v, d)
  | .event (.desc v' d') :: q, v, d => collect q (v'.or v) (d'.or d)
  | .event .gap :: q, v, d => if v.isNone && d.isNone then (q, none, true, v, d) else (.event .gap :: q, none, false, v, d)
  | .event .other :: q, v, d => collect q v d

/-- `readUntilNextDataPacket` (sr:275-354). -/
def Sig.readUntil (s : Sig) : Sig × Option Ev :=
  let f := s.isFirst
  if !f.2 then (f.1, none)
  else
    let c := collect f.1.queue none none
    let s := match c.2.1 with
      | some p => { f.1 with queue := c.1, cur := some p, prev := 0 }
      | none => { f.1 with queue := c.1 }
    if c.2.2.1 then ({ s with sync := .unsync }, some .gap)
    else if c.2.2.2.1.isSome || c.2.2.2.2.isSome then
      ({ s with sync := .unsync }.handleDesc c.2.2.2.1 c.2.2.2.2, some (.desc c.2.2.2.1 c.2.2.2.2))
    else (s, none)

/-- An event that is not a gap. -/
def Pkt.isEvent : Pkt → Bool
  | .event .gap => false
  | .event _ => true
  | .data _ => false

/-- `skipUntilLastEventPacket` (sr:356-390): everything before the first event is dropped. -/
def Sig.skipUntilLast (s : Sig) : Sig × Bool :=
  let q := s.queue.dropWhile (fun p => !p.isEvent)
  ({ s with queue := q, cur := none, prev := 0 }, !q.isEmpty)

/-- `getOffsetToDataLinear` (tr:490-590): the sample of the packet to begin with. -/
def offsetTo (d : Dom) (target : Int) (p : DP) : Option Nat :=
  if p.n = 0 then none
  else
    let prevEnd := d.comp (p.first - p.delta)
    let last := d.comp (p.first + p.delta * (p.n - 1))
    if target ≤ prevEnd ∨ last < target then none
    else some ((target - prevEnd + d.scale p.delta - 1).tdiv (d.scale p.delta) - 1).toNat

/-- The loop of `sync` (sr:410-448) from a data packet on. -/
def syncLoop (d : Dom) (target : Int) (s : Sig) : DP → List Pkt → Sig × Bool
  | p, q => match offsetTo d target p with
    | some k => ({ s with queue := q, cur := some p, prev := k, sync := .synced }, true)
    | none => match q with
      | [] => ({ s with queue := [], cur := none, prev := npos, sync := .syncing }, false)
      | .data p :: q => syncLoop d target s p q
      | .event e :: q => ({ s with queue := .event e :: q, cur := none, prev := npos }, false)

/-- `SignalReader::sync` (sr:392-452); `synchronize` calls it only when there is a domain and a data packet. -/
def Sig.syncTo (s : Sig) (target : Int) : Sig × Bool :=
  if s.sync = .synced then (s, true)
  else
    let f := s.isFirst
    if f.2 then (f.1, false)
    else match f.1.cur, f.1.dom with
      | some p, some d => syncLoop d target f.1 p f.1.queue
      | _, _ => ({ f.1 with sync := .synced }, true)

/-- `readPacketData` (sr:563-610): what is read from the current packet, and what is still to be read. -/
def Sig.takeCur (s : Sig) (rem : Nat) : Sig × List Tok × Nat :=
  if rem = 0 then (s, [], 0)
  else match s.cur with
    | none => (s, [], rem)
    | some p =>
      let a := wrapSub p.n s.prev
      let k := min rem a
      (if k < a then { s with prev := s.prev + k } else { s with cur := none, prev := 0 },
       (List.range k).map fun i => (p.id, s.prev + i), rem - k)

/-- The loop of `SignalReader::readPackets` (sr:505-529) with `handlePacket` (sr:454-503). With an empty queue the loop goes on,
holding the locks of the reader, until another thread adds a packet: `none`. -/
def readGo : List Pkt → Sig → Nat → Option (Sig × List Tok)
  | [], s, rem =>
    let x := s.takeCur rem
    if x.2.2 = 0 then some ({ x.1 with queue := [] }, x.2.1) else none
  | .data p :: q, s, rem =>
    let x := s.takeCur rem
    if x.2.2 = 0 then some ({ x.1 with queue := .data p :: q }, x.2.1)
    else (readGo q { x.1 with cur := some p, queue := q } x.2.2).map fun y => (y.1, x.2.1 ++ y.2)
  | .event e :: q, s, rem =>
    let x := s.takeCur rem
    if x.2.2 = 0 then some ({ x.1 with queue := .event e :: q }, x.2.1)
    else match e with
      | .desc v d =>
        let s1 := x.1.handleDesc v d
        if s1.invalid then some ({ s1 with queue := q }, x.2.1)
        else (readGo q { s1 with queue := q } x.2.2).map fun y => (y.1, x.2.1 ++ y.2)
      | _ => (readGo q { x.1 with queue := q } x.2.2).map fun y => (y.1, x.2.1 ++ y.2)

/-- The options of the reader: `requiredCommonSampleRate` (0: none), `allowDifferentRates`, `startOnFullUnitOfDomain`,
`minReadCount`. -/
structure Cfg where
  required : Nat := 0
  allowDiff : Bool := true
  fullUnit : Bool := false
  minRead : Nat := 1
  deriving DecidableEq, Repr

/-- `MultiReaderImpl`. `buf` names the call whose buffers are kept in `info.values` (`none`: no buffers), `calls` counts the
calls. -/
structure MR where
  sigs : List Sig
  start : Option Int := none
  res : Int × Int := (1, 1)
  invalid : Bool := false
  nextEvent : Bool := false
  remaining : Nat := 0
  buf : Option Nat := none
  common : Nat := 1
  lcm : Nat := 1
  calls : Nat := 0
  deriving DecidableEq, Repr

/-- `getMinSamplesAvailable` (mr:944-968). -/
def minAvail (sigs : List Sig) : Nat :=
  let l := sigs.map fun s => if s.cur.isNone then 0 else s.avail false
  l.foldl min (2 ^ 64 - 1)

/-- `getSyncStatus` (mr:977-1000). -/
def syncStatus : List Sig → Sync
  | [] => .unsync
  | sigs => if sigs.any (fun s => s.sync == .unsync) then .unsync
    else if sigs.any (fun s => s.sync == .syncing) then .syncing else .synced

/-- `setCommonSampleRate` (sr:109-120). -/
def Sig.setCommon (s : Sig) (common : Nat) : Sig :=
  if 0 < s.rate then
    let d := common / s.rate.toNat
    { s with div := d, invalid := if d = 0 ∨ common % d ≠ 0 then true else s.invalid }
  else s

/-- The second loop of `updateCommonSampleRateAndDividers` (mr:533-545): it ends at the first signal that is invalid. -/
def setRates (common : Nat) : List Sig → List Sig × Bool
  | [] => ([], true)
  | s :: r => if (s.setCommon common).invalid then (s.setCommon common :: r, false)
    else (s.setCommon common :: (setRates common r).1, (setRates common r).2)

/-- The first loop (mr:502-530): the common rate, and whether the rates may be used together. It ends at the first rate that
may not. -/
def commonRate (allowDiff : Bool) (first : Int) : List Sig → Nat → Nat × Bool
  | [], c => (c, true)
  | s :: r, c => if s.rate ≠ first ∧ allowDiff = false then (Nat.lcm s.rate.natAbs c, false)
    else commonRate allowDiff first r (Nat.lcm s.rate.natAbs c)

/-- The required rate, or the one found by the first loop. -/
def Cfg.rate (cfg : Cfg) (sigs : List Sig) : Nat × Bool :=
  if 0 < cfg.required then (cfg.required, true) else match sigs with
    | [] => (1, true)
    | s :: _ => commonRate cfg.allowDiff s.rate sigs 1

/-- `updateCommonSampleRateAndDividers` (mr:489-559). -/
def update (cfg : Cfg) (m : MR) : MR :=
  let c := cfg.rate m.sigs
  if !c.2 then { m with common := c.1, invalid := true }
  else
    let r := setRates c.1 m.sigs
    if !r.2 then { m with sigs := r.1, common := c.1, invalid := true }
    else { m with sigs := r.1, common := c.1, lcm := r.1.foldl (fun l s => Nat.lcm s.div l) 1 }

/-- The earliest origin and the finest resolution (mr:570-587); `none` if a signal has no resolution yet. -/
def startInfo : List Sig → Option (Int × Int × Int)
  | [] => none
  | s :: r => match s.dom with
    | none => none
    | some d => r.foldl (fun a t => match a, t.dom with
      | some a, some e => some (if e.epoch < a.1 then e.epoch else a.1,
          if e.num * a.2.2 < a.2.1 * e.den then e.num else a.2.1,
          if e.num * a.2.2 < a.2.1 * e.den then e.den else a.2.2)
      | _, _ => none) (some (d.epoch, d.num, d.den))

/-- `adjustToCommonEpochResolution` (di:31-72). -/
def Dom.adjust (d : Dom) (epoch num den : Int) : Dom :=
  let o := d.epoch - epoch
  let m := simplify (d.num * den) (d.den * num)
  { d with off := if o = 0 then 0 else (o * den).tdiv (1000000000 * num), mulNum := m.1, mulDen := m.2 }

/-- `readStartDomain` (sr:222-238; tr:166-201): the next sample of the signal. -/
def Sig.startTick (s : Sig) : Option Int := match s.cur, s.dom with
  | some p, some d => some (d.comp (p.first + p.delta * s.prev))
  | _, _ => none

/-- `roundUpOnUnitOfDomain`, `roundUpOnDomainInterval` (mt:154-183); the resolution of a signal divided by its multiplier is the
common resolution. `none` is the exception. -/
def roundUp (res : Int × Int) (interval : Int × Int) (v : Int) : Option Int :=
  let r := simplify (res.1 * interval.2) (res.2 * interval.1)
  if r.2 % r.1 ≠ 0 then none
  else some (((v * r.1 + r.2 - 1).tdiv r.2 * r.2).tdiv r.1)

/-- `readDomainStart` (mr:1452-1480) before rounding: the latest of the start so far and the next samples. -/
def latest (start : Option Int) (sigs : List Sig) : Option Int :=
  sigs.foldl (fun a s => match a, s.startTick with
    | none, x => x
    | a, none => a
    | some a, some x => some (if a < x then x else a)) start

/-- The part of `synchronize` after the start is known: `sync` of the multi reader (mr:1059-1063, 1498-1519). -/
def syncAll (m : MR) (a : Nat) (st : Sync) : MR × Nat × Sync × Bool :=
  match m.start with
  | none => (m, a, st, true)
  | some t =>
    let m := { m with sigs := m.sigs.map fun s => (s.syncTo t).1 }
    (m, if syncStatus m.sigs = .synced then minAvail m.sigs else a, syncStatus m.sigs, false)

/-- `setStartInfo` and `readDomainStart` (mr:561-602, 1452-1496), and whether they succeed. -/
def setStart (cfg : Cfg) (m : MR) : MR × Bool :=
  match startInfo m.sigs with
  | none => (m, false)
  | some x =>
    let sigs := m.sigs.map fun s => { s with dom := s.dom.map fun d => d.adjust x.1 x.2.1 x.2.2, sync := .unsync }
    let m := { m with res := x.2, sigs := sigs, start := latest m.start sigs }
    match m.start with
    | none => (m, false)
    | some t => match roundUp m.res (if cfg.fullUnit then (1, 1) else simplify m.lcm m.common) t with
      | none => (m, false)
      | some t => ({ m with start := some t }, true)

/-- `synchronize` (mr:1031-1069): the reader, the samples available, the status, and whether it failed. -/
def synchronize (cfg : Cfg) (m : MR) : MR × Nat × Sync × Bool :=
  let a := minAvail m.sigs
  let st := syncStatus m.sigs
  if a = 0 ∨ st = .synced then (m, a, st, false)
  else if st = .syncing then syncAll m a st
  else
    let x := setStart cfg m
    if x.2 then syncAll x.1 a st else (x.1, a, st, true)

/-- How a call can go wrong: it does not return unless another thread adds packets, or its behaviour is undefined (a null pointer
is followed, or a number divided by zero). -/
inductive Bad where
  | hang | crash
  deriving DecidableEq, Repr

/-- `readSamples` (mr:1435-1444): the samples written for each signal. -/
def readSamples (n : Nat) : List Sig → Except Bad (List Sig × List (List Tok))
  | [] => .ok ([], [])
  | s :: r => if s.div = 0 then .error .crash
    else match readGo s.queue s (n / s.div) with
      | none => .error .hang
      | some x => match readSamples n r with
        | .error b => .error b
        | .ok y => .ok (x.1 :: y.1, x.2 :: y.2)

/-- What `readAndSynchronize` gives: a status to return, with the events found and the samples written, or the samples available
and the status of the synchronisation. -/
inductive RS where
  | bad (b : Bad)
  | stop (m : MR) (events : List (Option Ev)) (written : List (List Tok))
  | go (m : MR) (avail : Nat) (st : Sync)
  deriving DecidableEq, Repr

def Pkt.isData : Pkt → Bool
  | .data _ => true
  | .event _ => false

/-- `readAndSynchronize` (mr:1002-1029, 1121-1152). -/
def readAndSync (cfg : Cfg) (m : MR) (zero : Bool) : RS :=
  let r := m.sigs.map Sig.readUntil
  let events := r.map (·.2)
  let any := events.any (·.isSome)
  let m := { m with sigs := r.map (·.1), invalid := m.invalid || r.any (fun x => x.1.invalid) }
  let m := if any then update cfg m else m
  let y := synchronize cfg m
  if any then .stop y.1 events []
  else if y.2.2.2 then .stop y.1 [] []
  else if zero then
    if y.2.1 < cfg.minRead ∧ y.1.sigs.any (fun s => s.queue.any fun p => !p.isData) then
      match readSamples y.2.1 y.1.sigs with
      | .error b => .bad b
      | .ok x => .stop { y.1 with sigs := x.1 } [] x.2
    else .stop y.1 [] []
  else .go y.1 y.2.1 y.2.2.1

/-- `readPackets` (mr:1154-1229) without waiting: the reader, the events, and the samples written. -/
def readPackets (cfg : Cfg) (m : MR) : Except Bad (MR × List (Option Ev) × List (List Tok)) :=
  match readAndSync cfg m (m.remaining == 0) with
  | .bad b => .error b
  | .stop m ev w => .ok (m, ev, w)
  | .go m a st =>
    if st = .synced ∧ 0 < a then
      match readSamples (min m.remaining a) m.sigs with
      | .error b => .error b
      | .ok x => .ok ({ m with sigs := x.1, remaining := m.remaining - min m.remaining a }, [], x.2)
    else .ok (m, [], [])

/-- `dataPacketsOrEventReady` (mr:1084-1103), and the loop of `getEmpty` (mr:1318-1340): packets are taken from the queues up to
the first signal with an event. -/
def ready : List Sig → Bool → List Sig × Bool
  | [], b => ([], b)
  | s :: r, b =>
    let f := s.isFirst
    if f.2 then (f.1 :: r, true)
    else
      let x := ready r (b && f.1.avail true != 0)
      (f.1 :: x.1, x.2)

inductive Op where
  /-- A packet arrives at a signal. -/
  | push (i : Nat) (p : Pkt)
  /-- `read` or `readWithDomain`; `null` if a null pointer is passed for buffers. -/
  | read (domain : Bool) (count : Nat) (null : Bool)
  | skip (count : Nat)
  | available
  | empty
  deriving DecidableEq, Repr

inductive Res where
  | none
  /-- number of samples reported, the events, the samples written for each signal and the call whose buffers they went to -/
  | read (count : Nat) (events : List (Option Ev)) (written : List (List Tok)) (buf : Option Nat)
  | count (n : Nat)
  | flag (b : Bool)
  | badCount
  | failed
  | bad (b : Bad)
  deriving DecidableEq, Repr

/-- `packetReceived` (mr:1342-1385) after the packet was enqueued. -/
def push (m : MR) (i : Nat) (p : Pkt) : MR :=
  let sigs := m.sigs.modify i fun s => { s with queue := s.queue ++ [p] }
  if m.invalid then
    match sigs[i]? with
    | .none => { m with sigs := sigs }
    | some s => { m with sigs := sigs.set i s.skipUntilLast.1, nextEvent := s.skipUntilLast.2 }
  else { m with sigs := (ready sigs true).1 }

/-- `read` (mr:823-865) and `readWithDomain` (mr:867-912). -/
def read (cfg : Cfg) (m : MR) (domain : Bool) (count : Nat) (null : Bool) : MR × Res :=
  if count ≠ 0 ∧ (null ∨ count < cfg.minRead) then (m, .badCount)
  else if m.nextEvent then
    match readPackets cfg m with
    | .error b => (m, .bad b)
    | .ok x => (x.1, .read 0 (if domain && x.1.invalid then [] else x.2.1) x.2.2 x.1.buf)
  else if m.invalid then (m, .read 0 [] [] .none)
  else if m.lcm = 0 then (m, .bad .crash)
  else if domain ∧ null ∧ m.sigs ≠ [] then (m, .bad .crash)
  else
    let k := count / m.lcm * m.lcm
    match readPackets cfg { m with remaining := k, buf := if null then .none else some m.calls } with
    | .error b => (m, .bad b)
    | .ok x => (x.1, .read (k - x.1.remaining) x.2.1 x.2.2 x.1.buf)

/-- `skipSamples` (mr:914-942). -/
def skip (cfg : Cfg) (m : MR) (count : Nat) : MR × Res :=
  if m.invalid then (m, .read 0 [] [] .none)
  else if count < cfg.minRead then (m, .badCount)
  else match readPackets cfg { m with remaining := count, buf := .none } with
    | .error b => (m, .bad b)
    | .ok x => (x.1, .read (count - x.1.remaining) x.2.1 x.2.2 .none)

/-- `getAvailableCount` (mr:673-696). -/
def available (cfg : Cfg) (m : MR) : MR × Res :=
  let y := synchronize cfg m
  if y.2.2.2 then (y.1, .failed)
  else if y.2.2.1 = .synced ∧ y.1.lcm = 0 then (y.1, .bad .crash)
  else
    let n := y.2.1 / y.1.lcm * y.1.lcm
    (y.1, .count (if y.2.2.1 = .synced ∧ cfg.minRead ≤ n then n else 0))

/-- `getEmpty` (mr:1318-1340). -/
def empty (m : MR) : MR × Res :=
  let x := ready m.sigs true
  ({ m with sigs := x.1 }, .flag (!x.2))

def step (cfg : Cfg) (m : MR) : Op → MR × Res
  | .push i p => (push { m with calls := m.calls + 1 } i p, .none)
  | .read d c n => read cfg { m with calls := m.calls + 1 } d c n
  | .skip c => skip cfg { m with calls := m.calls + 1 } c
  | .available => available cfg { m with calls := m.calls + 1 }
  | .empty => empty { m with calls := m.calls + 1 }

/-- The results of a sequence of calls. -/
def run (cfg : Cfg) : MR → List Op → MR × List Res
  | m, [] => (m, [])
  | m, op :: ops =>
    let x := step cfg m op
    ((run cfg x.1 ops).1, x.2 :: (run cfg x.1 ops).2)

/-- A new reader of signals whose descriptors have not arrived; `divs` are the values the dividers happen to have. -/
def fresh (divs : List Nat) : MR := { sigs := divs.map fun d => { div := d } }

/-- `getIsSynchronized` (mr:1585-1592). -/
def isSynchronized (m : MR) : Bool := m.start.isSome

end Verif.Multi
