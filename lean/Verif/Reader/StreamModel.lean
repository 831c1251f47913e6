import Verif.Connection.Model

/-!
# Stream reader

Model of `StreamReaderImpl` (`core/opendaq/reader/src/stream_reader_impl.cpp`, abbreviated `cpp`,
with `ReadInfo` from `core/opendaq/reader/include/opendaq/read_info.h`), running on the connection
model of `Verif.Connection.Model`.

Simplifications:
* sample `i` of the packet with identity `id` is the token `(id, i)`; the typed conversion of the
  sample (`typed_reader.cpp`) is the identity on tokens. Which descriptors can be converted is a
  parameter (`Cfg.badValue`, `Cfg.badDomain`); a conversion handler that throws counts as bad;
* the reader stays connected (`connected`/`disconnected`, cpp:214-242, not modelled);
* calls are atomic: the timed wait of `readPackets` (cpp:504-542) is modelled only by its
  condition, `waitOver`;
* the domain sample type, when it is not known yet, can always be taken from the domain packet
  (`trySetDomainSampleType`, cpp:423-438);
* the domain offset returned in the status (cpp:583-601) is the token of the first sample read: the
  code computes offset of the domain packet + index * delta.
-/

namespace Verif.Reader

open Connection (Packet EventKind DomPacket DomDesc)

/-- Identity of a sample: packet identity and index in the packet. -/
abbrev Tok := Nat × Nat

/-- The parameters of the reader: builder option `skipEvents`, and the descriptors which make
`handleDescriptorChanged` of the typed readers fail (typed_reader.cpp:704-760). -/
structure Cfg where
  skipEvents : Bool
  badValue : Nat → Bool
  badDomain : DomDesc → Bool

/-- The data packet being read (`ReadInfo::dataPacket`). -/
structure Cur where
  id : Nat
  n : Nat
  dom : Option DomPacket
  deriving DecidableEq

/-- The reader: its connection, `info.dataPacket`, `info.prevSampleIndex`, `invalid` and whether the
value reader knows the sample type (`dataSampleType` is not `Invalid`). -/
structure R where
  conn : Connection.State
  cur : Option Cur := none
  prev : Nat := 0
  invalid : Bool := false
  typed : Bool := false

/-- A reader on a new connection (gap checking on or off). -/
def init (g : Bool) : R := { conn := Connection.init g }

/-- Which buffers the caller passes: `read` (values), `readWithDomain`, `skipSamples` (none). -/
inductive Mode where
  | values | withDomain | skip
  deriving DecidableEq

/-- What a call of `readPackets` has done so far: `info.remainingToRead`, the samples taken (written
to the values buffer unless it is null), the domain samples written, and the reported offset. -/
structure Prog where
  rem : Nat
  taken : List Tok := []
  doms : List Tok := []
  offset : Option Tok := none

/-- How `readPackets` ends: normally, perhaps with an event; or never, because `readPacketData`
fails, its error is ignored (cpp:602) and the same packet is tried again for ever. In the case
`overrun` each round writes the same samples again behind the previous ones. `domainOob`: samples are
read behind the end of the domain packet's buffer. -/
inductive Res where
  | done (ev : Option (Nat × EventKind))
  | hang
  | overrun
  | domainOob
  deriving DecidableEq

/-- `handleDescriptorChanged` (cpp:384-421): `(invalid, typed)`. -/
def handleDescriptorChanged (cfg : Cfg) (r : R) (v : Connection.Param Nat) (d : Connection.Param DomDesc) : R :=
  let r := match v with
    | some (some x) => { r with typed := true, invalid := r.invalid || cfg.badValue x }
    | _ => r
  match d with
    | some (some x) => { r with invalid := r.invalid || cfg.badDomain x }
    | _ => r

/-- The event branch of the loop (cpp:558-569): the reader after the event. -/
def handleEvent (cfg : Cfg) (r : R) : EventKind → R
  | .descChanged v d => handleDescriptorChanged cfg r v d
  | _ => r

/-- Does this event id denote a gap? -/
def isGapKind : EventKind → Bool
  | .gap _ => true
  | _ => false

/-- The samples `from, from+1, …` of a packet, `k` of them. -/
def slice (id start k : Nat) : List Tok := (List.range k).map fun i => (id, start + i)

/-- `readPacketData` (cpp:454-499). -/
def readPacketData (m : Mode) (r : R) (c : Cur) (p : Prog) : Except Res (R × Prog) :=
  let remaining := c.n - r.prev
  let toRead := min p.rem remaining
  if m ≠ .skip ∧ r.typed = false then .error .hang
  else
    let p := { p with taken := p.taken ++ slice c.id r.prev toRead }
    let next (p : Prog) : Except Res (R × Prog) :=
      .ok (if toRead < remaining then { r with prev := r.prev + toRead } else { r with cur := none, prev := 0 },
        { p with rem := p.rem - toRead })
    match m, c.dom with
    | .withDomain, none => .error .overrun
    | .withDomain, some d =>
      if d.count < r.prev + toRead then .error .domainOob
      else next { p with doms := p.doms ++ slice c.id r.prev toRead }
    | _, _ => next p

/-- The offset computed when the first data packet is met (cpp:583-601). -/
def noteOffset (r : R) (c : Cur) (p : Prog) : Prog :=
  match p.offset with
  | none => { p with offset := some (c.id, r.prev) }
  | some _ => p

/-- `ReadInfo` keeps the data packet (cpp:578). -/
def withCur (r : R) (c : Cur) : R := { r with cur := some c }

/-- `connection.dequeue()` (cpp:550). -/
def popConn (r : R) : R := { r with conn := (Connection.dequeue r.conn).1 }

/-- The loop of `readPackets` (cpp:544-606). `fuel` bounds the number of rounds; `fuelFor` rounds are
always enough (`loop_fuel` in `StreamLemmas.lean`). -/
def loop (cfg : Cfg) (m : Mode) : Nat → R → Prog → R × Prog × Res
  | 0, r, p => (r, p, .hang)
  | f + 1, r, p =>
    match r.cur with
    | some c =>
      if p.rem = 0 then (r, p, .done none)
      else match readPacketData m r c (noteOffset r c p) with
        | .error e => (r, p, e)
        | .ok (r', p') => loop cfg m f r' p'
    | none =>
      match r.conn.packets with
      | [] => (popConn r, p, .done none)
      | .none _ :: _ => loop cfg m f (popConn r) p
      | .event id k :: _ =>
        let r' := handleEvent cfg (popConn r) k
        if !cfg.skipEvents || r'.invalid || isGapKind k then (r', p, .done (some (id, k)))
        else loop cfg m f r' p
      | .data id n dom :: _ =>
        let r' := withCur (popConn r) ⟨id, n, dom⟩
        if p.rem = 0 then (r', p, .done none)
        else match readPacketData m r' ⟨id, n, dom⟩ (noteOffset r' ⟨id, n, dom⟩ p) with
          | .error e => (r', p, e)
          | .ok (r'', p') => loop cfg m f r'' p'

def fuelFor (r : R) : Nat := r.conn.packets.length + 3

inductive Ret where
  | success | ignored
  /-- the call never returns or accesses memory out of bounds -/
  | fault (e : Res)
  deriving DecidableEq

/-- What a call returns: return code, samples written to the buffers, `*count` and the status. -/
structure Out where
  ret : Ret
  vals : List Tok := []
  doms : List Tok := []
  count : Nat := 0
  event : Option (Nat × EventKind) := none
  valid : Bool := true
  offset : Option Tok := none
  conn : Option Connection.Out := none

/-- `read`, `readWithDomain` and `skipSamples` (cpp:609-697). -/
def readOp (cfg : Cfg) (r : R) (m : Mode) (count : Nat) : R × Out :=
  if r.invalid then (r, { ret := .ignored, valid := false })
  else match loop cfg m (fuelFor r) r { rem := count } with
    | (r', p, .done ev) =>
      (r', { ret := .success, vals := if m = .skip then [] else p.taken, doms := p.doms,
             count := count - p.rem, event := ev, valid := !r'.invalid, offset := p.offset })
    | (r', _, e) => (r', { ret := .fault e })

/-- 64 bit `SizeT` arithmetic. -/
abbrev W64 : Nat := 2 ^ 64

/-- Samples left in the packet being read (cpp:293-296). -/
def buffered (r : R) : Nat :=
  match r.cur with
  | some c => c.n - r.prev
  | none => 0

/-- `getAvailableCount` (cpp:284-306). -/
def getAvailableCount (cfg : Cfg) (r : R) : Nat :=
  (buffered r + (if cfg.skipEvents then Connection.getSamplesUntilNextGapPacket r.conn
    else Connection.getSamplesUntilNextEventPacket r.conn)) % W64

/-- `getEmpty` (cpp:308-344). -/
def getEmpty (cfg : Cfg) (r : R) : Bool :=
  if !cfg.skipEvents && Connection.hasEventPacket r.conn then false
  else if cfg.skipEvents && Connection.hasGapPacket r.conn then false
  else if 0 < buffered r then false
  else if 0 < Connection.getAvailableSamples r.conn then false
  else true

/-- `ReadTimeoutType`. -/
inductive TimeoutType where
  | all | any
  deriving DecidableEq

/-- The condition of the timed wait in `readPackets` (cpp:506-541): if it is false when the call
starts, the call blocks until a packet arrives that makes it true or the timeout has passed. The
subtraction is `SizeT` arithmetic. -/
def waitOver (cfg : Cfg) (tt : TimeoutType) (r : R) (count : Nat) : Bool :=
  let samplesToRead := (count + W64 - buffered r) % W64
  if cfg.skipEvents && Connection.hasGapPacket r.conn then true
  else if !cfg.skipEvents && Connection.hasEventPacket r.conn then true
  else match tt with
    | .any => Connection.getAvailableSamples r.conn != 0
    | .all => decide (samplesToRead ≤ Connection.getAvailableSamples r.conn)

/-- Calls: the producer's calls on the connection, and the calls on the reader. -/
inductive Op where
  | conn (op : Connection.Op)
  | read (m : Mode) (count : Nat)
  | markAsInvalid
  deriving DecidableEq

def step (cfg : Cfg) (r : R) : Op → R × Out
  | .conn op => ({ r with conn := (Connection.step r.conn op).1 },
      { ret := .success, conn := some (Connection.step r.conn op).2 })
  | .read m n => readOp cfg r m n
  /- `markAsInvalid` (cpp:362-368). -/
  | .markAsInvalid => ({ r with invalid := true }, { ret := .success })

end Verif.Reader
