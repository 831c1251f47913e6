import Verif.Reader.StreamModel

/-!
# Tail reader

Model of `TailReaderImpl` (`core/opendaq/reader/src/tail_reader_impl.cpp`, abbreviated `cpp`). The
reader drains its connection whenever it is notified, so it is modelled on the list of packets it
dequeues. Samples are tokens as in `StreamModel.lean`, and the same simplifications apply: which
descriptors can be converted is a parameter, the reader stays connected, calls are atomic (they run
under one mutex), callbacks are not modelled. `SizeT` arithmetic on the number of cached samples is
modulo 2^64. Domain packets are assumed to cover their data packet.
-/

namespace Verif.Reader.Tail

open Connection (Packet EventKind DomPacket DomDesc wadd wsub)

structure Cfg where
  historySize : Nat
  skipEvents : Bool
  badValue : Nat → Bool
  badDomain : DomDesc → Bool

/-- `packets`, `cachedSamples`, `invalid`, and whether the value reader knows the sample type. -/
structure T where
  packets : List Packet := []
  cached : Nat := 0
  invalid : Bool := false
  typed : Bool := false

/-- A new reader; `typed` if it already took a value descriptor from its port when it was created
(`readDescriptorFromPort`, reader_impl.h:492-504). -/
def init (typed : Bool) : T := { typed }

/-- The eviction loop of `packetReceived` (cpp:281-303): drop the oldest data packets as long as the
history stays covered. Result: remaining packets and samples. -/
def evict (h : Nat) : List Packet → Nat → List Packet × Nat
  | [], avail => ([], avail)
  | .data id n dom :: ps, avail =>
    if h ≤ wsub avail n then evict h ps (wsub avail n) else (.data id n dom :: ps, avail)
  | q :: ps, avail => (q :: (evict h ps avail).1, (evict h ps avail).2)

/-- One packet in `packetReceived` (cpp:261-320). -/
def receive (cfg : Cfg) (s : T) : Packet → T
  | .data id n dom =>
    if s.cached < cfg.historySize then
      { s with packets := s.packets ++ [.data id n dom], cached := wadd s.cached n }
    else
      { s with packets := (evict cfg.historySize s.packets (wadd s.cached n)).1 ++ [.data id n dom],
               cached := (evict cfg.historySize s.packets (wadd s.cached n)).2 }
  | .event id k => { s with packets := s.packets ++ [.event id k] }
  | .none _ => s

/-- `TailReaderInfo` and the local `readCachedSamples`, `offset` of `readData`. -/
structure Acc where
  rem : Nat
  skip : Nat
  vals : List Tok := []
  doms : List Tok := []
  seen : Nat := 0
  offset : Option Tok := none

inductive Res where
  | done (ev : Option (Nat × EventKind))
  /-- an exception leaves `read` -/
  | throws
  deriving DecidableEq

/-- `readPacket` (cpp:110-150); a failing value conversion is reported by a code which `readData`
ignores. `none`: exception (the domain packet is a null pointer, cpp:132-133). -/
def readPacket (m : Mode) (s : T) (id n : Nat) (dom : Option DomPacket) (a : Acc) : Option Acc :=
  if a.skip > n then some { a with skip := a.skip - n }
  else
    let toRead := min a.rem (n - a.skip)
    if s.typed = false then some a
    else
      let a1 := { a with vals := a.vals ++ slice id a.skip toRead }
      match m, dom with
      | .withDomain, none => none
      | .withDomain, some _ =>
        some { a1 with doms := a1.doms ++ slice id a1.skip toRead, skip := 0, rem := a1.rem - toRead }
      | _, _ => some { a1 with skip := 0, rem := a1.rem - toRead }

/-- `handleDescriptorChanged` (reader_impl.h:453-490). -/
def handleDescriptorChanged (cfg : Cfg) (s : T) (v : Connection.Param Nat) (d : Connection.Param DomDesc) : T :=
  let s := match v with
    | some (some x) => { s with typed := true, invalid := s.invalid || cfg.badValue x }
    | _ => s
  match d with
    | some (some x) => { s with invalid := s.invalid || cfg.badDomain x }
    | _ => s

/-- `packets.erase(begin, it + 1); cachedSamples -= readCachedSamples` (cpp:175-176). -/
def erase (s : T) (rest : List Packet) (seen : Nat) : T :=
  { s with packets := rest, cached := wsub s.cached seen }

/-- The offset noted for the first packet that is not skipped entirely (cpp:188-191). -/
def noteOffset (id n : Nat) (a : Acc) : Acc :=
  match a.offset with
  | none => if a.skip < n then { a with offset := some (id, a.skip) } else a
  | some _ => a

/-- The loop of `readData` (cpp:166-197), over the packets from the iterator on. -/
def readLoop (cfg : Cfg) (m : Mode) : List Packet → T → Acc → T × Acc × Res
  | [], s, a => (s, a, .done none)
  | .none _ :: ps, s, a => readLoop cfg m ps s a
  | .data id n dom :: ps, s, a =>
    match readPacket m s id n dom (noteOffset id n a) with
    | none => (s, a, .throws)
    | some a' => readLoop cfg m ps s { a' with seen := a'.seen + n }
  | .event id (.descChanged v d) :: ps, s, a =>
    let s' := erase (handleDescriptorChanged cfg s v d) ps a.seen
    if !cfg.skipEvents || s'.invalid then (s', a, .done (some (id, .descChanged v d)))
    else readLoop cfg m ps s' a
  /- `handleDescriptorChanged` is called for every event and throws for all other ids -/
  | .event _ (.gap _) :: _, s, a => (s, a, .throws)
  | .event _ (.other _) :: _, s, a => (s, a, .throws)

inductive Ret where
  | success | ignored | throws
  deriving DecidableEq

structure Out where
  ret : Ret
  vals : List Tok := []
  doms : List Tok := []
  count : Nat := 0
  event : Option (Nat × EventKind) := none
  valid : Bool := true
  sufficient : Bool := true
  offset : Option Tok := none

/-- `read` and `readWithDomain` (cpp:202-256) with `readData` (cpp:153-200). -/
def read (cfg : Cfg) (s : T) (m : Mode) (n : Nat) : T × Out :=
  if s.invalid then (s, { ret := .ignored, valid := false })
  else if n > s.cached ∧ n > cfg.historySize then (s, { ret := .success, sufficient := false })
  else match readLoop cfg m s.packets s { rem := n, skip := s.cached - n } with
    | (s', a, .done ev) =>
      (s', { ret := .success, vals := a.vals, doms := a.doms, count := n - a.rem, event := ev,
             valid := !s'.invalid, offset := a.offset })
    | (s', _, .throws) => (s', { ret := .throws })

/-- `getAvailableCount` (cpp:74-82). -/
def getAvailableCount (s : T) : Nat := s.cached

/-- `getEmpty` (cpp:84-91). -/
def getEmpty (s : T) : Bool := s.cached == 0

inductive Op where
  /-- notification: the connection holds these packets -/
  | receive (ps : List Packet)
  | read (m : Mode) (n : Nat)

def step (cfg : Cfg) (s : T) : Op → T × Out
  | .receive ps => (ps.foldl (receive cfg) s, { ret := .success })
  | .read m n => read cfg s m n

end Verif.Reader.Tail
