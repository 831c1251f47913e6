import Verif.Reader.StreamModel

/-!
# Block reader

Model of `BlockReaderImpl` (`core/opendaq/reader/src/block_reader_impl.cpp`, abbreviated `cpp`) and
`BlockReadInfo` (`core/opendaq/reader/include/opendaq/block_reader_impl.h`, abbreviated `h`).

The connection is the list of packets queued in it (its FIFO behaviour and counters are the subject of
`Verif.Connection`). Samples are tokens as in `StreamModel.lean`, and the same simplifications apply: which
descriptors can be converted is a parameter, the reader stays connected, calls are atomic, waiting and
callbacks are not modelled, domain packets cover their data packet. The counter of written samples is
unbounded (the code's `SizeT` would wrap after 2^64 samples); the number of samples left to read is
modulo 2^64. The block size is positive (the builder rejects 0).
-/

namespace Verif.Reader.Block

open Connection (Packet EventKind DomPacket DomDesc wadd wsub W)

/-- `overlap` is in percent; `initOverlap` throws for 100 or more (cpp:468-471). -/
structure Cfg where
  block : Nat
  overlap : Nat
  skipEvents : Bool
  badValue : Nat → Bool
  badDomain : DomDesc → Bool

/-- `overlappedBlockSize` (cpp:473). -/
def Cfg.ov (cfg : Cfg) : Nat := cfg.block * cfg.overlap / 100

/-- `overlappedBlockSizeRemainder` (cpp:474). -/
def Cfg.step (cfg : Cfg) : Nat := cfg.block - cfg.ov

/-- A data packet in `dataPacketsQueue`. -/
structure DP where
  id : Nat
  n : Nat
  dom : Option DomPacket
  deriving DecidableEq

/-- The connection, `dataPacketsQueue` split at `currentDataPacketIter` (`behind`: the packets before it,
nearest first; `ahead`: from it on, empty when the iterator is `end()`), `prevSampleIndex`,
`writtenSampleCount`, `invalid`, and whether the value reader knows the sample type. -/
structure B where
  conn : List Packet := []
  behind : List DP := []
  ahead : List DP := []
  prev : Nat := 0
  written : Nat := 0
  invalid : Bool := false
  typed : Bool := false

def init (typed : Bool) : B := { typed }

inductive Fault where
  /-- `--currentDataPacketIter` on the first packet -/
  | beforeBegin
  /-- the packet the iterator points to is popped -/
  | dangling
  /-- division by zero -/
  | divByZero
  /-- samples behind the end of a packet are read -/
  | pastEnd
  deriving DecidableEq, Repr

/-- `remainingSamplesToRead` and the user's buffers. -/
structure Acc where
  rem : Nat
  vals : List Tok := []
  doms : List Tok := []
  offset : Option Tok := none

inductive Res where
  | done (ev : Option (Nat × EventKind))
  /-- `readPacketData` failed -/
  | failed
  | fault (f : Fault)
  /-- the fuel ran out (does not happen) -/
  | stuck
  deriving DecidableEq

/-- The loop of `rewindQueue` (h:95-117), moving back by `rew` samples from index `prev` of `cur`. The result
is the new split and index. -/
def rewind : List DP → DP → List DP → Nat → Nat → Option (List DP × DP × List DP × Nat)
  | [], cur, ahead, prev, rew =>
    if rew > cur.n then none
    else if prev < rew then none
    else some ([], cur, ahead, prev - rew)
  | b :: bs, cur, ahead, prev, rew =>
    if rew > cur.n then rewind bs b (cur :: ahead) prev (rew - cur.n)
    else if prev < rew then rewind bs b (cur :: ahead) b.n (rew - prev)
    else some (b :: bs, cur, ahead, prev - rew)

/-- Number of packets `trimQueue` keeps (h:127-128). -/
def keepCount (size ov : Nat) : Nat := ov / size + if ov % size = 0 then 0 else 1

/-- `trimQueue` (h:125-131): pop packets at the front until `keepCount` are left. -/
def trim (cfg : Cfg) (size : Nat) (behind ahead : List DP) : Except Fault (List DP) :=
  if size = 0 then .error .divByZero
  else if ahead.length > keepCount size cfg.ov ∧ ahead ≠ [] then .error .dangling
  else .ok (behind.take (keepCount size cfg.ov - ahead.length))

/-- Behind the samples of a packet of `n` samples: `++currentDataPacketIter`, reset the index and trim
(cpp:280-289). -/
def finish (cfg : Cfg) (n : Nat) (s : B) (behind : List DP) (cur : DP) (ahead : List DP) (prev : Nat) :
    Except Fault B :=
  if prev = n then
    match trim cfg n (cur :: behind) ahead with
    | .ok behind' => .ok { s with behind := behind', ahead, prev := 0 }
    | .error f => .error f
  else .ok { s with behind, ahead := cur :: ahead, prev }

/-- Number of samples taken from the current packet (cpp:244-247); it does not depend on the number of
samples left to read. -/
def takeCount (cfg : Cfg) (s : B) (cur : DP) : Nat :=
  min (cfg.block - s.written % cfg.block) (wsub cur.n s.prev)

/-- `readPacketData` (cpp:242-293). -/
def readPacketData (cfg : Cfg) (m : Mode) (s : B) (cur : DP) (ahead : List DP) (a : Acc) : B × Acc × Option Res :=
  let k := takeCount cfg s cur
  if s.typed = false then (s, a, some .failed)
  else if s.prev > cur.n then (s, a, some (.fault .pastEnd))
  else
    let a1 := { a with vals := a.vals ++ slice cur.id s.prev k }
    if m = .withDomain ∧ cur.dom = none then (s, a1, some .failed)
    else
      let a2 := { a1 with
        doms := if m = .withDomain then a1.doms ++ slice cur.id s.prev k else a1.doms
        rem := wsub a1.rem k }
      let s1 := { s with written := s.written + k }
      if cfg.overlap ≠ 0 ∧ s1.written % cfg.block = 0 then
        match rewind s.behind cur ahead (s.prev + k) cfg.ov with
        | none => (s1, a2, some (.fault .beforeBegin))
        | some (behind', cur', ahead', prev') =>
          let a3 := { a2 with rem := if a2.rem = 0 then 0 else wadd a2.rem cfg.ov }
          match finish cfg cur.n s1 behind' cur' ahead' prev' with
          | .ok s2 => (s2, a3, none)
          | .error f => (s1, a3, some (.fault f))
      else
        match finish cfg cur.n s1 s.behind cur ahead (s.prev + k) with
        | .ok s2 => (s2, a2, none)
        | .error f => (s1, a2, some (.fault f))

/-- `handleDescriptorChanged` (reader_impl.h:453-490). -/
def handleDescriptorChanged (cfg : Cfg) (s : B) (v : Connection.Param Nat) (d : Connection.Param DomDesc) : B :=
  let s := match v with
    | some (some x) => { s with typed := true, invalid := s.invalid || cfg.badValue x }
    | _ => s
  match d with
    | some (some x) => { s with invalid := s.invalid || cfg.badDomain x }
    | _ => s

/-- Only descriptor changes are handled (cpp:384-387). -/
def handleEvent (cfg : Cfg) (s : B) : EventKind → B
  | .descChanged v d => handleDescriptorChanged cfg s v d
  | _ => s

/-- `info.clean()` (h:161-167). -/
def clean (s : B) : B := { s with behind := [], ahead := [], prev := 0, written := 0 }

def popConn (s : B) (rest : List Packet) : B := { s with conn := rest }

/-- A dequeued data packet becomes the current one (cpp:357-361). -/
def push (s : B) (d : DP) : B := { s with ahead := [d] }

def isGap : EventKind → Bool
  | .gap _ => true
  | _ => false

/-- The offset is noted before the first packet is read (cpp:368-371). -/
def noteOffset (a : Acc) (cur : DP) (prev : Nat) : Acc :=
  if a.offset = none then { a with offset := some (cur.id, prev) } else a

/-- The loop of `readPackets` (cpp:335-402). The third component is the number of samples written when the
reader was cleaned by an event. -/
def loop (cfg : Cfg) (m : Mode) : Nat → B → Acc → B × Acc × Res × Nat
  | 0, s, a => (s, a, .stuck, s.written)
  | fuel + 1, s, a =>
    match s.ahead with
    | cur :: ahead =>
      if a.rem = 0 then (s, a, .done none, s.written)
      else match readPacketData cfg m s cur ahead (noteOffset a cur s.prev) with
        | (s', a', none) => loop cfg m fuel s' a'
        | (s', a', some r) => (s', a', r, s'.written)
    | [] =>
      match s.conn with
      | [] => (s, a, .done none, s.written)
      | .none _ :: rest => loop cfg m fuel (popConn s rest) a
      | .data id n dom :: rest => loop cfg m fuel (push (popConn s rest) ⟨id, n, dom⟩) a
      | .event id k :: rest =>
        let s' := handleEvent cfg (popConn s rest) k
        if !cfg.skipEvents || s'.invalid || isGap k then (clean s', a, .done (some (id, k)), s'.written)
        else loop cfg m fuel s' a

inductive Ret where
  | success | ignored | fault (f : Fault) | stuck
  deriving DecidableEq

structure Out where
  ret : Ret
  vals : List Tok := []
  doms : List Tok := []
  /-- blocks returned -/
  count : Nat := 0
  /-- `getReadSamples` of the status -/
  readSamples : Nat := 0
  event : Option (Nat × EventKind) := none
  valid : Bool := true
  offset : Option Tok := none

/-- Samples requested for `count` blocks (cpp:424). -/
def requested (cfg : Cfg) (count : Nat) : Nat :=
  if count = 0 then 0 else (count * cfg.step + cfg.ov) % W

def packetSamples : Packet → Nat
  | .data _ n _ => n
  | _ => 0

def samplesIn (ps : List Packet) : Nat := (ps.map packetSamples).sum

/-- Enough iterations: every iteration dequeues a packet or takes a sample, and at most `block` samples are
taken for each sample that is in the reader or the connection. -/
def fuelFor (cfg : Cfg) (s : B) (count : Nat) : Nat :=
  count * cfg.block + (samplesIn s.conn + (s.behind ++ s.ahead).foldl (fun t d => t + d.n) 0 + 1) *
    (cfg.block + 1) + s.conn.length + 2

/-- `read` and `readWithDomain` (cpp:407-466). -/
def read (cfg : Cfg) (s : B) (m : Mode) (count : Nat) : B × Out :=
  if s.invalid then (s, { ret := .ignored, valid := false })
  else match loop cfg m (fuelFor cfg s count) s { rem := requested cfg count } with
    | (s', a, .done ev, w) =>
      (s', { ret := .success, vals := a.vals, doms := a.doms, count := (w - s.written) / cfg.block,
             readSamples := w - s.written, event := ev, valid := !s'.invalid, offset := a.offset })
    | (s', a, .failed, w) =>
      (s', { ret := .success, vals := a.vals, doms := a.doms, count := (w - s.written) / cfg.block,
             readSamples := w - s.written, offset := a.offset })
    | (s', a, .fault f, _) => (s', { ret := .fault f, vals := a.vals, doms := a.doms })
    | (s', a, .stuck, _) => (s', { ret := .stuck, vals := a.vals, doms := a.doms })

/-- Samples before the first packet satisfying `p` (`getSamplesUntilNextEventPacket`,
`getSamplesUntilNextGapPacket`, see `Verif.Connection`). -/
def samplesUntil (p : Packet → Bool) (conn : List Packet) : Nat :=
  samplesIn (conn.takeWhile fun q => !p q)

def isEventPacket : Packet → Bool
  | .event _ _ => true
  | _ => false

def isGapPacket : Packet → Bool
  | .event _ (.gap _) => true
  | _ => false

/-- `getAvailableSamples` (cpp:133-141). -/
def availableSamples (cfg : Cfg) (s : B) : Nat :=
  (match s.ahead with
    | cur :: _ => cur.n - s.prev
    | [] => 0) + samplesUntil (if cfg.skipEvents then isGapPacket else isEventPacket) s.conn

/-- `calculateBlockCount` (cpp:477-496). -/
def blockCount (cfg : Cfg) (s : B) (n : Nat) : Nat :=
  if n < cfg.block then
    if s.conn.any isGapPacket || (!cfg.skipEvents && s.conn.any isEventPacket) then min n 1 else 0
  else (n - cfg.block) / cfg.step + 1

/-- `getAvailableCount` (cpp:117-131). -/
def getAvailableCount (cfg : Cfg) (s : B) : Nat := blockCount cfg s (availableSamples cfg s)

inductive Op where
  /-- packets arrive in the connection -/
  | receive (ps : List Packet)
  | read (m : Mode) (count : Nat)

def step (cfg : Cfg) (s : B) : Op → B × Out
  | .receive ps => ({ s with conn := s.conn ++ ps }, { ret := .success })
  | .read m n => read cfg s m n

end Verif.Reader.Block
