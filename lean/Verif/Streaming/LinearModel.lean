import Verif.PacketStreaming.Model
import Verif.Wire.Model

/-!
# Write tasks for queued packet buffers

Model of `StreamingManager::getStreamingWriteTasks` and `cachePacketsToLinearBuffer`
(`/repo/shared/libraries/native_streaming_protocol/src/streaming_manager.cpp` 170–220, 494–520, cited as
`mgr`) and of `BaseSessionHandler::copyHeadersToBuffer`, `createAndPushPacketBufferTasks`
(`base_session_handler.cpp` 377–408, cited as `bsh`), on top of the packet streaming server.

Simplifications: a write task is the list of bytes it writes; time stamps and the reservation of the task
vector are dropped; `size_t` arithmetic is unbounded.
-/

namespace Verif.Streaming
open Verif.PacketStreaming Verif.Wire

/-- Memory behind a packet buffer: the block `packetHeader` points to and the block `payload` points
to. -/
abbrev Layout := Buf → Bytes × Bytes

/-- What can go wrong: a failed assertion of the linear caching, a message above the size limit, an
exception of the packet streaming server, access outside a memory block, an endless loop. -/
inductive LinErr where
  | assertion
  | tooBig
  | server
  | oob
  | hang
  deriving DecidableEq, Repr

/-- `std::memcpy` of `data` to position `pos` of a block. -/
def blit (buf : Bytes) (pos : Nat) (data : Bytes) : Except LinErr Bytes :=
  if pos + data.length ≤ buf.length then .ok (buf.take pos ++ data ++ buf.drop (pos + data.length))
  else .error .oob

/-- Reading `n` bytes from the start of a block. -/
def readBlock (mem : Bytes) (n : Nat) : Except LinErr Bytes :=
  if n ≤ mem.length then .ok (mem.take n) else .error .oob

/-- `copyHeadersToBuffer` (bsh:377-388): transport header and packet header. The sum of the sizes is
computed in 32 bits. -/
def copyHeaders (lay : Layout) (b : Buf) : Except LinErr Bytes :=
  if b.size > maxSize then .error .tooBig
  else do
    let h ← readBlock (lay b).1 b.body.headerSize
    pure (headerBytes tyPacket b.size ++ h)

/-- The payload copied to the linear buffer, if there is one (mgr:203-208). -/
def payloadBytes (lay : Layout) (b : Buf) : Except LinErr Bytes :=
  if b.payloadSize > 0 then readBlock (lay b).2 b.payloadSize else .ok []

/-- One iteration of the loop of `cachePacketsToLinearBuffer` after taking the buffer (mgr:190-212). -/
def cacheOne (lay : Layout) (g size : Nat) (buf : Bytes) (pos : Nat) (b : Buf) : Except LinErr (Bytes × Nat) :=
  if g ≠ b.group then .error .assertion
  else if size < pos + 4 + b.body.headerSize + b.payloadSize then .error .assertion
  else do
    let hs ← copyHeaders lay b
    let buf1 ← blit buf pos hs
    let pos1 := pos + 4 + b.body.headerSize
    let p ← payloadBytes lay b
    let buf2 ← blit buf1 pos1 p
    pure (buf2, pos1 + b.payloadSize)

/-- The loop of `cachePacketsToLinearBuffer` (mgr:184-212). -/
def cacheLoop (lay : Layout) (g size : Nat) : Nat → Srv → Bytes → Nat → Srv × Except LinErr (Bytes × Nat)
  | 0, s, buf, pos => (s, .ok (buf, pos))
  | n + 1, s, buf, pos =>
    match s.getNext with
    | (s', .buffer (some b)) =>
      match cacheOne lay g size buf pos b with
      | .ok (buf', pos') => cacheLoop lay g size n s' buf' pos'
      | .error e => (s', .error e)
    | (s', .buffer none) => (s', .error .assertion)
    | (s', _) => (s', .error .server)

/-- `cachePacketsToLinearBuffer` (mgr:170-220). -/
def cacheGroup (lay : Layout) (s : Srv) (g : Nat) : Srv × Except LinErr Bytes :=
  let count := s.countOfCacheable g
  let size := s.sizeOfCacheable g
  if s.availableBuffers < count then (s, .error .assertion)
  else
    let total := 4 * count + size
    match cacheLoop lay g total count s (List.replicate total 0) 0 with
    | (s', .ok (buf, pos)) => if pos ≠ total then (s', .error .assertion) else (s', .ok buf)
    | (s', .error e) => (s', .error e)

/-- `createAndPushPacketBufferTasks` (bsh:390-408). -/
def bufferTasks (lay : Layout) (b : Buf) : Except LinErr (List Bytes) := do
  let h ← copyHeaders lay b
  if b.payloadSize > 0 then do
    let p ← readBlock (lay b).2 b.payloadSize
    pure [h, p]
  else pure [h]

/-- The loop of `getStreamingWriteTasks` (mgr:505-517). `fuel` bounds the iterations; running out of it
with buffers left is reported as `hang`. -/
def writeLoop (lay : Layout) : Nat → Srv → List Bytes → Srv × Except LinErr (List Bytes)
  | fuel, s, tasks =>
    match s.queue.head? with
    | none => (s, .ok tasks)
    | some b =>
      match fuel with
      | 0 => (s, .error .hang)
      | fuel + 1 =>
        if b.cacheable then
          match cacheGroup lay s b.group with
          | (s', .ok t) => writeLoop lay fuel s' (tasks ++ [t])
          | (s', .error e) => (s', .error e)
        else
          match s.getNext with
          | (s', .buffer (some b)) =>
            match bufferTasks lay b with
            | .ok ts => writeLoop lay fuel s' (tasks ++ ts)
            | .error e => (s', .error e)
          | (s', .buffer none) => (s', .error .oob)
          | (s', _) => (s', .error .server)

/-- `getStreamingWriteTasks` (mgr:494-520). Every iteration is expected to take a buffer, hence the
fuel. -/
def writeTasks (lay : Layout) (s : Srv) : Srv × Except LinErr (List Bytes) :=
  writeLoop lay s.queue.length s []

end Verif.Streaming
