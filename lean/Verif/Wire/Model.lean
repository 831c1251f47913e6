import Verif.Wire.ConfigModel

/-!
# Native streaming frames

Model of the transport header (`native_streaming_protocol_types.{h,cpp}`), of the frame writers and
readers of `base_session_handler.cpp`, of the dispatch in `client_session_handler.cpp` and
`server_session_handler.cpp`, and of the packet headers of `packet_streaming.h` as written by
`packet_streaming_server.cpp` and read by `packet_streaming_client.cpp`.

A session reads exactly as many bytes as the current read task asks for and calls its handler, which
returns the next read task (`daq::native_streaming::Session`, an external library; this contract is
assumed). Signals and descriptors are represented by their serialised text. The checks for absent
handlers are not modelled: all handlers are installed.
-/

namespace Verif.Wire

/-! ### Transport header -/

/-- `TransportHeader(PayloadType, size_t)` (`native_streaming_protocol_types.cpp` 5–13): the size part is
64-bit, the type part 32-bit, the result narrowed to 32 bits. -/
def packHeader (ty : BitVec 32) (size : BitVec 64) : BitVec 32 :=
  (((size <<< (0 : Nat)) &&& 0x0FFFFFFF#64) ||| ((ty <<< (28 : Nat)) &&& 0xF0000000#32).setWidth 64).setWidth 32

/-- `TransportHeader(const PackedHeaderType*)` (15–20). -/
def unpackType (h : BitVec 32) : BitVec 32 := (h &&& 0xF0000000#32) >>> (28 : Nat)
def unpackSize (h : BitVec 32) : BitVec 64 := ((h &&& 0x0FFFFFFF#32) >>> (0 : Nat)).setWidth 64

/-- The header on the wire (`createWriteHeaderTask`, `base_session_handler.cpp` 220–226). -/
def headerBytes (ty : Nat) (size : Nat) : Bytes :=
  leBytes 4 (packHeader (BitVec.ofNat 32 ty) (BitVec.ofNat 64 size)).toNat

/-- `enum class PayloadType` (`native_streaming_protocol_types.h`). -/
def tyPacket : Nat := 1
def tySignalAvailable : Nat := 2
def tySignalUnavailable : Nat := 3
def tySubscribe : Nat := 4
def tyUnsubscribe : Nat := 5
def tyInitDone : Nat := 6
def tySubscribeAck : Nat := 7
def tyUnsubscribeAck : Nat := 8
def tyConfig : Nat := 9
def tyProperties : Nat := 10
def tyInitRequest : Nat := 11

/-! ### Frame writers -/

/-- A message handed to one of the `send…` functions of the session handlers. -/
inductive Frame where
  /-- `sendPacketBuffer`: the packet header block and the payload block. -/
  | packet (hdr : Bytes) (payload : Bytes)
  | signalAvailable (id : UInt32) (sid : Bytes) (json : Bytes)
  | signalUnavailable (id : UInt32) (sid : Bytes)
  | subscribe (id : UInt32) (sid : Bytes)
  | unsubscribe (id : UInt32) (sid : Bytes)
  | initDone
  | subscribeAck (id : UInt32)
  | unsubscribeAck (id : UInt32)
  /-- `sendConfigurationPacket`: the memory block of the configuration packet. -/
  | config (mem : Bytes)
  | properties (json : Bytes)
  | initRequest
deriving DecidableEq, Repr

/-- Write tasks are collected, their sizes summed (`calculatePayloadSize`,
`base_session_handler.cpp` 236–248) and the header put in front. -/
def sendTasks (ty : Nat) (tasks : List Bytes) : Res Bytes :=
  let size := (tasks.map List.length).sum
  if size > maxSize then .throws else .ok (headerBytes ty size ++ tasks.flatten)

/-- `copyHeadersToBuffer` and `createAndPushPacketBufferTasks` (`base_session_handler.cpp` 377–408):
the sum of header and payload size is computed in 32 bits. -/
def sendPacketBuffer (hdr payload : Bytes) : Res Bytes := do
  let size ← rdU8 hdr 0
  let psize ← rdU32 hdr 8
  let total := (size.toNat + psize.toNat) % U32W
  if total > maxSize then .throws else do
    let h ← rd hdr 0 size.toNat
    let p ← if psize.toNat > 0 then rd payload 0 psize.toNat else pure []
    pure (headerBytes tyPacket total ++ h ++ p)

/-- `sendConfigurationPacket` (`base_session_handler.cpp` 178–213), which copies the packet first
(`config_protocol.cpp` 25–40, size in 32 bits). -/
def sendConfig (mem : Bytes) : Res Bytes := do
  let len ← cfgLength mem
  let copy ← rd mem 0 len
  let h ← rd copy 0 16
  let n ← cfgPayloadSize copy
  if n > 0 then do
    let p ← rd copy 16 n
    sendTasks tyConfig [h, p]
  else sendTasks tyConfig [h]

/-- The `send…` functions (`base_session_handler.cpp` 351–364, 410–446, 679–764,
`client_session_handler.cpp` 35–61, `server_session_handler.cpp` 38–45). -/
def encodeFrame : Frame → Res Bytes
  | .packet hdr payload => sendPacketBuffer hdr payload
  | .signalAvailable id sid json =>
    if sid.length > 65535 then .throws
    else sendTasks tySignalAvailable [u32 id, leBytes 2 sid.length, sid, json]
  | .signalUnavailable id sid => sendTasks tySignalUnavailable [u32 id, sid]
  | .subscribe id sid => sendTasks tySubscribe [u32 id, sid]
  | .unsubscribe id sid => sendTasks tyUnsubscribe [u32 id, sid]
  | .initDone => .ok (headerBytes tyInitDone 0)
  | .subscribeAck id => sendTasks tySubscribeAck [u32 id]
  | .unsubscribeAck id => sendTasks tyUnsubscribeAck [u32 id]
  | .config mem => sendConfig mem
  | .properties json => sendTasks tyProperties [json]
  | .initRequest => .ok (headerBytes tyInitRequest 0)

/-! ### Frame readers -/

/-- `2^64`, the modulus of `size_t` arithmetic. -/
def U64W : Nat := 18446744073709551616

/-- `copyData` and `getStringFromData` (`base_session_handler.cpp` 255–283): the bounds test is made in
`size_t` arithmetic, then `memcpy` reads the received block. -/
def copyData (data : Bytes) (n off : Nat) : Res Bytes :=
  if (n + off) % U64W > data.length then .throws else rd data off n

/-- `size - bytesDone` in `size_t` arithmetic. -/
def subSize (a b : Nat) : Nat := (a + (U64W - b % U64W)) % U64W

/-- What a reader does with a received body. -/
inductive ReadOut where
  /-- the frame is handed to the installed handler and reading goes on -/
  | deliver (f : Frame)
  /-- the body is dropped and reading goes on -/
  | skip
  /-- the error handler is called and reading goes on -/
  | errorGoOn
  /-- the error handler is called and reading stops -/
  | errorStop
deriving DecidableEq, Repr

/-- A `catch (DaqException)` block around the field reads. -/
def guarded (onError : ReadOut) (x : Res ReadOut) : Res ReadOut :=
  match x with
  | .throws => .ok onError
  | r => r

/-- `readConfigurationPacket` (`base_session_handler.cpp` 87–147). `realloc` is given the 32-bit sum of
header and payload size; writing more than that into the new block would be out of bounds. -/
def readConfig (data : Bytes) : Res ReadOut := guarded .errorGoOn do
  let hs ← copyData data 1 0
  if leVal hs != 16 then pure .skip else do
    let hdr ← copyData data 16 0
    let n ← cfgPayloadSize hdr
    if n > 0 then do
      let alloc := (16 + n) % U32W
      let p ← copyData data n 16
      if 16 + n > alloc then .oob else pure (.deliver (.config (hdr ++ p)))
    else pure (.deliver (.config hdr))

/-- `readPacketBuffer` (`base_session_handler.cpp` 285–349). -/
def readPacketBuffer (data : Bytes) : Res ReadOut := guarded .errorStop do
  let hs ← copyData data 1 0
  if leVal hs < 12 then pure .skip else do
    let hdr ← copyData data (leVal hs) 0
    let n ← rdU32 hdr 8
    if n.toNat > 0 then do
      let p ← copyData data n.toNat (leVal hs)
      pure (.deliver (.packet hdr p))
    else pure (.deliver (.packet hdr []))

/-- `readSignalAvailable` (`base_session_handler.cpp` 448–492). -/
def readSignalAvailable (data : Bytes) : Res ReadOut := guarded .errorStop do
  let id ← copyData data 4 0
  let n ← copyData data 2 4
  let sid ← copyData data (leVal n) 6
  let json ← copyData data (subSize data.length (6 + leVal n)) (6 + leVal n)
  pure (.deliver (.signalAvailable (UInt32.ofNat (leVal id)) sid json))

/-- The readers of a numeric id followed by the string id up to the end of the frame:
`readSignalUnavailable` (494–525), `readSignalSubscribe` (577–621), `readSignalUnsubscribe` (623–667).
Looking up the signal and answering is not part of decoding. -/
def readIdString (mk : UInt32 → Bytes → Frame) (data : Bytes) : Res ReadOut := guarded .errorStop do
  let id ← copyData data 4 0
  let sid ← copyData data (subSize data.length 4) 4
  pure (.deliver (mk (UInt32.ofNat (leVal id)) sid))

/-- `readSignalSubscribedAck`, `readSignalUnsubscribedAck` (527–575). -/
def readAck (mk : UInt32 → Frame) (data : Bytes) : Res ReadOut := guarded .errorStop do
  let id ← copyData data 4 0
  pure (.deliver (mk (UInt32.ofNat (leVal id))))

/-- `readTransportLayerProperties` (`server_session_handler.cpp` 47–77) up to JSON deserialisation. -/
def readProperties (data : Bytes) : Res ReadOut := guarded .errorStop do
  let json ← copyData data data.length 0
  pure (.deliver (.properties json))

inductive Role where
  | client
  | server
deriving DecidableEq, Repr

/-- What `readHeader` decides from the payload type. -/
inductive Dispatch where
  /-- the handler is called at once, no body is read -/
  | now (f : Frame)
  | body (reader : Bytes → Res ReadOut)

/-- `ClientSessionHandler::readHeader` (`client_session_handler.cpp` 63–184) and
`ServerSessionHandler::readHeader` (`server_session_handler.cpp` 156–297). -/
def dispatch (role : Role) (ty : Nat) : Dispatch :=
  if ty = tySignalAvailable then .body readSignalAvailable
  else if ty = tySignalUnavailable then .body (readIdString .signalUnavailable)
  else if ty = tyPacket then .body readPacketBuffer
  else if ty = tySubscribeAck then .body (readAck .subscribeAck)
  else if ty = tyUnsubscribeAck then .body (readAck .unsubscribeAck)
  else if ty = tySubscribe then .body (readIdString .subscribe)
  else if ty = tyUnsubscribe then .body (readIdString .unsubscribe)
  else if ty = tyConfig then .body readConfig
  else match role with
    | .client => if ty = tyInitDone then .now .initDone else .body (fun _ => .ok .skip)
    | .server =>
      if ty = tyInitRequest then .now .initRequest
      else if ty = tyProperties then .body readProperties
      else .body (fun _ => .ok .skip)

/-- What a session did with the bytes received so far. -/
inductive Item where
  | frame (f : Frame)
  | error
  | stopped
  | oob
deriving DecidableEq, Repr

/-- What the session does with the result of a body reader, and whether it goes on. -/
def outcome : Res ReadOut → List Item × Bool
  | .ok (.deliver f) => ([.frame f], true)
  | .ok .skip => ([], true)
  | .ok .errorGoOn => ([.error], true)
  | .ok .errorStop => ([.error, .stopped], false)
  | .throws => ([.stopped], false)
  | .oob => ([.oob], false)

/-- Reading one frame from the front of the received bytes: `none` if it is not complete yet, else
what happened, whether reading goes on, and the bytes left. -/
def readOne (role : Role) (s : Bytes) : Option (List Item × Bool × Bytes) :=
  if s.length < 4 then none
  else
    let h := BitVec.ofNat 32 (leVal (s.take 4))
    let rest := s.drop 4
    match dispatch role (unpackType h).toNat with
    | .now f => some ([.frame f], true, rest)
    | .body reader =>
      let n := (unpackSize h).toNat
      if rest.length < n then none
      else
        let r := outcome (reader (rest.take n))
        some (r.1, r.2, rest.drop n)

/-- The read loop; `fuel` bounds the number of frames, and every frame takes at least four bytes. -/
def sessionN (role : Role) : Nat → Bytes → List Item
  | 0, _ => []
  | fuel + 1, s =>
    match readOne role s with
    | none => []
    | some (is, true, rest) => is ++ sessionN role fuel rest
    | some (is, false, _) => is

/-- Everything a session has done after receiving `s`. -/
def session (role : Role) (s : Bytes) : List Item := sessionN role s.length s

/-! ### Packet headers inside packet frames -/

/-- The packet offset of a data packet: absent, a 64-bit integer or the bits of a double. -/
inductive Offset where
  | none
  | int (v : UInt64)
  | float (bits : UInt64)
deriving DecidableEq, Repr

/-- The four kinds of packet buffers (`packet_streaming.h`). 64-bit signed ids are given by their bits.
The payload of an event is its serialised text, that of a release buffer the list of ids. -/
inductive Pkt where
  | event (signal : UInt32) (text : Bytes)
  | data (signal : UInt32) (canRelease : Bool) (pid did count : UInt64) (offset : Offset) (raw : Bytes)
  | release (ids : List UInt64)
  | alreadySent (signal : UInt32) (canRelease : Bool) (pid did : UInt64)
deriving DecidableEq, Repr

/-- `struct GenericPacketHeader` (`packet_streaming.h`), 12 bytes. -/
def genericHeader (size ty flags : UInt8) (signal : UInt32) (payloadSize : Nat) : Bytes :=
  u8 size ++ (u8 ty ++ (u8 0 ++ (u8 flags ++ (u32 signal ++ leBytes 4 payloadSize))))

/-- Ids of a release buffer one after the other. -/
def u64s : List UInt64 → Bytes
  | [] => []
  | v :: t => u64 v ++ u64s t

/-- `setOffset` (`packet_streaming_server.cpp` 229–248): the offset bits of the flags. -/
def offsetFlags : Offset → UInt8
  | .none => 0
  | .int _ => 2
  | .float _ => 4

/-- The offset field; without an offset it is uninitialised heap memory (`malloc`, line 346). -/
def offsetBits (junk : UInt64) : Offset → UInt64
  | .none => junk
  | .int v => v
  | .float b => b

/-- Header and payload block built by `addEventPacket` (`packet_streaming_server.cpp` 146–184),
`addDataPacket` (327–378), `checkAndSendReleasePacket` (380–417) and `addAlreadySentPacket` (419–443).
`pad` and `junk` are the uninitialised padding and offset bytes. Payload sizes are cast to `uint32_t`. -/
def buildPkt (pad : UInt32) (junk : UInt64) : Pkt → Bytes × Bytes
  | .event signal text => (genericHeader 12 0 0 signal (text.length + 1), text ++ [0])
  | .data signal cr pid did count off raw =>
    (genericHeader 48 1 ((if cr then 1 else 0) + offsetFlags off) signal raw.length ++
      (u32 pad ++ (u64 pid ++ (u64 did ++ (u64 count ++ u64 (offsetBits junk off))))), raw)
  | .release ids => (genericHeader 12 2 0 0xFFFFFFFF (ids.length * 8), u64s ids)
  | .alreadySent signal cr pid did =>
    (genericHeader 32 3 (if cr then 1 else 0) signal 0 ++ (u32 pad ++ (u64 pid ++ u64 did)), [])

/-- `String((ConstCharPtr) payload)` (`packet_streaming_client.cpp` 57): reads up to the first zero
byte; without one it runs past the block. A null payload (size 0) gives a null string, whose
deserialisation throws. -/
def cString : Bytes → Res Bytes
  | [] => .oob
  | b :: t => if b = 0 then .ok [] else do
    let r ← cString t
    pure (b :: r)

/-- The loop over the ids of a release buffer (`packet_streaming_client.cpp` 199–204). -/
def readIds (mem : Bytes) : Nat → Nat → Res (List UInt64)
  | 0, _ => .ok []
  | n + 1, off => do
    let v ← rdU64 mem off
    let r ← readIds mem n (off + 8)
    pure (v :: r)

/-- The fields the client reads from a received packet buffer, by type
(`packet_streaming_client.cpp` 18–35, 52–59, 90–168, 197–204, 225–230). `none` is an unknown type, which
is ignored (18–35 has no default case). -/
def parsePkt (hdr payload : Bytes) : Res (Option Pkt) := do
  let ty ← rdU8 hdr 1
  let flags ← rdU8 hdr 3
  let signal ← rdU32 hdr 4
  let cr := flags &&& 1 != 0
  if ty = 0 then
    if payload.isEmpty then .throws
    else do
      let t ← cString payload
      pure (some (.event signal t))
  else if ty = 1 then do
    let pid ← rdU64 hdr 16
    let did ← rdU64 hdr 24
    let count ← rdU64 hdr 32
    let ot := (flags &&& 6) >>> 1
    let off ← (if ot = 1 then do
        let v ← rdU64 hdr 40
        pure (Offset.int v)
      else if ot = 2 then do
        let v ← rdU64 hdr 40
        pure (Offset.float v)
      else pure Offset.none)
    pure (some (.data signal cr pid did count off payload))
  else if ty = 2 then do
    let n ← rdU32 hdr 8
    let ids ← readIds payload (n.toNat / 8) 0
    pure (some (.release ids))
  else if ty = 3 then do
    let pid ← rdU64 hdr 16
    let did ← rdU64 hdr 24
    pure (some (.alreadySent signal cr pid did))
  else pure none

end Verif.Wire
