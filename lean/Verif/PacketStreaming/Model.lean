import Verif.AList

/-!
# Model of the packet streaming server and client

Source: `/repo/shared/libraries/packet_streaming/src/packet_streaming_server.cpp` (cited as `srv`),
`/repo/shared/libraries/packet_streaming/src/packet_streaming_client.cpp` (cited as `cli`),
`/repo/shared/libraries/packet_streaming/include/packet_streaming/packet_streaming.h` (cited as `hdr`),
`…/packet_streaming_server.h` (cited as `srvh`), `…/packet_streaming_client.h` (cited as `clih`).

Simplifications (global): JSON serialisation of events is the identity on the modelled content, the
serialised length is a parameter of the event; time stamps are dropped; packet ids are `Nat` and the
domain packet id `-1` is `none`; `size_t` counters and group ids are unbounded; descriptor contents
are a number and the flag "sample type is String or Binary". `uint32_t` payload sizes are kept
modulo `2^32`, `uint8_t` flags modulo `2^8`.
-/

namespace Verif.PacketStreaming

/-- Packet offset: unassigned, integer or float (float identified by a number). -/
inductive Offset where
  | none
  | int (i : Int)
  | flt (f : Int)
  deriving DecidableEq, Repr

/-- A data descriptor: contents and whether the sample type is `String`/`Binary` (cli:143-146). -/
structure Desc where
  tag : Nat
  binary : Bool
  deriving DecidableEq, Repr

/-- Descriptor parameter of a descriptor-changed event: unassigned (unchanged), null, or a descriptor. -/
abbrev Param := Option (Option Desc)

/-- Event packets. -/
inductive Event where
  | descChanged (value : Param) (domain : Param)
  | other (eventId : Nat)
  deriving DecidableEq, Repr

/-- A data packet as seen by the server. `payload = none`: `getRawData()` is null. -/
structure DataPacket where
  id : Nat
  domain : Option Nat
  samples : Nat
  offset : Offset
  payload : Option (List Nat)
  deriving DecidableEq, Repr

/-- Packet buffer contents by `PacketType` (hdr). `flags` of a data buffer hold the `CAN_RELEASE` bit
and the offset type. -/
inductive Body where
  | event (sig : Nat) (ev : Event)
  | data (sig : Nat) (flags : Nat) (id : Nat) (domain : Option Nat) (samples : Nat) (offset : Offset)
      (payload : Option (List Nat))
  | release (ids : List Nat)
  | alreadySent (sig : Nat) (canRelease : Bool) (id : Nat) (domain : Option Nat)
  deriving DecidableEq, Repr

/-- `PacketBuffer` (hdr): body, `payloadSize` header field and cacheable group id (0: not cacheable). -/
structure Buf where
  body : Body
  payloadSize : Nat
  group : Nat
  deriving DecidableEq, Repr

/-- `sizeof` the header structures (hdr): `GenericPacketHeader` 12, `DataPacketHeader` 48,
`AlreadySentPacketHeader` 32. -/
def Body.headerSize : Body → Nat
  | .event _ _ => 12
  | .data _ _ _ _ _ _ _ => 48
  | .release _ => 12
  | .alreadySent _ _ _ _ => 32

def U32 : Nat := 4294967296

/-- `packetHeader->size + packetHeader->payloadSize` (srv:79): computed in `uint32_t`. -/
def Buf.size (b : Buf) : Nat := (b.body.headerSize + b.payloadSize) % U32

/-- `isCacheable` (packet_streaming.cpp:39-42). -/
def Buf.cacheable (b : Buf) : Bool := b.group != 0

/-- Result of a server call. -/
inductive SrvRes where
  | ok
  | buffer (b : Option Buf)
  | linearCachingError
  | noDescriptor
  | notSupported
  deriving DecidableEq, Repr

/-- `PacketStreamingServer` fields (srvh). `subscribed` are the ids of the packets carrying the destruct
callback; `sent` and `ready` are the `PacketCollection`. `emitted` is a ghost: all buffers ever
queued, in order. -/
structure Srv where
  cacheMax : Nat
  threshold : Nat
  queue : List Buf
  nonCacheable : Nat
  groups : AList Nat (Nat × Nat)
  currentGroup : Nat
  descs : AList Nat (Option Desc)
  sent : List Nat
  ready : List Nat
  subscribed : List Nat
  emitted : List Buf

/-- Constructor (srv:12-24). -/
def Srv.init (cacheMax threshold : Nat) : Srv where
  cacheMax := cacheMax
  threshold := threshold
  queue := []
  nonCacheable := 0
  groups := []
  currentGroup := 0
  descs := []
  sent := []
  ready := []
  subscribed := []
  emitted := []

/-- `getPacketCacheableGroupId` (srv:273-294): the group id, or `none` if it throws. -/
def Srv.groupFor (s : Srv) (payloadSize : Nat) : Option (Nat × Srv) :=
  if payloadSize ≤ s.cacheMax then
    if s.queue.isEmpty && !s.groups.isEmpty then none
    else
      let cur0 := if s.queue.isEmpty then 1 else s.currentGroup
      let cur1 := match s.queue.getLast? with
        | some b => if !b.cacheable then cur0 + 1 else cur0
        | none => cur0
      let cur2 := if cur1 = 0 then cur1 + 1 else cur1
      some (cur2, { s with currentGroup := cur2 })
  else some (0, s)

/-- `queuePacketBuffer` (srv:258-271). -/
def Srv.push (s : Srv) (b : Buf) : Srv :=
  let s1 :=
    if b.cacheable then
      let (c, z) := (s.groups.get b.group).getD (0, 0)
      { s with groups := s.groups.put b.group (c + 1, z + b.size) }
    else { s with nonCacheable := s.nonCacheable + 1 }
  { s1 with queue := s1.queue ++ [b], emitted := s1.emitted ++ [b] }

/-- Create the buffer (with its group) and queue it: the common tail of `addEventPacket`,
`addDataPacket`, `checkAndSendReleasePacket` and `addAlreadySentPacket`. `none` if it throws. -/
def Srv.enqueue (s : Srv) (body : Body) (payloadSize : Nat) : Option Srv :=
  match s.groupFor payloadSize with
  | none => none
  | some (g, s1) => some (s1.push ⟨body, payloadSize, g⟩)

/-- `checkAndSendReleasePacket` (srv:380-417). -/
def Srv.checkRelease (s : Srv) (force : Bool) : Option Srv :=
  if !(force && s.ready.length > 0) && s.ready.length < s.threshold then some s
  else ({ s with ready := [] }).enqueue (.release s.ready) ((s.ready.length * 8) % U32)

/-- `addEventPacket` (srv:146-184); `len` is the length of the serialised event. The server registers
the signal when the value descriptor changed. -/
def Srv.addEvent (s : Srv) (sig : Nat) (ev : Event) (len : Nat) : Option Srv :=
  match s.groupFor ((len + 1) % U32) with
  | none => none
  | some (g, s1) =>
    let s2 := match ev with
      | .descChanged (some v) _ => { s1 with descs := s1.descs.put sig v }
      | _ => s1
    some (s2.push ⟨.event sig ev, (len + 1) % U32, g⟩)

/-- `setOffset` (srv:229-248): the offset type bits added to the flags (shift 1). -/
def offsetBits : Offset → Nat
  | .none => 0
  | .int _ => 2
  | .flt _ => 4

/-- `shouldSendPacket` (srv:200-227): new state and whether the packet was sent before. -/
def Srv.shouldSend (s : Srv) (id : Nat) (mark : Bool) : Srv × Bool :=
  if s.sent.contains id then
    ((if mark then { s with sent := s.sent.filter (· != id) } else s), false)
  else if !mark then
    ({ s with sent := id :: s.sent, subscribed := id :: s.subscribed }, true)
  else (s, true)

/-- `addDataPacket` (srv:327-378) and `addAlreadySentPacket` (srv:419-443). `mark`: the packet was
handed over as rvalue and its reference count is one (srv:186-198). `none` on linear caching error;
`some none` if no descriptor was announced for the signal. -/
def Srv.addData (s : Srv) (sig : Nat) (p : DataPacket) (mark : Bool) : Option (Option Srv) :=
  if !s.descs.has sig then some none
  else
    match s.shouldSend p.id mark with
    | (s1, false) => (s1.enqueue (.alreadySent sig mark p.id p.domain) 0).map some
    | (s1, true) =>
      let flags := (if mark then 1 else 0) + offsetBits p.offset
      let sz := match p.payload with
        | some bytes => bytes.length % U32
        | none => 0
      (s1.enqueue (.data sig flags p.id p.domain p.samples p.offset p.payload) sz).map some

/-- Calls on the server, plus the destruction of a packet (which runs the destruct callback). -/
inductive SrvOp where
  | addEvent (sig : Nat) (ev : Event) (len : Nat)
  | addData (sig : Nat) (p : DataPacket) (mark : Bool)
  | addOther
  | getNext
  | destroy (id : Nat)
  | sendRelease (force : Bool)
  deriving DecidableEq

/-- `getNextPacketBuffer` (srv:63-108). -/
def Srv.getNext (s : Srv) : Srv × SrvRes :=
  match s.queue with
  | [] => (s, .buffer none)
  | b :: rest =>
    let s1 := { s with queue := rest }
    if b.cacheable then
      match s1.groups.get b.group with
      | none => (s1, .linearCachingError)
      | some (c, z) =>
        if c = 0 then (s1, .linearCachingError)
        else if z < b.size then (s1, .linearCachingError)
        else if c - 1 = 0 ∨ z - b.size = 0 then
          if ¬ (c - 1 = 0 ∧ z - b.size = 0) then (s1, .linearCachingError)
          else ({ s1 with groups := s1.groups.del b.group }, .buffer (some b))
        else ({ s1 with groups := s1.groups.put b.group (c - 1, z - b.size) }, .buffer (some b))
    else if s1.nonCacheable = 0 then (s1, .linearCachingError)
    else ({ s1 with nonCacheable := s1.nonCacheable - 1 }, .buffer (some b))

/-- The destruct callback of a packet (srv:218-225). -/
def Srv.destroy (s : Srv) (id : Nat) : Srv :=
  if s.subscribed.contains id then
    if s.sent.contains id then
      { s with sent := s.sent.filter (· != id), ready := s.ready ++ [id],
               subscribed := s.subscribed.filter (· != id) }
    else { s with subscribed := s.subscribed.filter (· != id) }
  else s

/-- `addDaqPacket` (srv:26-61) and the other entry points. A throwing call leaves the state as it was
when the exception was raised; after `linearCachingError` the model keeps the old state (never
reached, see C08). -/
def Srv.step (s : Srv) : SrvOp → Srv × SrvRes
  | .addEvent sig ev len =>
    match (s.addEvent sig ev len).bind (·.checkRelease false) with
    | some s' => (s', .ok)
    | none => (s, .linearCachingError)
  | .addData sig p mark =>
    match s.addData sig p mark with
    | none => (s, .linearCachingError)
    | some none => (s, .noDescriptor)
    | some (some s1) =>
      match s1.checkRelease false with
      | some s' => (s', .ok)
      | none => (s, .linearCachingError)
  | .addOther => (s, .notSupported)
  | .getNext => s.getNext
  | .destroy id => (s.destroy id, .ok)
  | .sendRelease force =>
    match s.checkRelease force with
    | some s' => (s', .ok)
    | none => (s, .linearCachingError)

/-- `getAvailableBuffersCount` (srv:117-120). -/
def Srv.availableBuffers (s : Srv) : Nat := s.queue.length
/-- `getNonCacheableBuffersCount` (srv:122-125). -/
def Srv.nonCacheableBuffers (s : Srv) : Nat := s.nonCacheable
/-- `getSizeOfCacheableBuffers` (srv:127-132). -/
def Srv.sizeOfCacheable (s : Srv) (g : Nat) : Nat := ((s.groups.get g).map Prod.snd).getD 0
/-- `getCountOfCacheableBuffers` (srv:134-139). -/
def Srv.countOfCacheable (s : Srv) (g : Nat) : Nat := ((s.groups.get g).map Prod.fst).getD 0
/-- `getCountOfCacheableGroups` (srv:141-144). -/
def Srv.countOfGroups (s : Srv) : Nat := s.groups.length

/-! ## Client -/

/-- A data packet object created by the client. `src` identifies the object by the packet id of the
data buffer it was made from (one object per data buffer); `domain` is the identity of the attached
domain packet object. -/
structure CPacket where
  src : Nat
  desc : Option Desc
  domain : Option Nat
  samples : Nat
  offset : Offset
  payload : Option (List Nat)
  memSize : Nat
  deriving DecidableEq, Repr

/-- An item of the client's output queue. -/
inductive CItem where
  | event (sig : Nat) (ev : Event)
  | data (sig : Nat) (p : CPacket)
  deriving DecidableEq, Repr

/-- A data buffer kept by the client until its domain packet arrives: header fields (mutable `flags`),
payload and `additionalSignalIds` (hdr). -/
structure WBuf where
  sig : Nat
  flags : Nat
  id : Nat
  domain : Option Nat
  samples : Nat
  offset : Offset
  payload : Option (List Nat)
  payloadSize : Nat
  additional : List Nat
  deriving DecidableEq, Repr

/-- `PacketStreamingClient` fields (clih). `waiting` is `packetBuffersWaitingForDomainPackets` flattened:
the vector stored under key `d` is the sublist of entries whose domain is `d`, in order (vectors are
never empty). `refBufs` are the keys of `referencedPacketBuffers`; the buffer object a key refers to
is the one in `waiting`. `out` collects everything pushed to the output queue. -/
structure Cli where
  descs : AList Nat (Option Desc)
  domDescs : AList Nat (Option Desc)
  refPackets : AList Nat CPacket
  refBufs : List Nat
  waiting : List WBuf
  out : List CItem

def Cli.init : Cli := ⟨[], [], [], [], [], []⟩

/-- Outcome of feeding a buffer: `diverged` stands for unbounded recursion (stack overflow). -/
inductive CliErr where
  | descriptorNotRegistered
  | packetNotFound
  | diverged
  deriving DecidableEq, Repr

/-- `addEventPacketBuffer` (cli:52-88). -/
def Cli.addEvent (c : Cli) (sig : Nat) (ev : Event) : Cli :=
  match ev with
  | .other _ => c
  | .descChanged v d =>
    let vIt := c.descs.get sig
    let dIt := c.domDescs.get sig
    let forward :=
      (match v, vIt with | some nv, some ov => decide (ov ≠ nv) | _, _ => false) ||
      (match d, dIt with | some nd, some od => decide (od ≠ nd) | _, _ => false) ||
      vIt.isNone || dIt.isNone
    let c1 := match v with
      | some nv => { c with descs := c.descs.put sig nv }
      | none => c
    let c2 := match d with
      | some nd => { c1 with domDescs := c1.domDescs.put sig nd }
      | none => c1
    if forward then { c2 with out := c2.out ++ [.event sig ev] } else c2

/-- The offset read back from the header according to the flags (cli:126-136). The C++ reads the
union member selected by the flags; a member other than the one written is modelled as `flt 0`/`int 0`. -/
def readOffset (flags : Nat) (o : Offset) : Offset :=
  match flags / 2 % 4 with
  | 1 => match o with | .int i => .int i | _ => .int 0
  | 2 => match o with | .flt f => .flt f | _ => .flt 0
  | _ => .none

/-- The packet object built from a data buffer (cli:138-169). Binary packets have one sample and
offset 0 (binary_data_packet_impl.h:145-152, 228-235). -/
def WBuf.toPacket (b : WBuf) (desc : Option Desc) (dom : Option Nat) : CPacket :=
  match b.payload with
  | none => ⟨b.id, desc, dom, b.samples, readOffset b.flags b.offset, none, 0⟩
  | some bytes =>
    match desc with
    | some ⟨t, true⟩ => ⟨b.id, some ⟨t, true⟩, dom, 1, .int 0, some bytes, b.payloadSize⟩
    | d => ⟨b.id, d, dom, b.samples, readOffset b.flags b.offset, some bytes, b.payloadSize⟩

/-- The part of `addDataPacketBuffer` after the domain packet was found (cli:118-194): build and queue
the packet, then process the buffers waiting for it. The first argument bounds the recursion depth. -/
def Cli.process : Nat → Cli → WBuf → Option Nat → Except CliErr (Cli × CPacket)
  | 0, _, _, _ => .error .diverged
  | fuel + 1, c, b, dom =>
    match c.descs.get b.sig with
    | none => .error .descriptorNotRegistered
    | some desc =>
      let p := b.toPacket desc dom
      let c1 : Cli := { c with out := c.out ++ [.data b.sig p] }
      let mine := c1.waiting.filter (fun w => w.domain = some b.id)
      let r : Except CliErr Cli := mine.foldlM (fun (c : Cli) (w : WBuf) => do
        let c' : Cli := { c with refBufs := c.refBufs.filter (· != w.id) }
        let (c'', q) ← Cli.process fuel c' w (some b.id)
        pure { c'' with out := c''.out ++ w.additional.map (fun s => CItem.data s q) }) c1
      match r with
      | .error e => .error e
      | .ok c2 =>
        let c3 : Cli := { c2 with waiting := c2.waiting.filter (fun w => !decide (w.domain = some b.id)) }
        let c4 := if b.flags % 2 = 1 then c3 else { c3 with refPackets := c3.refPackets.add b.id p }
        .ok (c4, p)

/-- `addDataPacketBuffer` called from outside (cli:90-117). -/
def Cli.addData (c : Cli) (b : WBuf) : Except CliErr Cli :=
  match b.domain with
  | none => (c.process (c.waiting.length + 1) b none).map Prod.fst
  | some d =>
    match c.refPackets.get d with
    | some _ => (c.process (c.waiting.length + 1) b (some d)).map Prod.fst
    | none =>
      .ok { c with waiting := c.waiting ++ [b],
                   refBufs := if c.refBufs.contains b.id then c.refBufs else b.id :: c.refBufs }

/-- Set the release flag on the waiting buffer with this id (cli:213-214): `flags += 1` in `uint8_t`. -/
def flagFirst (id : Nat) : List WBuf → List WBuf
  | [] => []
  | w :: ws => if w.id = id then { w with flags := (w.flags + 1) % 256 } :: ws else w :: flagFirst id ws

/-- One iteration of `addReleasePacketBuffer` (cli:202-222). -/
def Cli.releaseOne (c : Cli) (id : Nat) : Except CliErr Cli :=
  if c.refPackets.has id then .ok { c with refPackets := c.refPackets.del id }
  else if c.refBufs.contains id then .ok { c with waiting := flagFirst id c.waiting }
  else .error .packetNotFound

/-- Append a signal id to the first buffer with this id waiting for domain packet `d`
(cli:242-253); `none` if there is none. -/
def attachFirst (d : Option Nat) (id sig : Nat) : List WBuf → Option (List WBuf)
  | [] => none
  | w :: ws =>
    if w.domain = d ∧ w.id = id then some ({ w with additional := w.additional ++ [sig] } :: ws)
    else (attachFirst d id sig ws).map (w :: ·)

/-- `addAlreadySentPacketBuffer` (cli:225-261). -/
def Cli.addAlreadySent (c : Cli) (sig : Nat) (canRelease : Bool) (id : Nat) (domain : Option Nat) :
    Except CliErr Cli :=
  if !c.descs.has sig then .error .descriptorNotRegistered
  else match c.refPackets.get id with
    | none =>
      match attachFirst domain id sig c.waiting with
      | none => .error .packetNotFound
      | some ws => .ok { c with waiting := ws }
    | some p =>
      let c1 : Cli := { c with out := c.out ++ [.data sig p] }
      .ok (if canRelease then { c1 with refPackets := c1.refPackets.del id } else c1)

/-- `addPacketBuffer` (cli:18-35). -/
def Cli.addBuffer (c : Cli) (b : Buf) : Except CliErr Cli :=
  match b.body with
  | .event sig ev => .ok (c.addEvent sig ev)
  | .data sig flags id dom n off pl => c.addData ⟨sig, flags, id, dom, n, off, pl, b.payloadSize, []⟩
  | .release ids => ids.foldlM Cli.releaseOne c
  | .alreadySent sig rel id dom => c.addAlreadySent sig rel id dom

/-- `areReferencesCleared` (cli:47-50). -/
def Cli.referencesCleared (c : Cli) : Bool :=
  c.refBufs.isEmpty && c.refPackets.isEmpty && c.waiting.isEmpty

/-- Feed a sequence of buffers. -/
def Cli.run (c : Cli) (bs : List Buf) : Except CliErr Cli := bs.foldlM Cli.addBuffer c

end Verif.PacketStreaming
