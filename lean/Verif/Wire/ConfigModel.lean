import Verif.Wire.Bytes

/-!
# Configuration protocol packets

Model of `shared/libraries/config_protocol/src/config_protocol.cpp` (`PacketBuffer`), of the packet
handling of `config_protocol_server.cpp` and of the version handshake in `config_protocol_client.h`.
A packet is the memory block behind `PacketBuffer::buffer`: a packed 16 byte header followed by the
payload (`config_protocol.h` 55–65).
-/

namespace Verif.Wire

/-- `enum PacketType` (`config_protocol.h` 44–53). -/
def ptGetProtocolInfo : UInt8 := 0x80
def ptUpgradeProtocol : UInt8 := 0x81
def ptRpc : UInt8 := 0x82
def ptServerNotification : UInt8 := 0x83
def ptInvalidRequest : UInt8 := 0x84
def ptNoReplyRpc : UInt8 := 0x85
def ptConnectionRejected : UInt8 := 0x86

/-- `MAX_PACKET_BUFFER_SIZE` (`config_protocol.h`, `PacketBuffer`), and the transport layer's
`MAX_PAYLOAD_SIZE` (`native_streaming_protocol_types.h`), both `0x0FFFFFFF`. -/
def maxSize : Nat := 0x0FFFFFFF

/-- `2^32`, the modulus of `uint32_t` arithmetic. -/
def U32W : Nat := 4294967296

/-- Two bytes of `char unused[2]`: never written, so they hold whatever `malloc` returned. -/
abbrev Junk := UInt8 × UInt8

/-- `struct PacketHeader` as laid out in memory (`config_protocol.h` 55–65). -/
def cfgHeader (j : Junk) (ty : UInt8) (payloadSize : Nat) (id : UInt64) : Bytes :=
  u8 16 ++ (u8 ty ++ ([j.1, j.2] ++ (leBytes 4 payloadSize ++ u64 id)))

/-- `allocateHeaderAndPayload` and the constructor copying a payload
(`config_protocol.cpp` 8–23, 103–116): throws if header and payload exceed the limit. -/
def cfgCreate (j : Junk) (ty : UInt8) (id : UInt64) (payload : Bytes) : Res Bytes :=
  if 16 + payload.length > maxSize then .throws
  else .ok (cfgHeader j ty payload.length id ++ payload)

/-! Accessors (`config_protocol.cpp` 129–179): plain field reads of the block. -/

def cfgType (mem : Bytes) : Res UInt8 := rdU8 mem 1
def cfgId (mem : Bytes) : Res UInt64 := rdU64 mem 8
def cfgPayloadSize (mem : Bytes) : Res Nat := do
  let n ← rdU32 mem 4
  pure n.toNat

/-- `getLength` (129–135): `uint8_t + uint32_t` is computed in 32 bits. -/
def cfgLength (mem : Bytes) : Res Nat := do
  let h ← rdU8 mem 0
  let n ← cfgPayloadSize mem
  pure ((h.toNat + n) % U32W)

/-- `createGetProtocolInfoRequest` (181–185). -/
def createInfoRequest (j : Junk) (id : UInt64) : Res Bytes := cfgCreate j ptGetProtocolInfo id []

/-- Elements of a `std::set<uint16_t>` written one after the other. -/
def u16s : List UInt16 → Bytes
  | [] => []
  | v :: t => u16 v ++ u16s t

/-- `createGetProtocolInfoReply` (187–202). `versions` lists the set in iteration (ascending) order.
The element count is cast to `uint16_t`. -/
def createInfoReply (j : Junk) (id : UInt64) (current : UInt16) (versions : List UInt16) : Res Bytes :=
  cfgCreate j ptGetProtocolInfo id (u16 current ++ (leBytes 2 versions.length ++ u16s versions))

/-- `createUpgradeProtocolRequest` (228–232). -/
def createUpgradeRequest (j : Junk) (id : UInt64) (v : UInt16) : Res Bytes :=
  cfgCreate j ptUpgradeProtocol id (u16 v)

/-- `createUpgradeProtocolReply` (245–250). -/
def createUpgradeReply (j : Junk) (id : UInt64) (success : Bool) : Res Bytes :=
  cfgCreate j ptUpgradeProtocol id (u8 (if success then 1 else 0))

/-- `createRpcRequestOrReply` (263–267). -/
def createRpc (j : Junk) (id : UInt64) (json : Bytes) : Res Bytes := cfgCreate j ptRpc id json

/-- `createInvalidRequestReply` (269–273). -/
def createInvalidRequest (j : Junk) (id : UInt64) : Res Bytes := cfgCreate j ptInvalidRequest id []

/-- `std::numeric_limits<uint64_t>::max()`. -/
def idMax : UInt64 := 0xFFFFFFFFFFFFFFFF

/-- `createServerNotification` (299–303). -/
def createNotification (j : Junk) (json : Bytes) : Res Bytes :=
  cfgCreate j ptServerNotification idMax json

/-- `createNoReplyRpcRequest` (319–323). -/
def createNoReplyRpc (j : Junk) (json : Bytes) : Res Bytes := cfgCreate j ptNoReplyRpc idMax json

/-- `createConnectionRejectedReply` (339–343). -/
def createRejected (j : Junk) (id : UInt64) (json : Bytes) : Res Bytes :=
  cfgCreate j ptConnectionRejected id json

/-- The checks shared by all parse functions: type first, then payload size. -/
def cfgCheck (mem : Bytes) (ty : UInt8) (sizeOk : Nat → Bool) : Res Nat := do
  let t ← cfgType mem
  if t != ty then .throws else do
    let n ← cfgPayloadSize mem
    if sizeOk n then pure n else .throws

/-- `parseProtocolInfoRequest` (204–211). -/
def parseInfoRequest (mem : Bytes) : Res Unit := do
  let _ ← cfgCheck mem ptGetProtocolInfo (fun n => n == 0)
  pure ()

/-- `std::set<uint16_t>::insert` on the ascending element list. -/
def setInsert (v : UInt16) : List UInt16 → List UInt16
  | [] => [v]
  | x :: t => if v < x then v :: x :: t else if x < v then x :: setInsert v t else x :: t

/-- The loop of `parseProtocolInfoReply` (224–225): `n` reads at a moving pointer with no test against
the payload size. -/
def readVersions (mem : Bytes) : Nat → Nat → List UInt16 → Res (List UInt16)
  | 0, _, acc => .ok acc
  | n + 1, off, acc => do
    let v ← rdU16 mem off
    readVersions mem n (off + 2) (setInsert v acc)

/-- `parseProtocolInfoReply` (213–226) into a set that is empty before the call. -/
def parseInfoReply (mem : Bytes) : Res (UInt16 × List UInt16) := do
  let _ ← cfgCheck mem ptGetProtocolInfo (fun n => decide (4 ≤ n))
  let cur ← rdU16 mem 16
  let cnt ← rdU16 mem 18
  let vs ← readVersions mem cnt.toNat 20 []
  pure (cur, vs)

/-- `parseProtocolUpgradeRequest` (234–243). -/
def parseUpgradeRequest (mem : Bytes) : Res UInt16 := do
  let _ ← cfgCheck mem ptUpgradeProtocol (fun n => n == 2)
  rdU16 mem 16

/-- `parseProtocolUpgradeReply` (252–261). -/
def parseUpgradeReply (mem : Bytes) : Res Bool := do
  let _ ← cfgCheck mem ptUpgradeProtocol (fun n => n == 1)
  let b ← rdU8 mem 16
  pure (b != 0)

/-- `parseInvalidRequestReply` (275–282). -/
def parseInvalidRequest (mem : Bytes) : Res Unit := do
  let _ ← cfgCheck mem ptInvalidRequest (fun n => n == 0)
  pure ()

/-- The JSON parse functions (285–297, 305–317, 325–337, 345–357): an empty payload is an error. -/
def parseJson (ty : UInt8) (mem : Bytes) : Res Bytes := do
  let n ← cfgCheck mem ty (fun n => n != 0)
  rd mem 16 n

def parseRpc := parseJson ptRpc
def parseNotification := parseJson ptServerNotification
def parseNoReplyRpc := parseJson ptNoReplyRpc
def parseRejected := parseJson ptConnectionRejected

/-! ### Server -/

/-- Session state of `ConfigProtocolServer` that the packet layer touches. -/
structure CfgServer where
  /-- `protocolVersion`, 0 until an upgrade (`config_protocol_server.cpp` 89). -/
  version : UInt16
  /-- `supportedServerVersions` in ascending order (`config_protocol_server.cpp` 90). -/
  supported : List UInt16
deriving DecidableEq, Repr

/-- The constructor (`config_protocol_server.cpp` 76–101). -/
def CfgServer.init : CfgServer := ⟨0, [17, 18, 19, 20, 21, 22, 23, 24]⟩

/-- `processPacketAndGetReply` (`config_protocol_server.cpp` 279–319). `rpc` stands for
`processRpcAndGetReply` (327–360), a function of the request text that never throws; `tooBig` is the
error text sent if its answer exceeds the packet limit. An exception leaves the state as it is, because
the parse functions run before anything is assigned. -/
def CfgServer.process (j : Junk) (rpc : Bytes → Bytes) (tooBig : Bytes) (s : CfgServer) (mem : Bytes) :
    CfgServer × Res Bytes :=
  match cfgId mem, cfgType mem with
  | .ok id, .ok ty =>
    if ty = ptGetProtocolInfo then
      (s, do
        let _ ← parseInfoRequest mem
        createInfoReply j id 0 s.supported)
    else if ty = ptUpgradeProtocol then
      match parseUpgradeRequest mem with
      | .ok v => ({ s with version := v }, createUpgradeReply j id (s.supported.contains v))
      | .throws => (s, .throws)
      | .oob => (s, .oob)
    else if ty = ptRpc then
      (s, do
        let req ← parseRpc mem
        match createRpc j id (rpc req) with
        | .throws => createRpc j id tooBig
        | r => r)
    else (s, createInvalidRequest j id)
  | .throws, _ => (s, .throws)
  | .oob, _ => (s, .oob)
  | _, .throws => (s, .throws)
  | _, .oob => (s, .oob)

/-! ### Client handshake -/

/-- `GetLatestConfigProtocolVersion` (`config_protocol.h`). -/
def latestVersion : UInt16 := 24

/-- `GetSupportedConfigProtocolVersions`: 0 up to the latest version. -/
def clientVersions : List UInt16 := (List.range 25).map UInt16.ofNat

/-- `std::set_intersection` of two ascending ranges. -/
def setInter (a b : List UInt16) : List UInt16 := a.filter (fun v => b.contains v)

/-- Outcome of a handshake: the version both sides go on with, or an exception on the client. -/
inductive Handshake where
  | agreed (v : UInt16)
  | failed
  | oob
deriving DecidableEq, Repr

/-- The choice of a version (`config_protocol_client.h` 322–343). -/
def chooseVersion (wanted : UInt16) (server : List UInt16) : Option UInt16 :=
  if wanted != latestVersion then
    if !clientVersions.contains wanted then none
    else if !server.contains wanted then none
    else some wanted
  else (setInter clientVersions server).getLast?

/-- `protocolHandshake` (`config_protocol_client.h` 308–366) against a server whose replies arrive
unchanged; `id` and `id'` are the two request ids. The connection-rejected branch is not modelled
(the server's packet layer never answers an info request with it). -/
def handshake (j : Junk) (rpc : Bytes → Bytes) (tooBig : Bytes) (s : CfgServer) (id id' : UInt64)
    (wanted : UInt16) : CfgServer × Handshake :=
  match createInfoRequest j id with
  | .ok q =>
    let r := s.process j rpc tooBig q
    match r.2 with
    | .ok reply =>
      match parseInfoReply reply with
      | .ok (_, vs) =>
        match chooseVersion wanted vs with
        | none => (r.1, .failed)
        | some v =>
          match createUpgradeRequest j id' v with
          | .ok q' =>
            let r' := r.1.process j rpc tooBig q'
            match r'.2 with
            | .ok reply' =>
              match parseUpgradeReply reply' with
              | .ok true => (r'.1, .agreed v)
              | .ok false => (r'.1, .failed)
              | .throws => (r'.1, .failed)
              | .oob => (r'.1, .oob)
            | .throws => (r'.1, .failed)
            | .oob => (r'.1, .oob)
          | _ => (r.1, .failed)
      | .throws => (r.1, .failed)
      | .oob => (r.1, .oob)
    | .throws => (r.1, .failed)
    | .oob => (r.1, .oob)
  | _ => (s, .failed)

end Verif.Wire
