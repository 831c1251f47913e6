import Verif.Wire.Model

/-!
# Specification side of the wire formats

What the two ends of a connection call and see, independent of the byte layout.
-/

namespace Verif.Wire

/-! ### Configuration packets -/

/-- A configuration protocol message by content. -/
inductive CfgMsg where
  | infoRequest (id : UInt64)
  | infoReply (id : UInt64) (current : UInt16) (versions : List UInt16)
  | upgradeRequest (id : UInt64) (version : UInt16)
  | upgradeReply (id : UInt64) (success : Bool)
  | rpc (id : UInt64) (json : Bytes)
  | notification (json : Bytes)
  | invalidRequest (id : UInt64)
  | noReplyRpc (json : Bytes)
  | rejected (id : UInt64) (json : Bytes)
deriving DecidableEq, Repr

inductive CfgKind where
  | infoRequest | infoReply | upgradeRequest | upgradeReply | rpc | notification | invalidRequest
  | noReplyRpc | rejected
deriving DecidableEq, Repr

def CfgMsg.kind : CfgMsg → CfgKind
  | .infoRequest _ => .infoRequest
  | .infoReply .. => .infoReply
  | .upgradeRequest .. => .upgradeRequest
  | .upgradeReply .. => .upgradeReply
  | .rpc .. => .rpc
  | .notification _ => .notification
  | .invalidRequest _ => .invalidRequest
  | .noReplyRpc _ => .noReplyRpc
  | .rejected .. => .rejected

/-- The packet type number documented for a kind. -/
def CfgKind.typeNumber : CfgKind → Nat
  | .infoRequest => 0x80
  | .infoReply => 0x80
  | .upgradeRequest => 0x81
  | .upgradeReply => 0x81
  | .rpc => 0x82
  | .notification => 0x83
  | .invalidRequest => 0x84
  | .noReplyRpc => 0x85
  | .rejected => 0x86

/-- The request id a message carries; messages without one carry the largest 64-bit number. -/
def CfgMsg.id : CfgMsg → Nat
  | .infoRequest i => i.toNat
  | .infoReply i _ _ => i.toNat
  | .upgradeRequest i _ => i.toNat
  | .upgradeReply i _ => i.toNat
  | .rpc i _ => i.toNat
  | .notification _ => 2 ^ 64 - 1
  | .invalidRequest i => i.toNat
  | .noReplyRpc _ => 2 ^ 64 - 1
  | .rejected i _ => i.toNat

/-- Number of payload bytes a message needs. -/
def CfgMsg.payloadLength : CfgMsg → Nat
  | .infoRequest _ => 0
  | .infoReply _ _ vs => 4 + 2 * vs.length
  | .upgradeRequest _ _ => 2
  | .upgradeReply _ _ => 1
  | .rpc _ j => j.length
  | .notification j => j.length
  | .invalidRequest _ => 0
  | .noReplyRpc j => j.length
  | .rejected _ j => j.length

/-- Call the `create…` function for a message. -/
def cfgEncode (j : Junk) : CfgMsg → Res Bytes
  | .infoRequest i => createInfoRequest j i
  | .infoReply i c vs => createInfoReply j i c vs
  | .upgradeRequest i v => createUpgradeRequest j i v
  | .upgradeReply i b => createUpgradeReply j i b
  | .rpc i s => createRpc j i s
  | .notification s => createNotification j s
  | .invalidRequest i => createInvalidRequest j i
  | .noReplyRpc s => createNoReplyRpc j s
  | .rejected i s => createRejected j i s

/-- Call `getId` and the `parse…` function for the expected kind. -/
def cfgDecode (k : CfgKind) (mem : Bytes) : Res CfgMsg :=
  match k with
  | .infoRequest => do let _ ← parseInfoRequest mem; let i ← cfgId mem; pure (.infoRequest i)
  | .infoReply => do let r ← parseInfoReply mem; let i ← cfgId mem; pure (.infoReply i r.1 r.2)
  | .upgradeRequest => do let v ← parseUpgradeRequest mem; let i ← cfgId mem; pure (.upgradeRequest i v)
  | .upgradeReply => do let b ← parseUpgradeReply mem; let i ← cfgId mem; pure (.upgradeReply i b)
  | .rpc => do let s ← parseRpc mem; let i ← cfgId mem; pure (.rpc i s)
  | .notification => do let s ← parseNotification mem; pure (.notification s)
  | .invalidRequest => do let _ ← parseInvalidRequest mem; let i ← cfgId mem; pure (.invalidRequest i)
  | .noReplyRpc => do let s ← parseNoReplyRpc mem; pure (.noReplyRpc s)
  | .rejected => do let s ← parseRejected mem; let i ← cfgId mem; pure (.rejected i s)

/-- A `std::set` enumerates its elements in strictly ascending order. -/
def Ascending (vs : List UInt16) : Prop := vs.Pairwise (fun a b => a.toNat < b.toNat)

instance (vs : List UInt16) : Decidable (Ascending vs) := by unfold Ascending; infer_instance

/-- Messages a sender can mean: a version set is a set. -/
def CfgMsg.Proper : CfgMsg → Prop
  | .infoReply _ _ vs => Ascending vs
  | _ => True

instance (m : CfgMsg) : Decidable m.Proper := by cases m <;> unfold CfgMsg.Proper <;> infer_instance

/-- Messages that survive: JSON texts are not empty and the number of versions fits 16 bits. -/
def CfgMsg.Survives : CfgMsg → Prop
  | .infoReply _ _ vs => vs.length < 65536
  | .rpc _ s => s ≠ []
  | .notification s => s ≠ []
  | .noReplyRpc s => s ≠ []
  | .rejected _ s => s ≠ []
  | _ => True

instance (m : CfgMsg) : Decidable m.Survives := by cases m <;> unfold CfgMsg.Survives <;> infer_instance

/-- A memory block holding one whole packet: the size field matches the block. -/
def IsBlock (mem : Bytes) : Prop := cfgPayloadSize mem = .ok (mem.length - 16) ∧ 16 ≤ mem.length

/-! ### Native streaming frames -/

/-- The frames a side acts on (`…SessionHandler` documentation: properties and stream requests go to the
server, completion of initialisation to the client). The others are dropped. -/
def handles : Role → Frame → Bool
  | .client, .properties _ => false
  | .client, .initRequest => false
  | .server, .initDone => false
  | _, _ => true

/-- A packet header block and payload block that belong together, within the size limit of a frame. -/
def PacketOk (hdr payload : Bytes) : Prop :=
  12 ≤ hdr.length ∧ rdU8 hdr 0 = .ok (UInt8.ofNat hdr.length) ∧ hdr.length < 256 ∧
  rdU32 hdr 8 = .ok (UInt32.ofNat payload.length) ∧ hdr.length + payload.length ≤ maxSize

instance (hdr payload : Bytes) : Decidable (PacketOk hdr payload) := by unfold PacketOk; infer_instance

/-- A configuration packet block as produced by the `create…` functions. -/
def ConfigOk (mem : Bytes) : Prop :=
  16 ≤ mem.length ∧ mem.length ≤ maxSize ∧ rdU8 mem 0 = .ok 16 ∧
  rdU32 mem 4 = .ok (UInt32.ofNat (mem.length - 16))

instance (mem : Bytes) : Decidable (ConfigOk mem) := by unfold ConfigOk; infer_instance

/-- Frames the callers of the session layer hand over. Text frames are unrestricted. -/
def Frame.Proper : Frame → Prop
  | .packet h p => PacketOk h p
  | .config m => ConfigOk m
  | _ => True

instance (f : Frame) : Decidable f.Proper := by cases f <;> unfold Frame.Proper <;> infer_instance

/-- Encodings of several frames back to back; throws if one of the `send…` calls throws. -/
def encodeAll : List Frame → Res Bytes
  | [] => .ok []
  | f :: fs => do
    let b ← encodeFrame f
    let r ← encodeAll fs
    pure (b ++ r)

/-- What the receiver of the frames is expected to do. -/
def expected (role : Role) (fs : List Frame) : List Item := (fs.filter (handles role)).map Item.frame

/-- Number of body bytes of a frame. -/
def Frame.bodyLength : Frame → Nat
  | .packet h p => h.length + p.length
  | .signalAvailable _ s j => 6 + s.length + j.length
  | .signalUnavailable _ s => 4 + s.length
  | .subscribe _ s => 4 + s.length
  | .unsubscribe _ s => 4 + s.length
  | .initDone => 0
  | .subscribeAck _ => 4
  | .unsubscribeAck _ => 4
  | .config m => m.length
  | .properties j => j.length
  | .initRequest => 0

/-- The documented limits: a frame body has at most `0x0FFFFFFF` bytes, an announced string id at most
65535. -/
def Frame.Fits (f : Frame) : Prop :=
  f.bodyLength ≤ 0x0FFFFFFF ∧ match f with
    | .signalAvailable _ s _ => s.length ≤ 65535
    | _ => True

/-! ### Packet buffers -/

/-- Packets whose encoding is faithful: event texts are C strings, sizes fit a frame. -/
def Pkt.Fits : Pkt → Prop
  | .event _ text => (0 : UInt8) ∉ text ∧ 12 + (text.length + 1) ≤ maxSize
  | .data _ _ _ _ _ _ raw => 48 + raw.length ≤ maxSize
  | .release ids => 12 + ids.length * 8 ≤ maxSize
  | .alreadySent .. => True

instance (p : Pkt) : Decidable p.Fits := by cases p <;> unfold Pkt.Fits <;> infer_instance

/-- Size of the header struct the client casts to, by packet type byte. -/
def headerNeeded (ty : UInt8) : Nat := if ty = 1 then 48 else if ty = 3 then 32 else 12

end Verif.Wire
