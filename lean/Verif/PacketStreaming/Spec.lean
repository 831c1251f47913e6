import Verif.Common
import Verif.PacketStreaming.Model

/-!
# Specification vocabulary for packet streaming

Stated on the recorded history of calls on the server and on the sequence of buffers it queued.
-/

namespace Verif.PacketStreaming

abbrev SrvTrace := List (SrvOp × SrvRes)

/-- Server state and history after running `ops` on a new server. -/
def srvExec (cacheMax threshold : Nat) (ops : List SrvOp) : Srv × SrvTrace :=
  runTrace Srv.step (Srv.init cacheMax threshold) ops

/-- The client may still refer to packet `id`: it was sent without the release mark and since then
neither handed over exclusively nor destroyed. `t` is most recent first. -/
def held (id : Nat) : SrvTrace → Bool
  | [] => false
  | (.addData _ p mark, .ok) :: t => if p.id = id then !mark else held id t
  | (.destroy i, _) :: t => if i = id then false else held id t
  | _ :: t => held id t

/-- A value descriptor (possibly null) was announced for the signal. -/
def registered (sig : Nat) (t : SrvTrace) : Bool :=
  t.any (fun
    | (.addEvent s (.descChanged (some _) _) _, _) => s == sig
    | _ => false)

/-- Flags of a data buffer: bit 0 release mark, bits 1–2 offset type. -/
def dataFlags (p : DataPacket) (mark : Bool) : Nat :=
  (if mark then 1 else 0) + (match p.offset with | .none => 0 | .int _ => 2 | .flt _ => 4)

/-- What must be queued for a data packet, given the history (most recent first). -/
def expectedBody (t : SrvTrace) (sig : Nat) (p : DataPacket) (mark : Bool) : Body :=
  if held p.id t then .alreadySent sig mark p.id p.domain
  else .data sig (dataFlags p mark) p.id p.domain p.samples p.offset p.payload

/-- Packet ids announced for release in a sequence of bodies. -/
def announced (bs : List Body) : List Nat :=
  bs.flatMap (fun | .release ids => ids | _ => [])

/-- The packets destroyed while the client could still refer to them, in order of destruction.
`t` is most recent first. -/
def destroyedHeld : SrvTrace → List Nat
  | [] => []
  | (.destroy i, _) :: t => destroyedHeld t ++ (if held i t then [i] else [])
  | _ :: t => destroyedHeld t

/-- The buffers handed out so far, in order. -/
def taken (t : SrvTrace) : List Buf :=
  t.flatMap (fun | (_, .buffer (some b)) => [b] | _ => [])

/-- The body is the full packet `id`, sent without release mark. -/
def fullUnmarked (id : Nat) : Body → Bool
  | .data _ flags i _ _ _ _ => i == id && flags % 2 == 0
  | _ => false

/-- The call ends the client's hold on packet `id`: destruction, or exclusive hand-over. -/
def isEnd (id : Nat) : SrvOp × SrvRes → Bool
  | (.destroy i, _) => i == id
  | (.addData _ p true, .ok) => p.id == id
  | _ => false

def ends (id : Nat) (t : SrvTrace) : Nat := t.countP (isEnd id)

/-- Ids destroyed by a history, in order. -/
def destroys (ops : List SrvOp) : List Nat :=
  ops.filterMap (fun | .destroy i => some i | _ => none)

/-- The bodies of all buffers queued so far. -/
def bodies (s : Srv) : List Body := s.emitted.map Buf.body

/-! ## The client's view -/

/-- The value descriptor in force for a signal: `none` if none was announced, `some none` for the null
descriptor. `t` is most recent first. -/
def descInForce (sig : Nat) : SrvTrace → Option (Option Desc)
  | [] => none
  | (.addEvent s (.descChanged (some v) _) _, _) :: t => if s = sig then some v else descInForce sig t
  | _ :: t => descInForce sig t

/-- The domain descriptor in force for a signal. -/
def domInForce (sig : Nat) : SrvTrace → Option (Option Desc)
  | [] => none
  | (.addEvent s (.descChanged _ (some d)) _, _) :: t => if s = sig then some d else domInForce sig t
  | _ :: t => domInForce sig t

/-- An event tells the client nothing new: it is not a descriptor change, or both descriptors are known
and it repeats them. -/
def Redundant (sig : Nat) (ev : Event) (t : SrvTrace) : Prop :=
  match ev with
  | .other _ => True
  | .descChanged v d =>
    descInForce sig t ≠ none ∧ domInForce sig t ≠ none ∧
      (v = none ∨ v = descInForce sig t) ∧ (d = none ∨ d = domInForce sig t)

instance (sig : Nat) (ev : Event) (t : SrvTrace) : Decidable (Redundant sig ev t) := by
  unfold Redundant; split <;> infer_instance

/-- The packet is interpreted as binary data: it carries a payload and the descriptor says so. -/
def isBinary (desc : Option Desc) (p : DataPacket) : Bool :=
  p.payload.isSome && (match desc with | some d => d.binary | none => false)

/-- The client's copy of a packet. -/
def copyOf (desc : Option Desc) (p : DataPacket) : CPacket where
  src := p.id
  desc := desc
  domain := p.domain
  samples := if isBinary desc p then 1 else p.samples
  offset := if isBinary desc p then .int 0 else p.offset
  payload := p.payload
  memSize := match p.payload with | some b => b.length % U32 | none => 0

/-- The object the client made when packet `id` was last sent in full. -/
def objectOf (id : Nat) : SrvTrace → Option CPacket
  | [] => none
  | (.addData sig p _, .ok) :: t =>
    if p.id = id ∧ held id t = false then some (copyOf (descInForce sig t).join p) else objectOf id t
  | _ :: t => objectOf id t

/-- What the client must deliver, as a function of the history of the server (most recent first). -/
def expectedOut : SrvTrace → List CItem
  | [] => []
  | (.addEvent sig ev _, _) :: t => expectedOut t ++ if Redundant sig ev t then [] else [.event sig ev]
  | (.addData sig p mark, .ok) :: t =>
    expectedOut t ++ ((objectOf p.id ((.addData sig p mark, .ok) :: t)).map (CItem.data sig)).toList
  | _ :: t => expectedOut t

/-- A packet is not used after its destruction, and a packet is only sent while the client holds its
domain packet. `t` is most recent first. -/
def DomainFirst : SrvTrace → Prop
  | [] => True
  | (.addData _ p _, .ok) :: t =>
    (∀ d, p.domain = some d → held d t = true) ∧ (∀ x ∈ t, x.1 ≠ .destroy p.id) ∧ DomainFirst t
  | _ :: t => DomainFirst t

/-! ## Domain packets in any order -/

/-- A delivery: packet `id` on signal `sig`, with its domain packet and payload. -/
structure Item where
  sig : Nat
  id : Nat
  domain : Option Nat
  payload : Option (List Nat)
  deriving DecidableEq, Repr

/-- The data packets given to the server (and accepted), in order. -/
def given (t : SrvTrace) : List Item :=
  t.filterMap (fun
    | (.addData sig p _, .ok) => some ⟨sig, p.id, p.domain, p.payload⟩
    | _ => none)

/-- The data packets delivered by the client. -/
def outItems (l : List CItem) : List Item :=
  l.filterMap (fun
    | .data sig p => some ⟨sig, p.src, p.domain, p.payload⟩
    | _ => none)

/-- Packet `id` was given to the server. -/
def wasSent (id : Nat) (t : SrvTrace) : Prop := ∃ g ∈ given t, g.id = id

/-- Packet `id` was neither destroyed nor handed over exclusively. -/
def Alive (id : Nat) (t : SrvTrace) : Prop := ∀ x ∈ t, isEnd id x = false

/-- Packets are used as objects with a lifetime: a packet has a larger id than its domain packet, an id
always denotes the same contents, and neither a packet nor its domain packet is used after the packet's
destruction or exclusive hand-over. `t` is most recent first. -/
def Lawful : SrvTrace → Prop
  | [] => True
  | (.addData _ p _, .ok) :: t =>
    (∀ d, p.domain = some d → d < p.id ∧ Alive d t) ∧ Alive p.id t ∧
      (∀ g ∈ given t, g.id = p.id → g.domain = p.domain ∧ g.payload = p.payload) ∧ Lawful t
  | _ :: t => Lawful t

/-- A packet the client held was handed over exclusively by sending it again. -/
def handedOverAgain (id : Nat) : SrvTrace → Prop
  | [] => False
  | (.addData _ p true, .ok) :: t => (p.id = id ∧ held id t = true) ∨ handedOverAgain id t
  | _ :: t => handedOverAgain id t

/-! ## Contents -/

/-- The packets given to the server (and accepted), with their contents. -/
def givenPackets (t : SrvTrace) : List (Nat × DataPacket) :=
  t.filterMap (fun
    | (.addData sig p _, .ok) => some (sig, p)
    | _ => none)

/-- The packets delivered by the client, with their contents. -/
def deliveredPackets (l : List CItem) : List (Nat × DataPacket) :=
  l.filterMap (fun
    | .data sig q => some (sig, ⟨q.src, q.domain, q.samples, q.offset, q.payload⟩)
    | _ => none)

/-- An id always denotes the same packet, and a packet sent as binary data is a binary data packet (one
sample, offset 0). `t` is most recent first. -/
def Consistent : SrvTrace → Prop
  | [] => True
  | (.addData sig p _, .ok) :: t =>
    (isBinary (descInForce sig t).join p = true → p.samples = 1 ∧ p.offset = .int 0) ∧
      (∀ g ∈ givenPackets t, g.2.id = p.id → g.2 = p) ∧ Consistent t
  | _ :: t => Consistent t

/-- What happens on one signal. -/
def onSignal (sig : Nat) (l : List CItem) : List CItem :=
  l.filter (fun | .event s _ => s == sig | .data s _ => s == sig)

/-! ## Decidability, for the examples -/

instance decForallSome {α} (o : Option α) (P : α → Prop) [∀ a, Decidable (P a)] :
    Decidable (∀ d, o = some d → P d) :=
  match o with
  | none => isTrue (by simp)
  | some a => decidable_of_iff (P a) (by simp)

instance (id : Nat) (t : SrvTrace) : Decidable (wasSent id t) := by unfold wasSent; infer_instance

instance (id : Nat) (t : SrvTrace) : Decidable (Alive id t) := by unfold Alive; infer_instance

instance decDomainFirst : (t : SrvTrace) → Decidable (DomainFirst t)
  | [] => isTrue trivial
  | (op, r) :: t => by
    have := decDomainFirst t
    cases op <;> cases r <;> first | exact this | (show Decidable (_ ∧ _ ∧ _); infer_instance)

instance decLawful : (t : SrvTrace) → Decidable (Lawful t)
  | [] => isTrue trivial
  | (op, r) :: t => by
    have := decLawful t
    cases op <;> cases r <;> first | exact this | (show Decidable (_ ∧ _ ∧ _ ∧ _); infer_instance)

instance decConsistent : (t : SrvTrace) → Decidable (Consistent t)
  | [] => isTrue trivial
  | (op, r) :: t => by
    have := decConsistent t
    cases op <;> cases r <;> first | exact this | (show Decidable (_ ∧ _ ∧ _); infer_instance)

end Verif.PacketStreaming
