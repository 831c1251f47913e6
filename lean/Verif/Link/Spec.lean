import Verif.Link.Model

/-! # What users rely on -/

namespace Verif.Link.Spec

/-- The port of the connection has it as its connection. -/
def Connected (w : W) (c : Nat) : Prop := (w.ports (w.conns c).port).conn = some c

instance (w : W) (c : Nat) : Decidable (Connected w c) := by unfold Connected; infer_instance

/-- Ports and signals agree about their connections: the connections of a signal are those of the ports that are connected to it,
each once. -/
structure Agree (w : W) : Prop where
  known : ∀ p c, (w.ports p).conn = some c → (w.conns c).port = p
  listed : ∀ s c, c ∈ (w.sigs s).conns ↔ Connected w c ∧ (w.conns c).sig = s ∧ (w.conns c).isRemote = false
  remote : ∀ s c, c ∈ (w.sigs s).remote ↔ Connected w c ∧ (w.conns c).sig = s ∧ (w.conns c).isRemote = true
  once : ∀ s, (w.sigs s).conns.Nodup ∧ (w.sigs s).remote.Nodup

/-- A removed signal or port is not connected. -/
structure Gone (w : W) : Prop where
  sig : ∀ s, (w.sigs s).removed = true → (w.sigs s).conns = [] ∧ (w.sigs s).remote = [] ∧ (w.sigs s).active = false
  port : ∀ p, (w.ports p).removed = true → (w.ports p).conn = none

/-- A signal knows of which signals it is the domain. -/
structure Domains (w : W) : Prop where
  refs : ∀ d v, v ∈ (w.sigs d).refs ↔ (w.sigs v).domain = some d
  once : ∀ d, (w.sigs d).refs.Nodup

/-- What somebody knows who follows the descriptors. -/
def know1 (k : Option Nat) : Option Nat → Option Nat
  | none => k
  | some 0 => none
  | some d => some d

def know : List Pkt → Option Nat × Option Nat → Option Nat × Option Nat
  | [], k => k
  | .event v d :: ps, k => know ps (know1 k.1 v, know1 k.2 d)
  | .data _ _ _ _ :: ps, k => know ps k

/-- The descriptor of the domain signal. -/
def domDesc (w : W) (s : Nat) : Option Nat := match (w.sigs s).domain with
  | some d => (w.sigs d).desc
  | none => none

/-- What a call adds to the packets of a connection. -/
def added (w : W) (c : Nat) : Op → List Pkt
  | .send s p => if (w.sigs s).active = true ∧ (w.conns c).sig = s ∧ Connected w c ∧ (w.conns c).isRemote = false then [p] else []
  | .sendMany s ps => if (w.sigs s).active = true ∧ (w.conns c).sig = s ∧ Connected w c ∧ (w.conns c).isRemote = false then ps else []
  | .setDescriptor s d =>
    if d = some 0 ∨ d = (w.sigs s).desc ∨ ¬ (Connected w c ∧ (w.conns c).isRemote = false) then []
    else (if (w.conns c).sig = s then [.event (some (d.getD 0)) none] else []) ++
      (if (w.sigs (w.conns c).sig).domain = some s ∧ (w.sigs (w.conns c).sig).active = true then [.event none (some (d.getD 0))] else [])
  | _ => []

/-- Something holds of every call of a run. -/
def Along (P : W → Op → Prop) : W → List Op → Prop
  | _, [] => True
  | w, op :: ops => P w op ∧ Along P (step w op).1 ops

/-- The packet says nothing about descriptors. -/
def Plain : Pkt → Prop
  | .event v d => v = none ∧ d = none
  | .data _ _ _ _ => True

instance (p : Pkt) : Decidable (Plain p) := by unfold Plain; split <;> infer_instance

/-- Nobody sends descriptors as packets. -/
def Honest : Op → Prop
  | .send _ p => Plain p
  | .sendMany _ ps => ∀ p ∈ ps, Plain p
  | _ => True

instance (op : Op) : Decidable (Honest op) := by unfold Honest; split <;> infer_instance

/-- The domain of a signal somebody listens to does not change silently. -/
def Steady (w : W) : Op → Prop
  | .setDomain s _ => (w.sigs s).conns = []
  | .setDescriptor d _ => ∀ v, (w.sigs v).domain = some d → (w.sigs v).active = true ∨ (w.sigs v).conns = []
  | .removeSig d => ∀ v, (w.sigs v).domain = some d → v ≠ d → (w.sigs v).conns = []
  | _ => True

/-- The last value after packets were sent: the last sample of the last packet that has samples. -/
def lastSample : List Pkt → Option Last → Option Last
  | [], v => v
  | .data id n (some _) _ :: ps, v => lastSample ps (if n = 0 then v else some (.sample id (n - 1)))
  | .data _ n none _ :: ps, v => lastSample ps (if n = 0 then v else none)
  | .event _ _ :: ps, v => lastSample ps v

/-- Nothing after the last packet matters: it has samples, or no packet has. -/
def Ends (ps : List Pkt) : Prop :=
  (∃ id n d b, ps.getLast? = some (.data id n (some d) b) ∧ n ≠ 0) ∨ ∀ p ∈ ps, ∀ id n d b, p = .data id n d b → n = 0

/-- The packets a call sends over a signal. -/
def sent (s : Nat) : Op → List Pkt
  | .send t p => if t = s then [p] else []
  | .sendMany t ps => if t = s then ps else []
  | _ => []

/-- A call does not touch whether and how the last value of a signal is kept. -/
def Keeps (s : Nat) : Op → Prop
  | .setActive t _ => t ≠ s
  | .setPublic t _ => t ≠ s
  | .keepLast t _ => t ≠ s
  | .setLast t _ => t ≠ s
  | .removeSig t => t ≠ s
  | .sendMany t ps => t = s → Ends ps
  | _ => True

/-- Samples of the packet are not wider before scaling than after it. -/
def Narrow : Pkt → Prop
  | .data _ _ (some d) _ => d.scaled = true → d.raw ≤ d.size
  | _ => True

/-- No packet of the call is wider before scaling than after it. -/
def NarrowOp : Op → Prop
  | .send _ p => Narrow p
  | .sendMany _ ps => ∀ p ∈ ps, Narrow p
  | _ => True

/-- The signal a port is connected to. -/
def signalOf (w : W) (p : Nat) : Option Nat := (w.ports p).conn.map fun c => (w.conns c).sig

/-- What somebody knows who follows the core events of a port. -/
def follow : List Core → Option Nat → Option Nat
  | [], k => k
  | .connected s :: es, _ => follow es (some s)
  | .disconnected :: es, _ => follow es none

/-- What the listener of a port knows. -/
def heard : List Bool → Bool → Bool
  | [], k => k
  | b :: bs, _ => heard bs b

/-- No listener refuses. -/
def Accepting : Op → Prop
  | .connect _ _ _ _ accept => accept = true
  | _ => True

end Verif.Link.Spec
