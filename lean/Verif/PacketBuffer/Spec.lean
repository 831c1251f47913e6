import Verif.PacketBuffer.Model

/-! # Specification of the packet buffer -/

namespace Verif.PacketBuffer.Spec

open Verif.PacketBuffer

/-- Two pieces of memory have no byte in common. -/
def Apart (p q : Nat × Nat) : Prop := p.1 + p.2 ≤ q.1 ∨ q.1 + q.2 ≤ p.1

/-- The packets that exist lie in the buffer and do not share memory. -/
def Separate (size : Nat) (live : List (Nat × Nat)) : Prop :=
  (∀ p ∈ live, p.1 + p.2 ≤ size) ∧ live.Pairwise Apart

/-- Packets have at least one byte, and their size is a 64-bit number. -/
def Sized : Op → Prop
  | .create _ count raw => 0 < count * raw ∧ count * raw < 2 ^ 64
  | _ => True

/-- Packets are released in the order they were created. -/
def InOrder : Op → Prop
  | .release i => i = 0
  | _ => True

end Verif.PacketBuffer.Spec
