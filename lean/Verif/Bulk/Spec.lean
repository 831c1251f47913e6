import Verif.Bulk.Model

/-!
# Specification: pieces of a block of memory
-/

namespace Verif.Bulk.Spec

/-- Two pieces have no byte in common. -/
def Apart (a b : Piece) : Prop := a.pos + a.size ≤ b.pos ∨ b.pos + b.size ≤ a.pos

instance (a b : Piece) : Decidable (Apart a b) := by unfold Apart; infer_instance

/-- The smallest multiple of `k` that is at least `v`. -/
def up (k v : Nat) : Nat := (v + (k - 1)) / k * k

/-- The bytes needed, without overflow. -/
def need (c : Cfg) (i : Item) : Nat :=
  up c.align ((if c.rule = .explicit then up c.align (8 * i.samples) else 0) + i.rawSize * i.samples)

def total (c : Cfg) (items : List Item) : Nat :=
  up c.align (20 + ((if c.offsets then c.intSize else 0) + 2 * c.pktSize) * items.length) + (items.map (need c)).sum

/-- The descriptors are as the documentation asks: one rule, and 64-bit integers when it is explicit. -/
def Fit (c : Cfg) (i : Item) : Prop := i.domRaw = if c.rule = .explicit then 8 else 0

instance (c : Cfg) (i : Item) : Decidable (Fit c i) := by unfold Fit; infer_instance

/-- The object that object `x` must keep: of three objects in a row the second keeps the first and the third the second,
without offsets the second of two keeps the first. -/
def keeps (offsets : Bool) (x : Nat) : Option Nat :=
  if offsets then (if x % 3 = 0 then none else some (x - 1)) else (if x % 2 = 0 then none else some (x - 1))

end Verif.Bulk.Spec
