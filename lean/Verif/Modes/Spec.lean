import Verif.Modes.Model
/-!
# What users rely on when they set operation modes
-/

namespace Verif.Modes.Spec

open Verif.Modes

/-- It is a device. -/
def IsDevice (c : Comp) : Prop := ∃ avail dflt, c.info.kind = .device avail dflt

instance (c : Comp) : Decidable (IsDevice c) :=
  match h : c.info.kind with
  | .device a d => .isTrue ⟨a, d, h⟩
  | .plain => .isFalse (by rintro ⟨a, d, h'⟩; rw [h] at h'; cases h')
  | .folder => .isFalse (by rintro ⟨a, d, h'⟩; rw [h] at h'; cases h')
  | .devices => .isFalse (by rintro ⟨a, d, h'⟩; rw [h] at h'; cases h')

/-- The modes a device offers. -/
def offers (c : Comp) : List Mode :=
  match c.info.kind with
  | .device avail _ => avail
  | _ => []

/-- The component at the end of the path is an item, of an item, … of `c`, with no device on the way
(`c` included). -/
def hears (c : Comp) : List Nat → Bool
  | [] => true
  | k :: p =>
    !decide (IsDevice c) &&
      match c.kids.get k with
      | some d => d.info.attached && hears d p
      | none => false

/-- The component at the end of the path belongs to the device `c`: it is the device, or in one of
its components, the folder of its sub-devices excepted. -/
def belongs (c : Comp) : List Nat → Bool
  | [] => true
  | k :: p =>
    match c.kids.get k with
    | some d => d.info.attached && decide (d.info.kind ≠ .devices) && hears d p
    | none => false

/-- The component at the end of the path belongs to `c`, or to a device below it, that offers the
mode. -/
def reached (m : Mode) (c : Comp) : List Nat → Bool
  | [] => decide (m ∈ offers c)
  | [k] => decide (m ∈ offers c) && belongs c [k]
  | k :: j :: p =>
    match c.kids.get k with
    | some d =>
      if d.info.kind = .devices then
        d.info.attached &&
          match d.kids.get j with
          | some e => e.info.attached && reached m e p
          | none => false
      else decide (m ∈ offers c) && belongs c (k :: j :: p)
    | none => false

/-- What a component is like after it was told. -/
def after (m : Mode) (i : Info) : Info :=
  match i.kind with
  | .device _ _ => { i with mode := m, told := some m }
  | _ => { i with told := some m }

/-- Devices are where the sub-devices of devices are, and nowhere else. -/
def Shaped (c : Comp) : Prop :=
  ∀ p d k e, c.at p = some d → d.kids.get k = some e →
    (IsDevice e ↔ d.info.kind = .devices) ∧ (e.info.kind = .devices → IsDevice d)

mutual
/-- The components that hear what `c` is told, `c` first. -/
def hearers : Comp → List Nat
  | .mk i kids => i.tag :: hearersAll kids
def hearersAll : Kids → List Nat
  | .nil => []
  | .cons c l => (if c.info.attached then hearers c else []) ++ hearersAll l
end

/-- The components that belong to a device, without itself. -/
def members : Kids → List Nat
  | .nil => []
  | .cons c l => (if c.info.attached ∧ c.info.kind ≠ .devices then hearers c else []) ++ members l

/-- Every component that belongs to the device was last told its mode. -/
def Settled (c : Comp) : Prop :=
  ∀ p d, c.at p = some d → belongs c p = true → d.info.told = some c.info.mode

/-- No handler fails. -/
def Willing (c : Comp) : Prop := ∀ p d, c.at p = some d → d.info.refuses = []

/-- Devices are created to be sub-devices, and nothing else is; the folder of the sub-devices comes
with the device; handlers do not fail; and the root stays the root. -/
def Usual (w : World) : Op → Prop
  | .create p k _ refuses => refuses = [] ∧ k ≠ .devices ∧
      ∀ d, w.root.at p = some d → ((∃ a b, k = .device a b) ↔ d.info.kind = .devices)
  | .asRoot => False
  | _ => True

/-- As `Usual`, but handlers may fail, and the root may become the root at any time. -/
def Placed (w : World) : Op → Prop
  | .create p k _ _ => k ≠ .devices ∧
      ∀ d, w.root.at p = some d → ((∃ a b, k = .device a b) ↔ d.info.kind = .devices)
  | _ => True

/-- The mode of a device is one it may be in, and the one its handler was last called with; or it
never entered any. -/
def Sound (i : Info) : Prop :=
  ∀ a d, i.kind = .device a d →
    (i.mode = .unknown ∧ i.told = none) ∨ (i.told = some i.mode ∧ (i.mode = d ∨ i.mode ∈ a))

/-- All along a history. -/
def Along (P : World → Op → Prop) (w : World) : List Op → Prop
  | [] => True
  | op :: ops => P w op ∧ Along P (w.step op) ops

end Verif.Modes.Spec
