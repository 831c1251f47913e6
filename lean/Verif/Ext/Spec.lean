import Verif.Ext.Model

/-!
# What is expected of signals of the client at input ports of a device
-/

namespace Verif.Ext

/-- Signals that stay as they are: the domain signal of each, the object of each, and whether the
device has it. -/
structure World where
  dom : Gid → Option Gid
  obj : Gid → Nat
  inside : Gid → Bool

/-- The signal with an id, as the functions see it. -/
def World.sig (w : World) (g : Gid) : Sig :=
  ⟨⟨w.obj g, g⟩,
   match w.dom g with
   | none => []
   | some d => [⟨w.obj d, d⟩],
   w.inside g⟩

/-- Domain signals have no domain signals, and objects are told apart. -/
structure World.Plain (w : World) : Prop where
  flat : ∀ v d, w.dom v = some d → w.dom d = none
  objs : ∀ g h, w.obj g = w.obj h → g = h

/-- What a user does: connect a port to a signal, or disconnect it. -/
inductive Act where
  | link (port g : Gid)
  | cut (port : Gid)
deriving DecidableEq, Repr

/-- The calls: the device agrees, and the event for a disconnected port is handled within the call. -/
def Act.op (w : World) : Act → Op
  | .link p g => .connect p (w.sig g) .yes 0
  | .cut p => .disconnect p .yes 1

/-- Which port has which signal. -/
abbrev Table := Gid → Option Gid

/-- The table after an act. -/
def Act.apply (m : Table) : Act → Table
  | .link p g => fun x => if x = p then some g else m x
  | .cut p => fun x => if x = p then none else m x

def applyAll (m : Table) : List Act → Table
  | [] => m
  | a :: as => applyAll (a.apply m) as

/-- A port with an external signal is disconnected before it is connected to another one, and ids of
ports are not those of signals with domain signals. -/
def Tidy (w : World) (m : Table) : List Act → Prop
  | [] => True
  | .link p g :: as =>
    w.dom p = none ∧ (∀ o, m p = some o → o = g ∨ w.inside o = true) ∧ Tidy w (Act.apply m (.link p g)) as
  | .cut p :: as => Tidy w (Act.apply m (.cut p)) as

/-- A signal the device needs the packets of: some port has it, or has a signal with it as domain
signal. -/
def Needed (w : World) (m : Table) (g : Gid) : Prop :=
  ∃ p s, m p = some s ∧ w.inside s = false ∧ (s = g ∨ w.dom s = some g)

/-- The client reads the packets of the signal object. -/
def Reads (c : Client) (g : Gid) (o : Nat) : Prop :=
  ∃ e, c.prod.entries.get g = some e ∧ e.reading = some o

/-- The number a signal has been given. -/
def Numbered (c : Client) (g : Gid) (n : Nat) : Prop :=
  ∃ e, c.prod.entries.get g = some e ∧ e.num = n

end Verif.Ext
