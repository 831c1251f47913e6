import Verif.Nest.Model

/-!
# What updates of nested objects are expected to satisfy

Nothing here uses the functions of the model; only its data types.
-/

namespace Verif.Nest.Spec

variable {V : Type}

/-- The object with a path: the first with its name at each step. -/
inductive Obj : Forest V → Path → Data V → Forest V → Prop where
  | here {m d b r} : Obj (.cons m d b r) [m] d b
  | inside {m d' b' r k q d b} : Obj b' (k :: q) d b → Obj (.cons m d' b' r) (m :: k :: q) d b
  | beside {m d' b' r k q d b} : k ≠ m → Obj r (k :: q) d b → Obj (.cons m d' b' r) (k :: q) d b

/-- The first entry with a name. -/
inductive First {α : Type} : List (Name × α) → Name → α → Prop where
  | here {n a l} : First ((n, a) :: l) n a
  | later {m b l n a} : m ≠ n → First l n a → First ((m, b) :: l) n a

/-- A property has a value: what is stored, else its default. -/
def Shows (f : Forest V) (p : Path) (n : Name) (v : V) : Prop :=
  ∃ d b, Obj f p d b ∧ ∃ t, First d.defs n t ∧ (First d.vals n v ∨ ((∀ w, ¬ First d.vals n w) ∧ v = t.dflt))

/-- All objects show the same values. -/
def SameValues (f g : Forest V) : Prop := ∀ p n v, Shows f p n v ↔ Shows g p n v

/-- Something holds for all objects of a forest, and all inside them. -/
def Everywhere (P : Data V → Prop) : Forest V → Prop
  | .nil => True
  | .cons _ d b r => P d ∧ Everywhere P b ∧ Everywhere P r

/-- Every object is updating or frozen. -/
def Held : Forest V → Prop := Everywhere fun d => d.frozen = true ∨ 0 < d.count

/-- Two forests have the same objects, which are related pairwise. -/
inductive Pairs (R : Data V → Data V → Prop) : Forest V → Forest V → Prop where
  | nil : Pairs R .nil .nil
  | cons {m d e b b' r r'} : R d e → Pairs R b b' → Pairs R r r' → Pairs R (.cons m d b r) (.cons m e b' r')

/-- In one more update, and nothing else changed. -/
def OneMore (d e : Data V) : Prop := e = { d with count := d.count + 1 }

/-- In one update less; if it was the last then no call is left recorded. -/
def OneLess (d e : Data V) : Prop := d.count = e.count + 1 ∧ (e.count = 0 → e.pending = [])

/-- Calls made during an update that are as good as without it: a value is set, anywhere, or cleared through its object. -/
inductive Plain (f : Forest V) : Op V → Prop where
  | set {h route n v} : Plain f (.set h route n v)
  | clear {h n d b t} : Obj f h d b → First d.defs n t → Plain f (.clear h [] n)

/-- No update is in progress, nothing is recorded and nothing is frozen. -/
def Idle : Forest V → Prop := Everywhere fun d => d.count = 0 ∧ d.pending = [] ∧ d.frozen = false

/-- Nothing in an object refuses to be cleared. -/
def Free (d : Data V) : Prop := d.count = 0 ∧ d.frozen = false ∧ ∀ x ∈ d.defs, x.2.readOnly = false

/-- What becomes of an object: its values are gone. -/
def Cleared (d e : Data V) : Prop :=
  (∀ n t, First d.defs n t → ∀ v, ¬ First e.vals n v) ∧ e.defs = d.defs ∧ e.count = d.count ∧ e.pending = d.pending ∧
    e.frozen = d.frozen ∧ ∀ n, (∀ t, ¬ First d.defs n t) → ∀ v, First e.vals n v ↔ First d.vals n v

end Verif.Nest.Spec
