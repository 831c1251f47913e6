import Verif.SmartPtr.Model

/-! Who owns what, and which programs keep the rules of smart pointers. -/

namespace Verif.SmartPtr.Spec

/-- The variable holds a reference of its own to object `o`. -/
def Owns (p : Ptr) (o : Nat) : Prop := p.obj = some o ∧ p.borrowed = false

/-- The number of references to `o` that the program holds: in variables, and as raw pointers. -/
def owners (s : St) (o : Nat) : Nat :=
  (s.vars.filter (fun p => decide (p.obj = some o) && !p.borrowed)).length + s.raw.count o

/-- Somebody other than variable `d` holds a reference to `o`. -/
def Kept (s : St) (d o : Nat) : Prop := (∃ w p, w ≠ d ∧ s.vars[w]? = some p ∧ Owns p o) ∨ o ∈ s.raw

/-- The object supports the interface. -/
def Supports (s : St) (o i : Nat) : Prop := ∃ x, s.heap[o]? = some x ∧ i ∈ x.intfs

/-- Object `o` is alive and supports `is`. -/
def IsNew (s : St) (o : Nat) (is : List Nat) : Prop :=
  ∃ x, s.heap[o]? = some x ∧ x.intfs = is ∧ x.alive = true

/-- The rules of smart pointers.  What is assigned to `d` is kept by somebody other than `d`; conversions are to
interfaces the object has; a borrowing pointer is not used for an out parameter and not detached; a borrowing
pointer is used only while somebody keeps the object. -/
def Rule (s : St) : Op → Prop
  | .create _ _ | .clear _ | .adopt _ | .move _ _ | .borrow _ _ => True
  | .copy d v => d ≠ v → ∀ o, (s.var v).obj = some o → Kept s d o
  | .assignRaw d v => ∀ o, (s.var v).obj = some o → Kept s d o
  | .convCopy d v i | .convMove d v i =>
    d ≠ v → ∀ o, (s.var v).obj = some o → Kept s d o ∧ Supports s o i
  | .outParam d _ => (s.var d).borrowed = false
  | .detach d => ∀ o, (s.var d).obj = some o → Owns (s.var d) o
  | .use d => ∀ o, (s.var d).obj = some o → Owns (s.var d) o ∨ Kept s d o

/-- The program keeps the rules at every step, and uses only its own variables. -/
def Keeps : St → List Op → Prop
  | _, [] => True
  | s, op :: ops => (∀ v ∈ op.vars, v < s.vars.length) ∧ Rule s op ∧ Keeps (step s op).1 ops

end Verif.SmartPtr.Spec
