import Verif.Sched.Model
import Mathlib.Logic.Relation
/-!
# What users of the scheduler rely on

Everything is said about what can be seen: which works were accepted, which ran, which calls began
and returned.
-/

namespace Verif.Sched.Spec

open Verif.Sched

/-- The works that were accepted, in order. -/
def posted : List Ev → List Item
  | [] => []
  | .posted x :: l => x :: posted l
  | _ :: l => posted l

/-- The works that ran, in order. -/
def ran : List Ev → List Item
  | [] => []
  | .ran _ x _ :: l => x :: ran l
  | _ :: l => ran l

/-- The works that the call `i` ran, in order. -/
def ranBy (i : Nat) : List Ev → List Item
  | [] => []
  | .ran j x _ :: l => if j = i then x :: ranBy i l else ranBy i l
  | _ :: l => ranBy i l

/-- The works that asked the call `i` to be run again, in order. -/
def asked (i : Nat) : List Ev → List Item
  | [] => []
  | .ran j x b :: l =>
    if j = i ∧ x.kind = .repeating ∧ b = true then x :: asked i l else asked i l
  | _ :: l => asked i l

/-- Every call that was begun has returned. -/
def Quiet (l : List Ev) : Prop := ∀ i b, .started i b ∈ l → .returned i ∈ l

/-- The calls follow one another: none begins before those before it have returned. -/
def Alone (l : List Ev) : Prop := ∀ l₁ i b l₂, l = l₁ ++ .started i b :: l₂ → Quiet l₁

/-- Whoever was accepted before `y` ran before `y` ran first. -/
def InOrder (l : List Ev) : Prop :=
  ∀ p₁ y p₂ r₁ r₂ x, posted l = p₁ ++ y :: p₂ → ran l = r₁ ++ y :: r₂ → x ∈ p₁ → x ∈ r₁

/-- A work with which the loop is told to stop ran. -/
def Stopped (l : List Ev) : Prop := ∃ i x b, .ran i x b ∈ l ∧ x.kind = .stop

/-- No call was begun. -/
def NoStart (l : List Ev) : Prop := ∀ i b, .started i b ∉ l

/-- The order that was asked for. -/
def Edge (w : World) (a b : Node) : Prop := (a, b) ∈ w.edges

/-- `a` has to run before `b`. -/
def Before (w : World) : Node → Node → Prop := Relation.TransGen (Edge w)

/-- A node that waits, directly or not, for one that waits for itself. -/
def Hopeless (w : World) (n : Node) : Prop := ∃ m, Before w m m ∧ (m = n ∨ Before w m n)

/-- The node belongs to the graph. -/
def Belongs (w : World) (g : Nat) : Node → Prop
  | .root h => h = g ∧ w.graphs[g]? = some true
  | .task t => w.tasks[t]? = some (some g)

/-- No order was asked for between nodes of different graphs. -/
def Inside (w : World) : Prop := ∀ a b g, Edge w a b → (Belongs w g a ↔ Belongs w g b)

/-- The node is nowhere in the list, and everything ordered before it is. -/
def CanRun (w : World) (g : Nat) (l : List Node) (n : Node) : Prop :=
  Belongs w g n ∧ n ∉ l ∧ ∀ a, Edge w a n → a ∈ l

end Verif.Sched.Spec
