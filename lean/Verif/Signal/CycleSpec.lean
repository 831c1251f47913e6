import Verif.Signal.CycleModel
import Mathlib.Logic.Relation

/-! # Specification of the cyclic reference check -/

namespace Verif.Signal

/-- A signal of `b` is connected to an input port of which `b'` is the listener. -/
def Feeds (net : Net) (b b' : Nat) : Prop := ∃ s ∈ net.outs b, ∃ p ∈ net.conns s, net.listener p = some b'

/-- The signal is produced by the function block that listens at the port, or by one that this one feeds through any chain
of function blocks. -/
def Downstream (net : Net) (s p : Nat) : Prop :=
  ∃ b b', net.listener p = some b ∧ Relation.ReflTransGen (Feeds net) b b' ∧ s ∈ net.outs b'

/-- No function block feeds itself. -/
def Acyclic (net : Net) : Prop := ∀ b, ¬ Relation.TransGen (Feeds net) b b

def exec (ops : List Op) : Net × List (Op × Out) := runTrace step init ops

/-- Listeners are not changed after the port was created. -/
def NoSetListener : Op → Prop
  | .setListener _ _ => False
  | _ => True

end Verif.Signal
