import Verif.Journal.Model

/-! # What a client expects of a logger -/

namespace Verif.Journal

/-- A level that can be given. -/
def valid : Option (Option Int) → Option Nat
  | some (some n) => if 0 ≤ n ∧ n ≤ 6 then some n.toNat else none
  | _ => none

/-- The level a component should have by default: that of its own variable, else that of the general one,
else the compiled one — variables that name no level do not count. -/
def wanted (env : Env) (n : Name) : Nat :=
  match valid (env.own (upper n)) with
  | some l => l
  | none => match valid env.general with
    | some l => l
    | none => env.compiled

/-- What came out at a sink: the components and messages. -/
def at' (k : Nat) (es : List Entry) : List (Nat × Nat) :=
  (es.filter fun e => e.sink = k).map fun e => (e.comp, e.msg)

/-- The level last given to a component, if any. -/
def given (i : Nat) : List Op → Option Nat → Option Nat
  | [], o => o
  | .compLevel j l :: ops, o => given i ops (if j = i then some l else o)
  | _ :: ops, o => given i ops o

end Verif.Journal
