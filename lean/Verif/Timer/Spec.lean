import Verif.Timer.Model

/-! # What a client expects of a timer -/

namespace Verif.Timer

/-- Nothing is set. -/
def Fixed : Op → Prop
  | .setInterval _ | .setDelay _ | .setRate _ => False
  | _ => True

instance : DecidablePred Fixed := fun op => by cases op <;> simp only [Fixed] <;> infer_instance

/-- When the call of a number may begin, at a fixed rate, in nanoseconds: times of calls do not matter. -/
def atRate (birth : Nat) (delay interval : Int) (k : Nat) : Int := birth + 1000 * delay + k * (1000 * interval)

/-- When the next call may begin, with a fixed delay: an interval after the last one ended. -/
def afterDelay (birth : Nat) (delay interval : Int) (last : Option Nat) : Int :=
  match last with
  | none => birth + 1000 * delay
  | some e => e + 1000 * interval

end Verif.Timer
