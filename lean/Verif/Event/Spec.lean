import Verif.Event.Model

/-!
# Specification: subscribers of an event

A list of subscriptions in the order they were made, each with the handler and whether it is muted. Handlers with the same
`key` are the same subscription (the same function, or the same method of the same object).
-/

namespace Verif.Event.Spec

structure Sub where
  handler : Nat
  muted : Bool
  deriving DecidableEq, Repr

structure Subs where
  list : List Sub := []
  muted : Bool := false
  frozen : Bool := false
  deriving DecidableEq, Repr

/-- Without the first subscription of `h`. -/
def remove (key : Nat → Nat) (h : Nat) : List Sub → List Sub
  | [] => []
  | s :: l => if key s.handler = key h then l else s :: remove key h l

/-- The first subscription of `h` muted or not. -/
def mark (key : Nat → Nat) (h : Nat) (m : Bool) : List Sub → List Sub
  | [] => []
  | s :: l => if key s.handler = key h then { s with muted := m } :: l else s :: mark key h m l

/-- Whom a `trigger` calls: those not muted, until one fails. -/
def calls (fails : Nat → Bool) : List Sub → List Nat × Bool
  | [] => ([], true)
  | s :: l =>
    if s.muted then calls fails l
    else if fails s.handler then ([s.handler], false)
    else (s.handler :: (calls fails l).1, (calls fails l).2)

/-- What the calls do. -/
def next (key : Nat → Nat) (s : Subs) : Op → Subs
  | .addHandler h => if s.frozen then s else { s with list := s.list ++ [⟨h, false⟩] }
  | .removeHandler h => if s.frozen then s else { s with list := remove key h s.list }
  | .clear => if s.frozen then s else { s with list := [] }
  | .trigger => s
  | .mute => { s with muted := true }
  | .unmute => { s with muted := false }
  | .muteListener h => { s with list := mark key h true s.list }
  | .unmuteListener h => { s with list := mark key h false s.list }
  | .freeze => { s with frozen := true }

/-- What a `trigger` must report. -/
def report (fails : Nat → Bool) (s : Subs) : List Nat × Bool := if s.muted then ([], true) else calls fails s.list

/-- What a call must return. -/
def result (frozen : Bool) : Op → Res
  | .addHandler _ | .removeHandler _ | .clear => if frozen then .frozen else .ok
  | .freeze => if frozen then .ignored else .ok
  | _ => .ok

end Verif.Event.Spec
