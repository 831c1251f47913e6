import Verif.Clock.Model

/-!
# What is expected of time points
-/

namespace Verif.Clock

/-- The time zone of an origin. -/
inductive Zone where
  | absent | zulu | plus (offset : List Char) | minus (offset : List Char)

/-- An origin as users write it: a date, and perhaps a time with a zone. -/
def written (date : List Char) : Option (List Char × Zone) → List Char
  | none => date
  | some (t, .absent) => date ++ 'T' :: t
  | some (t, .zulu) => date ++ 'T' :: t ++ ['Z']
  | some (t, .plus o) => date ++ 'T' :: t ++ '+' :: o
  | some (t, .minus o) => date ++ 'T' :: t ++ '-' :: o

/-- The same with everything written out: midnight and the zone of Greenwich if nothing else is said. -/
def complete (date : List Char) : Option (List Char × Zone) → List Char
  | none => date ++ "T00:00:00+00:00".toList
  | some (t, .absent) => date ++ 'T' :: t ++ "+00:00".toList
  | some (t, .zulu) => date ++ 'T' :: t ++ "+00:00".toList
  | some (t, .plus o) => date ++ 'T' :: t ++ '+' :: o
  | some (t, .minus o) => date ++ 'T' :: t ++ '-' :: o

/-- Dates, times and offsets are written with digits, hyphens, colons and points. -/
def Plain (cs : List Char) : Prop := ∀ c ∈ cs, c ≠ 'T' ∧ c ≠ 'Z' ∧ c ≠ '+'

/-- What is known of operations on `double`: rounding keeps the order and the relative error is at most
2⁻⁵³; rounding to whole nanoseconds keeps the order and is off by at most a half. -/
structure Faithful (F : Floats) : Prop where
  flMono : ∀ a b, a ≤ b → F.fl a ≤ F.fl b
  flNear : ∀ a, |F.fl a - a| ≤ |a| / 2 ^ 53
  rndMono : ∀ a b, a ≤ b → F.rnd a ≤ F.rnd b
  rndNear : ∀ a, |(F.rnd a : Rat) - a| ≤ 1 / 2

/-- Tick times numerator is a number of the type it is computed in. -/
def Fits (ty : Ty) (num v : Int) : Prop :=
  match ty with
  | .unsigned64 => 0 ≤ num * v ∧ num * v < 2 ^ 64
  | _ => -2 ^ 63 ≤ num * v ∧ num * v < 2 ^ 63

/-- The ticks a type has. -/
def Tick (ty : Ty) (v : Int) : Prop :=
  match ty with
  | .unsigned64 => 0 ≤ v ∧ v < 2 ^ 64
  | _ => -2 ^ 63 ≤ v ∧ v < 2 ^ 63

/-- The nanoseconds between the origin and a tick. -/
def offset (num den v : Int) : Rat := (num : Rat) * v * 1000000000 / den

end Verif.Clock
