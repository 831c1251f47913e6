import Verif.Clock.Spec

/-! # A clock -/

namespace Verif.Clock.Demo

open Verif.Clock

/-- Exact operations, and rounding to the nearest nanosecond. -/
def ideal : Floats := ⟨fun q => q, fun q => (q + 1 / 2).floor⟩

/-- Two origins are dates. -/
def parse (cs : List Char) : Option Int :=
  if cs = "1970-01-01T00:00:00+00:00".toList then some 0
  else if cs = "2000-01-01T00:00:00+00:00".toList then some 946684800000000000
  else none

/-- Milliseconds since 2000. -/
def new2000 : Desc := ⟨some "time", some "s", "2000-01-01".toList, some (1, 1000), .whole, 0⟩

/-- Nanoseconds since 1970. -/
def old1970 : Desc := ⟨some "time", some "s", "1970-01-01T00:00:00Z".toList, some (1, 1000000000), .unsigned64, 0⟩

/-- Milliseconds without an origin. -/
def noOrigin : Desc := ⟨some "time", some "s", [], some (1, 1000), .whole, 0⟩

/-- Revolutions. -/
def turns : Desc := ⟨some "angle", some "rev", [], some (1, 360), .whole, 0⟩

end Verif.Clock.Demo
