import Verif.Errors.Model

/-!
# Errors used in examples
-/

namespace Verif.Errors

/-- A text. -/
abbrev t (s : String) : Text := s.toList

/-- A release build in which two codes have exceptions (exc:103, 108). -/
def rel : Env := ⟨false, fun c => if c = 0x80000006 then some (t "Not found") else if c = 0x8000000E then some (t "Invalid value") else none, t "argument not found"⟩

/-- The same as a debug build. -/
def dbg : Env := { rel with debug := true }

/-- The code for something that is not found. -/
def notFound : Nat := 0x80000006

/-- The code for a value that is not valid. -/
def invalid : Nat := 0x8000000E

/-- A signal is not found. -/
def e1 : Info := { Info.empty with message := some (t "no signal"), code := 0x80000006 }

/-- A function block is not valid, since the signal was not found. -/
def e2 : Info := { Info.empty with code := 0x8000000E, prev := 0x80000006 }

/-- Passed on with a message. -/
def e3 : Info := { Info.empty with code := 0x8000000E, prev := 0x8000000E, message := some (t "bad block") }

end Verif.Errors
