import Verif.Refs.Spec

/-!
# Definitions used by the examples
-/

namespace Verif.Refs.Demo

/-- `0`: an integer `A` (name 10); `1`: an integer `B` (name 11); `2`: the selecting property `C` (name 12);
`3`: `R = switch($C, 0, %A, 1, %B)` (name 13); `4`: another `A` with handler 40; `5`: `S = %S` (name 15); `6`: `T = %U` (name
16); `7`: `U = %T` (name 17); `8`: `X = %A` (name 18); `9`: `Y = %A` (name 19); `10`: an `A` with handler 41;
`11`: a read-only property (name 21); `12`: `Z = switch($Z, 0, %A)` (name 22). -/
def decl : Nat → Decl Nat
  | 0 => { name := 10, dflt := 100 }
  | 1 => { name := 11, dflt := 101 }
  | 2 => { name := 12, dflt := 0 }
  | 3 => { name := 13, dflt := 0, ref := some (.switch 12 [(0, 10), (1, 11)] none) }
  | 4 => { name := 10, dflt := 104, handlers := [40] }
  | 5 => { name := 15, dflt := 0, ref := some (.to 15) }
  | 6 => { name := 16, dflt := 0, ref := some (.to 17) }
  | 7 => { name := 17, dflt := 0, ref := some (.to 16) }
  | 8 => { name := 18, dflt := 0, ref := some (.to 10) }
  | 9 => { name := 19, dflt := 0, ref := some (.to 10) }
  | 10 => { name := 10, dflt := 110, handlers := [41] }
  | 11 => { name := 21, dflt := 5, readOnly := true }
  | 12 => { name := 22, dflt := 0, ref := some (.switch 22 [(0, 10)] none) }
  | _ => { name := 99, dflt := 0 }

/-- An object with `A`, `B`, `C` and `R`, and a handler 7 on `B`. -/
def ops : List (Op Nat) := [.add 0 0, .add 0 1, .add 0 2, .add 0 3, .listen 0 11 7, .set 0 12 1]

def w : World Nat := run decl 9 {} ops

end Verif.Refs.Demo
