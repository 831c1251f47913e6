import Verif.Ping.Spec

/-! # Two addresses -/

namespace Verif.Ping

def asked : State := (⟨[], 513, 0, 0, [], false⟩ : State).start [[10, 0, 0, 1], [10, 0, 0, 2]]

/-- The answer of an address, with 4 bytes of options. -/
def answer (n : Nat) : List Nat :=
  reply [0, 0, 40, 0, 0, 0, 0, 64, 1, 0, 0] [10, 0, 0, n] [10, 0, 0, 9] [1, 1, 1, 1] 0 99 513 1 [72, 105]

end Verif.Ping
