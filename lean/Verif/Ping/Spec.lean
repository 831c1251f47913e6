import Verif.Ping.Model

/-! # What is expected of pings -/

namespace Verif.Ping

/-- The 16-bit words of a message; the last byte is the high one of its word. -/
def words : List Nat → List Nat
  | [] => []
  | [a] => [a * 256]
  | a :: b :: l => (a * 256 + b) :: words l

/-- A message is accepted if the sum of its words is 0 modulo 65535, as in RFC 1071, and not all of them
are 0. -/
def Accepted (m : List Nat) : Prop := (words m).sum % 65535 = 0 ∧ (words m).sum ≠ 0

/-- A packet with an answer: a header with options, the source, and the fields of the answer. -/
def reply (first : List Nat) (src dst options : List Nat) (code checksum ident seq : Nat) (body : List Nat) :
    List Nat :=
  (64 + (5 + options.length / 4)) :: first ++ src ++ dst ++ options
    ++ ([0, code] ++ encode checksum ++ encode ident ++ encode seq) ++ body

/-- A packet is an answer of an address to the ping with the identifier and number. -/
def Answers (ident seq : Nat) (src p : List Nat) : Prop :=
  src.length = 4 ∧ ∃ first dst options body code checksum, first.length = 11 ∧ dst.length = 4
    ∧ options.length % 4 = 0 ∧ options.length ≤ 40
    ∧ p = reply first src dst options code checksum ident seq body

end Verif.Ping
