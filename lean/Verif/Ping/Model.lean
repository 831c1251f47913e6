import Mathlib.Data.List.Basic

/-!
# Pings

Requests that are sent to find out which addresses answer, and the answers.  Bytes are numbers below 256.

* `ih` = `core/opendaq/modulemanager/include/opendaq/icmp_header.h`
* `ic` = `core/opendaq/modulemanager/src/icmp_header.cpp`
* `iv` = `core/opendaq/modulemanager/src/ipv4_header.cpp`
* `pi` = `core/opendaq/modulemanager/src/icmp_ping.cpp`
-/

namespace Verif.Ping

/-- `decode` (ic:53-56, iv:59-62). -/
def decode (a b : Nat) : Nat := a * 256 + b

/-- `encode` (ic:58-62). -/
def encode (n : Nat) : List Nat := [n / 256 % 256, n % 256]

/-- A header by its fields. -/
structure Header where
  type : Nat
  code : Nat
  checksum : Nat
  ident : Nat
  seq : Nat
  deriving DecidableEq, Repr

/-- The bytes of a header, as they are set and written (ic:28-51, ic:69-72). -/
def Header.bytes (h : Header) : List Nat :=
  [h.type % 256, h.code % 256] ++ encode h.checksum ++ encode h.ident ++ encode h.seq

/-- The header of 8 bytes (ic:3-26). -/
def header : List Nat → Option Header
  | a :: b :: c :: d :: e :: f :: g :: h :: _ => some ⟨a, b, decode c d, decode e f, decode g h⟩
  | _ => none

/-- What the bytes of the body add (ih:83-88). -/
def bodySum : List Nat → Nat
  | [] => 0
  | [a] => a * 256
  | a :: b :: l => a * 256 + b + bodySum l

/-- `computeChecksum` (ih:75-93), in numbers of 32 bits. -/
def withChecksum (h : Header) (body : List Nat) : Header :=
  let sum := (h.type * 256 + h.code + h.ident + h.seq + bodySum body) % 2 ^ 32
  let once := sum / 65536 + sum % 65536
  let twice := once + once / 65536
  { h with checksum := 65535 - twice % 65536 }

/-- The request (pi:113-126). -/
def request (ident seq : Nat) (body : List Nat) : List Nat :=
  (withChecksum ⟨8, 0, 0, ident, seq⟩ body).bytes ++ body

/-- Reading the header of the packet (iv:76-92): version 4, and up to 40 bytes of options; the source
address (iv:64-68) and the rest of the packet. -/
def ipv4 (p : List Nat) : Option (List Nat × List Nat) :=
  match p with
  | a :: _ =>
    if p.length < 20 then none
    else if a / 16 % 16 ≠ 4 then none
    else if a % 16 * 4 < 20 then none
    else if p.length < a % 16 * 4 then none
    else some ((p.drop 12).take 4, p.drop (a % 16 * 4))
  | [] => none

/-- The addresses asked, identifier and number of the requests, the number of replies, and the addresses
that replied. -/
structure State where
  remotes : List (List Nat)
  ident : Nat
  seq : Nat
  replies : Nat
  addresses : List (List Nat)
  stopped : Bool
  deriving DecidableEq, Repr

/-- `start` (pi:49-82, pi:111-172). The sequence number is 1; addresses that replied before are kept. -/
def State.start (s : State) (remotes : List (List Nat)) : State :=
  { s with remotes := remotes, seq := 1, replies := 0, stopped := false }

/-- `handleReceive` (pi:231-283). -/
def State.receive (s : State) (p : List Nat) : State :=
  if s.stopped then s
  else match ipv4 p with
    | none => s
    | some (src, rest) =>
      match header rest with
      | none => s
      | some h =>
        if h.type = 0 ∧ h.ident = s.ident ∧ h.seq = s.seq then
          { s with addresses := if src ∈ s.addresses then s.addresses else s.addresses ++ [src],
                   replies := s.replies + 1 }
        else s

/-- Whether the wait for replies ends before its time (pi:190-196). -/
def State.complete (s : State) : Bool := decide (s.remotes.length = s.replies) || s.stopped

/-- Many packets. -/
def State.receiveAll (s : State) (ps : List (List Nat)) : State := ps.foldl State.receive s

end Verif.Ping
