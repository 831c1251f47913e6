/-!
# Model of the packet buffer

`buf` = /repo/core/opendaq/utility/src/packet_buffer_impl.cpp
`bufh` = /repo/core/opendaq/utility/include/opendaq/packet_buffer_impl.h

A ring of bytes out of which data packets get their memory. Positions are counted from the beginning of the buffer. The mutex
is held during each of the operations, so that they happen one after another; `resize` waits for packets to be released, and
takes effect together with the release it has waited for (no packet can be created in between). The packets that exist are
kept in the state, in the order of their creation.

Not modelled: the queries read without the mutex; the deleter of a packet keeps a pointer to the buffer but no reference, so
that packets must not outlive it; several threads in `resize` at once.
-/

namespace Verif.PacketBuffer

/-- `PacketBufferImpl` (bufh:53-67), and the packets that exist: position and size of their memory. -/
structure St where
  /-- `sizeInBytes`, `endPos` -/
  size : Nat
  /-- `readPos` -/
  r : Nat := 0
  /-- `writePos` -/
  w : Nat := 0
  /-- `isFull` -/
  full : Bool := false
  /-- `oosPackets`: memory given back that does not begin at `readPos` (yet). -/
  oos : List (Nat × Nat) := []
  /-- `underReset`, with the size `resize` was called with. -/
  waiting : Option Nat := none
  live : List (Nat × Nat) := []
  deriving DecidableEq, Repr

inductive Err where
  | bufferFull | invalidParameter | invalidState
  deriving DecidableEq, Repr

/-- Pairs are ordered by their first component, then by the second. -/
def pairLe (a b : Nat × Nat) : Bool := a.1 < b.1 || (a.1 == b.1 && a.2 ≤ b.2)

/-- `oosPackets.top()`: the least entry (the queue is ordered by `std::greater`). -/
def top : List (Nat × Nat) → Option (Nat × Nat)
  | [] => none
  | a :: l => match top l with
    | none => some a
    | some b => if pairLe a b then some a else some b

/-- The loop of `CleanOosPackets` (buf:24-32); each round removes an entry. -/
def cleanLoop : Nat → St → St
  | 0, s => s
  | k + 1, s => match top s.oos with
    | none => s
    | some t =>
      if s.r ≠ t.1 then s
      else cleanLoop k { s with full := false, r := s.r + t.2, oos := s.oos.erase t }

/-- `CleanOosPackets` (buf:22-41). -/
def clean (s : St) : St :=
  let s := cleanLoop s.oos.length s
  if s.size ≤ s.r then { s with r := s.r - s.size } else s

/-- The space at `writePos` (buf:49-65). -/
def available (s : St) : Except Err Nat :=
  if s.w < s.r then .ok (s.r - s.w)
  else if s.full && s.w == s.r then .error .bufferFull
  else .ok (s.size - s.w)

/-- `Write` (buf:44-101): the position of the memory, and the buffer afterwards. -/
def write (s : St) (n : Nat) : Except Err (Nat × St) :=
  match available s with
  | .error e => .error e
  | .ok a =>
    if a < n then
      if s.w < s.r then .error .invalidParameter
      else if n > s.r then .error .invalidParameter
      else
        let s1 := clean { s with oos := (s.w, s.size - s.w) :: s.oos }
        .ok (0, { s1 with w := n, full := if n = s1.r then true else s1.full })
    else
      let w := if s.w + n = s.size then 0 else s.w + n
      .ok (s.w, { s with w := w, full := if w = s.r then true else s.full })

/-- `Read` (buf:103-123): memory is given back. -/
def giveBack (s : St) (pos n : Nat) : St :=
  clean { s with oos := (if pos < s.r then pos + s.size else pos, n) :: s.oos }

/-- The end of `resize` (buf:169-179), if the condition it waits for holds. -/
def finishResize (s : St) : St :=
  match s.waiting with
  | none => s
  | some n => if s.r = s.w ∧ s.full = false then { s with size := n, r := 0, w := 0, waiting := none } else s

inductive Op where
  /-- `createPacket` for so many samples of this size; whether the rule of the descriptor is explicit. -/
  | create (isExplicit : Bool) (count raw : Nat)
  /-- The packet at this place among those that exist is destroyed. -/
  | release (i : Nat)
  | resize (n : Nat)
  deriving DecidableEq, Repr

inductive Res where
  | packet (pos size : Nat)
  | err (e : Err)
  | done
  | waits
  deriving DecidableEq, Repr

/-- `createPacket` (buf:125-159), the destruction of a packet (buf:152-155), `resize` (buf:161-182). -/
def step (s : St) : Op → St × Res
  | .create isExplicit count raw =>
    if !isExplicit then (s, .err .invalidParameter)
    else if s.waiting.isSome then (s, .err .invalidState)
    else match write s (count * raw % 2 ^ 64) with
      | .error e => (s, .err e)
      | .ok (pos, s1) => ({ s1 with live := s1.live ++ [(pos, count * raw % 2 ^ 64)] }, .packet pos (count * raw % 2 ^ 64))
  | .release i => match s.live[i]? with
    | none => (s, .done)
    | some p => (finishResize (giveBack { s with live := s.live.eraseIdx i } p.1 p.2), .done)
  | .resize n =>
    let s1 := finishResize { s with waiting := some n }
    (s1, if s1.waiting.isSome then .waits else .done)

def run : St → List Op → St
  | s, [] => s
  | s, op :: ops => run (step s op).1 ops

/-- `getMaxAvailableContinousSampleCount` (buf:184-205); a division by zero is undefined. -/
def maxCount (s : St) (raw : Nat) : Option Nat :=
  if raw = 0 then none
  else if s.w < s.r then some ((s.r - s.w) / raw)
  else if s.w == s.r && s.full then some 0
  else if s.r ≤ s.size - s.w then some ((s.size - s.w) / raw)
  else some (s.r / raw)

/-- `getAvailableSampleCount` (buf:207-227). -/
def availableCount (s : St) (raw : Nat) : Option Nat :=
  if raw = 0 then none
  else if s.w < s.r then some ((s.r - s.w) / raw)
  else if s.w == s.r && s.full then some 0
  else some ((s.size - s.r) / raw)

end Verif.PacketBuffer
