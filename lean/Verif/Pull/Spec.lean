import Verif.Pull.Model

/-!
# What a client expects of a packet reader

The line is what the signal and the client see without looking at any queue: whether a signal is
connected, whether the port is active, which descriptor the signal has, and whether the external listener
refuses.  It says which packets are sent to the reader.
-/

namespace Verif.Pull

structure Line where
  on : Bool
  active : Bool
  desc : Nat
  refuses : Bool

/-- The packets that an act sends to the reader. -/
def Line.sent (l : Line) : Op → List Pkt
  | .connect d => if l.refuses then [] else [.desc d]
  | .send n => if l.on && l.active then [.data l.desc n] else []
  | .setDesc d => if l.on then [.desc d] else []
  | _ => []

/-- The line after an act. -/
def Line.next (l : Line) : Op → Line
  | .connect d => { l with on := !l.refuses, desc := d }
  | .disconnect => { l with on := false }
  | .setDesc d => { l with desc := d }
  | .setActive b => { l with active := b }
  | .takeOver _ => { l with refuses := false }
  | .setExt e => { l with refuses := e = some ⟨true⟩ }
  | _ => l

/-- All packets sent to the reader. -/
def sent : Line → List Op → List Pkt
  | _, [] => []
  | l, op :: ops => l.sent op ++ sent (l.next op) ops

/-- At the beginning nothing is connected. -/
def Line.start : Line := ⟨false, true, 0, false⟩

/-- The data among the packets. -/
def datas (ps : List Pkt) : List Pkt := ps.filter fun | .data _ _ => true | .desc _ => false

/-- Acts that leave the connection and the reader as they are. -/
def Steady : Op → Prop
  | .connect _ | .disconnect | .takeOver _ => False
  | _ => True

/-- Signals are changed only when nothing waits for the reader. -/
def Tidy : State → List Op → Prop
  | _, [] => True
  | s, op :: ops =>
    ((∃ d, op = .connect d) ∨ op = .disconnect ∨ (∃ b, op = .takeOver b ∧ s.live = false) → s.waiting = [])
      ∧ Tidy (s.step op).1 ops

/-- Reading the packets in order, every data packet is preceded by its descriptor, and no other descriptor
comes between. -/
def Described : Option Nat → List Pkt → Prop
  | _, [] => True
  | _, .desc d :: ps => Described (some d) ps
  | o, .data d _ :: ps => o = some d ∧ Described o ps

end Verif.Pull
