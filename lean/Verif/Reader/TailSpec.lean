import Verif.Common
import Verif.Reader.StreamSpec
import Verif.Reader.TailModel

/-! # Specification vocabulary for the tail reader -/

namespace Verif.Reader.Tail

open Connection (Packet EventKind DomPacket DomDesc)

abbrev Trace := List (Op × Out)

def exec (cfg : Cfg) (typed : Bool) (ops : List Op) : T × Trace := runTrace (step cfg) (init typed) ops

/-- The samples and events of a packet. -/
def itemsOf : Packet → List Item
  | .data id n _ => (List.range n).map fun i => .sample (id, i)
  | .event id k => [.event id k]
  | .none _ => []

/-- Everything before the first event is done with. -/
def afterFirstEvent : List Packet → List Packet
  | [] => []
  | .event _ _ :: ps => ps
  | _ :: ps => afterFirstEvent ps

/-- The packets received since the event returned last. -/
def window : Trace → List Packet
  | t => t.foldl (fun w x => match x with
      | (.receive ps, _) => w ++ ps
      | (.read _ _, o) => if o.event.isSome then afterFirstEvent w else w) []

def items (ps : List Packet) : List Item := ps.flatMap itemsOf

def total (ps : List Packet) : Nat := Connection.totalSamples ps

/-- Remove the first `k` samples, keeping all events. -/
def dropSamples : Nat → List Item → List Item
  | 0, l => l
  | _ + 1, [] => []
  | k + 1, .sample _ :: l => dropSamples k l
  | k + 1, .event i e :: l => .event i e :: dropSamples (k + 1) l

/-- The last `n` samples of `l`, with all events. -/
def lastSamples (n : Nat) (ps : List Packet) : List Item := dropSamples (total ps - n) (items ps)

/-- The samples before the first event. -/
def untilEvent : List Item → List Tok
  | .sample t :: l => t :: untilEvent l
  | _ => []

/-- The first event. -/
def firstEvent : List Item → Option (Nat × EventKind)
  | [] => none
  | .event i k :: _ => some (i, k)
  | .sample _ :: l => firstEvent l

/-- All packets received in a history. -/
def received (ops : List Op) : List Packet := ops.flatMap fun
  | .receive ps => ps
  | .read _ _ => []

/-- The packet is not an event other than a descriptor change. -/
def plain : Packet → Bool
  | .event _ (.descChanged _ _) => true
  | .event _ _ => false
  | _ => true

/-- The first packet other than an empty one is an event announcing a value descriptor. -/
def startsTyped : List Packet → Bool
  | [] => true
  | .none _ :: ps => startsTyped ps
  | .event i k :: _ => announces (.event i k)
  | .data _ _ _ :: _ => false

end Verif.Reader.Tail
