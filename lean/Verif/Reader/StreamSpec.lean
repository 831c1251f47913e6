import Verif.Connection.Spec
import Verif.Reader.StreamModel

/-!
# Specification vocabulary for the stream reader

The consumer's view of a packet stream is a list of items: single samples and events. Everything
here is stated on packet lists and recorded histories.
-/

namespace Verif.Reader

open Connection (Packet EventKind DomPacket DomDesc)

abbrev Trace := List (Op × Out)

/-- State and history after running `ops` on a new reader. -/
def exec (cfg : Cfg) (g : Bool) (ops : List Op) : R × Trace := runTrace (step cfg) (init g) ops

/-- What a consumer gets to see: samples and events. -/
inductive Item where
  | sample (t : Tok)
  | event (id : Nat) (k : EventKind)
  deriving DecidableEq

/-- The event carries a descriptor the reader cannot convert. -/
def inconvertible (cfg : Cfg) : EventKind → Bool
  | .descChanged v d =>
    (match v with | some (some x) => cfg.badValue x | _ => false) ||
    (match d with | some (some x) => cfg.badDomain x | _ => false)
  | _ => false

/-- Events the reader reports: all of them, or, when events are skipped, gaps and descriptors that
cannot be converted. -/
def reported (cfg : Cfg) : EventKind → Bool
  | .gap _ => true
  | k => !cfg.skipEvents || inconvertible cfg k

/-- The items of a packet: its samples in order, or the event if it is reported. -/
def itemsOf (cfg : Cfg) : Packet → List Item
  | .data id n _ => (List.range n).map fun i => .sample (id, i)
  | .event id k => if reported cfg k then [.event id k] else []
  | .none _ => []

/-- The packet announces the value descriptor. -/
def announces : Packet → Bool
  | .event _ (.descChanged (some (some _)) _) => true
  | _ => false

/-- The packet's domain packet is present and covers all samples (true for non-data packets). -/
def domainCovers : Packet → Bool
  | .data _ n (some d) => decide (n ≤ d.count)
  | .data _ _ none => false
  | _ => true

/-- The producer's part of the history. -/
def producer (t : Trace) : Connection.Trace :=
  t.filterMap fun x => match x with
    | (.conn op, o) => o.conn.map fun c => (op, c)
    | _ => none

/-- The packets the connection offers to its consumer (see C01): the accepted ones, and, with gap
checking, the gap events between them. -/
def packetStream (g : Bool) (t : Trace) : List Packet :=
  if g then Connection.expectedStream [] (producer t) else Connection.accepted (producer t)

/-- The items offered to the reader so far. -/
def itemStream (cfg : Cfg) (g : Bool) (t : Trace) : List Item := (packetStream g t).flatMap (itemsOf cfg)

/-- The items one call has consumed: as many samples as it counted, and the event it returned. -/
def consumedBy : Op × Out → Nat
  | (.read _ _, o) => o.count + o.event.toList.length
  | _ => 0

/-- The number of items consumed so far. -/
def consumed (t : Trace) : Nat := (t.map consumedBy).sum

/-- The items a call has returned in buffers and status. -/
def returnedBy : Op × Out → List Item
  | (.read _ _, o) => o.vals.map Item.sample ++ o.event.toList.map fun e => .event e.1 e.2
  | _ => []

/-- Everything returned so far. -/
def returned (t : Trace) : List Item := t.flatMap returnedBy

/-- The call is one a producer makes. -/
def Producer : Connection.Op → Prop
  | .enqueue _ _ | .enqueueMultiple _ | .setActive _ | .setNotify _ => True
  | _ => False

/-- The history consists of producer calls and reader calls. -/
def Normal : Op → Prop
  | .conn op => Producer op
  | _ => True

def IsFault (o : Out) : Prop := ∃ e, o.ret = .fault e

/-- The connection calls in a history. -/
def connOps (ops : List Op) : List Connection.Op :=
  ops.filterMap fun o => match o with
    | .conn op => some op
    | _ => none

end Verif.Reader
