import Verif.Common
import Verif.Reader.StreamSpec
import Verif.Reader.BlockModel

/-! # Specification vocabulary for the block reader -/

namespace Verif.Reader.Block

open Connection (Packet EventKind DomPacket DomDesc W)

abbrev Trace := List (Op × Out)

def exec (cfg : Cfg) (typed : Bool) (ops : List Op) : B × Trace := runTrace (step cfg) (init typed) ops

/-- The packet ends a read: an event, unless events are skipped and it is neither a gap nor a descriptor that
cannot be converted. -/
def ends (cfg : Cfg) : Packet → Bool
  | .event _ (.gap _) => true
  | .event _ (.descChanged v d) =>
    !cfg.skipEvents || (match v with | some (some x) => cfg.badValue x | _ => false) ||
      (match d with | some (some x) => cfg.badDomain x | _ => false)
  | .event _ (.other _) => !cfg.skipEvents
  | _ => false

/-- The samples before the next event that ends a read. -/
def segment (cfg : Cfg) : List Packet → List Tok
  | [] => []
  | .data id n _ :: ps => (List.range n).map (fun i => (id, i)) ++ segment cfg ps
  | q :: ps => if ends cfg q then [] else segment cfg ps

/-- The packets behind the next event that ends a read. -/
def afterEnd (cfg : Cfg) : List Packet → List Packet
  | [] => []
  | q :: ps => if ends cfg q then ps else afterEnd cfg ps

/-- The next event that ends a read. -/
def firstEnd (cfg : Cfg) : List Packet → Option (Nat × EventKind)
  | [] => none
  | .event i k :: ps => if ends cfg (.event i k) then some (i, k) else firstEnd cfg ps
  | _ :: ps => firstEnd cfg ps

/-- The packets received since the event returned last, and the blocks returned since. -/
def progress (cfg : Cfg) : Trace → List Packet × Nat
  | t => t.foldl (fun w x => match x with
      | (.receive ps, _) => (w.1 ++ ps, w.2)
      | (.read _ _, o) => if o.event.isSome then (afterEnd cfg w.1, 0) else (w.1, w.2 + o.count)) ([], 0)

/-- Block `k` of a run of samples: `block` samples from `k * step` on, where `step` is the block size less
the overlap. -/
def blockAt (cfg : Cfg) (l : List Tok) (k : Nat) : List Tok :=
  (l.drop (k * (cfg.block - cfg.block * cfg.overlap / 100))).take cfg.block

/-- `c` blocks from block `k` on. -/
def blocks (cfg : Cfg) (l : List Tok) (k c : Nat) : List Tok := (List.range c).flatMap fun j => blockAt cfg l (k + j)

def received (ops : List Op) : List Packet := ops.flatMap fun
  | .receive ps => ps
  | .read _ _ => []

/-- The first packet other than an empty one is an event announcing a value descriptor. -/
def startsTyped : List Packet → Bool
  | [] => true
  | .none _ :: ps => startsTyped ps
  | .event i k :: _ => announces (.event i k)
  | .data _ _ _ :: _ => false

/-- The packet sizes the reader can cope with: no empty packet; when blocks overlap, by at most half, and all
packets are of the same size. -/
def GoodSizes (cfg : Cfg) (ps : List Packet) : Prop :=
  (∀ i n d, Packet.data i n d ∈ ps → 1 ≤ n ∧ n < W) ∧
  (cfg.block * cfg.overlap / 100 = 0 ∨
    (2 * (cfg.block * cfg.overlap / 100) ≤ cfg.block ∧ ∃ z, ∀ i n d, Packet.data i n d ∈ ps → n = z))

/-- In this state it is safe to ask for `n` blocks: that many are available, or an event that ends the read is
queued. -/
def Polite (cfg : Cfg) (s : B) (n : Nat) : Prop :=
  n ≤ getAvailableCount cfg s ∨ ∃ q ∈ s.conn, ends cfg q = true

/-- Every read of the history asks only for what is available, passes buffers of less than 2^64 samples, and
does not read the domain of packets without one. -/
def AllPolite (cfg : Cfg) (typed : Bool) (ops : List Op) : Prop :=
  ∀ pre m n post, ops = pre ++ Op.read m n :: post →
    Polite cfg (exec cfg typed pre).1 n ∧ n * cfg.block + cfg.block < W ∧
    (m = .withDomain → ∀ i k, Packet.data i k none ∉ received ops)

end Verif.Reader.Block
