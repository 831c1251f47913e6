import Verif.Multi.Model

/-! # What the multi reader should do

Written with lists of samples and with exact times; none of the functions of the model is used. -/

namespace Verif.Multi.Spec

/-- The samples of a packet with their ticks. -/
def samples (p : DP) : List (Tok × Int) := (List.range p.n).map fun i => ((p.id, i), p.first + p.delta * i)

/-- The data packets before the first event. -/
def front : List Pkt → List DP
  | .data p :: q => p :: front q
  | _ => []

/-- The samples of a signal that can be read before the next event: the rest of the packet being read, and the packets before the
event. -/
def pending (s : Sig) : List (Tok × Int) :=
  (match s.cur with
    | some p => (samples p).drop s.prev
    | none => []) ++ (front s.queue).flatMap samples

def toks (l : List (Tok × Int)) : List Tok := l.map (·.1)

/-- The time of a tick in seconds: the origin is given in nanoseconds. -/
def time (num den epoch t : Int) : Rat := (epoch : Rat) / 1000000000 + (t : Rat) * num / den

/-- The samples follow each other at the distance `delta`. -/
def Regular (delta : Int) : List (Tok × Int) → Prop
  | a :: b :: l => b.2 = a.2 + delta ∧ Regular delta (b :: l)
  | _ => True

/-- What is left of the samples from a time on. -/
def fromTime (f : Int → Rat) (T : Rat) (l : List (Tok × Int)) : List (Tok × Int) := l.dropWhile fun x => f x.2 < T

/-- A signal is being read: the position is within the packet. -/
def Within (s : Sig) : Prop := match s.cur with
  | some p => s.prev ≤ p.n
  | none => s.prev = 0

/-- The calls considered when data flows: data packets arrive and samples are read or skipped. -/
def Flow : Op → Prop
  | .push _ (.data _) => True
  | .push _ (.event _) => False
  | .read _ _ null => null = false
  | _ => True

/-- The samples of the packets a signal is given. -/
def given (i : Nat) : List Op → List (Tok × Int)
  | .push j (.data p) :: ops => (if i = j then samples p else []) ++ given i ops
  | _ :: ops => given i ops
  | [] => []

/-- The number of common samples each reading call reports. -/
def counts : List Res → List Nat
  | .read n _ _ _ :: l => n :: counts l
  | _ :: l => counts l
  | [] => []

/-- What was delivered for a signal, in order. -/
def delivered (i : Nat) : List Res → List Tok
  | .read _ _ w _ :: l => w.getD i [] ++ delivered i l
  | _ :: l => delivered i l
  | [] => []

/-- The finest resolution `num / den` and the earliest origin `epoch` of the signals, when every resolution is a whole multiple of
the finest one and every origin a whole number of its ticks after the earliest. -/
structure Common (sigs : List Sig) (num den epoch : Int) : Prop where
  num_pos : 0 < num
  den_pos : 0 < den
  finest : ∃ s ∈ sigs, ∃ d, s.dom = some d ∧ d.num * den = num * d.den
  earliest : ∃ s ∈ sigs, ∃ d, s.dom = some d ∧ d.epoch = epoch
  each : ∀ s ∈ sigs, ∀ d, s.dom = some d → 0 < d.num ∧ 0 < d.den ∧ epoch ≤ d.epoch ∧
    (∃ k : Int, d.num * den = k * (d.den * num)) ∧ ∃ k : Int, (d.epoch - epoch) * den = k * (1000000000 * num)

/-- The samples of a signal from the packet being read on, those before the position included. -/
def packets (p : DP) (q : List Pkt) : List (Tok × Int) := samples p ++ (front q).flatMap samples

/-- A tick of a signal is below 2^53 when counted in ticks of the finest resolution. -/
def Small (num den : Int) (d : Dom) (t : Int) : Prop := (t * (d.num * den)).natAbs < 2 ^ 53 * (d.den * num).natAbs

/-- A signal that has samples and is to deliver samples at the distance `delta`, the next with the tick `next`. -/
structure Steady (num den : Int) (s : Sig) (more : List (Tok × Int)) (p : DP) (d : Dom) (delta : Int) : Prop where
  cur : s.cur = some p
  within : s.prev < p.n
  dom : s.dom = some d
  div : 0 < s.div
  valid : s.invalid = false
  data : ∀ x ∈ s.queue, ∃ p, x = .data p
  pos : 0 < delta
  deltas : ∀ x ∈ p :: front s.queue, x.delta = delta
  regular : Regular delta (packets p s.queue ++ more)
  dist_small : Small num den d delta
  first_small : Small num den d (p.first - delta)
  small : ∀ x ∈ packets p s.queue ++ more, Small num den d x.2

/-- The length, in seconds, of the raster on which reading starts: a second, or the distance after which all signals have a sample
again. -/
def raster (cfg : Cfg) (m : MR) : Rat := if cfg.fullUnit then 1 else (m.lcm : Rat) / m.common

/-- A reader of signals of which each has samples, and which is not synchronised: it never was, or it has ended, and the start at
that time, taken in the resolution and from the origin that are common now, is not after all the next samples. -/
structure Ready (cfg : Cfg) (m : MR) (ops : List Op) (num den epoch : Int) (P : Nat → DP) (Dm : Nat → Dom) (δ : Nat → Int) :
    Prop where
  nonempty : m.sigs ≠ []
  valid : m.invalid = false
  quiet : m.nextEvent = false
  start : ∀ t, m.start = some t → ∃ (i : Nat) (s : Sig), m.sigs[i]? = some s ∧
    time num den epoch t ≤ time (Dm i).num (Dm i).den (Dm i).epoch ((P i).first + (P i).delta * s.prev)
  unsync : ∃ s ∈ m.sigs, s.sync = .unsync
  lcm_pos : 0 < m.lcm
  common_pos : 0 < m.common
  common : Common m.sigs num den epoch
  whole : ∃ k : Int, raster cfg m = k * num / den
  sigs : ∀ (i : Nat) (s : Sig), m.sigs[i]? = some s → Steady num den s (given i ops) (P i) (Dm i) (δ i)
  deltas : ∀ (i : Nat) (p : DP), .push i (.data p) ∈ ops → i < m.sigs.length → p.delta = δ i

/-- The time of the next sample of a signal. -/
def next (s : Sig) (p : DP) (d : Dom) : Rat := time d.num d.den d.epoch (p.first + p.delta * s.prev)

/-- A synchronised reader: data is waiting for every signal, no event, and positions are within the packets. -/
structure Synchronised (m : MR) : Prop where
  nonempty : m.sigs ≠ []
  valid : m.invalid = false
  quiet : m.nextEvent = false
  lcm_pos : 0 < m.lcm
  within : ∀ s ∈ m.sigs, Within s
  data : ∀ s ∈ m.sigs, ∀ x ∈ s.queue, ∃ p, x = .data p
  div : ∀ s ∈ m.sigs, 0 < s.div
  synced : ∀ s ∈ m.sigs, s.sync = .synced
  sound : ∀ s ∈ m.sigs, s.invalid = false

/-- The samples all signals have, counted in samples of the common rate; 2^64 - 1 is the largest number. -/
def inCommon (sigs : List Sig) : Nat := (sigs.map fun s => (pending s).length * s.div).foldl min (2 ^ 64 - 1)

/-- A signal of a new reader: its descriptor, its rate and its first packet. -/
structure Input where
  desc : DomDesc
  rate : Nat
  first : DP

/-- The rate is a whole number, and the first packet has samples. -/
structure InputOk (x : Input) : Prop where
  ok : x.desc.ok = true
  num_pos : 0 < x.desc.num
  delta_pos : 0 < x.desc.delta
  rate_pos : 0 < x.rate
  rate_eq : x.desc.den = x.rate * (x.desc.num * x.desc.delta)
  some_samples : 0 < x.first.n
  same_delta : x.first.delta = x.desc.delta

/-- The domain a descriptor gives. -/
def domain (x : Input) : Dom := { num := x.desc.num, den := x.desc.den, epoch := x.desc.epoch }

/-- The signals of a new reader and what is done with it: resolutions are whole multiples of the finest, origins whole numbers of
its ticks after the earliest; the required rate is a multiple of all rates, or there is none and different rates are allowed or
do not occur; the samples of each signal follow each other at equal distances. -/
structure Inputs (cfg : Cfg) (L : List Input) (ops : List Op) (num den epoch : Int) : Prop where
  nonempty : L ≠ []
  each : ∀ x ∈ L, InputOk x
  required : 0 < cfg.required → ∀ x ∈ L, x.rate ∣ cfg.required
  rates : cfg.required = 0 → cfg.allowDiff = true ∨ ∀ x ∈ L, ∀ y ∈ L, x.rate = y.rate
  num_pos : 0 < num
  den_pos : 0 < den
  finest : ∃ x ∈ L, x.desc.num * den = num * x.desc.den
  earliest : ∃ x ∈ L, x.desc.epoch = epoch
  whole : ∀ x ∈ L, epoch ≤ x.desc.epoch ∧ (∃ k : Int, x.desc.num * den = k * (x.desc.den * num)) ∧
    ∃ k : Int, (x.desc.epoch - epoch) * den = k * (1000000000 * num)
  regular : ∀ (i : Nat) (x : Input), L[i]? = some x → Regular x.desc.delta (samples x.first ++ given i ops) ∧
    Small num den (domain x) x.desc.delta ∧ Small num den (domain x) (x.first.first - x.desc.delta) ∧
    ∀ y ∈ samples x.first ++ given i ops, Small num den (domain x) y.2
  deltas : ∀ (i : Nat) (x : Input) (p : DP), L[i]? = some x → .push i (.data p) ∈ ops → p.delta = x.desc.delta

def firstOf (L : List Input) (i : Nat) : DP := match L[i]? with
  | some x => x.first
  | none => ⟨0, 0, 0, 0⟩

def domainOf (L : List Input) (i : Nat) : Dom := match L[i]? with
  | some x => domain x
  | none => { num := 1, den := 1, epoch := 0 }

def deltaOf (L : List Input) (i : Nat) : Int := match L[i]? with
  | some x => x.desc.delta
  | none => 1

/-- Packets for the signals from the `k`-th on. -/
def pushes : Nat → List Pkt → List Op
  | _, [] => []
  | k, p :: ps => .push k p :: pushes (k + 1) ps

/-- The descriptors of all signals, then a call that takes them. -/
def setup (L : List Input) : List Op := pushes 0 (L.map fun x => .event (.desc (some true) (some x.desc))) ++ [.read false 0 false]

/-- The first packets of all signals. -/
def firstPackets (L : List Input) : List Op := pushes 0 (L.map fun x => .data x.first)

/-- A time after which all signals have a sample again. -/
def Period (L : List Input) (R : Rat) : Prop := 0 < R ∧ ∀ x ∈ L, ∃ k : Int, R * x.rate = k

/-! Events -/

/-- The events at the front of a queue. -/
def leading : List Pkt → List Ev
  | .event e :: q => e :: leading q
  | _ => []

/-- The descriptors an event carries. -/
def valOf : Ev → Option Bool
  | .desc v _ => v
  | _ => none

def domOf : Ev → Option DomDesc
  | .desc _ d => d
  | _ => none

/-- The last one given. -/
def lastGiven {α : Type} : List (Option α) → Option α
  | [] => none
  | a :: l => match lastGiven l with
    | some x => some x
    | none => a

/-- What the events at the front of a queue come to: the last value descriptor and the last domain descriptor before the first gap,
or the gap when there are none before it. -/
def news (q : List Pkt) : Option Ev :=
  let l := (leading q).takeWhile (· != .gap)
  let v := lastGiven (l.map valOf)
  let d := lastGiven (l.map domOf)
  if v.isSome || d.isSome then some (.desc v d) else if .gap ∈ leading q then some .gap else none

/-- What a signal has to report before more samples are read. -/
def report (s : Sig) : Option Ev := match s.cur with
  | some _ => none
  | none => news s.queue

/-- The rate of a domain: a whole number of samples per unit. -/
def HasRate (d : DomDesc) (r : Int) : Prop := d.num * d.delta ≠ 0 ∧ d.den = r * (d.num * d.delta)

/-- New descriptors with which a signal cannot be read: one that cannot be converted, a domain with no rate, or another rate
than before (-1: none so far). -/
def Unusable (rate : Int) : Ev → Prop
  | .desc v d => v = some false ∨ ∃ x, d = some x ∧ (x.ok = false ∨ (∀ r, ¬ HasRate x r) ∨ rate ≠ -1 ∧ ¬ HasRate x rate)
  | _ => False

/-- The rate of a signal after what it has to report. -/
def RateAfter (s : Sig) (r : Int) : Prop := match (report s).bind domOf with
  | some x => HasRate x r ∧ (s.rate = -1 ∨ s.rate = r)
  | none => s.rate = r

/-- A call that reads samples, or none to take events, with buffers for them. -/
structure Reads (cfg : Cfg) (m : MR) (domain : Bool) (count : Nat) (null : Bool) : Prop where
  count : count ≠ 0 → null = false ∧ cfg.minRead ≤ count
  valid : m.invalid = false
  quiet : m.nextEvent = false
  lcm : m.lcm ≠ 0
  buffers : domain = true → null = false

end Verif.Multi.Spec
