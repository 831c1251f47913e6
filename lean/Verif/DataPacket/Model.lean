import Verif.Common

/-!
# Model of data packets: implicit data rules, post scaling, reference domain offset, reuse

Source: `/repo/core/opendaq/signal/include/opendaq/data_rule_calc.h` (cited as `rule`),
`…/data_packet_impl.h` (cited as `pkt`), `…/scaling_calc.h` (cited as `scal`),
`…/reference_domain_offset_adder.h` (cited as `ref`),
`/repo/core/opendaq/signal/src/data_descriptor_impl.cpp` (cited as `dsc`).

Simplifications: samples are scalars of an arbitrary type `V`; the arithmetic of the sample type is a
parameter (`Arith`), so that the statements hold for integers with wrap-around and for floating point
alike; memory holding raw samples is an arbitrary function from sample index to value together with the
number of bytes allocated; a packet offset is an integer (unassigned: 0). Struct samples, dimensions,
domain packets, packet ids and allocation failure are left out.
-/

namespace Verif.DataPacket

/-- Arithmetic of a C++ sample type: `+`, `*`, `static_cast<T>(SizeT)`, `static_cast<T>(packetOffset)`. -/
structure Arith (V : Type) where
  add : V → V → V
  mul : V → V → V
  ofIndex : Nat → V
  ofOffset : Int → V

/-- Writing `f i, f (i+1), …, f (n-1)` to positions `i, …, n-1` of an array; `none`: a write outside of the
array. `k` is the number of writes left. -/
def fill {V : Type} (f : Nat → V) : (k i : Nat) → List V → Option (List V)
  | 0, _, out => some out
  | k + 1, i, out => if i < out.length then fill f k (i + 1) (out.set i (f i)) else none

/-! ### Linear rule -/

/-- `calculateLinearSample` (rule:347-355). -/
def linearSample {V : Type} (A : Arith V) (delta start : V) (offset : Int) (i : Nat) : V :=
  let off := A.add (A.ofOffset offset) start
  A.add (A.mul delta (A.ofIndex i)) off

/-- `calculateLinearRule` (rule:269-277) into the array `out`. -/
def linearRule {V : Type} (A : Arith V) (delta start : V) (offset : Int) (n : Nat) (out : List V) :
    Option (List V) :=
  let off := A.add (A.ofOffset offset) start
  fill (fun i => A.add (A.mul delta (A.ofIndex i)) off) n 0 out

/-- A `RangeInt64` sample (`range_type.h`): start and end, 64 bit each. -/
structure RangeV where
  start : BitVec 64
  stop : BitVec 64
  deriving DecidableEq, Repr

/-- `RangeType64(start)` (`range_type.h`): the end is `-1`. -/
def RangeV.of (offset : Int) : RangeV := ⟨BitVec.ofInt 64 offset, -1⟩

/-- `calculateLinearSample` for ranges (rule:338-345). -/
def rangeSample (delta start : RangeV) (offset : Int) (i : Nat) : RangeV :=
  { RangeV.of offset with start := delta.start * BitVec.ofNat 64 i + (start.start + BitVec.ofInt 64 offset) }

/-- `calculateLinearRule` for ranges (rule:257-267). -/
def rangeRule (delta start : RangeV) (offset : Int) (n : Nat) (out : List RangeV) : Option (List RangeV) :=
  fill (fun i =>
    let r := RangeV.of offset
    { r with start := r.start + (BitVec.ofNat 64 i * delta.start + start.start) }) n 0 out

/-! ### Constant rule

The raw data of a constant rule packet is a first value followed by pairs of a 32 bit sample position and a
value. `ec` is the number of pairs according to the raw data size, `es` the pairs in memory. -/

/-- Result of a calculation that may throw or access memory outside its block. -/
inductive Calc (α : Type) where
  | ok (a : α)
  | throws
  | oob
  deriving DecidableEq, Repr

/-- `entryCount` (rule:285-286). -/
def entryCount (inputSize size : Nat) : Nat := (inputSize - size) / (size + 4)

/-- The loop of `calculateConstantRule` (rule:294-313): `i` is `sampleIndex`, `c` the current constant. -/
def constLoop {V : Type} (n : Nat) : (ec : Nat) → List (Nat × V) → (i : Nat) → (c : V) → List V → Calc (List V)
  | 0, _, i, c, out =>
    if i < n then
      match fill (fun _ => c) (n - i) i out with
      | some out' => .ok out'
      | none => .oob
    else .ok out
  | _ + 1, [], i, _, out => if i < n then .oob else .ok out
  | ec + 1, (u, v) :: es, i, c, out =>
    if i < n then
      match fill (fun _ => c) (u - i) i out with
      | some out' => constLoop n ec es (max i u) v out'
      | none => .oob
    else .ok out

/-- `calculateConstantRule` (rule:279-314). -/
def constRule {V : Type} (size inputSize n : Nat) (c : V) (es : List (Nat × V)) (out : List V) : Calc (List V) :=
  if inputSize < size then .throws else constLoop n (entryCount inputSize size) es 0 c out

/-- The loop of `calculateConstantSample` (rule:372-394): `cur` is `currentSampleIndex`. -/
def constSampleLoop {V : Type} (idx : Nat) : (ec : Nat) → List (Nat × V) → (cur : Nat) → (c : V) → Calc V
  | 0, _, _, c => .ok c
  | _ + 1, [], cur, c => if cur ≤ idx then .oob else .ok c
  | ec + 1, (u, v) :: es, cur, c =>
    if cur ≤ idx then
      if u ≥ idx then .ok c else constSampleLoop idx ec es u v
    else .ok c

/-- `calculateConstantSample` (rule:357-397). -/
def constSample {V : Type} (size inputSize idx : Nat) (c : V) (es : List (Nat × V)) : Calc V :=
  if inputSize < size then .throws else constSampleLoop idx (entryCount inputSize size) es 0 c

/-- The backwards walk of `calculateLastConstantSample` (rule:427-438) over the pairs in reverse order. -/
def constLastLoop {V : Type} (n : Nat) (c : V) : List (Nat × V) → V
  | [] => c
  | (u, v) :: es => if n - 1 > u then v else constLastLoop n c es

/-- `calculateLastConstantSample` (rule:405-442). -/
def constLast {V : Type} (size inputSize n : Nat) (c : V) (es : List (Nat × V)) : Calc V :=
  if inputSize < size then .throws
  else if entryCount inputSize size > es.length then .oob
  else .ok (constLastLoop n c (es.take (entryCount inputSize size)).reverse)

/-! ### Descriptors -/

/-- Data rules. -/
inductive Rule (V : Type) where
  | explicit
  | linear (delta start : V)
  | constant
  | other
  deriving DecidableEq, Repr

/-- Sample types as far as they matter: integers, floats, and the rest (ranges and beyond). -/
inductive Kind where
  | int
  | float
  | rest
  deriving DecidableEq, Repr

/-- Data descriptor: rule, post scaling (the function applied to a raw sample, scal:105-114), reference
domain offset (outer `none`: no reference domain info or no offset in it), size of a sample and of a raw
sample type in bytes. -/
structure Descr (V : Type) where
  rule : Rule V
  scaling : Option (V → V)
  refOffset : Option Int
  kind : Kind
  sampleSize : Nat
  rawTypeSize : Nat

def Rule.isExplicit {V : Type} : Rule V → Bool
  | .explicit => true
  | _ => false

def Rule.isConstant {V : Type} : Rule V → Bool
  | .constant => true
  | _ => false

/-- `rawSampleSize` (dsc:188-199). -/
def Descr.rawSampleSize {V : Type} (d : Descr V) : Nat :=
  if d.rule.isExplicit then (if d.scaling.isSome then d.rawTypeSize else d.sampleSize) else 0

/-- `validate` (dsc:239-280) as far as it concerns the modelled fields. -/
def Descr.validate {V : Type} (d : Descr V) : Bool :=
  !(d.scaling.isSome && !d.rule.isExplicit) &&
  !(match d.refOffset with | some o => o != 0 && d.kind == .rest | none => false) &&
  !(d.rule.isConstant && d.refOffset.isSome) &&
  !(d.scaling.isSome && d.refOffset.isSome) &&
  decide (0 < d.sampleSize) && decide (0 < d.rawTypeSize)

/-- `hasDataRuleCalc` (dsc:411-426). -/
def Descr.hasRule {V : Type} (d : Descr V) : Bool :=
  match d.rule with
  | .linear _ _ => true
  | .constant => true
  | _ => false

/-- `hasReferenceDomainOffset` (pkt:366-367). -/
def Descr.hasRef {V : Type} (d : Descr V) : Bool :=
  match d.refOffset with
  | some o => o != 0
  | none => false

/-- `hasRawDataOnly` (pkt:369). -/
def Descr.rawOnly {V : Type} (d : Descr V) : Bool := !d.scaling.isSome && !d.hasRule && !d.hasRef

/-! ### Packets -/

/-- Memory behind the raw data pointer: null, samples, or the values of a constant rule. -/
inductive Raw (V : Type) where
  | null
  | cells (f : Nat → V)
  | const (c : V) (es : List (Nat × V))

def U32 : Nat := 4294967296

/-- `DataPacketImpl` fields (pkt:322-347). `room` is the real number of bytes behind `data`; `memorySize`
is `none` where the constructor leaves it uninitialised. -/
structure Pkt (V : Type) where
  descr : Descr V
  offset : Int
  count : Nat
  dataSize : Nat
  rawDataSize : Nat
  memorySize : Option Nat
  external : Bool
  room : Nat
  data : Raw V
  scaled : List V
  capacity : Nat
  valid : Bool

/-- Constructor allocating memory (pkt:372-408): all sizes are 32 bit. `f` is whatever the memory
contains. -/
def Pkt.create {V : Type} (d : Descr V) (count : Nat) (offset : Int) (f : Nat → V) : Pkt V :=
  let n := count % U32
  let raw := (n * d.rawSampleSize) % U32
  ⟨d, offset, n, (n * d.sampleSize) % U32, raw, some raw, false, raw,
    if raw > 0 then .cells f else .null, [], 0, false⟩

/-- Constructor for external memory (pkt:410-449); `bufferSize = none` is the default argument, `room` the
real size of the memory handed over. -/
def Pkt.createExternal {V : Type} (d : Descr V) (count : Nat) (offset : Int) (data : Raw V) (room : Nat)
    (bufferSize : Option Nat) : Pkt V :=
  let n := count % U32
  let raw := match bufferSize with | none => (n * d.rawSampleSize) % U32 | some b => b % U32
  ⟨d, offset, n, (n * d.sampleSize) % U32, raw, some raw, true, room, data, [], 0, false⟩

/-- Constructor of constant rule packets (pkt:490-531); `none` if it throws. -/
def Pkt.createConstant {V : Type} (d : Descr V) (count : Nat) (c : V) (es : List (Nat × V)) : Option (Pkt V) :=
  if !d.rule.isConstant || d.scaling.isSome then none
  else
    let n := count % U32
    let raw := (d.sampleSize + (d.sampleSize + 4) * es.length) % U32
    some ⟨d, 0, n, (n * d.sampleSize) % U32, raw, none, false, d.sampleSize + (d.sampleSize + 4) * es.length,
      .const c es, [], 0, false⟩

/-- What a read returns: the values, a null pointer, an error, an access outside allocated memory, or a
value nobody wrote. -/
inductive Read (V : Type) where
  | samples (l : List V)
  | value (v : V)
  | null
  | throws
  | outOfRange
  | oob
  | garbage
  deriving DecidableEq, Repr

/-- Number of raw samples that fit the memory. -/
def Pkt.rawRoom {V : Type} (p : Pkt V) : Nat := p.room / p.descr.rawSampleSize

/-- `addReferenceDomainOffset` (ref:49-54, 67-104) on an array; throws for other than integer types. -/
def addRef {V : Type} (A : Arith V) (k : Kind) (o : Int) (l : List V) : Calc (List V) :=
  if k = .int then .ok (l.map fun v => A.add v (A.ofOffset o)) else .throws

/-- The computation inside `getData` (pkt:617-637) for a buffer of `cap` bytes. -/
def Pkt.compute {V : Type} (A : Arith V) (p : Pkt V) (junk : V) (cap : Nat) : Calc (List V) :=
  let out := List.replicate (cap / p.descr.sampleSize) junk
  let r : Calc (List V) :=
    match p.descr.scaling with
    | some s =>
      match p.data with
      | .cells f =>
        if p.count ≤ p.rawRoom then
          match fill (fun i => s (f i)) p.count 0 out with
          | some o => .ok o
          | none => .oob
        else .oob
      | _ => .oob
    | none =>
      match p.descr.rule with
      | .linear delta start =>
        match linearRule A delta start p.offset p.count out with
        | some o => .ok o
        | none => .oob
      | .constant =>
        match p.data with
        | .const c es => constRule p.descr.sampleSize p.rawDataSize p.count c es out
        | _ => if p.rawDataSize < p.descr.sampleSize then .throws else .oob
      | _ =>
        match p.data with
        | .cells f =>
          if p.dataSize ≤ p.room then
            match fill f (p.dataSize / p.descr.sampleSize) 0 out with
            | some o => .ok o
            | none => .oob
          else .oob
        | _ => .oob
  match r with
  | .ok o =>
    if p.descr.hasRef then
      if p.count ≤ o.length then
        match addRef A p.descr.kind (p.descr.refOffset.getD 0) (o.take p.count) with
        | .ok o' => .ok (o' ++ o.drop p.count)
        | .throws => .throws
        | .oob => .oob
      else .oob
    else .ok o
  | e => e

/-- `getData` (pkt:575-645); the caller then reads `count` samples through the pointer. -/
def Pkt.getData {V : Type} (A : Arith V) (p : Pkt V) (junk : V) : Pkt V × Read V :=
  if p.descr.rawOnly then
    match p.data with
    | .null => (p, .null)
    | .cells f => if p.count ≤ p.rawRoom then (p, .samples ((List.range p.count).map f)) else (p, .oob)
    | .const _ _ => (p, .garbage)
  else if p.valid then
    if p.count ≤ p.scaled.length then (p, .samples (p.scaled.take p.count)) else (p, .oob)
  else if p.count = 0 ∨ p.dataSize = 0 then (p, .null)
  else
    let cap := if p.capacity < p.dataSize then p.dataSize else p.capacity
    let p1 := { p with capacity := cap }
    match p1.compute A junk cap with
    | .throws => (p1, .throws)
    | .oob => (p1, .oob)
    | .ok o =>
      let p2 := { p1 with scaled := o, valid := true }
      if p.count ≤ o.length then (p2, .samples (o.take p.count)) else (p2, .oob)

/-- `getRawValueByIndex` (pkt:726-759). -/
def Pkt.rawValue {V : Type} (A : Arith V) (p : Pkt V) (idx : Nat) : Read V :=
  if idx ≥ p.count then .outOfRange
  else if p.descr.rawOnly then
    match p.data with
    | .cells f => if idx < p.rawRoom then .value (f idx) else .oob
    | _ => .oob
  else if p.descr.scaling.isSome then
    match p.data with
    | .cells f => if idx < p.rawRoom then .value (f idx) else .oob
    | _ => .oob
  else
    match p.descr.rule with
    | .linear delta start => .value (linearSample A delta start p.offset idx)
    | .constant =>
      match p.data with
      | .const c es =>
        match (if idx = p.count - 1 then constLast p.descr.sampleSize p.rawDataSize p.count c es
          else constSample p.descr.sampleSize p.rawDataSize idx c es) with
        | .ok v => .value v
        | .throws => .throws
        | .oob => .oob
      | _ => if p.rawDataSize < p.descr.sampleSize then .throws else .oob
    | _ => .garbage

/-- `buildObjectFromDescriptor` (pkt:203-248) on a raw value. -/
def Descr.build {V : Type} (A : Arith V) (d : Descr V) (v : V) : Read V :=
  let v1 := match d.scaling with | some s => s v | none => v
  match d.refOffset with
  | none => .value v1
  | some o => if d.kind = .int then .value (A.add v1 (A.ofOffset o)) else .throws

/-- `getValueByIndex` (pkt:767-785). -/
def Pkt.valueByIndex {V : Type} (A : Arith V) (p : Pkt V) (idx : Nat) : Read V :=
  match p.rawValue A idx with
  | .value v => p.descr.build A v
  | r => r

/-- `getLastValue` (pkt:761-765): the index is computed in 32 bits. -/
def Pkt.lastValue {V : Type} (A : Arith V) (p : Pkt V) : Read V :=
  p.valueByIndex A ((p.count + U32 - 1) % U32)

/-- Outcome of `reuse`. `ub`: an uninitialised member was read. -/
inductive Reuse where
  | success
  | ignored
  | ub
  deriving DecidableEq, Repr

/-- `reuse` (pkt:787-855). `f` is whatever the memory contains afterwards; `newCount = none` and
`newDescr = none` keep the old ones. -/
def Pkt.reuse {V : Type} (p : Pkt V) (newDescr : Option (Descr V)) (newCount : Option Nat)
    (newOffset : Option Int) (canRealloc : Bool) (f : Nat → V) : Pkt V × Reuse :=
  let d := newDescr.getD p.descr
  let n := newCount.getD p.count
  let need := n * d.rawSampleSize
  match p.memorySize with
  | none => (p, .ub)
  | some mem =>
    if need > mem ∧ (!canRealloc ∨ p.external) then (p, .ignored)
    else
      let p1 := if need > mem then
          { p with memorySize := some (need % U32), room := need, data := .cells f, scaled := [], capacity := 0 }
        else { p with data := match p.data with | .null => .null | _ => .cells f }
      ({ p1 with
          descr := d, offset := newOffset.getD p.offset, count := n % U32,
          dataSize := (n % U32 * d.sampleSize) % U32, rawDataSize := need % U32, valid := false },
        .success)

/-- Writing raw samples through the pointer of `getRawData`. -/
def Pkt.write {V : Type} (p : Pkt V) (f : Nat → V) : Pkt V :=
  match p.data with
  | .cells _ => { p with data := .cells f }
  | _ => p

end Verif.DataPacket
