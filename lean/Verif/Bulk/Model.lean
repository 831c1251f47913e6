/-!
# Packets that share one block of memory

Model of `daqBulkCreateDataPackets`: where the objects and the samples are put, and how the block is given back.

* `bulk` = `core/opendaq/signal/src/bulk_data_packet.cpp`
* `gpkt` = `core/opendaq/signal/include/opendaq/generic_data_packet_impl.h`
* `dpkt` = `core/opendaq/signal/include/opendaq/data_packet_impl.h`
* `pkt` = `core/opendaq/signal/include/opendaq/packet_impl.h`
* `intfs` = `core/coretypes/include/coretypes/intfs.h`

Simplifications. Addresses are relative to the address `malloc` returned; the sizes of the C++ classes are parameters;
`malloc` does not fail and the constructors do not throw. In the second part reference counters are unbounded, the
atomic steps are sequentially consistent, and `dispose` and `reuse` are not called on the packets.
-/

namespace Verif.Bulk

/-! ## Layout -/

/-- Arithmetic of `size_t`. -/
def wrap (n : Nat) : Nat := n % 18446744073709551616

/-- `alignTo` (bulk:82-85). -/
def alignTo (value align : Nat) : Nat := wrap (wrap (wrap (value + align) + (18446744073709551616 - 1)) / align * align)

/-- The type of a data rule. -/
inductive Rule where
  | other
  | linear
  | constant
  | explicit
  deriving DecidableEq, Repr

/-- One value packet with its domain packet: `sampleCounts[i]`, the raw sample size of `valueDescriptors[i]`, and the
rule, the raw sample size and the type of `domainDescriptors[i]` (is it `Int64`?). -/
structure Item where
  samples : Nat
  rawSize : Nat
  domRule : Rule
  domRaw : Nat
  domInt64 : Bool
  deriving DecidableEq, Repr

/-- The parameters: sizes of the objects, the rule of the first domain descriptor (bulk:102), whether offsets are given,
and `dataAlign`. -/
structure Cfg where
  intSize : Nat
  pktSize : Nat
  rule : Rule
  offsets : Bool
  align : Nat
  deriving DecidableEq, Repr

/-- The block before the samples (bulk:122-126): `sizeof(std::atomic<int>)` is 4 and `sizeof(size_t)` is 8. -/
def headSize (c : Cfg) (count : Nat) : Nat :=
  alignTo (wrap (4 + 8 + 8 + wrap (((if c.offsets then c.intSize else 0) + c.pktSize * 2) * count))) c.align

/-- The bytes one packet needs for samples (bulk:130-140). -/
def dataSize (c : Cfg) (i : Item) : Nat :=
  let d := if c.rule = .explicit then alignTo (wrap (i.samples * 8)) c.align else 0
  alignTo (wrap (d + wrap (i.samples * i.rawSize))) c.align

/-- `memSize` (bulk:122-141). -/
def memSize (c : Cfg) (items : List Item) : Nat :=
  items.foldl (fun m i => wrap (m + dataSize c i)) (headSize c items.length)

/-- What is placed in the block. -/
inductive What where
  | header
  | offset
  | domain
  | value
  | domainData
  | valueData
  /-- a null pointer given as the samples of a domain packet -/
  | nullData
  deriving DecidableEq, Repr

/-- A piece of the block: what, for which packet, where and how many bytes are used. -/
structure Piece where
  what : What
  index : Nat
  pos : Nat
  size : Nat
  deriving DecidableEq, Repr

/-- Arithmetic of `uint32_t`, in which a packet keeps its sizes. -/
def wrap32 (n : Nat) : Nat := n % 4294967296

/-- The size of the samples of a domain packet as it sees it (dpkt:422, 437, 440-441). -/
def domBytes (i : Item) : Nat := wrap32 (wrap32 i.samples * wrap32 i.domRaw)

/-- The size of the samples of a value packet as it sees it (bulk:203, 212, dpkt:443). -/
def valBytes (i : Item) : Nat := wrap32 (wrap (i.rawSize * i.samples))

/-- The loop of the second part (bulk:156-221). `p` is `memPtr`, `d` is `dataPtr`. -/
def place (c : Cfg) (k p d : Nat) : List Item → List Piece
  | [] => []
  | i :: items =>
    let pd := if c.offsets then p + c.intSize else p
    let pv := pd + c.pktSize
    let dv := if c.rule = .explicit then d + alignTo (wrap (8 * i.samples)) c.align else d
    (if c.offsets then [⟨.offset, k, p, c.intSize⟩] else []) ++
    [⟨.domain, k, pd, c.pktSize⟩, ⟨.value, k, pv, c.pktSize⟩,
      if c.rule = .explicit then ⟨.domainData, k, d, domBytes i⟩ else ⟨.nullData, k, 0, domBytes i⟩,
      ⟨.valueData, k, dv, valBytes i⟩] ++
    place c (k + 1) (pv + c.pktSize) (dv + alignTo (wrap (i.rawSize * i.samples)) c.align) items

/-- Everything in the block: the counter, the count and the flag (bulk:146-152), then the packets. -/
def pieces (c : Cfg) (items : List Item) : List Piece :=
  ⟨.header, 0, 0, 20⟩ :: place c 0 20 (headSize c items.length) items

/-- The check that is done in debug builds only (bulk:104-120). -/
def debugCheck (c : Cfg) (items : List Item) : Bool :=
  items.all (fun i => i.domInt64 && i.domRule == c.rule) && (c.rule != .linear || c.offsets)

/-- `daqBulkCreateDataPackets` (bulk:87-224): refused, or the block. -/
def create (debug : Bool) (c : Cfg) (items : List Item) : Option (Nat × List Piece) :=
  if items.length < 1 ∨ c.align < 1 ∨ (debug = true ∧ debugCheck c items = false) then none
  else some (memSize c items, pieces c items)

/-! ## Giving the block back -/

/-- The next steps of a call in progress, the innermost first. -/
inductive Frame where
  /-- `releaseRef` of object `x`, before the counter is decremented (bulk:15-27) -/
  | rel (x : Nat)
  /-- the counter reached zero: `checkAndCallDispose` (bulk:21), which releases the referenced object (gpkt:36-39,
  dpkt:857-864) -/
  | disp (x : Nat)
  /-- `onDestruct()` of object `x`, before the counter of the block is decremented (bulk:23, 48-56) -/
  | drop (x : Nat)
  /-- the counter of the block reached zero: destroy all objects and free the block (bulk:58-79) -/
  | destroy
  /-- `getDomainPacket` or `getOffset` of `x`, before the pointer is read (gpkt:53-59) -/
  | ask (x : Nat)
  /-- the same, before the reference of `y` is counted -/
  | got (x y : Nat)
  deriving DecidableEq, Repr

/-- The block and its users. Objects are numbered in the order of memory: with offsets `3i` is an integer, `3i+1` the
domain packet and `3i+2` the value packet, without offsets `2i` is the domain packet and `2i+1` the value packet. -/
structure St where
  /-- the number of objects -/
  n : Nat
  /-- the reference counters -/
  count : Nat → Nat
  /-- the object referenced by an object, if any -/
  child : Nat → Option Nat
  /-- the counter of the block (bulk:147) -/
  blk : Int
  /-- the references the clients own -/
  held : Nat → Nat
  /-- calls in progress -/
  calls : List (List Frame)
  freed : Bool
  /-- the objects whose destructor ran, in order -/
  destroyed : List Nat
  /-- memory was used after it was freed, or a counter went below zero -/
  ub : Bool

/-- The objects per packet. -/
def per (offsets : Bool) : Nat := if offsets then 3 else 2

/-- The references between the objects: a value packet holds its domain packet (bulk:205-206), a domain packet its offset
(bulk:172-177, 187-191). -/
def child0 (offsets : Bool) (x : Nat) : Option Nat := if x % per offsets = 0 then none else some (x - 1)

/-- After creation of `count` packets (bulk:147-218): every object is referenced once, the value packets by the caller. -/
def St.init (offsets : Bool) (count : Nat) : St where
  n := per offsets * count
  count x := if x < per offsets * count then 1 else 0
  child x := if x < per offsets * count then child0 offsets x else none
  blk := (count * per offsets : Nat)
  held x := if x < per offsets * count ∧ x % per offsets = per offsets - 1 then 1 else 0
  calls := []
  freed := false
  destroyed := []
  ub := false

def upd {α : Type} (f : Nat → α) (x : Nat) (a : α) : Nat → α := fun y => if y = x then a else f y

/-- What clients and the scheduler can do. Clients use only references they own. -/
inductive Op where
  /-- `addRef` (intfs:481-484) -/
  | addRef (x : Nat)
  /-- call `releaseRef`, giving up a reference -/
  | release (x : Nat)
  /-- call `getDomainPacket` or `getOffset`; the reference of `x` is not used for anything else meanwhile -/
  | getChild (x : Nat)
  /-- the next step of a call in progress -/
  | step (i : Nat)
  deriving DecidableEq

/-- Use the memory of the block. -/
def St.touch (s : St) : St := { s with ub := s.ub || s.freed }

/-- Decrement a counter of an object. -/
def St.dec (s : St) (x : Nat) : St := { s with count := upd s.count x (s.count x - 1), ub := s.ub || s.count x == 0 }

/-- Replace call `i`; a finished call disappears. -/
def St.setCall (s : St) (i : Nat) (c : List Frame) : St :=
  { s with calls := if c = [] then s.calls.eraseIdx i else s.calls.set i c }

/-- One step of call `i`, whose next frame is `f` and whose other frames are `r`. -/
def St.advance (s : St) (i : Nat) (f : Frame) (r : List Frame) : St :=
  match f with
  | .rel x =>
    let s1 := s.touch.dec x
    if s1.count x = 0 then s1.setCall i (.disp x :: r) else s1.setCall i r
  | .disp x =>
    let s1 := s.touch
    match s.child x with
    | none => s1.setCall i (.drop x :: r)
    | some y => ({ s1 with child := upd s.child x none } : St).setCall i (.rel y :: .drop x :: r)
  | .drop _ =>
    let s1 := ({ s.touch with blk := s.blk - 1 } : St)
    if s1.blk = 0 then s1.setCall i (.destroy :: r) else s1.setCall i r
  | .destroy =>
    ({ s.touch with destroyed := s.destroyed ++ List.range s.n, freed := true } : St).setCall i r
  | .ask x =>
    match s.child x with
    | none => ({ s.touch with held := upd s.held x (s.held x + 1) } : St).setCall i r
    | some y => s.touch.setCall i (.got x y :: r)
  | .got x y =>
    let h := upd s.held x (s.held x + 1)
    ({ s.touch with count := upd s.count y (s.count y + 1), held := upd h y (h y + 1) } : St).setCall i r

def St.step (s : St) : Op → St
  | .addRef x =>
    if s.held x = 0 then s
    else { s.touch with count := upd s.count x (s.count x + 1), held := upd s.held x (s.held x + 1) }
  | .release x =>
    if s.held x = 0 then s else { s with held := upd s.held x (s.held x - 1), calls := s.calls ++ [[.rel x]] }
  | .getChild x =>
    if s.held x = 0 then s else { s with held := upd s.held x (s.held x - 1), calls := s.calls ++ [[.ask x]] }
  | .step i =>
    match s.calls[i]? with
    | some (f :: r) => s.advance i f r
    | _ => s

/-- Any interleaving. -/
def St.run (s : St) : List Op → St
  | [] => s
  | o :: l => (s.step o).run l

/-- The destructor of a packet calls the callbacks registered with `subscribeForDestructNotification` (pkt:53-57, 68-77,
109-115): the packets whose owners were told, for those subscribed to the packets `subs`. -/
def St.notified (s : St) (subs : List Nat) : List Nat := s.destroyed.filter (· ∈ subs)

end Verif.Bulk
