import Mathlib.Algebra.Order.Ring.Rat

/-!
# Time points from clock ticks

A `TimeReader` wraps a reader and makes time points of the ticks of a domain signal, from the origin and
the tick resolution of the domain descriptor.

* `tr` = `core/opendaq/reader/include/opendaq/time_reader.h`
* `ru` = `core/opendaq/reader/include/opendaq/reader_utils.h`
* `tyr` = `core/opendaq/reader/src/typed_reader.cpp`
* `rp` = `core/coretypes/include/coretypes/ratio_ptr.h`
* `dd` = `core/opendaq/signal/src/data_descriptor_impl.cpp`
-/

namespace Verif.Clock

/-- `fixupIso8601` (ru:61-84): the origin in the form the parser of dates expects. -/
def fixup (origin : List Char) : List Char :=
  if 'T' ∉ origin then origin ++ "T00:00:00+00:00".toList
  else if origin.getLast? = some 'Z' then origin.dropLast ++ "+00:00".toList
  else if '+' ∉ origin then origin ++ "+00:00".toList
  else origin

/-- The natural number of 53 binary digits nearest to a natural number, the even one of two. -/
def nearNat (n : Nat) : Nat :=
  if Nat.log2 n - 52 = 0 then n
  else
    (n + (2 ^ (Nat.log2 n - 52) / 2 - 1 + n / 2 ^ (Nat.log2 n - 52) % 2)) / 2 ^ (Nat.log2 n - 52)
      * 2 ^ (Nat.log2 n - 52)

/-- A 64-bit integer converted to `double`. -/
def near : Int → Int
  | .ofNat n => nearNat n
  | .negSucc n => - (nearNat (n + 1) : Int)

/-- What the other operations on `double` make of an exact result, and `std::chrono::round`.  Which
functions these are is left open; what is used of them is stated with the theorems. -/
structure Floats where
  fl : Rat → Rat
  rnd : Rat → Int

/-- The sample types (tr:257-299): integers of at most 32 bits and signed ones of 64, unsigned ones of
64 bits, ranges (their start is used), and those that are refused.  `Float32` and `Float64` are not
modelled. -/
inductive Ty where
  | whole | unsigned64 | range | refused
  deriving DecidableEq, Repr

/-- The tick times the numerator (tr:203, tr:216, rp:176-186): in signed 64 bits, where an overflow is
undefined (`none`), but in unsigned 64 bits for `UInt64`. -/
def product (ty : Ty) (num v : Int) : Option Int :=
  match ty with
  | .unsigned64 => some (num * v % 2 ^ 64)
  | _ => if -2 ^ 63 ≤ num * v ∧ num * v < 2 ^ 63 then some (num * v) else none

/-- `readSamples` (tr:196-218, rp:158-166): one time point, in nanoseconds since the epoch of the system
clock.  The seconds and the sum are of type `double`. -/
def point (F : Floats) (epoch num den : Int) (ty : Ty) (v : Int) : Option Int :=
  match product ty num v with
  | none => none
  | some p => some (F.rnd (F.fl ((near epoch : Rat) + F.fl (F.fl ((near p : Rat) / near den) * 1000000000))))

/-- A domain descriptor: the quantity and the symbol of its unit (`none`: not set), origin, tick
resolution, type, and what else it has (`rest`).  Descriptors are compared by all of it (dd:304-353). -/
structure Desc where
  quantity : Option String
  symbol : Option String
  origin : List Char
  res : Option (Int × Int)
  ty : Ty
  rest : Nat
  deriving DecidableEq, Repr

/-- Why a call fails: something needed is not set, the quantity is not time, the unit is not the second,
or the type is refused. -/
inductive Err where
  | unset | quantity | symbol | sampleType
  deriving DecidableEq, Repr

/-- What a call answers. -/
inductive Out where
  | points (ps : List (Option Int))
  | failed (e : Err)
  deriving DecidableEq, Repr

/-- The members of `TimeReaderBase` (tr:46-50). -/
structure State where
  desc : Option Desc
  epoch : Int
  res : Option (Int × Int)
  ty : Ty
  deriving DecidableEq, Repr

/-- A new reader. -/
def init : State := ⟨none, 0, none, .refused⟩

/-- `handleDescriptorChanged` (tr:220-241).  `parse` is what `date::from_stream` makes of a text; it
leaves the time point as it is when it fails, and its success is not looked at. -/
def change (parse : List Char → Option Int) (s : State) (d : Desc) : Except Err State :=
  match d.quantity with
  | none => .error .unset
  | some q =>
    if q ≠ "time" then .error .quantity
    else match d.symbol with
      | none => .error .unset
      | some u =>
        if u ≠ "s" then .error .symbol
        else .ok ⟨some d, (parse (fixup d.origin)).getD s.epoch, d.res, d.ty⟩

/-- `readData` (tr:257-299). -/
def readData (F : Floats) (s : State) (vs : List Int) : Out :=
  if s.ty = .refused then .failed .sampleType
  else match s.res with
    | none => if vs = [] then .points [] else .failed .unset
    | some (num, den) => .points (vs.map (point F s.epoch num den s.ty))

/-- `transform` (tr:243-255). -/
def transform (parse : List Char → Option Int) (F : Floats) (s : State) (d : Desc) (vs : List Int) :
    State × Out :=
  if s.desc = some d then (s, readData F s vs)
  else match change parse s d with
    | .error e => (s, .failed e)
    | .ok s' => (s', readData F s' vs)

/-- One call after another (tyr:640-645, tyr:685-690). -/
def run (parse : List Char → Option Int) (F : Floats) (s : State) : List (Desc × List Int) → State × List Out
  | [] => (s, [])
  | c :: cs =>
    let r := transform parse F s c.1 c.2
    let t := run parse F r.1 cs
    (t.1, r.2 :: t.2)

end Verif.Clock
