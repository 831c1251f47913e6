/-!
# Ratios

Model of `RatioImpl` (`core/coretypes/src/ratio_impl.cpp`, abbreviated `ratio`), of `simplify` in
`core/coretypes/include/coretypes/ctutils.h` (abbreviated `ct`) and of the operators in
`core/coretypes/include/coretypes/ratio_ptr.h` (abbreviated `ptr`).

Simplifications: no null pointers, both sides of a comparison are ratios; conversion to floating point (and with it
`compareTo`, `toInt` and `toBool`) is not modelled. Signed overflow and `std::gcd` of the smallest integer are
undefined in C++ and reported as `ub`.
-/

namespace Verif.CoreTypes

/-- One above the largest 64-bit integer: `2 ^ 63`. -/
def lim : Int := 9223372036854775808

/-- The integers an `Int` (64 bits, signed) can hold. -/
def fits (n : Int) : Bool := decide (-lim ≤ n) && decide (n < lim)

structure Ratio where
  num : Int
  den : Int
  deriving DecidableEq

inductive Res (α : Type) where
  | ok (a : α)
  /-- exception: the denominator is zero -/
  | zeroDenominator
  /-- undefined behaviour -/
  | ub
  deriving DecidableEq

/-- `RatioImpl::RatioImpl` (ratio:11-22). -/
def Ratio.create (num den : Int) : Res Ratio := if den = 0 then .zeroDenominator else .ok ⟨num, den⟩

/-- `std::gcd` of two `Int`s: not defined when an absolute value does not fit. -/
def gcd (a b : Int) : Option Int :=
  if fits a.natAbs && fits b.natAbs then some (Nat.gcd a.natAbs b.natAbs) else none

/-- The division in `daq::simplify` (ct:497-502). It truncates, and does not overflow as the divisor is above one. -/
def reduceBy (num den g : Int) : Int × Int := if g ≤ 1 then (num, den) else (num.tdiv g, den.tdiv g)

/-- `daq::simplify` (ct:494-503). -/
def simplifyPair (num den : Int) : Option (Int × Int) := (gcd num den).map (reduceBy num den)

def Ratio.ofPair : Option (Int × Int) → Res Ratio
  | none => .ub
  | some p => Ratio.create p.1 p.2

/-- `RatioImpl::simplify` (ratio:48-58). -/
def Ratio.simplify (r : Ratio) : Res Ratio := Ratio.ofPair (simplifyPair r.num r.den)

/-- The comparison in `equals` (ratio:152-163) of the own simplified parts and the other simplified ratio. -/
def compareSimplified : Option (Int × Int) → Res Ratio → Res Bool
  | none, _ => .ub
  | some p, .ok o => if p.1 ≠ o.num then .ok false else if p.2 ≠ o.den then .ok false else .ok true
  | some _, .zeroDenominator => .zeroDenominator
  | some _, .ub => .ub

/-- `RatioImpl::equals` (ratio:135-164), for another ratio. -/
def Ratio.equals (r other : Ratio) : Res Bool := compareSimplified (simplifyPair r.num r.den) other.simplify

/-- Product of two `Int`s. -/
def mulInt (a b : Int) : Option Int := if fits (a * b) then some (a * b) else none

/-- `Ratio_Create` with two computed arguments. -/
def createWith : Option Int → Option Int → Res Ratio
  | some n, some d => Ratio.create n d
  | _, _ => .ub

/-- `CheckDenominatorAndThrow` (ptr:213-217). -/
def checked (dens : List Int) (k : Res Ratio) : Res Ratio := if 0 ∈ dens then .zeroDenominator else k

/-- `RatioPtr * RatioPtr` (ptr:168-174). -/
def Ratio.mul (x y : Ratio) : Res Ratio := checked [x.den, y.den] (createWith (mulInt x.num y.num) (mulInt x.den y.den))

/-- `Int * RatioPtr` and `RatioPtr * Int` (ptr:176-186). -/
def Ratio.mulInt (x : Int) (y : Ratio) : Res Ratio := checked [y.den] (createWith (CoreTypes.mulInt x y.num) (some y.den))

/-- `Int / RatioPtr` (ptr:188-193). -/
def Ratio.intDiv (x : Int) (y : Ratio) : Res Ratio := checked [y.num] (createWith (CoreTypes.mulInt x y.den) (some y.num))

/-- `RatioPtr / Int` (ptr:195-201). -/
def Ratio.divInt (y : Ratio) (x : Int) : Res Ratio := checked [y.den, x] (createWith (some y.num) (CoreTypes.mulInt y.den x))

/-- `RatioPtr / RatioPtr` (ptr:203-209). -/
def Ratio.div (x y : Ratio) : Res Ratio :=
  checked [x.den, y.num] (createWith (CoreTypes.mulInt x.num y.den) (CoreTypes.mulInt x.den y.num))

end Verif.CoreTypes
