import Mathlib.Data.Rat.Defs
import Mathlib.Algebra.Field.Rat
import Verif.CoreTypes.RatioModel

/-! # Specification of ratios -/

namespace Verif.CoreTypes

/-- The rational number a ratio stands for. -/
def Ratio.value (r : Ratio) : ℚ := (r.num : ℚ) / (r.den : ℚ)

/-- The number is a signed 64-bit integer. -/
def Is64 (n : Int) : Prop := -9223372036854775808 ≤ n ∧ n ≤ 9223372036854775807

/-- What a constructed ratio is: 64-bit parts and a denominator that is not zero. -/
def Ratio.Valid (r : Ratio) : Prop := Is64 r.num ∧ Is64 r.den ∧ r.den ≠ 0

/-- Neither part is the smallest 64-bit integer. -/
def Ratio.NoMin (r : Ratio) : Prop := r.num ≠ -9223372036854775808 ∧ r.den ≠ -9223372036854775808

end Verif.CoreTypes
