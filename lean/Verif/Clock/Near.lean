import Verif.Clock.Spec
import Mathlib.Algebra.Order.Field.Rat
import Mathlib.Tactic.Linarith
import Mathlib.Tactic.Ring
import Mathlib.Tactic.FieldSimp
import Mathlib.Tactic.Positivity
import Mathlib.Tactic.NormNum
import Mathlib.Data.Rat.Cast.Order

/-! # Rounding to 53 binary digits -/

namespace Verif.Clock

/-- Rounding to multiples of `2 * h`. -/
def r (h n : Nat) : Nat := (n + (h - 1 + n / (2 * h) % 2)) / (2 * h)

theorem r_bounds (h n : Nat) (pos : 0 < h) :
    n / (2 * h) ≤ r h n ∧ r h n ≤ n / (2 * h) + 1
      ∧ r h n * (2 * h) ≤ n + h ∧ n ≤ r h n * (2 * h) + h := by
  unfold r
  have p : n / (2 * h) % 2 < 2 := Nat.mod_lt _ (by omega)
  generalize hb : n / (2 * h) % 2 = b at p
  have e1 := Nat.div_add_mod n (2 * h)
  have e2 := Nat.mod_lt n (show 0 < 2 * h by omega)
  have e3 := Nat.div_add_mod (n + (h - 1 + b)) (2 * h)
  have e4 := Nat.mod_lt (n + (h - 1 + b)) (show 0 < 2 * h by omega)
  generalize hw : 2 * h = w at *
  generalize n / w = q at *
  generalize (n + (h - 1 + b)) / w = q' at *
  rw [Nat.mul_comm] at e1 e3
  refine ⟨?_, ?_, ?_, ?_⟩
  · refine Nat.le_of_lt_succ (Nat.lt_of_mul_lt_mul_right (a := w) ?_)
    show q * w < (q' + 1) * w
    rw [Nat.add_mul, Nat.one_mul]
    omega
  · refine Nat.le_of_lt_succ (Nat.lt_of_mul_lt_mul_right (a := w) ?_)
    show q' * w < (q + 1 + 1) * w
    rw [Nat.add_mul, Nat.add_mul, Nat.one_mul]
    omega
  · omega
  · omega

theorem r_mono (h n m : Nat) (pos : 0 < h) (le : n ≤ m) : r h n ≤ r h m := by
  by_cases q : n / (2 * h) = m / (2 * h)
  · unfold r
    rw [q]
    exact Nat.div_le_div_right (by omega)
  · have := Nat.div_le_div_right (c := 2 * h) le
    have a := r_bounds h n pos
    have b := r_bounds h m pos
    omega

theorem nearNat_big (n : Nat) (k : Nat) (e : Nat.log2 n = 53 + k) :
    nearNat n = r (2 ^ k) n * (2 * 2 ^ k) := by
  unfold nearNat r
  have : Nat.log2 n - 52 = k + 1 := by omega
  rw [this, if_neg (by omega), Nat.pow_succ, Nat.mul_comm (2 ^ k) 2, Nat.mul_div_cancel_left _ (by omega)]

theorem nearNat_small (n : Nat) (e : Nat.log2 n ≤ 52) : nearNat n = n := by
  unfold nearNat
  rw [if_pos (by omega)]

theorem log2_lt (n : Nat) : n < 2 ^ (Nat.log2 n + 1) := Nat.lt_log2_self

theorem le_log2 (n : Nat) (h : n ≠ 0) : 2 ^ Nat.log2 n ≤ n := Nat.log2_self_le h

theorem nearNat_upper (n : Nat) : nearNat n ≤ 2 ^ (Nat.log2 n + 1) := by
  by_cases s : Nat.log2 n ≤ 52
  · rw [nearNat_small n s]
    exact (log2_lt n).le
  · obtain ⟨k, e⟩ := Nat.exists_eq_add_of_le (show 53 ≤ Nat.log2 n by omega)
    rw [nearNat_big n k e]
    have b := r_bounds (2 ^ k) n (Nat.two_pow_pos k)
    have l := log2_lt n
    have f : 2 ^ (Nat.log2 n + 1) = 2 ^ 53 * (2 * 2 ^ k) := by
      rw [e, show 53 + k + 1 = 53 + (k + 1) by omega, Nat.pow_add, Nat.pow_succ]
      ring
    rw [f] at l ⊢
    have : n / (2 * 2 ^ k) < 2 ^ 53 := (Nat.div_lt_iff_lt_mul (by have := Nat.two_pow_pos k; omega)).mpr l
    exact Nat.mul_le_mul_right _ (by omega)

theorem nearNat_lower (n : Nat) (h : n ≠ 0) : 2 ^ Nat.log2 n ≤ nearNat n := by
  by_cases s : Nat.log2 n ≤ 52
  · rw [nearNat_small n s]
    exact le_log2 n h
  · obtain ⟨k, e⟩ := Nat.exists_eq_add_of_le (show 53 ≤ Nat.log2 n by omega)
    rw [nearNat_big n k e]
    have b := r_bounds (2 ^ k) n (Nat.two_pow_pos k)
    have l := le_log2 n h
    have f : 2 ^ Nat.log2 n = 2 ^ 52 * (2 * 2 ^ k) := by
      rw [e, show 53 + k = 52 + (k + 1) by omega, Nat.pow_add, Nat.pow_succ]
      ring
    rw [f] at l ⊢
    have : 2 ^ 52 ≤ n / (2 * 2 ^ k) := (Nat.le_div_iff_mul_le (by have := Nat.two_pow_pos k; omega)).mpr l
    exact Nat.mul_le_mul_right _ (by omega)

theorem nearNat_mono (n m : Nat) (le : n ≤ m) : nearNat n ≤ nearNat m := by
  by_cases z : n = 0
  · subst z
    exact Nat.zero_le _
  have lm : Nat.log2 n ≤ Nat.log2 m := by
    rw [Nat.le_log2 (by omega)]
    exact (le_log2 n z).trans le
  rcases Nat.lt_or_eq_of_le lm with lt | eq
  · exact (nearNat_upper n).trans ((Nat.pow_le_pow_right (by omega) lt).trans (nearNat_lower m (by omega)))
  · by_cases s : Nat.log2 n ≤ 52
    · rw [nearNat_small n s, nearNat_small m (by omega)]
      exact le
    · obtain ⟨k, e⟩ := Nat.exists_eq_add_of_le (show 53 ≤ Nat.log2 n by omega)
      rw [nearNat_big n k e, nearNat_big m k (by omega)]
      exact Nat.mul_le_mul_right _ (r_mono _ n m (Nat.two_pow_pos k) le)

theorem near_mono (a b : Int) (le : a ≤ b) : near a ≤ near b := by
  cases a with
  | ofNat n =>
    cases b with
    | ofNat m => exact Int.ofNat_le.mpr (nearNat_mono n m (Int.ofNat_le.mp le))
    | negSucc m => exact absurd le (by have := Int.negSucc_lt_zero m; have : (0 : Int) ≤ Int.ofNat n := Int.natCast_nonneg n; omega)
  | negSucc n =>
    cases b with
    | ofNat m =>
      show -(nearNat (n + 1) : Int) ≤ (nearNat m : Int)
      omega
    | negSucc m =>
      show -(nearNat (n + 1) : Int) ≤ -(nearNat (m + 1) : Int)
      have : m + 1 ≤ n + 1 := by
        rw [Int.negSucc_eq, Int.negSucc_eq] at le
        omega
      have := nearNat_mono _ _ this
      omega

theorem nearNat_error (n : Nat) :
    (nearNat n - n : Int).natAbs * 2 ^ 53 ≤ n := by
  by_cases s : Nat.log2 n ≤ 52
  · rw [nearNat_small n s, Int.sub_self]
    simp
  · obtain ⟨k, e⟩ := Nat.exists_eq_add_of_le (show 53 ≤ Nat.log2 n by omega)
    rw [nearNat_big n k e]
    have b := r_bounds (2 ^ k) n (Nat.two_pow_pos k)
    have z : n ≠ 0 := by
      rintro rfl
      simp at e
      omega
    have l := le_log2 n z
    rw [e, Nat.pow_add, Nat.mul_comm] at l
    refine le_trans (Nat.mul_le_mul_right _ ?_) l
    generalize r (2 ^ k) n * (2 * 2 ^ k) = x at *
    omega

theorem near_error (a : Int) : |(near a : Rat) - a| ≤ |(a : Rat)| / 2 ^ 53 := by
  have key : ∀ n : Nat, |((nearNat n : Int) : Rat) - (n : Int)| ≤ ((n : Int) : Rat) / 2 ^ 53 := by
    intro n
    rw [le_div_iff₀ (by positivity)]
    have := nearNat_error n
    have h2 : |((nearNat n : Int) - (n : Int))| * 2 ^ 53 ≤ (n : Int) := by
      rw [Int.abs_eq_natAbs]
      exact_mod_cast this
    exact_mod_cast h2
  cases a with
  | ofNat n =>
    have := key n
    have a : |((n : Int) : Rat)| = ((n : Int) : Rat) := abs_of_nonneg (by positivity)
    show |((nearNat n : Int) : Rat) - ((n : Int) : Rat)| ≤ |((n : Int) : Rat)| / 2 ^ 53
    rw [a]
    exact this
  | negSucc n =>
    have := key (n + 1)
    have a : |(((n + 1 : Nat) : Int) : Rat)| = (((n + 1 : Nat) : Int) : Rat) := abs_of_nonneg (by positivity)
    rw [show Int.negSucc n = -((n + 1 : Nat) : Int) from rfl]
    change |((-(nearNat (n + 1) : Int) : Int) : Rat) - ((-((n + 1 : Nat) : Int) : Int) : Rat)|
      ≤ |((-((n + 1 : Nat) : Int) : Int) : Rat)| / 2 ^ 53
    rw [Int.cast_neg, Int.cast_neg, abs_neg, a, ← abs_neg]
    convert this using 2
    ring

theorem near_exact (a : Int) (h : a.natAbs ≤ 2 ^ 53) : near a = a := by
  have key : ∀ n : Nat, n ≤ 2 ^ 53 → nearNat n = n := by
    intro n hn
    rcases Nat.lt_or_eq_of_le hn with lt | eq
    · by_cases z : n = 0
      · subst z; rfl
      · apply nearNat_small
        have := (Nat.log2_lt z).mpr lt
        omega
    · subst eq; decide +kernel
  cases a with
  | ofNat n => exact congrArg Int.ofNat (key n h)
  | negSucc n =>
    show -(nearNat (n + 1) : Int) = _
    rw [key (n + 1) h]
    rfl

end Verif.Clock
