import Mathlib.Algebra.Order.Ring.Int
import Mathlib.Tactic.FieldSimp
import Mathlib.Tactic.Ring
import Mathlib.Data.Int.GCD
import Mathlib.Tactic.ByContra
import Verif.CoreTypes.RatioSpec

/-! # Properties C33 and C55: ratios -/

namespace Verif.CoreTypes

theorem fits_iff (n : Int) : fits n = true ↔ -lim ≤ n ∧ n < lim := by simp [fits]

theorem is64_iff (n : Int) : Is64 n ↔ fits n = true := by
  rw [fits_iff]
  unfold Is64 lim
  omega

theorem valid_iff (r : Ratio) : r.Valid ↔ fits r.num = true ∧ fits r.den = true ∧ r.den ≠ 0 := by
  unfold Ratio.Valid
  rw [is64_iff, is64_iff]

theorem noMin_iff (r : Ratio) : r.NoMin ↔ r.num ≠ -lim ∧ r.den ≠ -lim := Iff.rfl

theorem pos_left {x k : Int} (h : 0 < x * k) (hk : 0 < k) : 0 < x := by
  by_contra hc
  have : x * k ≤ 0 := mul_nonpos_of_nonpos_of_nonneg (by omega) (by omega)
  omega

/-- What `simplifyPair` computes. -/
theorem simplifyPair_eq {r : Ratio} (h : r.Valid) (hm : r.NoMin) :
    ∃ g : Nat, 0 < g ∧ g = Int.gcd r.num r.den ∧ ∃ n d : Int, r.num = n * g ∧ r.den = d * g ∧ Int.gcd n d = 1 ∧
      simplifyPair r.num r.den = some (n, d) ∧ r.simplify = .ok ⟨n, d⟩ := by
  obtain ⟨h1, h2, h3⟩ := (valid_iff r).mp h
  obtain ⟨m1, m2⟩ := (noMin_iff r).mp hm
  have hf : fits r.num.natAbs = true ∧ fits r.den.natAbs = true := by
    rw [fits_iff] at h1 h2
    rw [fits_iff, fits_iff]
    have hl : (0 : Int) ≤ lim := by decide
    generalize lim = L at *
    refine ⟨⟨by omega, by omega⟩, by omega, by omega⟩
  clear h1 h2 m1 m2
  have hg : 0 < Int.gcd r.num r.den := Int.gcd_pos_of_ne_zero_right _ h3
  have hgcd : gcd r.num r.den = some ((Int.gcd r.num r.den : Nat) : Int) := by
    unfold gcd
    rw [if_pos]
    · rfl
    · rw [Bool.and_eq_true]; exact hf
  obtain ⟨n, hn⟩ : (Int.gcd r.num r.den : Int) ∣ r.num := Int.gcd_dvd_left ..
  obtain ⟨d, hd⟩ : (Int.gcd r.num r.den : Int) ∣ r.den := Int.gcd_dvd_right ..
  refine ⟨Int.gcd r.num r.den, hg, rfl, n, d, ?_⟩
  generalize hG : Int.gcd r.num r.den = g at *
  have hn' : r.num = n * g := by rw [hn, Int.mul_comm]
  have hd' : r.den = d * g := by rw [hd, Int.mul_comm]
  have hc : Int.gcd n d = 1 := by
    have h4 : Int.gcd r.num r.den = Int.gcd n d * g := by
      rw [hn', hd', Int.gcd_mul_right, Int.natAbs_natCast]
    rw [hG] at h4
    have : 1 * g = Int.gcd n d * g := by omega
    exact (Nat.eq_of_mul_eq_mul_right hg this).symm
  have hs : simplifyPair r.num r.den = some (n, d) := by
    unfold simplifyPair
    rw [hgcd, Option.map_some]
    unfold reduceBy
    split
    · rename_i hle
      have : (g : Int) = 1 := by omega
      rw [this, Int.mul_one] at hn' hd'
      rw [hn', hd']
    · rw [hn', hd', Int.mul_tdiv_cancel _ (by omega), Int.mul_tdiv_cancel _ (by omega)]
  refine ⟨hn', hd', hc, hs, ?_⟩
  unfold Ratio.simplify
  rw [hs]
  unfold Ratio.ofPair Ratio.create
  dsimp only
  rw [if_neg]
  intro h0
  rw [h0, Int.zero_mul] at hd'
  exact h3 hd'

/-- Two fractions in lowest terms with denominators of the same sign and equal value are the same. -/
theorem lowest_unique {a b c d : Int} (h1 : Int.gcd a b = 1) (h2 : Int.gcd c d = 1) (he : a * d = c * b)
    (hs : 0 < b ↔ 0 < d) (hb : b ≠ 0) (hd : d ≠ 0) : a = c ∧ b = d := by
  have hbd : b ∣ d := by
    have : b ∣ a * d := ⟨c, by rw [he, Int.mul_comm]⟩
    exact Int.dvd_of_dvd_mul_right_of_gcd_one this (by rw [Int.gcd_comm]; exact h1)
  have hdb : d ∣ b := by
    have : d ∣ c * b := ⟨a, by rw [← he, Int.mul_comm]⟩
    exact Int.dvd_of_dvd_mul_right_of_gcd_one this (by rw [Int.gcd_comm]; exact h2)
  have hbd' : b = d := by
    have := Int.natAbs_eq_of_dvd_dvd hbd hdb
    omega
  subst hbd'
  exact ⟨Int.eq_of_mul_eq_mul_right hb he, rfl⟩

theorem value_eq_iff {r s : Ratio} (hr : r.den ≠ 0) (hs : s.den ≠ 0) : r.value = s.value ↔ r.num * s.den = s.num * r.den := by
  unfold Ratio.value
  rw [div_eq_div_iff (by exact_mod_cast hr) (by exact_mod_cast hs)]
  exact_mod_cast Iff.rfl

/-! ## C33 -/

/-- **C33.** `simplify` keeps the value and the sign of the denominator, and gives lowest terms. -/
theorem C33_simplify (r : Ratio) (h : r.Valid) (hm : r.NoMin) :
    ∃ s, r.simplify = .ok s ∧ s.Valid ∧ s.value = r.value ∧ Int.gcd s.num s.den = 1 ∧ (0 < s.den ↔ 0 < r.den) := by
  obtain ⟨g, hg, -, n, d, h1, h2, h3, -, h5⟩ := simplifyPair_eq h hm
  obtain ⟨f1, f2, f3⟩ := (valid_iff r).mp h
  have hd : d ≠ 0 := by rintro rfl; rw [Int.zero_mul] at h2; exact f3 h2
  have hle : ∀ x y : Int, y = x * g → fits y = true → fits x = true := by
    intro x y hy hf
    rw [fits_iff] at hf ⊢
    have hg1 : (1 : Int) ≤ g := by omega
    rcases lt_or_ge x 0 with hx | hx
    · have : x * g ≤ x * 1 := Int.mul_le_mul_of_nonpos_left (by omega) hg1
      omega
    · have : x * 1 ≤ x * g := Int.mul_le_mul_of_nonneg_left hg1 hx
      omega
  refine ⟨⟨n, d⟩, h5, ⟨(is64_iff _).mpr (hle n _ h1 f1), (is64_iff _).mpr (hle d _ h2 f2), hd⟩, ?_, h3, ?_⟩
  · rw [value_eq_iff hd f3]
    show n * r.den = r.num * d
    rw [h1, h2]; ring
  · show 0 < d ↔ 0 < r.den
    rw [h2]
    constructor
    · intro hp; exact Int.mul_pos hp (by omega)
    · intro hp; exact pos_left hp (by omega)

/-- **C33.** A simplified ratio does not change when it is simplified again. -/
theorem C33_idempotent (r s : Ratio) (h : r.Valid) (hm : r.NoMin) (hs : r.simplify = .ok s) (hms : s.NoMin) :
    s.simplify = .ok s := by
  obtain ⟨s', e, hv, -, hg, -⟩ := C33_simplify r h hm
  rw [hs] at e
  cases e
  obtain ⟨g, -, hgg, n, d, h1, h2, -, -, h5⟩ := simplifyPair_eq hv hms
  rw [hg] at hgg
  subst hgg
  rw [h5]
  simp only [Nat.cast_one, Int.mul_one] at h1 h2
  rw [← h1, ← h2]

example : (⟨6, -4⟩ : Ratio).Valid ∧ (⟨6, -4⟩ : Ratio).NoMin ∧ (⟨6, -4⟩ : Ratio).simplify = .ok ⟨3, -2⟩ := by
  refine ⟨(valid_iff _).mpr ⟨by decide, by decide, by decide⟩, (noMin_iff _).mpr ⟨by decide, by decide⟩, by decide⟩

/-- **C33.** Exactly when two ratios compare equal: equal values and denominators of the same sign. -/
theorem C33_equals (r s : Ratio) (hr : r.Valid) (hs : s.Valid) (mr : r.NoMin) (ms : s.NoMin) :
    ∃ b, r.equals s = .ok b ∧ (b = true ↔ r.value = s.value ∧ (0 < r.den ↔ 0 < s.den)) := by
  obtain ⟨g, hg, -, n, d, h1, h2, h3, h4, h5⟩ := simplifyPair_eq hr mr
  obtain ⟨g', hg', -, n', d', h1', h2', h3', h4', h5'⟩ := simplifyPair_eq hs ms
  have nr := hr.2.2
  have ns := hs.2.2
  clear hr hs mr ms
  have hd : d ≠ 0 := by rintro rfl; rw [Int.zero_mul] at h2; exact nr h2
  have hd' : d' ≠ 0 := by rintro rfl; rw [Int.zero_mul] at h2'; exact ns h2'
  have hval : r.value = s.value ↔ n * d' = n' * d := by
    rw [value_eq_iff nr ns, h1, h2, h1', h2']
    have e1 : n * ↑g * (d' * ↑g') = n * d' * (↑g * ↑g') := by ring
    have e2 : n' * ↑g' * (d * ↑g) = n' * d * (↑g * ↑g') := by ring
    rw [e1, e2]
    constructor
    · intro h; exact Int.eq_of_mul_eq_mul_right (Int.mul_ne_zero (by omega) (by omega)) h
    · intro h; rw [h]
  have hsig : ∀ (x : Int) (k : Nat), 0 < k → (0 < x * k ↔ 0 < x) := by
    intro x k hk
    constructor
    · intro hp; exact pos_left hp (by omega)
    · intro hp; exact Int.mul_pos hp (by omega)
  have hsign : (0 < r.den ↔ 0 < s.den) ↔ (0 < d ↔ 0 < d') := by
    rw [h2, h2', hsig d g hg, hsig d' g' hg']
  unfold Ratio.equals
  rw [h4, h5']
  unfold compareSimplified
  dsimp only
  rw [hval, hsign]
  by_cases e1 : n = n'
  · by_cases e2 : d = d'
    · exact ⟨true, by simp [e1, e2], by simp [e1, e2]⟩
    · refine ⟨false, by simp [e1, e2], ?_⟩
      simp only [Bool.false_eq_true, false_iff]
      rintro ⟨a, b⟩
      exact e2 (lowest_unique h3 h3' a b hd hd').2
  · refine ⟨false, by simp [e1], ?_⟩
    simp only [Bool.false_eq_true, false_iff]
    rintro ⟨a, b⟩
    exact e1 (lowest_unique h3 h3' a b hd hd').1

/-- **C33** (partial). Ratios with positive denominators compare equal exactly when they denote the same number.
Missing: negative denominators (violation below). -/
theorem C33_equals_partial (r s : Ratio) (hr : r.Valid) (hs : s.Valid) (mr : r.NoMin) (ms : s.NoMin)
    (pr : 0 < r.den) (ps : 0 < s.den) : ∃ b, r.equals s = .ok b ∧ (b = true ↔ r.value = s.value) := by
  obtain ⟨b, h1, h2⟩ := C33_equals r s hr hs mr ms
  exact ⟨b, h1, by rw [h2]; simp [pr, ps]⟩

example : (⟨10, 4⟩ : Ratio).equals ⟨15, 6⟩ = .ok true ∧ (⟨10, 4⟩ : Ratio).equals ⟨15, 7⟩ = .ok false := by decide

/-- **C33.** Comparison is reflexive, symmetric and transitive. -/
theorem C33_equivalence (r s t : Ratio) (hr : r.Valid) (hs : s.Valid) (ht : t.Valid) (mr : r.NoMin) (ms : s.NoMin)
    (mt : t.NoMin) :
    r.equals r = .ok true ∧ (r.equals s = .ok true → s.equals r = .ok true) ∧
    (r.equals s = .ok true → s.equals t = .ok true → r.equals t = .ok true) := by
  have key : ∀ a b : Ratio, a.Valid → b.Valid → a.NoMin → b.NoMin →
      (a.equals b = .ok true ↔ a.value = b.value ∧ (0 < a.den ↔ 0 < b.den)) := by
    intro a b ha hb ma mb
    obtain ⟨x, h1, h2⟩ := C33_equals a b ha hb ma mb
    rw [h1, ← h2]
    simp
  rw [key r r hr hr mr mr, key r s hr hs mr ms, key s r hs hr ms mr, key s t hs ht ms mt, key r t hr ht mr mt]
  refine ⟨⟨rfl, Iff.rfl⟩, fun h => ⟨h.1.symm, h.2.symm⟩, fun h k => ⟨h.1.trans k.1, h.2.trans k.2⟩⟩

/-- **C33, violated.** Equal numbers with denominators of different sign do not compare equal, zero included. -/
theorem C33_violation_sign :
    (⟨1, -2⟩ : Ratio).value = (⟨-1, 2⟩ : Ratio).value ∧ (⟨1, -2⟩ : Ratio).equals ⟨-1, 2⟩ = .ok false ∧
    (⟨0, -5⟩ : Ratio).value = (⟨0, 5⟩ : Ratio).value ∧ (⟨0, -5⟩ : Ratio).equals ⟨0, 5⟩ = .ok false := by
  refine ⟨(value_eq_iff (by decide) (by decide)).mpr (by decide), by decide,
    (value_eq_iff (by decide) (by decide)).mpr (by decide), by decide⟩

/-- **C33, violated.** A ratio with the smallest integer can be constructed, but simplifying or comparing it is
undefined. -/
theorem C33_violation_smallest :
    Ratio.create (-9223372036854775808) 2 = .ok ⟨-9223372036854775808, 2⟩ ∧ (⟨-9223372036854775808, 2⟩ : Ratio).Valid ∧ (⟨-9223372036854775808, 2⟩ : Ratio).simplify = .ub ∧
    (⟨-9223372036854775808, 2⟩ : Ratio).equals ⟨1, 2⟩ = .ub := by
  refine ⟨by decide, (valid_iff _).mpr (by decide), by decide, by decide⟩

/-! ## C55 -/

theorem create_value {n d : Int} {r : Ratio} (h : Ratio.create n d = .ok r) : r = ⟨n, d⟩ ∧ d ≠ 0 := by
  unfold Ratio.create at h
  split at h
  · cases h
  · rename_i hd; cases h; exact ⟨rfl, hd⟩

theorem createWith_ok {a b : Option Int} {r : Ratio} (h : createWith a b = .ok r) :
    a = some r.num ∧ b = some r.den ∧ r.den ≠ 0 := by
  unfold createWith at h
  split at h
  · obtain ⟨rfl, h2⟩ := create_value h; exact ⟨rfl, rfl, h2⟩
  · cases h

theorem mulInt_ok {a b c : Int} (h : mulInt a b = some c) : c = a * b ∧ fits c = true := by
  unfold mulInt at h
  split at h
  · rename_i hf; cases h; exact ⟨rfl, hf⟩
  · cases h

theorem checked_ok {l : List Int} {k : Res Ratio} {r : Ratio} (h : checked l k = .ok r) : 0 ∉ l ∧ k = .ok r := by
  unfold checked at h
  split at h
  · cases h
  · rename_i h0; exact ⟨h0, h⟩

/-- **C55.** Every product and quotient that is computed is exact, and again a ratio. -/
theorem C55_exact (x y : Ratio) (i : Int) (hx : x.Valid) (hy : y.Valid) (r : Ratio) :
    (x.mul y = .ok r → r.value = x.value * y.value ∧ r.Valid) ∧
    (x.div y = .ok r → r.value = x.value / y.value ∧ r.Valid) ∧
    (x.mulInt i = .ok r → r.value = i * x.value ∧ r.Valid) ∧
    (x.intDiv i = .ok r → r.value = i / x.value ∧ r.Valid) ∧
    (Is64 i → x.divInt i = .ok r → r.value = x.value / i ∧ r.Valid) := by
  have qx : (x.den : ℚ) ≠ 0 := by exact_mod_cast hx.2.2
  have qy : (y.den : ℚ) ≠ 0 := by exact_mod_cast hy.2.2
  refine ⟨?_, ?_, ?_, ?_, ?_⟩
  · intro h
    obtain ⟨-, h⟩ := checked_ok h
    obtain ⟨h1, h2, h3⟩ := createWith_ok h
    obtain ⟨e1, f1⟩ := mulInt_ok h1
    obtain ⟨e2, f2⟩ := mulInt_ok h2
    refine ⟨?_, (is64_iff _).mpr f1, (is64_iff _).mpr f2, h3⟩
    unfold Ratio.value
    rw [e1, e2]
    push_cast
    field_simp
  · intro h
    obtain ⟨h0, h⟩ := checked_ok h
    obtain ⟨h1, h2, h3⟩ := createWith_ok h
    obtain ⟨e1, f1⟩ := mulInt_ok h1
    obtain ⟨e2, f2⟩ := mulInt_ok h2
    refine ⟨?_, (is64_iff _).mpr f1, (is64_iff _).mpr f2, h3⟩
    have qn : (y.num : ℚ) ≠ 0 := by
      intro h
      have : y.num = 0 := by exact_mod_cast h
      exact h0 (by simp [this])
    unfold Ratio.value
    rw [e1, e2]
    push_cast
    field_simp
  · intro h
    obtain ⟨-, h⟩ := checked_ok h
    obtain ⟨h1, h2, h3⟩ := createWith_ok h
    obtain ⟨e1, f1⟩ := mulInt_ok h1
    have e2 : r.den = x.den := (Option.some.inj h2).symm
    refine ⟨?_, (is64_iff _).mpr f1, by rw [e2]; exact hx.2.1, h3⟩
    unfold Ratio.value
    rw [e1, e2]
    push_cast
    field_simp
  · intro h
    obtain ⟨h0, h⟩ := checked_ok h
    obtain ⟨h1, h2, h3⟩ := createWith_ok h
    obtain ⟨e1, f1⟩ := mulInt_ok h1
    have e2 : r.den = x.num := (Option.some.inj h2).symm
    have qn : (x.num : ℚ) ≠ 0 := by
      intro h
      have : x.num = 0 := by exact_mod_cast h
      exact h0 (by simp [this])
    refine ⟨?_, (is64_iff _).mpr f1, by rw [e2]; exact hx.1, h3⟩
    unfold Ratio.value
    rw [e1, e2]
    push_cast
    field_simp
  · intro hi h
    obtain ⟨h0, h⟩ := checked_ok h
    obtain ⟨h1, h2, h3⟩ := createWith_ok h
    obtain ⟨e2, f2⟩ := mulInt_ok h2
    have e1 : r.num = x.num := (Option.some.inj h1).symm
    have qi : (i : ℚ) ≠ 0 := by
      intro h
      have : i = 0 := by exact_mod_cast h
      exact h0 (by simp [this])
    refine ⟨?_, by rw [e1]; exact hx.1, (is64_iff _).mpr f2, h3⟩
    unfold Ratio.value
    rw [e1, e2]
    push_cast
    field_simp

/-- **C55.** Division by zero, and nothing else, is reported as an error; and the result is undefined exactly when
the numerator or the denominator of the unreduced result does not fit in 64 bits. -/
theorem C55_defined (x y : Ratio) (hx : x.Valid) (hy : y.Valid) :
    (x.mul y ≠ .zeroDenominator) ∧
    (x.mul y = .ub ↔ ¬ (Is64 (x.num * y.num) ∧ Is64 (x.den * y.den))) ∧
    (x.div y = .zeroDenominator ↔ y.value = 0) ∧
    (x.div y = .ub ↔ y.value ≠ 0 ∧ ¬ (Is64 (x.num * y.den) ∧ Is64 (x.den * y.num))) := by
  simp only [is64_iff]
  have hv : y.value = 0 ↔ y.num = 0 := by
    unfold Ratio.value
    rw [div_eq_zero_iff]
    constructor
    · rintro (h | h)
      · exact_mod_cast h
      · exact absurd (by exact_mod_cast h) hy.2.2
    · intro h; left; exact_mod_cast h
  have hcw : ∀ a b c d : Int, c * d ≠ 0 →
      (createWith (mulInt a b) (mulInt c d) = .ub ↔ ¬ (fits (a * b) = true ∧ fits (c * d) = true)) ∧
      createWith (mulInt a b) (mulInt c d) ≠ .zeroDenominator := by
    intro a b c d h0
    unfold mulInt
    by_cases h1 : fits (a * b) = true
    · by_cases h2 : fits (c * d) = true
      · simp [h1, h2, createWith, Ratio.create, h0]
      · simp [h1, h2, createWith]
    · simp [h1, createWith]
  have m0 : x.den * y.den ≠ 0 := Int.mul_ne_zero hx.2.2 hy.2.2
  have hmul : x.mul y = createWith (mulInt x.num y.num) (mulInt x.den y.den) := by
    unfold Ratio.mul checked
    rw [if_neg]
    simp [hx.2.2.symm, hy.2.2.symm]
  refine ⟨?_, ?_, ?_, ?_⟩
  · rw [hmul]; exact (hcw _ _ _ _ m0).2
  · rw [hmul]; exact (hcw _ _ _ _ m0).1
  · rw [hv]
    unfold Ratio.div checked
    by_cases h : y.num = 0
    · rw [if_pos (by simp [h])]; simp [h]
    · rw [if_neg (by simp [hx.2.2.symm, Ne.symm h])]
      have := (hcw x.num y.den x.den y.num (Int.mul_ne_zero hx.2.2 h)).2
      simp [this, h]
  · rw [Ne, hv]
    unfold Ratio.div checked
    by_cases h : y.num = 0
    · rw [if_pos (by simp [h])]; simp [h]
    · rw [if_neg (by simp [hx.2.2.symm, Ne.symm h])]
      rw [(hcw x.num y.den x.den y.num (Int.mul_ne_zero hx.2.2 h)).1]
      simp [h]

example : (⟨2, 3⟩ : Ratio).mul ⟨9, 4⟩ = .ok ⟨18, 12⟩ ∧ (⟨2, 3⟩ : Ratio).div ⟨0, 4⟩ = .zeroDenominator := by decide

/-- **C55.** A ratio can be created exactly when the denominator is not zero, and holds the two given numbers. -/
theorem C55_create (n d : Int) :
    (Ratio.create n d = .zeroDenominator ↔ d = 0) ∧ (d ≠ 0 → Ratio.create n d = .ok ⟨n, d⟩) := by
  unfold Ratio.create
  by_cases h : d = 0 <;> simp [h]

/-- **C55.** The operators with an integer: when they are undefined or report a zero denominator. -/
theorem C55_integer (x : Ratio) (i : Int) (hx : x.Valid) :
    (x.mulInt i ≠ .zeroDenominator) ∧ (x.mulInt i = .ub ↔ ¬ Is64 (i * x.num)) ∧
    (x.intDiv i = .zeroDenominator ↔ x.value = 0) ∧ (x.intDiv i = .ub ↔ x.value ≠ 0 ∧ ¬ Is64 (i * x.den)) ∧
    (x.divInt i = .zeroDenominator ↔ i = 0) ∧ (x.divInt i = .ub ↔ i ≠ 0 ∧ ¬ Is64 (x.den * i)) := by
  simp only [is64_iff, Bool.not_eq_true]
  have hd := hx.2.2
  have hv : x.value = 0 ↔ x.num = 0 := by
    unfold Ratio.value
    rw [div_eq_zero_iff]
    constructor
    · rintro (h | h)
      · exact_mod_cast h
      · exact absurd (by exact_mod_cast h) hd
    · intro h; left; exact_mod_cast h
  have cd : ∀ a b d : Int, d ≠ 0 → (createWith (mulInt a b) (some d) = .ub ↔ fits (a * b) = false) ∧
      createWith (mulInt a b) (some d) ≠ .zeroDenominator := by
    intro a b d h
    unfold mulInt
    cases hf : fits (a * b) <;> simp [createWith, Ratio.create, h]
  have dc : ∀ n a b : Int, a * b ≠ 0 → (createWith (some n) (mulInt a b) = .ub ↔ fits (a * b) = false) ∧
      createWith (some n) (mulInt a b) ≠ .zeroDenominator := by
    intro n a b h
    unfold mulInt
    cases hf : fits (a * b) <;> simp [createWith, Ratio.create, h]
  have h1 : x.mulInt i = createWith (mulInt i x.num) (some x.den) := by
    unfold Ratio.mulInt checked
    rw [if_neg (by simp [hd.symm])]
  refine ⟨by rw [h1]; exact (cd _ _ _ hd).2, by rw [h1]; exact (cd _ _ _ hd).1, ?_, ?_, ?_, ?_⟩
  · rw [hv]
    unfold Ratio.intDiv checked
    by_cases h : x.num = 0
    · rw [if_pos (by simp [h])]; simp [h]
    · rw [if_neg (by simp [Ne.symm h])]; simp [(cd i x.den x.num h).2, h]
  · rw [Ne, hv]
    unfold Ratio.intDiv checked
    by_cases h : x.num = 0
    · rw [if_pos (by simp [h])]; simp [h]
    · rw [if_neg (by simp [Ne.symm h]), (cd i x.den x.num h).1]; simp [h]
  · unfold Ratio.divInt checked
    by_cases h : i = 0
    · rw [if_pos (by simp [h])]; simp [h]
    · rw [if_neg (by simp [Ne.symm h, hd.symm])]; simp [(dc x.num x.den i (Int.mul_ne_zero hd h)).2, h]
  · unfold Ratio.divInt checked
    by_cases h : i = 0
    · rw [if_pos (by simp [h])]; simp [h]
    · rw [if_neg (by simp [Ne.symm h, hd.symm]), (dc x.num x.den i (Int.mul_ne_zero hd h)).1]; simp [h]

example : Ratio.mulInt 6 ⟨2, 3⟩ = .ok ⟨12, 3⟩ ∧ Ratio.intDiv 6 ⟨0, 3⟩ = .zeroDenominator ∧
    Ratio.divInt ⟨2, 3⟩ 6 = .ok ⟨2, 18⟩ := by decide

/-- **C55, violated.** Factors are not reduced before they are multiplied: the product of a number and its
reciprocal, which is one, is undefined. -/
theorem C55_violation_unreduced :
    (⟨2 ^ 62, 3⟩ : Ratio).mul ⟨3, 2 ^ 62⟩ = .ub ∧ (⟨2 ^ 62, 3⟩ : Ratio).value * (⟨3, 2 ^ 62⟩ : Ratio).value = 1 := by
  refine ⟨by decide, ?_⟩
  unfold Ratio.value
  norm_num

end Verif.CoreTypes
