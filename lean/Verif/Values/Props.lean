import Verif.Values.Dict
import Verif.Values.Clone

namespace Verif.Values.Props
open Spec

/-- A hash function for floats that satisfies the standard, for the examples. -/
def hd0 : Fl → Nat := fun _ => 7

theorem hd0_ok : HashOk hd0 := fun _ _ _ => rfl

/-! ## C79: equality of plain values -/

/-- `equals` on plain values does not crash and says whether the contents are the same. -/
theorem C79_decides (hd : Fl → Nat) (hh : HashOk hd) (x y : V) (hx : Plain x) (hy : Plain y) :
    ∃ b, eqv hd x y = some b ∧ (b = true ↔ Same x y) := eqv_plain hh x y hx hy

theorem C79_refl (hd : Fl → Nat) (hh : HashOk hd) (x : V) (hx : Plain x) : eqv hd x x = some true := by
  obtain ⟨b, h1, h2⟩ := eqv_plain hh x x hx hx
  rw [h1, h2.mpr (same_refl x hx)]

theorem C79_symm (hd : Fl → Nat) (hh : HashOk hd) (x y : V) (hx : Plain x) (hy : Plain y) : eqv hd x y = eqv hd y x := by
  obtain ⟨b, h1, h2⟩ := eqv_plain hh x y hx hy
  obtain ⟨c, h3, h4⟩ := eqv_plain hh y x hy hx
  rw [h1, h3]
  have : b = true ↔ c = true := h2.trans (⟨same_symm x y hx hy, same_symm y x hy hx⟩ : Same x y ↔ Same y x) |>.trans h4.symm
  cases b <;> cases c <;> simp_all

theorem C79_trans (hd : Fl → Nat) (hh : HashOk hd) (x y z : V) (hx : Plain x) (hy : Plain y) (hz : Plain z)
    (h : eqv hd x y = some true) (h' : eqv hd y z = some true) : eqv hd x z = some true := by
  obtain ⟨b, h1, h2⟩ := eqv_plain hh x y hx hy
  obtain ⟨c, h3, h4⟩ := eqv_plain hh y z hy hz
  obtain ⟨d, h5, h6⟩ := eqv_plain hh x z hx hz
  rw [h1] at h; rw [h3] at h'
  cases h; cases h'
  rw [h5, h6.mpr (same_trans x y z (h2.mp rfl) (h4.mp rfl))]

/-- A dictionary from two strings to a list and a ratio. -/
def dictA : V := .dict 1 default' default'
  (.cons (.str 2 (some [97])) (.list 3 default' (.cons (.int 4 5) (.cons (.float 5 .negZero) .nil)))
    (.cons (.str 6 (some [98])) (.ratio 7 1 2) .nil))
where default' : Iid := ⟨0, 0, 0, 0, 0, 0, 0, 0, 0, 0, 0⟩

/-- The same content in another order, with other objects. -/
def dictB : V := .dict 11 dictA.default' dictA.default'
  (.cons (.str 12 (some [98])) (.ratio 13 2 4)
    (.cons (.str 14 (some [97])) (.list 15 dictA.default' (.cons (.int 16 5) (.cons (.float 17 (.fin 0)) .nil))) .nil))

theorem plainA : Plain dictA := by
  simp [dictA, Plain, PlainK, PlainL, keyOf, keysOf, Verif.CoreTypes.Ratio.Valid, Verif.CoreTypes.Ratio.NoMin,
    Verif.CoreTypes.Is64]

theorem plainB : Plain dictB := by
  simp [dictB, Plain, PlainK, PlainL, keyOf, keysOf, Verif.CoreTypes.Ratio.Valid, Verif.CoreTypes.Ratio.NoMin,
    Verif.CoreTypes.Is64]

example : Plain dictA ∧ Plain dictB ∧ dictA ≠ dictB ∧ eqv hd0 dictA dictB = some true :=
  ⟨plainA, plainB, by decide, by decide +kernel⟩

example : ∃ x, Plain x ∧ eqv hd0 dictA x = some false := ⟨.int 1 1, by simp [Plain], by decide +kernel⟩

/-! ## C80: equality of all values -/

/-- Comparing a number with null crashes, while a string answers. -/
theorem C80_null_violation :
    eqv hd0 (.int 1 5) .null = none ∧ eqv hd0 (.bool 1 true) .null = none ∧ eqv hd0 (.float 1 (.fin 1)) .null = none ∧
    eqv hd0 (.cplx 1 (.fin 1) (.fin 1)) .null = none ∧ eqv hd0 (.str 1 (some [97])) .null = some false := by
  decide +kernel

/-- A list with a null element crashes in comparisons in which the other list has something else there. -/
theorem C80_null_item_violation : ∃ x y : VL,
    eqv hd0 (.list 1 ⟨0, 0, 0, 0, 0, 0, 0, 0, 0, 0, 0⟩ x) (.list 2 ⟨0, 0, 0, 0, 0, 0, 0, 0, 0, 0, 0⟩ y) = none ∧
    eqv hd0 (.list 2 ⟨0, 0, 0, 0, 0, 0, 0, 0, 0, 0, 0⟩ y) (.list 1 ⟨0, 0, 0, 0, 0, 0, 0, 0, 0, 0, 0⟩ x) = none :=
  ⟨.cons .null .nil, .cons (.int 3 5) .nil, by decide +kernel⟩

/-- Equality is not symmetric: a string object without characters crashes when asked about the empty string, which in
turn says that they differ. -/
theorem C80_null_string_violation : eqv hd0 (.str 1 none) (.str 2 (some [])) = none ∧
    eqv hd0 (.str 2 (some [])) (.str 1 none) = some false := by decide +kernel

/-- Different strings are equal when they agree up to a zero character and have the same length. -/
theorem C80_zero_violation : eqv hd0 (.str 1 (some [97, 0, 98])) (.str 2 (some [97, 0, 99])) = some true := by
  decide +kernel

/-- Not-a-number does not equal itself, also as the same object; inside a list the same object does. -/
theorem C80_nan_violation :
    eqv hd0 (.float 1 .nan) (.float 1 .nan) = some false ∧
    eqv hd0 (.list 2 ⟨0, 0, 0, 0, 0, 0, 0, 0, 0, 0, 0⟩ (.cons (.float 1 .nan) .nil))
      (.list 3 ⟨0, 0, 0, 0, 0, 0, 0, 0, 0, 0, 0⟩ (.cons (.float 1 .nan) .nil)) = some true := by decide +kernel

/-- What is missing for all values: null references, strings with zero characters and not-a-numbers. -/
theorem C80_equals_partial (hd : Fl → Nat) (hh : HashOk hd) (x y : V) (hx : Plain x) (hy : Plain y) :
    (eqv hd x y).isSome ∧ (eqv hd x y = some true ↔ Same x y) := by
  obtain ⟨b, h1, h2⟩ := eqv_plain hh x y hx hy
  rw [h1]; simp [h2]

/-! ## C81: dictionaries with proper keys -/

/-- Equal keys have equal hash codes, and both are defined. -/
theorem C81_hash (hd : Fl → Nat) (hh : HashOk hd) (k k' : V) (h : (keyOf k).isSome) (h' : (keyOf k').isSome)
    (e : eqv hd k k' = some true) : (hash hd k).isSome ∧ hash hd k = hash hd k' := by
  obtain ⟨c, hc⟩ := Option.isSome_iff_exists.mp h
  obtain ⟨c', hc'⟩ := Option.isSome_iff_exists.mp h'
  rw [eqv_key k k' hc, leafEq_key k k' c c' hc hc'] at e
  have : c = c' := by simpa using e
  subst this
  exact ⟨hash_some hc, hash_eq hh hc hc'⟩

/-- A dictionary answers every sequence of calls like a map that keeps the order of insertion. -/
theorem C81_map (hd : Fl → Nat) (hh : HashOk hd) (ops : List DOp) (ho : ∀ o ∈ ops, KeyOk o) :
    (runTrace (Dict.step hd) Dict.init ops).2 = (runTrace Map.step ⟨[], false⟩ ops).2 :=
  (rep_run hh ops ho rep_init).2

/-- No call crashes. -/
theorem C81_no_crash (hd : Fl → Nat) (hh : HashOk hd) (ops : List DOp) (ho : ∀ o ∈ ops, KeyOk o) (o : DOp) (r : DOut)
    (h : (o, r) ∈ (runTrace (Dict.step hd) Dict.init ops).2) : r ≠ .crash := by
  rw [C81_map hd hh ops ho] at h
  have key : ∀ (m : Map) (ops : List DOp), (o, r) ∈ (runTrace Map.step m ops).2 → r ≠ .crash := by
    intro m ops
    induction ops generalizing m with
    | nil => simp [runTrace]
    | cons p ops ih =>
      simp only [runTrace, List.mem_cons, Prod.mk.injEq]
      rintro (⟨-, rfl⟩ | h)
      · cases p <;> simp only [Map.step] <;> repeat' split
        all_goals simp
      · exact ih _ h
  exact key _ _ h

example : (∀ o ∈ [DOp.set (.str 1 (some [97])) (.int 2 1), .set (.str 3 (some [97])) .null, .get (.str 4 (some [97])), .count],
      KeyOk o) ∧
    (runTrace (Dict.step hd0) Dict.init [.set (.str 1 (some [97])) (.int 2 1), .set (.str 3 (some [97])) .null,
      .get (.str 4 (some [97])), .count]).2.map Prod.snd = [.ok, .ok, .val .null, .num 1] := by decide +kernel

/-! ## C82: dictionaries with any keys -/

/-- Two equal ratios are two keys, and a third equal one is not found. -/
theorem C82_ratio_violation : eqv hd0 (.ratio 1 1 2) (.ratio 2 1 2) = some true ∧
    (runTrace (Dict.step hd0) Dict.init [.set (.ratio 1 1 2) (.int 5 1), .set (.ratio 2 1 2) (.int 6 2), .count,
      .hasKey (.ratio 3 1 2)]).2.map Prod.snd = [.ok, .ok, .num 2, .bool false] := by decide +kernel

/-- Asking whether a dictionary has a null key crashes when there is a key with hash code 0. -/
theorem C82_null_violation :
    (runTrace (Dict.step hd0) Dict.init [.set (.int 1 0) (.int 5 1), .hasKey .null]).2.map Prod.snd = [.ok, .crash] ∧
    (runTrace (Dict.step hd0) Dict.init [.set (.int 1 1) (.int 5 1), .hasKey .null]).2.map Prod.snd =
      [.ok, .bool false] := by decide +kernel

/-- The hash code of a negative float is undefined. -/
theorem C82_float_violation : hash hd0 (.float 1 (.fin (-1))) = none ∧ hash hd0 (.float 1 .nan) = none ∧
    hash hd0 (.float 1 .pinf) = none := by decide +kernel

/-- What is missing: keys that are ratios, lists or dictionaries, floats outside the range of a `SizeT`, strings with zero
characters, null. -/
theorem C82_map_partial (hd : Fl → Nat) (hh : HashOk hd) (ops : List DOp) (ho : ∀ o ∈ ops, KeyOk o) :
    (runTrace (Dict.step hd) Dict.init ops).2 = (runTrace Map.step ⟨[], false⟩ ops).2 := C81_map hd hh ops ho

/-! ## C83: copies -/

/-- A copy has the content of the original, element types included; what is not a container is shared. -/
theorem C83_content (x : V) (n : Nat) : bare (clone x n).1 = bare x := clone_bare x n

/-- All the containers in a copy are new and different objects. -/
theorem C83_new (x : V) (n : Nat) :
    (holders (clone x n).1).Nodup ∧ ∀ a ∈ holders (clone x n).1, n ≤ a := by
  have h := (clone_fresh x n).2
  exact ⟨h.1, fun a ha => (h.2 a ha).1⟩

/-- A copy of a plain value equals the original. -/
theorem C83_equal (hd : Fl → Nat) (hh : HashOk hd) (x : V) (n : Nat) (h : Plain x) :
    eqv hd x (clone x n).1 = some true := by
  obtain ⟨h1, h2⟩ := clone_same x n h
  obtain ⟨b, h3, h4⟩ := eqv_plain hh x _ h h2
  rw [h3, h4.mpr h1]

example : Plain dictA ∧ holders dictA = [1, 3] ∧ holders (clone dictA 100).1 = [101, 100] :=
  ⟨plainA, by decide +kernel, by decide +kernel⟩

/-! ## C84: comparison of values of one kind -/

theorem C84_bool (a b : Nat) (x y : Bool) :
    Says (compareTo (.bool a x) (.bool b y)) (x < y) (x = y) (y < x) := by
  cases x <;> cases y <;> simp [compareTo, V.convertible, V.toBool, withOther, cmpBy, Says]

theorem C84_int (a b : Nat) (x y : Int) : Says (compareTo (.int a x) (.int b y)) (x < y) (x = y) (y < x) := by
  simp only [compareTo, V.convertible, V.toInt, withOther, if_true]
  exact cmpBy_says (by simp) (by simp) (by omega) (by omega)

theorem C84_float (a b : Nat) (x y : Fl) (hx : x ≠ .nan) (hy : y ≠ .nan) :
    Says (compareTo (.float a x) (.float b y)) (place x < place y) (place x = place y) (place y < place x) := by
  simp only [compareTo, V.convertible, V.toFloat, withOther, if_true]
  exact cmpBy_says (lt_place y x hy hx) (lt_place x y hx hy) (fun h h' => lt_asymm h h')
    ⟨fun e => by simp [e], fun ⟨h, h'⟩ => le_antisymm (not_lt.mp h') (not_lt.mp h)⟩

theorem C84_string (a b : Nat) (s t : List UInt8) (hs : 0 ∉ s) (ht : 0 ∉ t) :
    Says (compareTo (.str a (some s)) (.str b (some t))) (s < t) (s = t) (t < s) := by
  simp only [compareTo, cstr_of s hs, cstr_of t ht]
  exact strCmp_says s t

/-- Values of one kind: booleans, integers, floats or strings. -/
def OneKind : V → V → Prop
  | .bool _ _, .bool _ _ | .int _ _, .int _ _ | .float _ _, .float _ _ | .str _ _, .str _ _ => True
  | _, _ => False

/-- The comparison says "equal" exactly when `equals` does. -/
theorem C84_equals (hd : Fl → Nat) (hh : HashOk hd) (x y : V) (hx : Plain x) (hy : Plain y) (hk : OneKind x y) :
    compareTo x y = .equal ↔ eqv hd x y = some true := by
  obtain ⟨b, h1, h2⟩ := eqv_plain hh x y hx hy
  rw [h1, Option.some_inj, h2]
  cases x <;> cases y <;> simp only [OneKind] at hk
  case bool.bool => simp only [Same]; exact (C84_bool _ _ _ _).2.1
  case int.int => simp only [Same]; exact (C84_int _ _ _ _).2.1
  case float.float =>
    simp only [Plain] at hx hy
    simp only [Same]; exact (C84_float _ _ _ _ hx hy).2.1.trans (place_eq _ _ hx hy)
  case str.str a s b t =>
    cases s <;> cases t <;> simp only [Plain] at hx hy
    simp only [Same, Option.some_inj]; exact (C84_string _ _ _ _ hx hy).2.1

example : compareTo (.float 1 .negZero) (.float 2 (.fin 0)) = .equal ∧ compareTo (.int 1 3) (.int 2 2) = .greater ∧
    compareTo (.str 1 (some [97])) (.str 2 (some [97, 98])) = .lower ∧
    compareTo (.float 1 .ninf) (.float 2 (.fin (-5))) = .lower := by decide +kernel

/-! ## C85: comparison of values of different kinds -/

/-- Complex numbers always compare as equal. -/
theorem C85_complex_violation (a b : Nat) (x x' y y' : Fl) : compareTo (.cplx a x x') (.cplx b y y') = .equal := rfl

/-- An integer compared with a float drops the fraction, a float compared with an integer does not. -/
theorem C85_mixed_violation : compareTo (.int 1 1) (.float 2 (.fin (3 / 2))) = .equal ∧
    compareTo (.float 2 (.fin (3 / 2))) (.int 1 1) = .greater := by decide +kernel

/-- A boolean compared with an integer uses its lowest 8 bits: 256 is false, 2 is greater than true. -/
theorem C85_bool_violation : compareTo (.bool 1 false) (.int 2 256) = .equal ∧
    compareTo (.bool 1 true) (.int 2 2) = .lower := by decide +kernel

/-- Not-a-number compares as equal to everything. -/
theorem C85_nan_violation : compareTo (.float 1 .nan) (.float 2 (.fin 1)) = .equal ∧
    eqv hd0 (.float 1 .nan) (.float 2 (.fin 1)) = some false := by decide +kernel

/-- A float compared with an integer below 2^53 is exact. Missing: the other direction, other pairs of kinds. -/
theorem C85_float_int_partial (a b : Nat) (x : Fl) (i : Int) (hx : x ≠ .nan) (hi : i.natAbs < 9007199254740992) :
    Says (compareTo (.float a x) (.int b i)) (place x < place (.fin i)) (place x = place (.fin i))
      (place (.fin i) < place x) := by
  simp only [compareTo, V.convertible, V.toFloat, withOther, if_true, intToFl_small i hi]
  exact cmpBy_says (lt_place _ x (by simp) hx) (lt_place x _ hx (by simp)) (fun h h' => lt_asymm h h')
    ⟨fun e => by simp [e], fun ⟨h, h'⟩ => le_antisymm (not_lt.mp h') (not_lt.mp h)⟩

example : compareTo (.float 1 (.fin (5 / 2))) (.int 2 2) = .greater := by decide +kernel

end Verif.Values.Props
