import Verif.DataPacket.Rules
import Mathlib.Tactic.Ring

/-!
# C21, C22: implicit data rules
-/

namespace Verif.DataPacket

/-! ## C21: the linear rule -/

/-- Every element of the array computed for a linear rule packet is `delta·i + (packet offset + start)`, and
is what computing that single sample returns, in the arithmetic of any sample type. The array is written
within its bounds and nothing past the samples changes. -/
theorem C21_bulk_is_formula_and_single {V : Type} (A : Arith V) (delta start : V) (off : Int) (n : Nat)
    (out : List V) (h : n ≤ out.length) :
    ∃ o, linearRule A delta start off n out = some o ∧ o.length = out.length ∧
      (∀ i, i < n → o[i]? = some (A.add (A.mul delta (A.ofIndex i)) (A.add (A.ofOffset off) start)) ∧
        o[i]? = some (linearSample A delta start off i)) ∧
      (∀ i, n ≤ i → o[i]? = out[i]?) := by
  obtain ⟨o, e, l, g⟩ := fill_some
    (fun i => A.add (A.mul delta (A.ofIndex i)) (A.add (A.ofOffset off) start)) n 0 out (by omega)
  refine ⟨o, e, l, fun i hi => ?_, fun i hi => ?_⟩
  · rw [g i, if_pos (by omega)]; exact ⟨rfl, rfl⟩
  · rw [g i, if_neg (by omega)]

example : linearRule (bvArith 8) 10 3 250 3 [0, 0, 0, 77] = some [253, 7, 17, 77] := by decide

/-- The array must hold all samples: otherwise the computation leaves it. -/
theorem C21_bounds {V : Type} (A : Arith V) (delta start : V) (off : Int) (n : Nat) (out : List V) :
    (linearRule A delta start off n out).isSome = true ↔ n ≤ out.length := by
  constructor
  · intro hs
    by_cases h : n ≤ out.length
    · exact h
    · unfold linearRule at hs
      rw [fill_none _ _ _ _ (by omega) (by omega)] at hs
      cases hs
  · intro h
    obtain ⟨o, e, _⟩ := C21_bulk_is_formula_and_single A delta start off n out h
    rw [e]; rfl

example : linearRule (bvArith 8) 10 3 0 3 [0, 0] = none := by decide

/-- For integer sample types: if the mathematical value of a sample is in the range of the type, that is
the value computed; in general it is that value modulo `2^w`. -/
theorem C21_integer_exact (w : Nat) (delta start : BitVec w) (off : Int) (i : Nat) :
    linearSample (bvArith w) delta start off i = BitVec.ofInt w (delta.toInt * i + (off + start.toInt)) ∧
    (-(2 ^ w : Int) ≤ 2 * (delta.toInt * i + (off + start.toInt)) →
      2 * (delta.toInt * i + (off + start.toInt)) < 2 ^ w →
      (linearSample (bvArith w) delta start off i).toInt = delta.toInt * i + (off + start.toInt)) := by
  have e : linearSample (bvArith w) delta start off i =
      BitVec.ofInt w (delta.toInt * i + (off + start.toInt)) := by
    show delta * BitVec.ofNat w i + (BitVec.ofInt w off + start) = _
    rw [BitVec.ofInt_add, BitVec.ofInt_mul, BitVec.ofInt_add, BitVec.ofInt_toInt, BitVec.ofInt_toInt,
      BitVec.ofInt_natCast]
  refine ⟨e, fun h1 h2 => ?_⟩
  rw [e, BitVec.toInt_ofInt, Int.bmod_def]
  generalize delta.toInt * i + (off + start.toInt) = x at h1 h2
  have hp : ((2 ^ w : Nat) : Int) = (2 : Int) ^ w := by norm_cast
  rw [hp]
  generalize (2 : Int) ^ w = m at h1 h2
  have hm : 0 < m := by omega
  by_cases hx : 0 ≤ x
  · rw [Int.emod_eq_of_lt hx (by omega), if_pos (by omega)]
  · have : x % m = x + m := by
      rw [← Int.add_emod_right x m, Int.emod_eq_of_lt (by omega) (by omega)]
    rw [this, if_neg (by omega)]; omega

example : (linearSample (bvArith 64) 1000 (-5) 1700000000000000 123).toInt = 1700000000122995 := by decide

/-- Packets whose offset continues where the previous packet ended continue the same linear sequence: sample
`j` of the second packet is what sample `n + j` of the first would be. -/
theorem C21_packets_continue (w : Nat) (delta start : BitVec w) (off : Int) (n j : Nat) :
    linearSample (bvArith w) delta start (off + delta.toInt * n) j =
      linearSample (bvArith w) delta start off (n + j) := by
  rw [(C21_integer_exact w delta start (off + delta.toInt * n) j).1,
    (C21_integer_exact w delta start off (n + j)).1]
  congr 1
  push_cast
  ring

example : linearSample (bvArith 16) 10 7 (100 + 30) 1 = linearSample (bvArith 16) 10 7 100 4 := by decide

/-- Range samples: element `i` of the array is the single sample `i`. The start of the range is
`delta·i + offset + start`, its end the marker `-1` for "until the next one". -/
theorem C21_range_samples (delta start : RangeV) (off : Int) (n : Nat) (out : List RangeV)
    (h : n ≤ out.length) :
    ∃ o, rangeRule delta start off n out = some o ∧ o.length = out.length ∧
      ∀ i, i < n → o[i]? = some (rangeSample delta start off i) ∧
        (rangeSample delta start off i).start =
          delta.start * BitVec.ofNat 64 i + start.start + BitVec.ofInt 64 off ∧
        (rangeSample delta start off i).stop = -1 := by
  obtain ⟨o, e, l, g⟩ := fill_some (fun i =>
    let r := RangeV.of off
    { r with start := r.start + (BitVec.ofNat 64 i * delta.start + start.start) }) n 0 out (by omega)
  refine ⟨o, e, l, fun i hi => ⟨?_, ?_, rfl⟩⟩
  · rw [g i, if_pos (by omega)]
    simp only [rangeSample, RangeV.of, Option.some.injEq, RangeV.mk.injEq, and_true]
    rw [BitVec.mul_comm, BitVec.add_comm, BitVec.add_assoc]
  · simp only [rangeSample, RangeV.of]
    rw [BitVec.add_assoc]

example : rangeRule ⟨10, 4⟩ ⟨3, 9⟩ 100 3 [⟨0, 0⟩, ⟨0, 0⟩, ⟨0, 0⟩] =
    some [⟨103, -1⟩, ⟨113, -1⟩, ⟨123, -1⟩] := by decide

/-! ## C22: the constant rule -/

/-- Size in bytes of the raw data of a constant rule packet with `k` changes. -/
def constSize (size k : Nat) : Nat := size + (size + 4) * k

theorem constRule_eq {V : Type} (size n : Nat) (c : V) (es : List (Nat × V)) (out : List V) :
    constRule size (constSize size es.length) n c es out = constLoop n es.length es 0 c out := by
  unfold constRule constSize
  rw [if_neg (by omega), entryCount_exact]

theorem constSample_eq {V : Type} (size idx : Nat) (c : V) (es : List (Nat × V)) :
    constSample size (constSize size es.length) idx c es =
      .ok (if idx = 0 then c else walk (idx - 1) c es) := by
  unfold constSample constSize
  rw [if_neg (by omega), entryCount_exact, constSampleLoop_spec _ _ _ _ (Nat.zero_le _)]

/-- The array computed for a constant rule packet whose changes are in order and lie within the packet:
element `i` is the value of the last change at or before `i` (the initial value if there is none). -/
theorem C22_bulk_value {V : Type} (size n : Nat) (c : V) (es : List (Nat × V)) (out : List V)
    (hs : Sorted es) (hn : n ≤ out.length) (hp : ∀ e ∈ es, e.1 ≤ n) :
    ∃ o, constRule size (constSize size es.length) n c es out = .ok o ∧ o.length = out.length ∧
      ∀ i, i < n → o[i]? = some (constAt c es i) := by
  obtain ⟨o, e, l, g⟩ := constLoop_spec n es 0 c out hn (fun e he _ => by
    have := hp e (List.mem_of_find?_eq_some he); omega)
  refine ⟨o, by rw [constRule_eq]; exact e, l, fun i hi => ?_⟩
  rw [g i hi, if_pos (Nat.zero_le _), walk_sorted i es c hs]

example : constRule 8 (constSize 8 2) 5 7 [(2, 9), (4, 1)] [0, 0, 0, 0, 0] = .ok [7, 7, 9, 9, 1] := by decide

/-- The array is left exactly if the first change at or after the end of the packet lies past the end of
the array. Such a change need not even concern a sample of the packet. -/
theorem C22_bounds_iff {V : Type} (size n : Nat) (c : V) (es : List (Nat × V)) (out : List V)
    (h0 : 0 < n) (hn : n ≤ out.length) :
    constRule size (constSize size es.length) n c es out = .oob ↔
      ∃ e, es.find? (fun e => n ≤ e.1) = some e ∧ out.length < e.1 := by
  rw [constRule_eq]
  constructor
  · intro h
    apply Classical.byContradiction
    intro hne
    obtain ⟨o, e, _⟩ := constLoop_spec n es 0 c out hn (fun e he _ => by
      apply Classical.byContradiction
      intro hlt
      exact hne ⟨e, he, by omega⟩)
    rw [e] at h; cases h
  · rintro ⟨e, he, hl⟩
    exact constLoop_oob n es 0 c out e h0 hn he hl

example : constRule 8 (constSize 8 1) 2 7 [(2, 9)] [0, 0] = .ok [7, 7] := by decide

/-- Violated: a change positioned past the end of the packet makes reading the packet write past the end of
the sample buffer. Nothing checks the positions when such a packet is created. -/
theorem C22_violation_write_past_end :
    (∃ d : Descr Nat, d.validate = true ∧
      ∃ p, Pkt.createConstant d 2 7 [(5, 9)] = some p ∧ (p.getData ⟨(· + ·), (· * ·), id, Int.toNat⟩ 0).2 = .oob) :=
  ⟨⟨.constant, none, none, .int, 8, 8⟩, rfl, _, rfl, by decide⟩

/-- Reading one sample by index of a constant rule packet returns what the array holds one position
*before* that index (at index 0 it returns the initial value).
Partial: the property asks for the sample at that index. -/
theorem C22_single_is_previous_partial {V : Type} (size idx : Nat) (c : V) (es : List (Nat × V))
    (hs : Sorted es) :
    constSample size (constSize size es.length) idx c es =
      .ok (if idx = 0 then c else constAt c es (idx - 1)) := by
  rw [constSample_eq]
  by_cases h : idx = 0
  · rw [if_pos h, if_pos h]
  · rw [if_neg h, if_neg h, walk_sorted _ es c hs]

example : constSample 8 (constSize 8 2) 3 7 [(2, 9), (4, 1)] = .ok 9 := by decide

theorem constAt_no_position {V : Type} (c : V) (es : List (Nat × V)) (i : Nat) (h : ∀ e ∈ es, e.1 ≠ i) :
    (if i = 0 then c else constAt c es (i - 1)) = constAt c es i := by
  unfold constAt
  by_cases h0 : i = 0
  · rw [if_pos h0]
    have : (es.filter fun e => e.1 ≤ i) = [] := by
      rw [List.filter_eq_nil_iff]
      intro a ha
      have := h a ha
      simp only [decide_eq_true_eq]; omega
    rw [this]; rfl
  · rw [if_neg h0]
    have : (es.filter fun e => e.1 ≤ i - 1) = es.filter fun e => e.1 ≤ i := by
      apply List.filter_congr
      intro a ha
      have := h a ha
      rw [decide_eq_decide]; omega
    rw [this]

/-- A single sample read by index agrees with the array at every index that is not the position of a
change. Partial: at the positions of changes it need not, see the violation below. -/
theorem C22_single_agrees_off_changes_partial {V : Type} (size n idx : Nat) (c : V) (es : List (Nat × V))
    (out : List V) (hs : Sorted es) (hn : n ≤ out.length) (hp : ∀ e ∈ es, e.1 ≤ n) (hi : idx < n)
    (hx : ∀ e ∈ es, e.1 ≠ idx) :
    ∃ o v, constRule size (constSize size es.length) n c es out = .ok o ∧
      constSample size (constSize size es.length) idx c es = .ok v ∧ o[idx]? = some v := by
  obtain ⟨o, e, _, g⟩ := C22_bulk_value size n c es out hs hn hp
  refine ⟨o, _, e, C22_single_is_previous_partial size idx c es hs, ?_⟩
  rw [g idx hi, constAt_no_position c es idx hx]

example : constRule 8 (constSize 8 1) 4 7 [(2, 9)] [0, 0, 0, 0] = .ok [7, 7, 9, 9] ∧
    constSample 8 (constSize 8 1) 3 7 [(2, 9)] = .ok 9 := by decide

/-- Violated: at the position of a change the single sample is the old value, the array holds the new one. -/
theorem C22_violation_single_at_change :
    constRule 8 (constSize 8 1) 4 7 [(2, 9)] [0, 0, 0, 0] = .ok [7, 7, 9, 9] ∧
    constSample 8 (constSize 8 1) 2 7 [(2, 9)] = .ok 7 := by decide

/-- The last sample is the single sample at the last index, for changes in order. -/
theorem C22_last_is_single_at_end {V : Type} (size n : Nat) (c : V) (es : List (Nat × V)) (hs : Sorted es)
    (h0 : 0 < n) :
    constLast size (constSize size es.length) n c es =
      constSample size (constSize size es.length) (n - 1) c es := by
  rw [C22_single_is_previous_partial size _ c es hs]
  unfold constLast constSize
  rw [if_neg (by omega), entryCount_exact, if_neg (by omega), List.take_length, constLastLoop_spec,
    List.filter_reverse, List.head?_reverse]
  congr 1
  by_cases h1 : n - 1 = 0
  · rw [if_pos h1]
    have : (es.filter fun e => n - 1 > e.1) = [] := by
      rw [List.filter_eq_nil_iff]
      intro a _
      simp only [decide_eq_true_eq]; omega
    rw [this]; rfl
  · rw [if_neg h1]
    unfold constAt
    have : (es.filter fun e => n - 1 > e.1) = es.filter fun e => e.1 ≤ n - 1 - 1 := by
      apply List.filter_congr
      intro a _
      rw [decide_eq_decide]; omega
    rw [this]

example : constLast 8 (constSize 8 2) 5 7 [(2, 9), (4, 1)] = .ok 9 := by decide

/-- Violated: the last sample is not the last element of the array if the value changes there. -/
theorem C22_violation_last_at_change :
    constRule 8 (constSize 8 1) 3 7 [(2, 9)] [0, 0, 0] = .ok [7, 7, 9] ∧
    constLast 8 (constSize 8 1) 3 7 [(2, 9)] = .ok 7 := by decide

/-- Raw data too short for a value is refused by all three computations. -/
theorem C22_empty_refused {V : Type} (size inputSize n idx : Nat) (c : V) (es : List (Nat × V))
    (out : List V) (h : inputSize < size) :
    constRule size inputSize n c es out = .throws ∧ constSample size inputSize idx c es = .throws ∧
    constLast size inputSize n c es = .throws := by
  unfold constRule constSample constLast
  rw [if_pos h, if_pos h, if_pos h]
  exact ⟨rfl, rfl, rfl⟩

example : constRule 8 4 3 7 [] [0, 0, 0] = .throws := by decide

end Verif.DataPacket
