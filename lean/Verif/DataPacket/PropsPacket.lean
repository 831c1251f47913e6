import Verif.DataPacket.Packet

/-!
# C51: values by index agree with the sample buffer; C52: reading, writing and reusing a packet
-/

namespace Verif.DataPacket

/-! ## C51 -/

/-- Descriptors for which reading by index works: no reference domain offset on an explicit rule, and a
reference domain offset (even zero) only with an integer sample type. -/
def Descr.Indexable {V : Type} (d : Descr V) : Prop :=
  (d.rule.isExplicit = true → d.hasRef = false) ∧ (d.refOffset.isSome = true → d.kind = .int)

/-- After any history of a packet in which it was not written to after having been read, the value read by
index is the element of the sample buffer at that index, for every index below the sample count; the buffer
has as many elements as the packet has samples; the last value is the last element.
Partial: not for constant rule packets and the descriptors excluded by `Indexable`. -/
theorem C51_value_by_index_partial {V : Type} (A : Arith V) (junk : V) (d : Descr V) (n : Nat) (off : Int)
    (f : Nat → V) (hg : d.Good) (hf : Fits d n) (ops : List (Op V)) :
    let w0 : View V := ⟨d, n, off, f, none⟩
    let p0 := Pkt.create d n off f
    let p := (runTrace (step A junk) p0 ops).1
    let w := w0.run (runTrace (step A junk) p0 ops).2
    OpsOk A junk p0 w0 ops → w.Clean → w.descr.Indexable → (∀ v, A.add v (A.ofOffset 0) = v) →
    ∃ l, (p.getData A junk).2.list = some l ∧ l.length = w.count ∧
      (∀ i v, l[i]? = some v → p.valueByIndex A i = .value v) ∧
      (∀ v, l.getLast? = some v → p.lastValue A = .value v) ∧
      (∀ i, l.length ≤ i → p.valueByIndex A i = .outOfRange) := by
  intro w0 p0 p w ok hcl hix hz
  have h : Inv A p w := Inv.run junk ops p0 w0 (Inv.create A d n off f hg hf) ok
  refine ⟨_, (h.getData junk).2, by unfold specData; simp, ?_⟩
  have hsame : (if w.descr.rawOnly = true then w.cells else w.seen.getD w.cells) = w.cells := by
    split
    · rfl
    · cases e : w.seen with
      | none => rfl
      | some g => exact hcl g e
  rw [hsame]
  have key : ∀ i, i < w.count → p.valueByIndex A i = .value (specSample A w.descr w.offset w.cells i) := by
    intro i hi
    have hbuild : ∀ v, w.descr.scaling = none → w.descr.build A v =
        .value (match w.descr.refOffset with | some o => if o = 0 then v else A.add v (A.ofOffset o) | none => v) := by
      intro v hs
      unfold Descr.build
      rw [hs]
      cases ho : w.descr.refOffset with
      | none => rfl
      | some o =>
        dsimp only
        rw [if_pos (hix.2 (by rw [ho]; rfl))]
        by_cases h0 : o = 0
        · subst h0; rw [if_pos rfl, hz]
        · rw [if_neg h0]
    have hraw : w.descr.rule.isExplicit = true → p.data = .cells w.cells ∧ i < p.rawRoom := by
      intro hex
      have := h.count
      obtain ⟨a, b⟩ := h.cells.rawRoom (by rw [h.descr]; exact h.good.1) (by rw [h.descr]; exact hex) (by omega)
      exact ⟨a, by omega⟩
    have hlt : ¬ i ≥ p.count := by rw [h.count]; omega
    unfold Pkt.valueByIndex Pkt.rawValue
    rw [if_neg hlt, h.descr]
    rcases h.good.cases with ⟨hru, s, hs, hro⟩ | ⟨hru, hs, hrf⟩ | ⟨hru, hs, hrf, hk⟩ | ⟨a, b, hru, hs, hk⟩
    · obtain ⟨h1, h2⟩ := hraw (by rw [hru]; rfl)
      have hnr : ¬ w.descr.rawOnly = true := by unfold Descr.rawOnly; rw [hs]; simp
      rw [if_neg hnr, if_pos (by rw [hs]; rfl), h1]
      dsimp only
      rw [if_pos h2]
      dsimp only
      unfold Descr.build specSample
      rw [hs, hro, hru]
    · obtain ⟨h1, h2⟩ := hraw (by rw [hru]; rfl)
      have hrw : w.descr.rawOnly = true := by unfold Descr.rawOnly Descr.hasRule; rw [hs, hru, hrf]; rfl
      rw [if_pos hrw, h1]
      dsimp only
      rw [if_pos h2]
      dsimp only
      rw [hbuild _ hs]
      unfold specSample
      rw [hru, hs]
      rfl
    · have := hix.1 (by rw [hru]; rfl)
      rw [hrf] at this; cases this
    · have hnr : ¬ w.descr.rawOnly = true := by unfold Descr.rawOnly Descr.hasRule; rw [hru]; simp
      rw [if_neg hnr, if_neg (by rw [hs]; simp), hru]
      dsimp only
      rw [hbuild _ hs, h.offset]
      unfold specSample linearSample
      rw [hru]
      rfl
  have hn32 : w.count < U32 := h.fits.1
  have oor : ∀ i, w.count ≤ i → p.valueByIndex A i = .outOfRange := by
    intro i hi
    unfold Pkt.valueByIndex Pkt.rawValue
    rw [if_pos (show i ≥ p.count by rw [h.count]; exact hi)]
  refine ⟨fun i v hv => ?_, fun v hv => ?_, fun i hi => ?_⟩
  · unfold specData at hv
    rw [List.getElem?_map] at hv
    by_cases hi : i < w.count
    · rw [List.getElem?_range hi] at hv
      rw [key i hi]
      exact congrArg Read.value (Option.some.inj hv)
    · rw [List.getElem?_eq_none (by rw [List.length_range]; omega)] at hv
      cases hv
  · unfold specData at hv
    rw [List.getLast?_eq_getElem?, List.getElem?_map, List.length_map, List.length_range] at hv
    by_cases h0 : w.count = 0
    · rw [h0] at hv; cases hv
    · rw [List.getElem?_range (by omega)] at hv
      have hidx : (p.count + U32 - 1) % U32 = w.count - 1 := by
        rw [h.count, show w.count + U32 - 1 = (w.count - 1) + U32 from by omega, Nat.add_mod_right,
          Nat.mod_eq_of_lt (by omega)]
      unfold Pkt.lastValue
      rw [hidx, key _ (by omega)]
      exact congrArg Read.value (Option.some.inj hv)
  · refine oor i ?_
    unfold specData at hi
    simpa using hi

/-- A linear rule packet reused from a scaled one: the hypotheses can be met. -/
example :
    let A : Arith Nat := ⟨(· + ·), (· * ·), id, Int.toNat⟩
    let d1 : Descr Nat := ⟨.explicit, some (· * 2 + 1), none, .float, 8, 4⟩
    let d2 : Descr Nat := ⟨.linear 10 3, none, some 5, .int, 8, 8⟩
    let p := (runTrace (step A 0) (Pkt.create d1 3 0 id) [.data, .reuse (some d2) (some 4) (some 100) true id]).1
    (p.getData A 0).2 = .samples [108, 118, 128, 138] ∧ p.valueByIndex A 2 = .value 128 ∧
    p.lastValue A = .value 138 ∧ p.valueByIndex A 4 = .outOfRange := by decide

/-- Every index at or above the sample count is refused, whatever the packet. -/
theorem C51_index_checked {V : Type} (A : Arith V) (p : Pkt V) (i : Nat) (h : p.count ≤ i) :
    p.valueByIndex A i = .outOfRange := by
  unfold Pkt.valueByIndex Pkt.rawValue
  rw [if_pos h]

example : (Pkt.create (⟨.linear 10 3, none, none, .int, 8, 8⟩ : Descr Nat) 4 0 id).valueByIndex
    ⟨(· + ·), (· * ·), id, Int.toNat⟩ 4 = .outOfRange := by decide

/-- The last value of a packet without samples is refused. -/
theorem C51_last_of_empty_refused {V : Type} (A : Arith V) (p : Pkt V) (h : p.count = 0) :
    p.lastValue A = .outOfRange := by
  unfold Pkt.lastValue
  exact C51_index_checked A p _ (by rw [h]; exact Nat.zero_le _)

example : (Pkt.create (⟨.linear 10 3, none, none, .int, 8, 8⟩ : Descr Nat) 0 0 id).lastValue
    ⟨(· + ·), (· * ·), id, Int.toNat⟩ = .outOfRange := by decide

/-- What descriptor validation guarantees: post scaling only with an explicit rule and no reference domain
offset; no reference domain offset with a constant rule; no nonzero one with ranges and other non-numbers. -/
theorem C51_validation {V : Type} (d : Descr V) (h : d.validate = true) :
    (d.scaling.isSome = true → d.rule.isExplicit = true ∧ d.refOffset = none) ∧
    (d.rule.isConstant = true → d.refOffset = none) ∧
    (∀ o, d.refOffset = some o → d.kind = .rest → o = 0) := by
  obtain ⟨r, s, o, k, a, b⟩ := d
  cases s <;> cases o <;> cases r <;> cases k <;> simp_all [Descr.validate, Rule.isExplicit, Rule.isConstant]

example : (⟨.linear 1 2, some id, none, .int, 8, 8⟩ : Descr Nat).validate = false ∧
    (⟨.constant, none, some 0, .int, 8, 8⟩ : Descr Nat).validate = false ∧
    (⟨.explicit, some id, none, .int, 8, 8⟩ : Descr Nat).validate = true := by decide

/-- Violated: with an explicit rule and a reference domain offset the value read by index is memory nobody
wrote, while the sample buffer holds the right values. -/
theorem C51_violation_explicit_reference_offset :
    let A : Arith Nat := ⟨(· + ·), (· * ·), id, Int.toNat⟩
    let d : Descr Nat := ⟨.explicit, none, some 100, .int, 8, 8⟩
    d.validate = true ∧ ((Pkt.create d 2 0 id).getData A 0).2 = .samples [100, 101] ∧
    (Pkt.create d 2 0 id).valueByIndex A 1 = .garbage := by decide

/-- Violated: with a floating point sample type and a reference domain offset of zero the sample buffer can
be read, the value by index cannot. -/
theorem C51_violation_float_zero_offset :
    let A : Arith Nat := ⟨(· + ·), (· * ·), id, Int.toNat⟩
    let d : Descr Nat := ⟨.explicit, none, some 0, .float, 8, 8⟩
    d.validate = true ∧ ((Pkt.create d 2 0 id).getData A 0).2 = .samples [0, 1] ∧
    (Pkt.create d 2 0 id).valueByIndex A 1 = .throws := by decide

/-- Violated: a descriptor with a floating point sample type and a nonzero reference domain offset passes
validation (which means to refuse non-integer types), but the samples of its packets cannot be read. -/
theorem C51_violation_float_offset_accepted :
    let A : Arith Nat := ⟨(· + ·), (· * ·), id, Int.toNat⟩
    let d : Descr Nat := ⟨.explicit, none, some 5, .float, 8, 8⟩
    d.validate = true ∧ ((Pkt.create d 2 0 id).getData A 0).2 = .throws := by decide

/-- Violated: constant rule packets, at the position of a change. -/
theorem C51_violation_constant :
    let A : Arith Nat := ⟨(· + ·), (· * ·), id, Int.toNat⟩
    let d : Descr Nat := ⟨.constant, none, none, .int, 8, 8⟩
    d.validate = true ∧ ∃ p, Pkt.createConstant d 4 7 [(2, 9)] = some p ∧
      (p.getData A 0).2 = .samples [7, 7, 9, 9] ∧ p.valueByIndex A 2 = .value 7 :=
  ⟨rfl, _, rfl, by decide, by decide⟩

/-- Violated: a packet of a signal with a custom ("other") rule has samples but no memory for them; reading
a value by index accesses memory that is not there. -/
theorem C51_violation_other_rule :
    let A : Arith Nat := ⟨(· + ·), (· * ·), id, Int.toNat⟩
    let d : Descr Nat := ⟨.other, none, none, .int, 8, 8⟩
    d.validate = true ∧ ((Pkt.create d 2 0 id).getData A 0).2 = .null ∧
    (Pkt.create d 2 0 id).valueByIndex A 1 = .oob := by decide

/-! ## C52 -/

/-- What reading a packet delivers after any history of writes, reads and reuses: the samples of the
descriptor, count and offset of the creation or the last successful reuse, computed from the raw samples.
These are the raw samples at the time of the first read since then, or the current ones if the samples need
no computation. In particular, no read or computation leaves the allocated memory.
Partial: the sizes of the samples fit 32 bits, explicit and linear rules. -/
theorem C52_reads_after_any_history_partial {V : Type} (A : Arith V) (junk : V) (d : Descr V) (n : Nat) (off : Int)
    (f : Nat → V) (hg : d.Good) (hf : Fits d n) (ops : List (Op V)) :
    let w0 : View V := ⟨d, n, off, f, none⟩
    let p0 := Pkt.create d n off f
    let p := (runTrace (step A junk) p0 ops).1
    let w := w0.run (runTrace (step A junk) p0 ops).2
    OpsOk A junk p0 w0 ops →
    (p.getData A junk).2.list =
      some (specData A w.descr w.offset (if w.descr.rawOnly then w.cells else w.seen.getD w.cells) w.count) := by
  intro w0 p0 p w ok
  exact ((Inv.run junk ops p0 w0 (Inv.create A d n off f hg hf) ok).getData junk).2

example :
    let A : Arith Nat := ⟨(· + ·), (· * ·), id, Int.toNat⟩
    let d : Descr Nat := ⟨.explicit, some (· * 2 + 1), none, .float, 8, 4⟩
    let p := (runTrace (step A 0) (Pkt.create d 3 0 id) [.data, .reuse none (some 2) none false (· + 50)]).1
    (p.getData A 0).2 = .samples [101, 103] := by decide

/-- The same for packets on memory of the user. -/
theorem C52_reads_external_memory_partial {V : Type} (A : Arith V) (junk : V) (d : Descr V) (n : Nat) (off : Int)
    (f : Nat → V) (room : Nat) (hg : d.Good) (hf : Fits d n) (hroom : n * d.rawSampleSize ≤ room)
    (ops : List (Op V)) :
    let w0 : View V := ⟨d, n, off, f, none⟩
    let p0 := Pkt.createExternal d n off (.cells f) room none
    let p := (runTrace (step A junk) p0 ops).1
    let w := w0.run (runTrace (step A junk) p0 ops).2
    OpsOk A junk p0 w0 ops →
    (p.getData A junk).2.list =
      some (specData A w.descr w.offset (if w.descr.rawOnly then w.cells else w.seen.getD w.cells) w.count) := by
  intro w0 p0 p w ok
  exact ((Inv.run junk ops p0 w0 (Inv.createExternal A d n off f room hg hf hroom) ok).getData junk).2

example :
    let A : Arith Nat := ⟨(· + ·), (· * ·), id, Int.toNat⟩
    let d : Descr Nat := ⟨.explicit, some (· * 2 + 1), none, .float, 8, 4⟩
    ((Pkt.createExternal d 3 0 (.cells id) 12 none).getData A 0).2 = .samples [1, 3, 5] ∧
    ((Pkt.createExternal d 3 0 (.cells id) 12 none).reuse none (some 4) none true id).2 = .ignored := by decide

/-- A packet that is filled and then read, and not written to after that until it is reused, always
delivers the samples computed from its current contents. -/
theorem C52_fill_then_read_partial {V : Type} (A : Arith V) (junk : V) (d : Descr V) (n : Nat) (off : Int)
    (f : Nat → V) (hg : d.Good) (hf : Fits d n) (ops : List (Op V)) :
    let w0 : View V := ⟨d, n, off, f, none⟩
    let p0 := Pkt.create d n off f
    let p := (runTrace (step A junk) p0 ops).1
    let w := w0.run (runTrace (step A junk) p0 ops).2
    OpsOk A junk p0 w0 ops → w.Clean →
    (p.getData A junk).2.list = some (specData A w.descr w.offset w.cells w.count) := by
  intro w0 p0 p w ok hcl
  have h := C52_reads_after_any_history_partial A junk d n off f hg hf ops ok
  have hsame : (if w.descr.rawOnly = true then w.cells else w.seen.getD w.cells) = w.cells := by
    split
    · rfl
    · cases e : w.seen with
      | none => rfl
      | some g => exact hcl g e
  refine h.trans ?_
  show some (specData A w.descr w.offset (if w.descr.rawOnly = true then w.cells else w.seen.getD w.cells) w.count) = _
  rw [hsame]

example :
    let A : Arith Nat := ⟨(· + ·), (· * ·), id, Int.toNat⟩
    let d : Descr Nat := ⟨.explicit, some (· * 2 + 1), none, .float, 8, 4⟩
    let p := (runTrace (step A 0) (Pkt.create d 3 0 id) [.write (· + 1), .data, .data]).1
    (p.getData A 0).2 = .samples [3, 5, 7] := by decide

/-- `reuse` is refused exactly if the new contents need more memory than there is and the memory cannot be
replaced (not allowed to, or it belongs to the user). A refused reuse changes nothing. -/
theorem C52_reuse_refusal {V : Type} (p : Pkt V) (mem : Nat) (hm : p.memorySize = some mem)
    (d : Option (Descr V)) (n : Option Nat) (off : Option Int) (c : Bool) (f : Nat → V) :
    ((p.reuse d n off c f).2 = .ignored ↔
      mem < n.getD p.count * (d.getD p.descr).rawSampleSize ∧ (c = false ∨ p.external = true)) ∧
    ((p.reuse d n off c f).2 = .ignored → (p.reuse d n off c f).1 = p) ∧
    ((p.reuse d n off c f).2 = .ignored ∨ (p.reuse d n off c f).2 = .success) := by
  unfold Pkt.reuse
  dsimp only
  rw [hm]
  dsimp only
  by_cases h : n.getD p.count * (d.getD p.descr).rawSampleSize > mem ∧ ((!c) = true ∨ p.external = true)
  · rw [if_pos h]
    refine ⟨⟨fun _ => ⟨h.1, ?_⟩, fun _ => rfl⟩, fun _ => rfl, Or.inl rfl⟩
    cases c
    · exact Or.inl rfl
    · rcases h.2 with h2 | h2
      · cases h2
      · exact Or.inr h2
  · rw [if_neg h]
    refine ⟨⟨fun e => (nomatch e), fun e => absurd ⟨e.1, ?_⟩ h⟩, fun e => (nomatch e), Or.inr rfl⟩
    rcases e.2 with h2 | h2
    · left; rw [h2]; rfl
    · exact Or.inr h2

example :
    let d : Descr Nat := ⟨.explicit, none, none, .int, 8, 8⟩
    ((Pkt.create d 3 0 id).reuse none (some 4) none false id).2 = .ignored ∧
    ((Pkt.create d 3 0 id).reuse none (some 4) none true id).2 = .success := by decide

/-- Bytes of raw data per sample: the input type of the scaling if there is one, else the sample type;
nothing for implicit rules. -/
def rawBytes {V : Type} (d : Descr V) : Nat :=
  match d.rule, d.scaling with
  | .explicit, some _ => d.rawTypeSize
  | .explicit, none => d.sampleSize
  | _, _ => 0

theorem rawBytes_eq {V : Type} (d : Descr V) : d.rawSampleSize = rawBytes d := by
  unfold Descr.rawSampleSize rawBytes
  cases d.rule <;> cases d.scaling <;> rfl

/-- The sizes a packet reports after creation and after a successful reuse are those of its samples.
Partial: they fit 32 bits. -/
theorem C52_reported_sizes_partial {V : Type} (d : Descr V) (n : Nat) (off : Int) (f : Nat → V) (hf : Fits d n) :
    ((Pkt.create d n off f).rawDataSize = n * rawBytes d ∧
      (Pkt.create d n off f).dataSize = n * d.sampleSize ∧ (Pkt.create d n off f).count = n) ∧
    ∀ (p : Pkt V) c, (p.reuse (some d) (some n) (some off) c f).2 = .success →
      (p.reuse (some d) (some n) (some off) c f).1.rawDataSize = n * rawBytes d ∧
      (p.reuse (some d) (some n) (some off) c f).1.dataSize = n * d.sampleSize ∧
      (p.reuse (some d) (some n) (some off) c f).1.count = n := by
  obtain ⟨f1, f2, f3⟩ := hf
  rw [← rawBytes_eq]
  refine ⟨⟨?_, ?_, Nat.mod_eq_of_lt f1⟩, fun p c h => ?_⟩
  · show (n % U32 * d.rawSampleSize) % U32 = _
    rw [Nat.mod_eq_of_lt f1, Nat.mod_eq_of_lt f3]
  · show (n % U32 * d.sampleSize) % U32 = _
    rw [Nat.mod_eq_of_lt f1, Nat.mod_eq_of_lt f2]
  · revert h
    unfold Pkt.reuse
    dsimp only [Option.getD]
    cases p.memorySize with
    | none => intro h; cases h
    | some m =>
      dsimp only
      by_cases hc : n * d.rawSampleSize > m ∧ ((!c) = true ∨ p.external = true)
      · rw [if_pos hc]; intro h; cases h
      · rw [if_neg hc]
        intro _
        dsimp only
        rw [Nat.mod_eq_of_lt f1, Nat.mod_eq_of_lt f2, Nat.mod_eq_of_lt f3]
        exact ⟨rfl, rfl, rfl⟩

example :
    let d : Descr Nat := ⟨.explicit, some (· * 2), none, .float, 8, 2⟩
    (Pkt.create d 3 0 id).rawDataSize = 6 ∧ (Pkt.create d 3 0 id).dataSize = 24 := by decide

/-- Violated: writing raw samples after the packet was read: with post scaling the packet keeps delivering
the old samples, without it delivers the new ones. -/
theorem C52_violation_stale_after_write :
    let A : Arith Nat := ⟨(· + ·), (· * ·), id, Int.toNat⟩
    let d : Descr Nat := ⟨.explicit, some (· * 2), none, .int, 8, 8⟩
    let e : Descr Nat := ⟨.explicit, none, none, .int, 8, 8⟩
    ((runTrace (step A 0) (Pkt.create d 2 0 id) [.data, .write (· + 50)]).1.getData A 0).2 = .samples [0, 2] ∧
    ((runTrace (step A 0) (Pkt.create e 2 0 id) [.data, .write (· + 50)]).1.getData A 0).2 = .samples [50, 51] := by
  decide

/-- Violated: sizes are computed in 32 bits. A packet of 2^29 + 1 samples of 8 bytes has 8 bytes of memory. -/
theorem C52_violation_size_wraps {V : Type} (f : Nat → V) :
    let d : Descr V := ⟨.explicit, none, none, .int, 8, 8⟩
    let p := Pkt.create d 536870913 0 f
    p.count = 536870913 ∧ p.room = 8 ∧ ∀ A junk, (p.getData A junk).2 = .oob ∧ p.valueByIndex A 1 = .oob :=
  ⟨rfl, by simp [Pkt.create, Descr.rawSampleSize, Rule.isExplicit, U32], fun _ _ => by
    simp [Pkt.getData, Pkt.valueByIndex, Pkt.rawValue, Pkt.create, Pkt.rawRoom, Descr.rawSampleSize, Descr.rawOnly,
      Descr.hasRule, Descr.hasRef, Rule.isExplicit, U32]⟩

/-- Violated: reusing a constant rule packet reads a size the constructor never set. -/
theorem C52_violation_reuse_of_constant {V : Type} (c : V) (es : List (Nat × V)) (n : Nat) (f : Nat → V) :
    let d : Descr V := ⟨.constant, none, none, .int, 8, 8⟩
    d.validate = true ∧ ∃ p, Pkt.createConstant d n c es = some p ∧ (p.reuse none none none true f).2 = .ub :=
  ⟨rfl, _, rfl, rfl⟩

end Verif.DataPacket
