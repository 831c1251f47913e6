import Verif.Multi.Props
import Verif.Multi.Buffers

/-! # C63-C65: signals advance together, the number of samples available, and the buffers -/

namespace Verif.Multi.Props

open Spec

theorem Spec.Synchronised.flowing {m : MR} (h : Synchronised m) : Flowing m :=
  ⟨fun s hs => ⟨h.within s hs, h.data s hs, h.div s hs, h.synced s hs, h.sound s hs⟩, h.nonempty, h.valid, h.quiet, h.lcm_pos⟩

/-- C63: whatever arrives and is read, each signal delivers its samples in order, without leaving out or repeating any: as many as the
reported numbers of common samples say. No call hangs or fails. -/
theorem C63_delivered {cfg : Cfg} {m : MR} (h : Synchronised m) {ops : List Op} (hops : ∀ op ∈ ops, Flow op) :
    (∀ b, .bad b ∉ (run cfg m ops).2) ∧ ∀ (i : Nat) (s : Sig), m.sigs[i]? = some s →
      ((counts (run cfg m ops).2).map (· / s.div)).sum ≤ (pending s ++ given i ops).length ∧
      delivered i (run cfg m ops).2 = toks ((pending s ++ given i ops).take ((counts (run cfg m ops).2).map (· / s.div)).sum) := by
  obtain ⟨_, _, h3, h4⟩ := run_flow (cfg := cfg) hops (Spec.Synchronised.flowing h)
  refine ⟨h3, fun i s hi => ?_⟩
  obtain ⟨_, _, _, g3, _, g5⟩ := h4 i s hi
  exact ⟨g3, g5⟩

theorem sum_div {d : Nat} {l : List Nat} (h : ∀ n ∈ l, d ∣ n) : (l.map (· / d)).sum = l.sum / d := by
  induction l with
  | nil => simp
  | cons n l ih =>
    rw [List.map_cons, List.sum_cons, List.sum_cons, ih fun x hx => h x (List.mem_cons_of_mem _ hx)]
    obtain ⟨k, rfl⟩ := h n (by simp)
    rcases Nat.eq_zero_or_pos d with rfl | hd
    · simp
    · rw [Nat.mul_div_cancel_left k hd, Nat.mul_add_div hd]

/-- C63: when every call reports a number that the rates divide, the signals stay together: after the same total number of common samples
each has delivered its share. -/
theorem C63_together {cfg : Cfg} {m : MR} (h : Synchronised m) {ops : List Op} (hops : ∀ op ∈ ops, Flow op)
    (hdiv : ∀ n ∈ counts (run cfg m ops).2, ∀ s ∈ m.sigs, s.div ∣ n) (i : Nat) (s : Sig) (hi : m.sigs[i]? = some s) :
    delivered i (run cfg m ops).2 = toks ((pending s ++ given i ops).take ((counts (run cfg m ops).2).sum / s.div)) := by
  have := ((C63_delivered (cfg := cfg) h hops).2 i s hi).2
  rw [sum_div fun n hn => hdiv n hn s (List.mem_of_getElem? hi)] at this
  exact this

/-- C63: signals of the common rate always stay together. -/
theorem C63_equal {cfg : Cfg} {m : MR} (h : Synchronised m) (h1 : ∀ s ∈ m.sigs, s.div = 1) {ops : List Op}
    (hops : ∀ op ∈ ops, Flow op) (i : Nat) (s : Sig) (hi : m.sigs[i]? = some s) :
    delivered i (run cfg m ops).2 = toks ((pending s ++ given i ops).take (counts (run cfg m ops).2).sum) := by
  have := C63_together (cfg := cfg) h hops (fun n _ s hs => by rw [h1 s hs]; exact Nat.one_dvd n) i s hi
  rw [h1 s (List.mem_of_getElem? hi), Nat.div_one] at this
  exact this

/-- A synchronised reader. -/
def flowing : MR := (two {} (desc 1 1000 0 1) (desc 1 500 0 1) [.push 0 (data 1 8 0 1), .push 1 (data 2 4 0 1), .read false 2 false]).1

theorem flowing_sync : Synchronised flowing := by
  have hs : flowing.sigs = [⟨[], some ⟨1, 8, 0, 1⟩, 2, some ⟨1, 1000, 0, 1, 1, 0⟩, 1000, 1, .synced, false⟩,
    ⟨[], some ⟨2, 4, 0, 1⟩, 1, some ⟨1, 500, 0, 2, 1, 0⟩, 500, 2, .synced, false⟩] := by decide +kernel
  refine ⟨by rw [hs]; simp, by decide +kernel, by decide +kernel, by decide +kernel, ?_, ?_, ?_, ?_, ?_⟩ <;> rw [hs] <;>
    simp [Within]

example : delivered 1 (run {} flowing [.push 0 (data 3 2 8 1), .push 1 (data 4 1 4 1), .read false 4 false, .read false 4 false]).2 =
    [(2, 1), (2, 2), (2, 3), (4, 0)] := by
  rw [C63_together flowing_sync (by simp [Flow, data]) (by decide +kernel) 1 _ rfl]
  decide +kernel

/-- Without that they do not: 2 Hz and 3 Hz, 6 samples requested, 4 reported, and instead of 2 and 3 samples 1 and 2 are read; the next
samples are at 0.5 s and 0.67 s. -/
theorem C63_violation_apart : (two {} (desc 1 6 0 3) (desc 1 6 0 2) [.push 0 (data 1 2 0 3), .push 1 (data 2 2 0 2),
    .read false 6 false]).2.getLast? = some (.read 4 [] [[(1, 0)], [(2, 0), (2, 1)]] (some 6)) := by
  decide +kernel

/-- Skipping single samples reports progress although nothing is skipped. -/
theorem C63_violation_skip :
    let x := two {} (desc 1 6 0 3) (desc 1 6 0 2) [.push 0 (data 1 2 0 3), .push 1 (data 2 3 0 2), .skip 1, .skip 1, .skip 1]
    counts x.2 = [1, 1, 1] ∧ x.1.sigs.map (fun s => s.prev) = [0, 0] := by
  decide +kernel

/-- A required common rate need not be a multiple of the rate of a signal: 10 Hz and 4 Hz; of one second of data only 10 and 5 samples are
said to belong together. -/
theorem C63_violation_rate : (two { required := 10 } (desc 1 1000 0 250) (desc 1 10 0 1) [.push 0 (data 1 20 0 250),
    .push 1 (data 2 20 0 1), .read false 10 false]).2.getLast? = some (.read 10 [] [[(1, 0), (1, 1), (1, 2), (1, 3), (1, 4)],
      [(2, 0), (2, 1), (2, 2), (2, 3), (2, 4), (2, 5), (2, 6), (2, 7), (2, 8), (2, 9)]] (some 6)) := by
  decide +kernel

/-! # C64 -/

theorem synchronize_synced {cfg : Cfg} {m : MR} (h : (synchronize cfg m).2.2.1 = .synced) (hf : (synchronize cfg m).2.2.2 = false) :
    syncStatus (synchronize cfg m).1.sigs = .synced ∧ (synchronize cfg m).2.1 = minAvail (synchronize cfg m).1.sigs := by
  have hall : ∀ (m : MR) (a : Nat) (st : Sync), (syncAll m a st).2.2.1 = .synced → (syncAll m a st).2.2.2 = false →
      syncStatus (syncAll m a st).1.sigs = .synced ∧ (syncAll m a st).2.1 = minAvail (syncAll m a st).1.sigs := by
    intro m a st h hf
    unfold syncAll at *
    split at h
    · rename_i e
      rw [e] at hf
      cases hf
    · dsimp only at h hf ⊢
      exact ⟨h, by rw [if_pos h]⟩
  unfold synchronize at *
  dsimp only at *
  by_cases h1 : minAvail m.sigs = 0 ∨ syncStatus m.sigs = .synced
  · rw [if_pos h1] at *
    exact ⟨h, rfl⟩
  · rw [if_neg h1] at *
    by_cases h2 : syncStatus m.sigs = .syncing
    · rw [if_pos h2] at *
      exact hall _ _ _ h hf
    · rw [if_neg h2] at *
      by_cases h3 : (setStart cfg m).2 = true
      · rw [if_pos h3] at *
        exact hall _ _ _ h hf
      · rw [if_neg h3] at hf
        cases hf

/-- Reading what is available from a synchronised reader, events may wait behind the data. -/
theorem read_all {cfg : Cfg} {m : MR} (hst : syncStatus m.sigs = .synced) (hi : m.invalid = false)
    (hn : m.nextEvent = false) (hl : m.lcm ≠ 0) (hw : ∀ s ∈ m.sigs, Within s) (hv : ∀ s ∈ m.sigs, s.invalid = false)
    {n : Nat} (h0 : 0 < n) (hmin : cfg.minRead ≤ n) (hle : n ≤ minAvail m.sigs) (hm : n / m.lcm * m.lcm = n) (d : Bool) :
    ∃ w, (read cfg m d n false).2 = .read n [] w (some m.calls) ∧
      ∀ (i : Nat) (s : Sig), m.sigs[i]? = some s → w[i]? = some (toks ((pending s).take (n / s.div))) := by
  have ha0 : minAvail m.sigs ≠ 0 := by omega
  have hcur := minAvail_cur ha0
  have hset : ∀ s ∈ m.sigs, s.isFirst = (s, false) := fun s hs => by
    obtain ⟨p, hp⟩ := Option.isSome_iff_exists.mp (hcur s hs)
    unfold Sig.isFirst
    rw [hp]
  unfold read
  rw [if_neg (by simp; omega), if_neg (by rw [hn]; decide), if_neg (by rw [hi]; decide), if_neg hl, if_neg (by simp)]
  dsimp only
  rw [if_neg (by decide), hm]
  let m1 : MR := { m with remaining := n, buf := some m.calls }
  have e1 : readAndSync cfg m1 (m1.remaining == 0) = .go m1 (minAvail m1.sigs) .synced := by
    rw [readAndSync_settled (m := m1) hset hv hi]
    have : synchronize cfg m1 = (m1, minAvail m1.sigs, .synced, false) := by
      unfold synchronize
      have h' : syncStatus m1.sigs = .synced := hst
      simp [h']
    rw [this]
    have hz : (m1.remaining == 0) = false := by
      show (n == 0) = false
      simp; omega
    rw [hz]
    rfl
  have hdiv : ∀ s ∈ m.sigs, 0 < s.div := by
    intro s hs
    have := minAvail_le hs
    obtain ⟨p, hp⟩ := Option.isSome_iff_exists.mp (hcur s hs)
    rw [hp] at this
    simp only [Option.isNone_some, Bool.false_eq_true, if_false] at this
    rw [avail_false (hw s hs)] at this
    have hpos : 0 < (pending s).length * s.div := by omega
    exact Nat.pos_of_mul_pos_left hpos
  have hmin' : min m1.remaining (minAvail m1.sigs) = n := Nat.min_eq_left hle
  obtain ⟨sigs', w, hr, hall⟩ := readSamples_spec (n := n) (sigs := m.sigs) (by
    intro s hs
    exact ⟨hw s hs, hdiv s hs, Nat.le_trans hle (minAvail_le_pending hs (hw s hs))⟩)
  have e2 : readPackets cfg m1 = .ok ({ m1 with sigs := sigs', remaining := m1.remaining - n }, [], w) := by
    unfold readPackets
    rw [e1]
    dsimp only
    rw [if_pos ⟨rfl, Nat.pos_of_ne_zero ha0⟩, hmin']
    have : readSamples n m1.sigs = .ok (sigs', w) := hr
    rw [this]
  rw [e2]
  refine ⟨w, ?_, fun i s hi => ?_⟩
  · show Res.read (n - (n - n)) [] w (some m.calls) = _
    rw [Nat.sub_self, Nat.sub_zero]
  · obtain ⟨s', v, _, h2, hok⟩ := hall.get hi
    rw [h2, hok.written]

/-- C64: a number of samples reported as available can be read, exactly: an immediate read of that many gives that many and no event, and
the signals stay together, as the number is a multiple of what the rates have in common. The positions are within the packets. -/
theorem C64_available {cfg : Cfg} {m : MR} {n : Nat} (h : (step cfg m .available).2 = .count n) (h0 : 0 < n)
    (hi : (step cfg m .available).1.invalid = false) (hn : (step cfg m .available).1.nextEvent = false)
    (hw : ∀ s ∈ (step cfg m .available).1.sigs, Within s) (hv : ∀ s ∈ (step cfg m .available).1.sigs, s.invalid = false) (d : Bool) :
    (step cfg m .available).1.lcm ∣ n ∧ cfg.minRead ≤ n ∧
    ∃ w b, (step cfg (step cfg m .available).1 (.read d n false)).2 = .read n [] w b ∧
      ∀ (i : Nat) (s : Sig), (step cfg m .available).1.sigs[i]? = some s → w[i]? = some (toks ((pending s).take (n / s.div))) := by
  have hav : ∀ m0 : MR, available cfg m0 = if (synchronize cfg m0).2.2.2 = true then ((synchronize cfg m0).1, .failed)
      else if (synchronize cfg m0).2.2.1 = .synced ∧ (synchronize cfg m0).1.lcm = 0 then ((synchronize cfg m0).1, .bad .crash)
      else ((synchronize cfg m0).1, .count (if (synchronize cfg m0).2.2.1 = .synced ∧
        cfg.minRead ≤ (synchronize cfg m0).2.1 / (synchronize cfg m0).1.lcm * (synchronize cfg m0).1.lcm then
        (synchronize cfg m0).2.1 / (synchronize cfg m0).1.lcm * (synchronize cfg m0).1.lcm else 0)) := fun _ => rfl
  have e : step cfg m .available = available cfg { m with calls := m.calls + 1 } := rfl
  rw [hav] at e
  have hs := @synchronize_synced cfg { m with calls := m.calls + 1 }
  generalize synchronize cfg { m with calls := m.calls + 1 } = y at *
  generalize step cfg m .available = z at *
  by_cases h1 : y.2.2.2 = true
  · rw [if_pos h1] at e
    rw [e] at h
    cases h
  · rw [if_neg h1] at e
    by_cases h2 : y.2.2.1 = .synced ∧ y.1.lcm = 0
    · rw [if_pos h2] at e
      rw [e] at h
      cases h
    · rw [if_neg h2] at e
      subst e
      dsimp only at *
      injection h with h
      by_cases h3 : y.2.2.1 = .synced ∧ cfg.minRead ≤ y.2.1 / y.1.lcm * y.1.lcm
      · rw [if_pos h3] at h
        obtain ⟨g1, g2⟩ := hs h3.1 (by simpa using h1)
        have hl : y.1.lcm ≠ 0 := fun hh => h2 ⟨h3.1, hh⟩
        have hle : n ≤ minAvail y.1.sigs := by
          rw [← h, ← g2]
          exact Nat.div_mul_le_self _ _
        have hm : n / y.1.lcm * y.1.lcm = n := by
          rw [← h, Nat.mul_div_cancel _ (Nat.pos_of_ne_zero hl)]
        refine ⟨⟨n / y.1.lcm, by rw [Nat.mul_comm]; exact hm.symm⟩, by rw [← h]; exact h3.2, ?_⟩
        obtain ⟨w, k1, k2⟩ := read_all (cfg := cfg) (m := { y.1 with calls := y.1.calls + 1 }) g1 hi hn hl hw hv h0
          (by rw [← h]; exact h3.2) hle hm d
        exact ⟨w, _, k1, k2⟩
      · rw [if_neg h3] at h
        omega

/-- C64: while data flows a read gives as many samples as asked for (in whole multiples) and as all signals have. -/
theorem C64_amount {cfg : Cfg} {m : MR} (h : Synchronised m) (d : Bool) (c : Nat) (hc : cfg.minRead ≤ c) :
    ∃ w b, (step cfg m (.read d c false)).2 = .read (min (c / m.lcm * m.lcm) (inCommon m.sigs)) [] w b :=
  read_amount (flowing_calls (Spec.Synchronised.flowing h) (m.calls + 1)) d hc

/-- C64: no more is reported as available than there is. -/
theorem C64_bound {cfg : Cfg} {m : MR} (h : Synchronised m) :
    ∃ n, (step cfg m .available).2 = .count n ∧ n ≤ inCommon m.sigs := by
  have hs := synchronize_live (cfg := cfg) (flowing_calls (Spec.Synchronised.flowing h) (m.calls + 1))
  show ∃ n, (available cfg { m with calls := m.calls + 1 }).2 = .count n ∧ _
  unfold available
  dsimp only
  rw [hs]
  dsimp only
  rw [if_neg (by decide), if_neg (by have := h.lcm_pos; rintro ⟨_, h0⟩; omega)]
  refine ⟨_, rfl, ?_⟩
  split
  · exact Nat.le_trans (Nat.div_mul_le_self _ _) (minAvail_le_inCommon h.within)
  · exact Nat.zero_le _

example : (step {} flowing .available).2 = .count 6 := by decide +kernel

example : ∃ w b, (step {} (step {} flowing .available).1 (.read true 6 false)).2 = .read 6 [] w b := by
  have hs : (step {} flowing .available).1.sigs = flowing.sigs := by decide +kernel
  obtain ⟨_, _, w, b, h, _⟩ := C64_available (cfg := {}) (m := flowing) (n := 6) (by decide +kernel) (by decide) (by decide +kernel)
    (by decide +kernel) (by rw [hs]; exact flowing_sync.within) (by rw [hs]; exact flowing_sync.sound) true
  exact ⟨w, b, h⟩

/-- When a packet has been read to its end, nothing is reported although the next packets are there. -/
theorem C64_violation_zero :
    let x := two {} (desc 1 1000 0 1) (desc 1 1000 0 1) [.push 0 (data 1 2 0 1), .push 1 (data 2 2 0 1), .push 0 (data 3 2 2 1),
      .push 1 (data 4 2 2 1), .read false 2 false, .available, .read false 2 false]
    x.2.drop 5 = [.count 0, .read 2 [] [[(3, 0), (3, 1)], [(4, 0), (4, 1)]] (some 10)] := by
  decide +kernel

/-- A call with count 0 can hang, holding the locks of the reader: the second signal is still looking for the start. -/
theorem C64_violation_hang : (two { minRead := 10 } (desc 1 1000 0 1) (desc 1 1000 0 1) [.push 0 (data 1 5 100 1),
    .push 0 (.event .other), .push 1 (data 2 5 0 1), .read false 0 false]).2.getLast? = some (.bad .hang) := by
  decide +kernel

/-- The divider of a signal is not initialised; if it happens to be 0, the reader divides by 0. -/
theorem C64_violation_divider : (run { required := 10 } (fresh [0, 0]) [.push 0 (.event (.desc (some true) none)),
    .push 1 (.event (.desc (some true) none)), .read false 0 false, .read false 1 false]).2.getLast? = some (.bad .crash) := by
  decide +kernel

/-! # C65 -/

/-- C65: a valid reader writes only to the buffers of the call, and no more samples than the count of the call allows. -/
theorem C65_buffers {cfg : Cfg} {divs : List Nat} {ops : List Op} (hi : (run cfg (fresh divs) ops).1.invalid = false)
    {d null : Bool} {c k : Nat} {ev : List (Option Ev)} {w : List (List Tok)} {b : Option Nat}
    (h : (step cfg (run cfg (fresh divs) ops).1 (.read d c null)).2 = .read k ev w b) :
    b = (if null then none else some ((run cfg (fresh divs) ops).1.calls + 1)) ∧
    (cfg.minRead ≤ 1 → ∀ (i : Nat) (v : List Tok), w[i]? = some v →
      ∃ s, (run cfg (fresh divs) ops).1.sigs[i]? = some s ∧ v.length ≤ c / s.div) := by
  have hann : Announced (run cfg (fresh divs) ops).1 := announced_run (fun hh => by cases hh)
  generalize (run cfg (fresh divs) ops).1 = m at *
  have hn : m.nextEvent = false := by
    cases hm : m.nextEvent with
    | false => rfl
    | true => have := hann hm; rw [hi] at this; cases this
  change (read cfg { m with calls := m.calls + 1 } d c null).2 = _ at h
  have hr : ∀ m0 : MR, m0 = { m with calls := m.calls + 1 } → m0.nextEvent = false ∧ m0.invalid = false ∧ m0.sigs = m.sigs ∧
      m0.calls = m.calls + 1 := by
    intro m0 e; subst e; exact ⟨hn, hi, rfl, rfl⟩
  obtain ⟨q1, q2, q3, q4⟩ := hr _ rfl
  generalize ({ m with calls := m.calls + 1 } : MR) = m0 at *
  unfold read at h
  by_cases h1 : c ≠ 0 ∧ (null = true ∨ c < cfg.minRead)
  · rw [if_pos h1] at h
    cases h
  · rw [if_neg h1, if_neg (by rw [q1]; decide), if_neg (by rw [q2]; decide)] at h
    by_cases h2 : m0.lcm = 0
    · rw [if_pos h2] at h
      cases h
    · rw [if_neg h2] at h
      by_cases h3 : d = true ∧ null = true ∧ m0.sigs ≠ []
      · rw [if_pos h3] at h
        cases h
      · rw [if_neg h3] at h
        dsimp only at h
        split at h
        · cases h
        · rename_i y hy
          have hw := readPackets_wrote hy
          injection h with e1 e2 e3 e4
          refine ⟨?_, fun hmin i v hv => ?_⟩
          · rw [← e4, hw.buf, q4]
          · rw [← e3] at hv
            obtain ⟨s, hs, hl⟩ := hw.bound hmin i v hv
            refine ⟨s, by rw [← q3]; exact hs, Nat.le_trans hl ?_⟩
            exact Nat.div_le_div_right (Nat.div_mul_le_self _ _)

example : ∃ ev w b, (step {} before (.read false 4 false)).2 = .read 1 ev w b ∧ b = some (before.calls + 1) ∧ w = [[(1, 4)], []] := by
  have e : (step {} before (.read false 4 false)).2 = .read 1 [] [[(1, 4)], []] (some 6) := by decide +kernel
  have hb : before = (run {} (fresh [7, 9]) ([.push 0 (desc 1 1000 0 1), .push 1 (desc 1 500 1000000000 1), .read false 0 false] ++
      [.push 0 (data 1 5 1000 1), .push 1 (data 2 4 2 1)])).1 := by decide +kernel
  refine ⟨_, _, _, e, ?_, rfl⟩
  rw [hb] at e
  have := (C65_buffers (by decide +kernel) e).1
  rw [this, hb]
  rfl

/-- A reader that has become invalid writes into the buffers of an earlier call (here the sixth call, made three calls before), and reports
0 samples. -/
theorem C65_violation_earlier : (run {} (fresh [7]) [.push 0 (desc 1 1000 0 1), .read false 0 false, .push 0 (data 1 2 0 1),
    .read false 2 false, .push 0 (desc 1 1000 0 7), .read false 2 false, .push 0 (desc 1 1000 0 1), .push 0 (data 3 2 2 1),
    .read false 2 false, .read false 2 false]).2.drop 8 =
    [.read 0 [some (.desc (some true) (some ⟨1, 1000, 0, 1, true⟩))] [] (some 6),
      .read 0 [] [[(3, 0), (3, 1)]] (some 6)] := by
  decide +kernel

/-- With a minimal count above 1, a call with count 0 writes samples into the buffers it is given. -/
theorem C65_violation_zero : (two { minRead := 10 } (desc 1 1000 0 1) (desc 1 1000 0 1) [.push 0 (data 1 5 0 1),
    .push 0 (.event .other), .push 1 (data 2 5 0 1), .read false 0 false]).2.getLast? =
    some (.read 0 [] [[(1, 0), (1, 1), (1, 2), (1, 3), (1, 4)], [(2, 0), (2, 1), (2, 2), (2, 3), (2, 4)]] (some 7)) := by
  decide +kernel

/-- Reading with domain values follows null pointers when the count is 0, as one does to get the events. -/
theorem C65_violation_null : (run {} (fresh [7]) [.push 0 (desc 1 1000 0 1), .read true 0 true]).2 = [.none, .bad .crash] := by
  decide +kernel

/-- Reading with domain values loses the event of a reader that has become invalid. -/
theorem C65_violation_event : ((run {} (fresh [7]) [.push 0 (desc 1 1000 0 1), .read false 0 false, .push 0 (desc 1 1000 0 7),
    .read true 1 false, .push 0 (desc 1 1000 0 1), .read true 1 false]).2.drop 3) =
    [.read 0 [some (.desc (some true) (some ⟨1, 1000, 0, 7, true⟩))] [] (some 4), .none, .read 0 [] [] (some 4)] := by
  decide +kernel

end Verif.Multi.Props
