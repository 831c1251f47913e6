import Verif.Reader.TailLemmas

/-! # C26: the tail reader returns the most recent samples

Hypotheses used throughout: the reader reports events (`skipEvents = false`, the default), fewer than
2^64 samples were received in total, and the value descriptor is known before the first data packet.
-/

namespace Verif.Reader.Tail

open Connection (Packet EventKind DomPacket DomDesc W)

private def exCfg : Cfg := { historySize := 4, skipEvents := false, badValue := fun _ => false, badDomain := fun _ => false }
private def exDesc (id : Nat) : Packet := .event id (.descChanged (some (some 1)) none)
private def exData (id n : Nat) : Packet := .data id n none
private def exOps : List Op :=
  [.receive [exDesc 0, exData 1 3], .read .values 4, .receive [exData 2 3, exData 3 2], .receive [exData 4 1]]

/-- **C26** Whatever was received, in whatever packets and with whatever reads in between: a read of `n`
samples, where `n` is at most the history size or at most the available count, returns the last `n`
samples received since the last returned event (all of them when fewer were received), in order, cut at
the first event among them; that event is returned. -/
theorem C26_lastSamples_partial (cfg : Cfg) (hsk : cfg.skipEvents = false) (typed : Bool) (ops : List Op)
    (hw : total (received ops) < W) (hst : typed = true ∨ startsTyped (received ops) = true)
    (hp : ∀ q ∈ received ops, plain q = true) (m : Mode)
    (hd : m = .withDomain → ∀ i n, Packet.data i n none ∉ received ops)
    (n : Nat) (hv : (exec cfg typed ops).1.invalid = false)
    (hn : n ≤ cfg.historySize ∨ n ≤ getAvailableCount (exec cfg typed ops).1) :
    let o := (step cfg (exec cfg typed ops).1 (.read m n)).2
    let w := window (exec cfg typed ops).2
    o.ret = .success ∧ o.vals = untilEvent (lastSamples n w) ∧ o.event = firstEvent (items w) ∧
      o.count = o.vals.length ∧ o.sufficient = true ∧ (m = .withDomain → o.doms = o.vals) ∧
      (o.vals ≠ [] → o.offset = o.vals.head?) := by
  obtain ⟨hi, -⟩ := tinv cfg hsk typed ops hw hst
  generalize (exec cfg typed ops).1 = s at *
  generalize (exec cfg typed ops).2 = t at *
  intro o w
  have ho : o = (read cfg s m n).2 := rfl
  have hneg : ¬ (n > s.cached ∧ n > cfg.historySize) := by
    simp only [getAvailableCount] at hn; omega
  unfold read at ho
  rw [if_neg (by rw [hv]; simp), if_neg hneg] at ho
  obtain ⟨s', a', ev, hl⟩ := readLoop_total cfg m s.packets s { rem := n, skip := s.cached - n }
    (fun q hq => hp q (hi.sub q hq)) (fun hm i k hq => hd hm i k (hi.sub _ hq))
  rw [hl] at ho
  obtain ⟨new, hs⟩ := readLoop_spec cfg hsk m _ _ _ _ _ _ hl
  dsimp only at ho
  have hle := hi.cache.le
  have hfull := hi.cache.full
  have hvals : a'.vals = new := by rw [hs.vals]; rfl
  have hlast : dropSamples (s.cached - n) (items s.packets) = lastSamples n w := by
    rw [hi.cache.items, dropSamples_dropSamples]
    show dropSamples _ (items w) = dropSamples (total w - n) (items w)
    have hw' : total (window t) = total w := rfl
    rw [hw'] at hle hfull
    by_cases hc : n ≤ s.cached
    · congr 1; rw [hw']; omega
    · rw [hw', show total w - s.cached + (s.cached - n) = 0 by
        rcases hfull with h | h
        · omega
        · omega]
      rw [show total w - n = 0 by
        rcases hfull with h | h
        · omega
        · omega]
  have hnew : new = untilEvent (lastSamples n w) := by
    rw [← hlast]
    rcases hi.typed with ht | ⟨e1, e2⟩
    · rw [hs.newTyped ht, List.take_of_length_le]
      refine Nat.le_trans (untilEvent_le _) ?_
      rw [cnt_dropSamples, ← total_cnt, ← hi.cache.total]
      dsimp only; omega
    · cases ht : s.typed with
      | false =>
        rw [hs.newUntyped ht, hi.cache.items, e1, dropSamples_dropSamples]
        rcases startsTyped_items _ e2 with h | ⟨i, k, l, h, -⟩ <;> rw [h]
        · simp [untilEvent]
        · simp [untilEvent]
      | true =>
        rw [hs.newTyped ht, List.take_of_length_le]
        refine Nat.le_trans (untilEvent_le _) ?_
        rw [cnt_dropSamples, ← total_cnt, ← hi.cache.total]
        dsimp only; omega
  have hrem := hs.rem
  dsimp only at hrem
  refine ⟨by rw [ho], ?_, ?_, ?_, by rw [ho], ?_, ?_⟩
  · rw [ho]; dsimp only; rw [hvals, hnew]
  · rw [ho]; dsimp only; rw [hs.event, hi.cache.items, firstEvent_dropSamples]
  · rw [ho]; dsimp only; rw [hvals]; omega
  · intro hm; rw [ho]; dsimp only; rw [hs.doms, if_pos hm, hvals]; rfl
  · rw [ho]; dsimp only; rw [hvals]
    intro hne
    refine hs.off rfl ?_ hne
    have : 0 < new.length := List.length_pos_iff.mpr hne
    dsimp only; omega

/-- Ten samples arrived in packets of 3, 3, 2 and 1 behind a descriptor; a first read returned the
descriptor; a read of 4 gets samples of three packets. -/
example : (step exCfg (exec exCfg false exOps).1 (.read .values 4)).2.vals = [(2, 2), (3, 0), (3, 1), (4, 0)] := by
  rfl
example : untilEvent (lastSamples 4 (window (exec exCfg false exOps).2)) = [(2, 2), (3, 0), (3, 1), (4, 0)] := by
  rfl

/-- **C26** The number of samples: with no event pending, a read returns exactly `min n available`. -/
theorem C26_count_partial (cfg : Cfg) (hsk : cfg.skipEvents = false) (typed : Bool) (ops : List Op)
    (hw : total (received ops) < W) (hst : typed = true ∨ startsTyped (received ops) = true)
    (hp : ∀ q ∈ received ops, plain q = true) (m : Mode)
    (hd : m = .withDomain → ∀ i n, Packet.data i n none ∉ received ops)
    (n : Nat) (hv : (exec cfg typed ops).1.invalid = false)
    (hn : n ≤ cfg.historySize ∨ n ≤ getAvailableCount (exec cfg typed ops).1)
    (hev : firstEvent (items (window (exec cfg typed ops).2)) = none) :
    (step cfg (exec cfg typed ops).1 (.read m n)).2.count = min n (total (window (exec cfg typed ops).2)) := by
  obtain ⟨h1, h2, h3, h4, -⟩ := C26_lastSamples_partial cfg hsk typed ops hw hst hp m hd n hv hn
  rw [h4, h2]
  have key : ∀ l : List Item, firstEvent l = none → (untilEvent l).length = cnt l := by
    intro l
    induction l with
    | nil => intro _; rfl
    | cons x l ih =>
      intro h
      cases x with
      | event i k => exact nomatch h
      | sample t => simp only [untilEvent, List.length_cons, cnt_sample]; rw [ih h]
  rw [key _ (by rw [lastSamples, firstEvent_dropSamples]; exact hev), lastSamples, cnt_dropSamples, ← total_cnt]
  omega

example : firstEvent (items (window (exec exCfg false exOps).2)) = none := by rfl

/-- **C26** Asking for more than the history size when fewer samples are cached returns nothing and says so. -/
theorem C26_insufficient (cfg : Cfg) (typed : Bool) (ops : List Op) (m : Mode) (n : Nat)
    (hv : (exec cfg typed ops).1.invalid = false)
    (h1 : n > getAvailableCount (exec cfg typed ops).1) (h2 : n > cfg.historySize) :
    let o := (step cfg (exec cfg typed ops).1 (.read m n)).2
    o.ret = .success ∧ o.vals = [] ∧ o.count = 0 ∧ o.event = none ∧ o.sufficient = false := by
  intro o
  have : o = { ret := .success, sufficient := false } := by
    show (read cfg _ m n).2 = _
    unfold read
    rw [if_neg (by rw [hv]; simp), if_pos ⟨h1, h2⟩]
  rw [this]; exact ⟨rfl, rfl, rfl, rfl, rfl⟩

example : getAvailableCount (exec exCfg false exOps).1 = 6 ∧
    (step exCfg (exec exCfg false exOps).1 (.read .values 7)).2.sufficient = false := by
  constructor <;> rfl

/-- **C26** At least `min historySize received` of the samples received since the last returned event are
available, never more than were received. -/
theorem C26_retains_partial (cfg : Cfg) (hsk : cfg.skipEvents = false) (typed : Bool) (ops : List Op)
    (hw : total (received ops) < W) (hst : typed = true ∨ startsTyped (received ops) = true) :
    let a := getAvailableCount (exec cfg typed ops).1
    min cfg.historySize (total (window (exec cfg typed ops).2)) ≤ a ∧ a ≤ total (window (exec cfg typed ops).2) := by
  obtain ⟨hi, -⟩ := tinv cfg hsk typed ops hw hst
  have h1 := hi.cache.le
  have h2 := hi.cache.full
  simp only [getAvailableCount]
  omega

/-- **C26** Memory: with packets of at most `M` samples, no more than `historySize + M` samples are kept. -/
theorem C26_bounded_partial (cfg : Cfg) (hsk : cfg.skipEvents = false) (typed : Bool) (ops : List Op) (M : Nat)
    (hw : total (received ops) < W) (hst : typed = true ∨ startsTyped (received ops) = true)
    (hM : ∀ q ∈ received ops, Connection.samplesOf q ≤ M) :
    getAvailableCount (exec cfg typed ops).1 ≤ cfg.historySize + M := by
  induction ops using list_snoc_induction with
  | nil => exact Nat.zero_le _
  | snoc ops op ih =>
    rw [received_append] at hw hst hM
    have hw' : total (received ops) < W := by rw [total_append] at hw; omega
    have hst' := hst.imp (fun h => h) (startsTyped_append _ _)
    have hM' : ∀ q ∈ received ops, Connection.samplesOf q ≤ M := fun q hq => hM q (by simp [hq])
    have ih := ih hw' hst' hM'
    obtain ⟨hi, -⟩ := tinv cfg hsk typed ops hw' hst'
    have e : exec cfg typed (ops ++ [op]) = ((step cfg (exec cfg typed ops).1 op).1,
        (exec cfg typed ops).2 ++ [(op, (step cfg (exec cfg typed ops).1 op).2)]) := by
      simp only [exec, runTrace_snoc]
    rw [e]
    simp only [getAvailableCount] at ih ⊢
    have hle := hi.le
    cases op with
    | receive ps =>
      have er : received [.receive ps] = ps := by simp [received]
      rw [er] at hw hM
      refine receives_bound ps hi.cache (fun q hq => hM' q (hi.sub q hq)) (fun q hq => hM q (by simp [hq])) ?_ ih
      rw [total_append] at hw ⊢; omega
    | read m n =>
      have hc := read_cache hsk hi.cache (by omega) m n (read cfg (exec cfg typed ops).1 m n).1
        (read cfg (exec cfg typed ops).1 m n).2 rfl
      show (read cfg (exec cfg typed ops).1 m n).1.cached ≤ _
      cases hev : (read cfg (exec cfg typed ops).1 m n).2.event with
      | none => rw [hc.2.2.2.1 (by rw [hev]; rfl)]; exact ih
      | some x =>
        have hc1 := hc.1
        rw [hev] at hc1
        simp only [Option.isSome_some, if_true] at hc1
        have h1 := hc1.total
        have : ∀ (s : T) (s' : T) (o : Out), read cfg s m n = (s', o) → o.event.isSome = true →
            s'.packets = afterFirstEvent s.packets := by
          intro s s' o h ho
          unfold read at h
          split at h
          · obtain ⟨rfl, rfl⟩ := Prod.mk.inj h; exact nomatch ho
          split at h
          · obtain ⟨rfl, rfl⟩ := Prod.mk.inj h; exact nomatch ho
          split at h
          · rename_i s1 a1 ev hl
            obtain ⟨new, hs⟩ := readLoop_spec cfg hsk m _ _ _ _ _ _ hl
            obtain ⟨rfl, rfl⟩ := Prod.mk.inj h
            exact (hs.some ho).1
          · obtain ⟨rfl, rfl⟩ := Prod.mk.inj h; exact nomatch ho
        rw [h1, this (exec cfg typed ops).1 (read cfg (exec cfg typed ops).1 m n).1 (read cfg (exec cfg typed ops).1 m n).2
          rfl (by rw [hev]; rfl)]
        refine Nat.le_trans (total_after_le _) ?_
        rw [← hi.cache.total]; exact ih

example : getAvailableCount (exec exCfg false exOps).1 = 6 ∧ ∀ q ∈ received exOps, Connection.samplesOf q ≤ 3 := by
  constructor
  · rfl
  · decide

private def exSkip : Cfg := { exCfg with skipEvents := true }

/-- **C26** violated when events are skipped: two descriptor changes behind data are both charged with the
samples before them, so the available count wraps around to 2^64 - 3; when two more samples arrive, a read
of two returns nothing. -/
theorem C26_violation_skipEvents :
    let ops : List Op := [.receive [exDesc 0, exData 1 3, exDesc 2, exDesc 3], .read .values 2, .receive [exData 4 2]]
    getAvailableCount (exec exSkip false (ops.take 2)).1 = W - 3 ∧
    getAvailableCount (exec exSkip false ops).1 = W - 1 ∧
    (step exSkip (exec exSkip false ops).1 (.read .values 2)).2.vals = [] := by
  refine ⟨?_, ?_, ?_⟩ <;> rfl

/-- **C26** violated by a gap: the gap event makes every later read throw, the samples behind it are never
returned. For all configurations and all later packets. -/
theorem C26_violation_gap (cfg : Cfg) (typed : Bool) (i : Nat) (d : Connection.Num) (ps : List Packet) (m : Mode) (n : Nat)
    (hn : n ≤ cfg.historySize) :
    let s := (exec cfg typed [.receive (.event i (.gap d) :: ps)]).1
    step cfg s (.read m n) = (s, { ret := .throws }) := by
  intro s
  have key : ∀ (ps : List Packet) (s0 : T), (∃ l, s0.packets = .event i (.gap d) :: l) →
      ∃ l, (ps.foldl (receive cfg) s0).packets = .event i (.gap d) :: l := by
    intro ps
    induction ps with
    | nil => exact fun s0 h => h
    | cons q ps ih =>
      intro s0 h
      refine ih _ ?_
      obtain ⟨l, hl⟩ := h
      cases q with
      | data id n dom =>
        simp only [receive]
        split
        · exact ⟨l ++ [.data id n dom], by dsimp only; rw [hl]; rfl⟩
        · refine ⟨(evict cfg.historySize l (Connection.wadd s0.cached n)).1 ++ [.data id n dom], ?_⟩
          dsimp only; rw [hl, evict]
          · rfl
          · exact fun _ _ _ h => nomatch h
      | event id k => exact ⟨l ++ [.event id k], by simp only [receive]; rw [hl]; rfl⟩
      | none id => exact ⟨l, hl⟩
  have inv : ∀ (ps : List Packet) (s0 : T), (ps.foldl (receive cfg) s0).invalid = s0.invalid := by
    intro ps
    induction ps with
    | nil => exact fun _ => rfl
    | cons q ps ih =>
      intro s0
      rw [List.foldl_cons, ih]
      cases q <;> simp only [receive]
      split <;> rfl
  have hs : s = ps.foldl (receive cfg) (receive cfg (init typed) (.event i (.gap d))) := by
    simp [s, exec, runTrace, step]
  obtain ⟨l, hl⟩ := key ps (receive cfg (init typed) (.event i (.gap d))) ⟨[], by simp [receive, init]⟩
  rw [← hs] at hl
  have hv : s.invalid = false := by rw [hs, inv]; rfl
  show read cfg s m n = _
  unfold read
  rw [if_neg (by rw [hv]; simp), if_neg (by omega), hl, readLoop]

example : (exec exCfg true [.receive [.event 0 (.gap (.int 5)), exData 1 3]]).1.cached = 3 := by rfl

/-- **C26** violated: reading with domain throws when a data packet has no domain packet. -/
theorem C26_violation_noDomainPacket :
    (step exCfg (exec exCfg true [.receive [exData 1 3]]).1 (.read .withDomain 2)).2.ret = .throws := by rfl

end Verif.Reader.Tail
