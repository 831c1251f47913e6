import Verif.Connection.Attr

/-!
# Properties of connections (C01–C07, C46)

`exec g ops` runs an arbitrary history `ops` of calls on a new connection, with gap checking on
(`g = true`) or off. The vocabulary (`accepted`, `delivered`, `expectedStream`, …) is in `Spec.lean`.
-/

namespace Verif.Connection

/-! ## C01 First in, first out, nothing lost or duplicated -/

/-- C01 (gap checking off): what was delivered followed by what is still queued is exactly what was
accepted, in order. -/
theorem C01_fifo (ops : List Op) (h : .enqueueLastDescriptor ∉ ops) :
    delivered (exec false ops).2 ++ (exec false ops).1.packets = accepted (exec false ops).2 := by
  have hs := (streamInv false ops).stream (fun x hx he => h (by
    rw [← trace_ops false ops, List.mem_map]; exact ⟨x, hx, he⟩))
  simpa using hs

/-- C01 (gap checking on): the same, where each packet enqueued on its own is preceded by the gap
packet it reveals, if any. -/
theorem C01_fifo_gapChecking (ops : List Op) (h : .enqueueLastDescriptor ∉ ops) :
    delivered (exec true ops).2 ++ (exec true ops).1.packets = expectedStream [] (exec true ops).2 := by
  have hs := (streamInv true ops).stream (fun x hx he => h (by
    rw [← trace_ops true ops, List.mem_map]; exact ⟨x, hx, he⟩))
  simpa using hs

theorem expectedStream_sublist (past : List Packet) (t : Trace) :
    (accepted t).Sublist (expectedStream past t) := by
  induction t generalizing past with
  | nil => exact List.Sublist.slnil
  | cons x t ih =>
    obtain ⟨op, o⟩ := x
    have e : accepted ((op, o) :: t) = acceptedBy (op, o) ++ accepted t := by simp [accepted]
    rw [e]
    cases op with
    | enqueue m p =>
      by_cases h : o.ret = .success
      · simp only [expectedStream, acceptedBy, h, if_true]
        exact ((ih (p :: past)).cons_cons p).trans (List.sublist_append_right _ _)
      · simpa [expectedStream, acceptedBy, h] using ih past
    | enqueueMultiple ps =>
      simp only [expectedStream, acceptedBy]
      exact List.Sublist.append (List.Sublist.refl _) (ih past)
    | _ => simpa [expectedStream, acceptedBy] using ih past

/-- C01, with gap checking: accepted packets form a subsequence of the consumer's stream. -/
theorem C01_subsequence (ops : List Op) (h : .enqueueLastDescriptor ∉ ops) :
    (accepted (exec true ops).2).Sublist
      (delivered (exec true ops).2 ++ (exec true ops).1.packets) := by
  rw [C01_fifo_gapChecking ops h]; exact expectedStream_sublist _ _

/-- C01: emptying the connection at the end of any history completes the delivery. -/
theorem C01_drain (ops : List Op) (h : .enqueueLastDescriptor ∉ ops) :
    delivered (exec false (ops ++ [.dequeueAll])).2 = accepted (exec false ops).2 := by
  rw [← C01_fifo ops h]
  simp [exec, runTrace_snoc, step, dequeueAll]

/-- C01: the reported packet count is the number of accepted packets not yet delivered. -/
theorem C01_packetCount (ops : List Op) (h : .enqueueLastDescriptor ∉ ops) :
    (delivered (exec false ops).2).length + getPacketCount (exec false ops).1 =
      (accepted (exec false ops).2).length := by
  rw [← C01_fifo ops h, List.length_append]; rfl

/-- C01: with either setting, `dequeue` returns the head of the queue, `dequeueUpTo` the first
packets, `dequeueAll` everything, and exactly these leave the queue. -/
theorem C01_dequeue (g : Bool) (ops : List Op) :
    let s := (exec g ops).1
    (step s .dequeue).2.packets = s.packets.take 1 ∧ (step s .dequeue).1.packets = s.packets.drop 1 ∧
    ((step s .dequeue).2.ret = .noMoreItems ↔ s.packets = []) ∧
    (∀ n, (step s (.dequeueUpTo n)).2.packets = s.packets.take n ∧
      (step s (.dequeueUpTo n)).1.packets = s.packets.drop n) ∧
    (step s .dequeueAll).2.packets = s.packets ∧ (step s .dequeueAll).1.packets = [] := by
  refine ⟨?_, ?_, ?_, fun n => ⟨?_, ?_⟩, rfl, rfl⟩
  · simp only [step, dequeue]; split <;> simp_all
  · simp only [step, dequeue]; split
    · simp_all
    · next h => rw [(onPacketDequeued_gapFields _ _).2.2.2.2.2.2.1, h]; simp
  · simp only [step, dequeue]; split <;> simp_all
  · simp only [step, dequeueUpTo]
    rw [← List.take_eq_take_min]
  · simp only [step, dequeueUpTo, countPackets]
    by_cases hn : n ≤ (exec g ops).1.packets.length
    · rw [Nat.min_eq_left hn]
    · rw [Nat.min_eq_right (by omega), List.drop_length, List.drop_eq_nil_of_le (by omega)]

def exPkts : List Op :=
  [.enqueue .plain (.event 1 (.descChanged (some (some 5)) (some (some ⟨0, true, .int 1, .int64⟩)))),
   .enqueue .plain (.data 2 10 (some ⟨.int 0, 10⟩)), .enqueueMultiple [.data 3 5 none, .none 4],
   .dequeue, .enqueue .plain (.data 5 1 (some ⟨.int 13, 1⟩)), .dequeueUpTo 2]

/-- A non-trivial history: packets delivered in three batches, two packets still queued. -/
example : .enqueueLastDescriptor ∉ exPkts ∧ (delivered (exec false exPkts).2).length = 3 ∧
    getPacketCount (exec false exPkts).1 = 2 := by decide

/-- With gap checking the gap of 3 before packet 5 appears in the stream. -/
example : expectedStream [] (exec true exPkts).2 =
    [.event 1 (.descChanged (some (some 5)) (some (some ⟨0, true, .int 1, .int64⟩))),
     .data 2 10 (some ⟨.int 0, 10⟩), .data 3 5 none, .none 4, .event 0 (.gap (.int 3)),
     .data 5 1 (some ⟨.int 13, 1⟩)] := by decide

/-! ## C02 Available sample count -/

/-- C02: the reported number of available samples is the number of samples in the packets that
emptying the connection would hand out (as a 64 bit count). -/
theorem C02_availableSamples (g : Bool) (ops : List Op) :
    getAvailableSamples (exec g ops).1 =
      totalSamples (step (exec g ops).1 .dequeueAll).2.packets % 2 ^ 64 :=
  sampleInv g ops

/-- C02: `peek` shows what `dequeue` would return. -/
theorem C02_peek (g : Bool) (ops : List Op) :
    (peek (exec g ops).1).toList = (step (exec g ops).1 .dequeue).2.packets := by
  simp only [step, dequeue, peek]; split <;> simp_all

example : getAvailableSamples (exec true exPkts).1 = 1 ∧
    getAvailableSamples (exec true (exPkts.take 5)).1 = 16 ∧
    peek (exec true (exPkts.take 4)).1 = some (.data 2 10 (some ⟨.int 0, 10⟩)) := by decide

/-! ## C03 `hasEventPacket` -/

/-- C03 (partial): the answer of `hasEventPacket` is exact when the producer only submits
descriptor events and, with gap checking on, the consumer dequeues packets one by one. Missing: it is
false in general, see the two violations below. -/
theorem C03_hasEventPacket_partial (g : Bool) (ops : List Op) (hok : ∀ op ∈ ops,
      OnlyDescriptorEvents op ∧ (g = true → op ≠ .dequeueAll ∧ ∀ n, op ≠ .dequeueUpTo n))
    (hl : load ops < 2 ^ 64) :
    hasEventPacket (exec g ops).1 = true ↔ ∃ p ∈ (exec g ops).1.packets, IsEvent p := by
  have h := exactInv g ops hok hl
  have hc := evCount_add_gapCount (exec g ops).1.packets
  have hz := countP_zero_iff isEvent_iff (exec g ops).1.packets
  simp only [hasEventPacket, h.ev, h.gap, Bool.or_eq_true, bne_iff_ne]
  constructor
  · intro hh
    apply Classical.byContradiction
    intro hn
    have := hz.mpr (fun p hp he => hn ⟨p, hp, he⟩)
    omega
  · rintro ⟨p, hp, he⟩
    have : ¬ List.countP Packet.isEvent (exec g ops).1.packets = 0 := fun h0 => hz.mp h0 p hp he
    omega

/-- C03 (partial): a queued event is never missed, whatever the consumer does, as long as the
producer does not submit gap packets itself. -/
theorem C03_noEventMissed_partial (g : Bool) (ops : List Op) (hok : ∀ op ∈ ops, NoExternalGap op)
    (hl : load ops < 2 ^ 64) (hf : hasEventPacket (exec g ops).1 = false) :
    ∀ p ∈ (exec g ops).1.packets, ¬ IsEvent p := by
  have h := lowerInv g ops hok hl
  have hc := evCount_add_gapCount (exec g ops).1.packets
  simp only [hasEventPacket, Bool.or_eq_false_iff, bne_eq_false_iff_eq] at hf
  refine (countP_zero_iff isEvent_iff _).mp ?_
  have := h.evL; have := h.gapL
  omega

/-- Under the same conditions `hasGapPacket` is exact. -/
theorem C03_hasGapPacket_partial (g : Bool) (ops : List Op) (hok : ∀ op ∈ ops,
      OnlyDescriptorEvents op ∧ (g = true → op ≠ .dequeueAll ∧ ∀ n, op ≠ .dequeueUpTo n))
    (hl : load ops < 2 ^ 64) :
    hasGapPacket (exec g ops).1 = true ↔ ∃ p ∈ (exec g ops).1.packets, IsGap p := by
  have h := exactInv g ops hok hl
  have hz := countP_zero_iff isGap_iff (exec g ops).1.packets
  simp only [hasGapPacket, h.gap, gapCount, bne_iff_ne]
  constructor
  · intro hh
    apply Classical.byContradiction
    intro hn
    exact hh (hz.mpr (fun p hp he => hn ⟨p, hp, he⟩))
  · rintro ⟨p, hp, he⟩ h0
    exact hz.mp h0 p hp he

/-- C03 fails: after a gap was detected and the queue emptied by `dequeueAll`, an event is reported
in the empty queue, for ever. -/
theorem C03_violation_gap_dequeueAll :
    let s := (exec true (exPkts ++ [.dequeueAll])).1
    hasEventPacket s = true ∧ hasGapPacket s = true ∧ s.packets = [] := by decide

/-- C03 fails: an event other than descriptor change or gap, enqueued and dequeued again, is still
reported in the empty queue. -/
theorem C03_violation_otherEvent :
    let s := (exec false [.enqueue .plain (.event 1 (.other 7)), .dequeue]).1
    hasEventPacket s = true ∧ s.packets = [] := by decide

def exExact : List Op :=
  [.enqueue .plain (.event 1 (.descChanged (some (some 5)) (some (some ⟨0, true, .int 1, .int64⟩)))),
   .enqueue .plain (.data 2 10 (some ⟨.int 0, 10⟩)), .dequeue,
   .enqueue .plain (.data 5 1 (some ⟨.int 13, 1⟩)), .dequeue]

example : (∀ op ∈ exExact, OnlyDescriptorEvents op ∧ (true = true → op ≠ .dequeueAll ∧
      ∀ n, op ≠ .dequeueUpTo n)) ∧ (∀ op ∈ exExact, NoExternalGap op) ∧ load exExact < 2 ^ 64 ∧
    hasEventPacket (exec true exExact).1 = true ∧
    hasEventPacket (exec true (exExact.take 3)).1 = false := by
  refine ⟨?_, ?_, by decide, by decide, by decide⟩
  · simp [exExact, OnlyDescriptorEvents, IsEvent, IsDescriptorChange]
  · simp [exExact, NoExternalGap, IsGap]

/-! ## C04 Samples until the next event, descriptor or gap -/

theorem untilQuery {s : State} (hs : SampleInv s) {stop : Packet → Bool} {Q : Packet → Prop}
    (h : ∀ p, stop p = true ↔ Q p) (c : Prop) [Decidable c]
    (hc : c → ∀ p ∈ s.packets, ¬ Q p) :
    ∃ n, SamplesBeforeFirst Q s.packets n ∧
      (if c then s.samplesCnt else scanUntil stop s.packets 0) = n % 2 ^ 64 := by
  by_cases h0 : c
  · rw [if_pos h0]
    exact ⟨_, .inr ⟨hc h0, rfl⟩, hs⟩
  · rw [if_neg h0]
    refine ⟨_, samplesBeforeFirst_takeWhile h s.packets, ?_⟩
    have := scanUntil_eq stop s.packets 0
    rw [Nat.zero_mod, Nat.zero_add] at this
    exact this

/-- C04: `getSamplesUntilNextEventPacket` is the number of samples queued before the first event. -/
theorem C04_untilEvent (g : Bool) (ops : List Op) (hok : ∀ op ∈ ops, NoExternalGap op)
    (hl : load ops < 2 ^ 64) :
    ∃ n, SamplesBeforeFirst IsEvent (exec g ops).1.packets n ∧
      getSamplesUntilNextEventPacket (exec g ops).1 = n % 2 ^ 64 := by
  refine untilQuery (sampleInv g ops) isEvent_iff _ ?_
  intro hc
  refine C03_noEventMissed_partial g ops hok hl ?_
  simp [hasEventPacket, hc.1, hc.2]

/-- C04: `getSamplesUntilNextDescriptor` is the number of samples queued before the first descriptor
change. -/
theorem C04_untilDescriptor (g : Bool) (ops : List Op) (hok : ∀ op ∈ ops, NoExternalGap op)
    (hl : load ops < 2 ^ 64) :
    ∃ n, SamplesBeforeFirst IsDescriptorChange (exec g ops).1.packets n ∧
      getSamplesUntilNextDescriptor (exec g ops).1 = n % 2 ^ 64 := by
  refine untilQuery (sampleInv g ops) isDescriptor_iff _ ?_
  intro hc p hp hd
  have h := (lowerInv g ops hok hl).evL
  rw [hc] at h
  have hz : evCount (exec g ops).1.packets = 0 := by omega
  have := (List.countP_eq_zero.mp hz) p hp
  obtain ⟨i, v, d, rfl⟩ := hd
  simp at this

/-- C04: `getSamplesUntilNextGapPacket` is the number of samples queued before the first gap. -/
theorem C04_untilGap (g : Bool) (ops : List Op) (hok : ∀ op ∈ ops, NoExternalGap op)
    (hl : load ops < 2 ^ 64) :
    ∃ n, SamplesBeforeFirst IsGap (exec g ops).1.packets n ∧
      getSamplesUntilNextGapPacket (exec g ops).1 = n % 2 ^ 64 := by
  refine untilQuery (sampleInv g ops) isGap_iff _ ?_
  intro hc
  have h := (lowerInv g ops hok hl).gapL
  exact (countP_zero_iff isGap_iff _).mp (by simp only [gapCount] at h; omega)

/-- The restriction in C04 is needed: a gap packet submitted by the producer (through
`enqueueMultiple`, which does not reject it) is not seen by `getSamplesUntilNextGapPacket`. -/
theorem C04_violation_externalGap :
    let s := (exec true [.enqueueMultiple [.data 1 3 none, .event 2 (.gap (.int 1)), .data 3 4 none]]).1
    getSamplesUntilNextGapPacket s = 7 ∧ SamplesBeforeFirst IsGap s.packets 3 ∧
      ¬ SamplesBeforeFirst IsGap s.packets 7 := by
  refine ⟨by decide, .inl ⟨[.data 1 3 none], .event 2 (.gap (.int 1)), [.data 3 4 none],
    by decide, by simp [IsGap], ⟨_, _, rfl⟩, by decide⟩, ?_⟩
  have e : (exec true [.enqueueMultiple
    [.data 1 3 none, .event 2 (.gap (.int 1)), .data 3 4 none]]).1.packets =
    [.data 1 3 none, .event 2 (.gap (.int 1)), .data 3 4 none] := by decide
  rw [e]
  rintro (⟨pre, q, post, h1, h2, ⟨i, d, rfl⟩, h4⟩ | ⟨h1, _⟩)
  · match pre with
    | [] => simp at h1
    | [a] => simp at h1; rw [← h1.1] at h4; simp [samplesOf] at h4
    | [a, b] => simp at h1
    | a :: b :: c :: l => simp at h1
  · exact h1 (.event 2 (.gap (.int 1))) (by simp) ⟨_, _, rfl⟩

example : (∀ op ∈ exPkts, NoExternalGap op) ∧ load exPkts < 2 ^ 64 ∧
    getSamplesUntilNextEventPacket (exec true (exPkts.take 5)).1 = 15 ∧
    getSamplesUntilNextGapPacket (exec true (exPkts.take 5)).1 = 15 ∧
    getSamplesUntilNextDescriptor (exec true (exPkts.take 5)).1 = 16 ∧
    getSamplesUntilNextDescriptor (exec true (exPkts.take 3)).1 = 0 := by
  refine ⟨?_, by decide, by decide, by decide, by decide, by decide⟩
  simp [exPkts, NoExternalGap, IsGap]

/-! ## C05 Gap detection -/

/-- C05: after any history on a connection with gap checking, an accepted packet is appended to the
queue, preceded by a gap packet exactly when the packet reveals a gap (`gapBefore`), which then
carries the size of the gap. -/
theorem C05_gapDetection (ops : List Op) (m : EnqueueMode) (p : Packet)
    (h : (step (exec true ops).1 (.enqueue m p)).2.ret = .success) :
    (step (exec true ops).1 (.enqueue m p)).1.packets = (exec true ops).1.packets ++
      (match gapBefore (checked (exec true ops).2).reverse p with
        | some g => [.event 0 (.gap g), p]
        | none => [p]) := by
  have hi := (streamInv true ops).gap
  simp only [if_true] at hi
  have hb := ((enqueue_checked hi m p).2.2.2 h).2.1
  simp only [step]
  rw [hb, gapPackets]
  cases gapBefore (checked (exec true ops).2).reverse p <;> simp

/-- C05, integer domain: a data packet following a data packet directly gets a gap packet in front
iff it does not start at `offset + count * delta`, and the gap packet carries the difference. -/
theorem C05_integer (past : List Packet) (i n : Nat) (dd : DomDesc) (prev cur : DomPacket)
    (h1 : domainInForce past = some dd) (hl : dd.linear = true) (ht : dd.ty = .int64)
    (h2 : prevDomain past = some prev) (d : Int) :
    gapBefore past (.data i n (some cur)) = some (.int d) ↔
      d ≠ 0 ∧ cur.offset.toInt = prev.offset.toInt + prev.count * dd.delta.toInt + d := by
  simp only [gapBefore, h1, h2, domainOf, gapBetween, hl, ht]
  split
  · simp; omega
  · simp; omega

/-- With gap checking off nothing is ever inserted. -/
theorem C05_off (ops : List Op) (m : EnqueueMode) (p : Packet)
    (h : (step (exec false ops).1 (.enqueue m p)).2.ret = .success) :
    (step (exec false ops).1 (.enqueue m p)).1.packets = (exec false ops).1.packets ++ [p] := by
  have hi := (streamInv false ops).gap
  simp only [Bool.false_eq_true, if_false] at hi
  exact ((enqueue_unchecked hi [] m p).2.2.2 h).2

example : (step (exec true (exPkts.take 4)).1 (.enqueue .plain (.data 5 1 (some ⟨.int 13, 1⟩)))).2.ret
      = .success ∧
    gapBefore (checked (exec true (exPkts.take 4)).2).reverse (.data 5 1 (some ⟨.int 13, 1⟩))
      = some (.int 3) ∧
    gapBefore (checked (exec true (exPkts.take 4)).2).reverse (.data 5 1 (some ⟨.int 10, 1⟩)) = none := by
  decide

/-! ## C06 Notification of the listener -/

/-- C06 (partial): the listener is told about an accepted packet exactly as the notification method
prescribes; with "scheduler, queue was empty" it is scheduled iff the consumer has since the last
accepted packet been told by `dequeue` that there are no more packets. Missing: being told so by
`dequeueAll` does not count, see the violation. -/
theorem C06_notification_partial (g : Bool) (ops : List Op) (m : EnqueueMode) (p : Packet) :
    (step (exec g ops).1 (.enqueue m p)).2.notified =
      if (step (exec g ops).1 (.enqueue m p)).2.ret = .success then
        expectedNotification (notifyAfter ops) m (drained (exec g ops).2.reverse)
      else none := by
  have ha := attrInv g ops
  obtain ⟨_, h2, h3⟩ := enqueue_shape (exec g ops).1 m p
  change (enqueue (exec g ops).1 m p).2.notified =
    if (enqueue (exec g ops).1 m p).2.ret = .success then _ else none
  by_cases h : (enqueue (exec g ops).1 m p).2.ret = .success
  · rw [if_pos h, (h3 h).1, ha.notify, ha.drained, trace_ops]
    cases notifyAfter ops <;> cases m <;> simp [notification, expectedNotification]
  · rw [if_neg h]; exact (h2 h).2

/-- C06 for batches: at most one notification per batch, by the same rule. -/
theorem C06_batch_partial (g : Bool) (ops : List Op) (ps : List Packet) :
    (step (exec g ops).1 (.enqueueMultiple ps)).2.notified =
      if activeAfter ops then
        expectedNotification (notifyAfter ops) .plain (drained (exec g ops).2.reverse)
      else none := by
  have ha := attrInv g ops
  simp only [step, enqueueMultiple_eq]
  rw [ha.active, trace_ops, ha.notify, ha.drained, trace_ops]
  cases activeAfter ops with
  | false => simp
  | true => cases notifyAfter ops <;> simp [notification, expectedNotification]

/-- C06: the lost-wakeup case stated directly: the consumer called `dequeue`, was told there is
nothing more, and a packet is accepted next; then the listener is scheduled. -/
theorem C06_noLostWakeup (g : Bool) (ops : List Op) (p : Packet)
    (hm : notifyAfter ops = .schedulerQueueWasEmpty)
    (hd : (step (exec g ops).1 .dequeue).2.ret = .noMoreItems)
    (ha : (step (exec g (ops ++ [.dequeue])).1 (.enqueue .plain p)).2.ret = .success) :
    (step (exec g (ops ++ [.dequeue])).1 (.enqueue .plain p)).2.notified = some .scheduled := by
  have h := C06_notification_partial g (ops ++ [.dequeue]) .plain p
  rw [if_pos ha, notifyAfter_snoc, hm] at h
  rw [h]
  have : drained (exec g (ops ++ [.dequeue])).2.reverse = true := by
    unfold exec at *
    rw [runTrace_snoc]
    simp [drained, hd]
  rw [this]; rfl

/-- C06 fails after `dequeueAll`: it reports that there are no more packets, yet the next packet
does not schedule the listener. -/
theorem C06_violation_dequeueAll :
    let s := (exec false [.setNotify .schedulerQueueWasEmpty, .enqueue .plain (.none 1)]).1
    let r := step s .dequeueAll
    r.2.ret = .noMoreItems ∧ r.1.packets = [] ∧
      (step r.1 (.enqueue .plain (.none 2))).2 = { ret := .success, notified := none } := by decide

def exNotify : List Op := [.setNotify .schedulerQueueWasEmpty, .enqueue .plain (.none 1), .dequeue]

example : notifyAfter exNotify = .schedulerQueueWasEmpty ∧
    (step (exec false exNotify).1 .dequeue).2.ret = .noMoreItems ∧
    (step (exec false (exNotify ++ [.dequeue])).1 (.enqueue .plain (.none 2))).2.ret = .success ∧
    (step (exec false exNotify).1 (.enqueue .plain (.none 2))).2.notified = none := by decide

/-! ## C07 Inactive ports and rejected packets -/

/-- C07 (partial): the result of enqueueing a packet is the one prescribed by `expectedRet`. In
particular an inactive port ignores data and accepts events. Missing: batches, see the violation. -/
theorem C07_enqueueResult_partial (g : Bool) (ops : List Op) (m : EnqueueMode) (p : Packet) :
    (step (exec g ops).1 (.enqueue m p)).2.ret =
      expectedRet g (activeAfter ops) (checked (exec g ops).2).reverse p := by
  have ha := (attrInv g ops).active
  have hi := (streamInv g ops).gap
  rw [trace_ops] at ha
  rw [← ha]
  cases g with
  | true => exact (enqueue_checked (by simpa using hi) m p).1
  | false => exact (enqueue_unchecked (by simpa using hi) _ m p).1

/-- C07: a packet that is not accepted changes nothing and notifies nobody. -/
theorem C07_rejectedNoEffect (g : Bool) (ops : List Op) (m : EnqueueMode) (p : Packet)
    (h : (step (exec g ops).1 (.enqueue m p)).2.ret ≠ .success) :
    (step (exec g ops).1 (.enqueue m p)).1 = (exec g ops).1 ∧
      (step (exec g ops).1 (.enqueue m p)).2.notified = none :=
  (enqueue_shape (exec g ops).1 m p).2.1 h

/-- C07: while the port is inactive no data packet enters the queue, in any way. -/
theorem C07_noDataWhileInactive (g : Bool) (ops : List Op) (hin : activeAfter ops = false) (op : Op)
    (hop : ∀ b, op ≠ .setActive b) :
    ∀ p ∈ (step (exec g ops).1 op).1.packets, IsData p → p ∈ (exec g ops).1.packets := by
  have ha : (exec g ops).1.active = false := by
    rw [(attrInv g ops).active, trace_ops, hin]
  intro p hp hd
  cases op with
  | enqueue m q =>
    simp only [step] at hp
    obtain ⟨_, h2, h3⟩ := enqueue_shape (exec g ops).1 m q
    by_cases hr : (enqueue (exec g ops).1 m q).2.ret = .success
    · obtain ⟨_, s1, gp, _, _, hgp, _, _, he⟩ := h3 hr
      rw [he] at hp
      simp only [List.mem_append, List.mem_singleton] at hp
      obtain ⟨i, n, d, rfl⟩ := hd
      rcases hp with (hp | hp) | hp
      · exact hp
      · have := hgp _ hp; simp at this
      · subst hp
        simp [enqueue, ha] at hr
    · rw [(h2 hr).1] at hp; exact hp
  | enqueueMultiple ps =>
    simp only [step, enqueueMultiple_eq, ha] at hp
    exact hp
  | dequeue =>
    have := (C01_dequeue g ops).2.1
    rw [this] at hp
    exact List.mem_of_mem_drop hp
  | dequeueAll => simp [step, dequeueAll] at hp
  | dequeueUpTo n =>
    have := ((C01_dequeue g ops).2.2.2.1 n).2
    rw [this] at hp
    exact List.mem_of_mem_drop hp
  | enqueueLastDescriptor =>
    obtain ⟨i, n, d, rfl⟩ := hd
    simp only [step, enqueueLastDescriptor] at hp
    split at hp
    · simpa using hp
    · exact hp
  | setActive b => exact absurd rfl (hop b)
  | setNotify m => exact hp

/-- C07 fails for batches: events in a batch enqueued on an inactive port are dropped. -/
theorem C07_violation_batch :
    let s := (exec false [.setActive false]).1
    (step s (.enqueueMultiple [.event 1 (.other 1)])).2.ret = .ignored ∧
    (step s (.enqueueMultiple [.event 1 (.other 1)])).1.packets = [] ∧
    (step s (.enqueue .plain (.event 1 (.other 1)))).2.ret = .success := by decide

example : activeAfter [.setActive false] = false ∧
    (step (exec true [.setActive false]).1 (.enqueue .plain (.data 1 1 none))).2.ret = .ignored ∧
    (step (exec true []).1 (.enqueue .plain (.data 1 1 none))).2.ret = .errInvalidState := by decide

/-! ## C46 Replaying the last descriptors -/

/-- C46: `enqueueLastDescriptor` puts one descriptor-changed event at the front of the queue, holding
the value and the domain descriptor most recently announced by accepted packets; if none was ever
announced it does nothing. -/
theorem C46_lastDescriptor (g : Bool) (ops : List Op) :
    let v := (accepted (exec g ops).2).reverse.findSome? valueChange
    let d := (accepted (exec g ops).2).reverse.findSome? domainChange
    (step (exec g ops).1 .enqueueLastDescriptor).2 = { ret := .success } ∧
    (step (exec g ops).1 .enqueueLastDescriptor).1.packets =
      if v = none ∧ d = none then (exec g ops).1.packets
      else .event 0 (.descChanged v d) :: (exec g ops).1.packets := by
  have ha := attrInv g ops
  intro v d
  have hv : (exec g ops).1.valueDesc = v := ha.valueDesc
  have hd : (exec g ops).1.domainDesc = d := ha.domainDesc
  simp only [step, enqueueLastDescriptor, hv, hd]
  clear_value v d
  cases v <;> cases d <;> simp

example : (step (exec false exPkts).1 .enqueueLastDescriptor).1.packets.head? =
    some (.event 0 (.descChanged (some (some 5)) (some (some ⟨0, true, .int 1, .int64⟩)))) := by
  decide

end Verif.Connection
