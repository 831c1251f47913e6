import Verif.Reader.BlockHist

/-! # C27: the block reader returns whole blocks with the configured overlap

The theorems hold for histories whose reads ask for at most `getAvailableCount` blocks (or are ended by a
queued event), with non-empty packets and, when blocks overlap, an overlap of at most half a block and packets
of one size. The violations below show what happens otherwise.
-/

namespace Verif.Reader.Block

open Connection (Packet EventKind DomPacket DomDesc W)

private def exCfg (block overlap : Nat) : Cfg :=
  { block, overlap, skipEvents := false, badValue := fun _ => false, badDomain := fun _ => false }
private def exDesc (id : Nat) : Packet := .event id (.descChanged (some (some 1)) none)
private def exData (id n : Nat) : Packet := .data id n none
private def exOps : List Op :=
  [.receive [exDesc 0, exData 1 3], .read .values 1, .receive [exData 2 3, exData 3 3], .read .values 2]

/-- **C27** Let `l` be the samples since the last returned event, up to the next one, and `k` the number of
blocks returned since. A read of `n` blocks that returns no event returns exactly blocks `k`, …, `k + n - 1`
of `l`, whatever the packets were and however the earlier reads were made. -/
theorem C27_blocks_partial (cfg : Cfg) (hb : 0 < cfg.block) (ho : cfg.overlap < 100) (typed : Bool) (ops : List Op)
    (m : Mode) (n : Nat) (hp : AllPolite cfg typed (ops ++ [.read m n])) (hs : GoodSizes cfg (received ops))
    (ht : typed = true ∨ startsTyped (received ops) = true) (hv : (exec cfg typed ops).1.invalid = false) :
    let w := (progress cfg (exec cfg typed ops).2).1
    let k := (progress cfg (exec cfg typed ops).2).2
    let o := (step cfg (exec cfg typed ops).1 (.read m n)).2
    o.ret = .success ∧ o.vals.length ≤ n * cfg.block ∧ o.readSamples = o.vals.length ∧ o.count ≤ n ∧
    (o.event = none → o.count = n ∧ o.vals = blocks cfg (segment cfg w) k n ∧ o.vals.length = n * cfg.block) ∧
    (o.event ≠ none → o.event = firstEnd cfg w ∧
      o.vals = blocks cfg (segment cfg w) k o.count ++
        (segment cfg w).drop ((k + o.count) * (cfg.block - cfg.block * cfg.overlap / 100)) ∧
      o.readSamples / cfg.block = o.count) ∧
    (m = .withDomain → o.doms = o.vals) ∧ o.offset = o.vals.head? := by
  intro w k o
  obtain ⟨p1, p2, p3⟩ := hp ops m n [] rfl
  have hp' : AllPolite cfg typed ops := by
    intro pre m' n' post h
    obtain ⟨h1, h2, h3⟩ := hp pre m' n' (post ++ [.read m n]) (by rw [h]; simp)
    refine ⟨h1, h2, fun hm i k hq => h3 hm i k ?_⟩
    rw [received_append]; exact List.mem_append_left _ hq
  obtain ⟨hi, -⟩ := hinv hb ho typed ops hp' hs ht
  have hdd : m = .withDomain → ∀ d ∈ dataOf w, d.dom ≠ none := by
    intro hm d hd hnone
    have := hi.sub _ (dataOf_mem _ d hd)
    rw [hnone] at this
    refine p3 hm d.id d.n ?_
    rw [received_append]
    exact List.mem_append_left _ this
  have hg := good_of_sub hb ho hs hi.sub
  obtain ⟨r1, r2, r3, r4, r5, r6, r7, r8, -, -⟩ := read_ok hg hi.ready p1 p2 hdd hv
    (read cfg (exec cfg typed ops).1 m n).1 (read cfg (exec cfg typed ops).1 m n).2 rfl
  have hcount : o.count = o.readSamples / cfg.block := by
    show (read cfg (exec cfg typed ops).1 m n).2.count = (read cfg (exec cfg typed ops).1 m n).2.readSamples / cfg.block
    unfold read
    rw [if_neg (by rw [hv]; simp)]
    split <;> simp
  refine ⟨r1, r6, r5, r2, ?_, ?_, r7, r8⟩
  · intro h
    obtain ⟨q1, q2, -, -, q5⟩ := r3 h
    refine ⟨q1, q2, ?_⟩
    apply Nat.le_antisymm r6
    have e1 : n = o.count := q1.symm
    have e2 : o.vals.length = o.readSamples := r5.symm
    show n * cfg.block ≤ o.vals.length
    rw [e2, e1, hcount]
    exact Nat.div_mul_le_self _ _
  · intro h
    obtain ⟨q1, -, -, q4, -⟩ := r4 h
    exact ⟨q1, q4, hcount.symm⟩

/-- Blocks of 4 overlapping by 2, packets of 3: the second read returns two blocks. -/
example : (step (exCfg 4 50) (exec (exCfg 4 50) false (exOps.take 3)).1 (.read .values 2)).2.vals =
    [(1, 0), (1, 1), (1, 2), (2, 0), (1, 2), (2, 0), (2, 1), (2, 2)] := by rfl
example : blocks (exCfg 4 50) (segment (exCfg 4 50) [exData 1 3, exData 2 3, exData 3 3]) 0 2 =
    [(1, 0), (1, 1), (1, 2), (2, 0), (1, 2), (2, 0), (2, 1), (2, 2)] := by rfl
example : GoodSizes (exCfg 4 50) (received exOps) := by
  have e : received exOps = [exDesc 0, exData 1 3, exData 2 3, exData 3 3] := rfl
  rw [e]
  constructor
  · intro i n d h
    simp [exDesc, exData] at h
    have : n = 3 := by rcases h with h | h | h <;> exact h.2.1
    rw [this]; exact ⟨by decide, by decide⟩
  · right
    refine ⟨by decide, 3, ?_⟩
    intro i n d h
    simp [exDesc, exData] at h
    rcases h with h | h | h <;> exact h.2.1
example : AllPolite (exCfg 4 50) false exOps := by
  intro pre m n post h
  have key : ∀ i, pre.length = i → pre = exOps.take i ∧ exOps.drop i = .read m n :: post := by
    intro i hi
    rw [h, ← hi]; simp
  obtain ⟨h1, h2⟩ := key pre.length rfl
  have hlen : pre.length < 4 := by
    have := congrArg List.length h
    simp [exOps] at this; omega
  have hm : m = .values := by
    have : pre.length = 0 ∨ pre.length = 1 ∨ pre.length = 2 ∨ pre.length = 3 := by omega
    rcases this with e | e | e | e <;> rw [e] at h2 <;> simp [exOps] at h2 <;> simp [h2]
  have : (pre.length = 1 ∧ n = 1) ∨ (pre.length = 3 ∧ n = 2) := by
    have : pre.length = 0 ∨ pre.length = 1 ∨ pre.length = 2 ∨ pre.length = 3 := by omega
    rcases this with e | e | e | e <;> rw [e] at h2 <;> simp [exOps] at h2 <;> simp [e, h2]
  refine ⟨?_, ?_, fun hw => by rw [hm] at hw; exact nomatch hw⟩
  · rcases this with ⟨e, rfl⟩ | ⟨e, rfl⟩ <;> rw [h1, e]
    · right; exact ⟨exDesc 0, by decide, by decide⟩
    · left; decide
  · rcases this with ⟨e, rfl⟩ | ⟨e, rfl⟩ <;> decide

/-- **C27** What `getAvailableCount` promises is delivered: reading that many blocks returns that many, unless an
event is queued. -/
theorem C27_available_partial (cfg : Cfg) (hb : 0 < cfg.block) (ho : cfg.overlap < 100) (typed : Bool) (ops : List Op)
    (m : Mode) (n : Nat) (hp : AllPolite cfg typed (ops ++ [.read m n])) (hs : GoodSizes cfg (received ops))
    (ht : typed = true ∨ startsTyped (received ops) = true) (hv : (exec cfg typed ops).1.invalid = false)
    (hq : firstEnd cfg (progress cfg (exec cfg typed ops).2).1 = none) :
    (step cfg (exec cfg typed ops).1 (.read m n)).2.count = n := by
  obtain ⟨-, -, -, -, h1, h2, -⟩ := C27_blocks_partial cfg hb ho typed ops m n hp hs ht hv
  by_cases he : (step cfg (exec cfg typed ops).1 (.read m n)).2.event = none
  · exact (h1 he).1
  · have := (h2 he).1
    rw [hq] at this
    exact absurd this he

theorem available_le_events {cfg : Cfg} (hse : cfg.skipEvents = false) {w : List Packet} {K : Nat} {s : B}
    {pre : List Packet} {dropped : List DP} (hz : Z cfg w K 0 s pre dropped) :
    K * cfg.step + availableSamples cfg s ≤ (segment cfg w).length := by
  rw [hz.split, segment_append cfg _ _ hz.noEnd, List.length_append, toks_length, hz.data]
  have h1 : samplesUntil (if cfg.skipEvents then isGapPacket else isEventPacket) s.conn ≤
      (segment cfg s.conn).length := by
    rw [hse, if_neg (by simp)]
    generalize s.conn = c
    unfold samplesUntil
    induction c with
    | nil => simp [samplesIn]
    | cons q c ih =>
      cases q with
      | data i n d =>
        rw [List.takeWhile_cons, if_pos (by rfl)]
        simp only [samplesIn, segment, List.map_cons, List.sum_cons, packetSamples] at ih ⊢
        simp; omega
      | event i k => rw [List.takeWhile_cons, if_neg (by simp [isEventPacket])]; simp [samplesIn]
      | none i =>
        rw [List.takeWhile_cons, if_pos (by rfl)]
        simp only [samplesIn, segment, List.map_cons, List.sum_cons, packetSamples, ends] at ih ⊢
        simp; omega
  have hp := hz.pos
  unfold availableSamples
  cases ha : s.ahead with
  | nil => simp only [tot_append, tot_reverse, tot_nil]; have := hz.prev0 ha; omega
  | cons cur rest =>
    have := hz.prevLt cur rest ha
    simp only [tot_append, tot_reverse, tot_cons]; omega

/-- **C27** What is reported as available is there, before the next event: when events are not skipped and
`getAvailableCount` reports at least two blocks, the last of them is a whole block of the samples before the next
event. -/
theorem C27_wholeBlocks_partial (cfg : Cfg) (hb : 0 < cfg.block) (ho : cfg.overlap < 100) (hse : cfg.skipEvents = false)
    (typed : Bool) (ops : List Op) (hp : AllPolite cfg typed ops) (hs : GoodSizes cfg (received ops))
    (ht : typed = true ∨ startsTyped (received ops) = true)
    (h2 : 2 ≤ getAvailableCount cfg (exec cfg typed ops).1) :
    let w := (progress cfg (exec cfg typed ops).2).1
    let k := (progress cfg (exec cfg typed ops).2).2
    (blockAt cfg (segment cfg w) (k + (getAvailableCount cfg (exec cfg typed ops).1 - 1))).length = cfg.block := by
  intro w k
  obtain ⟨hi, -⟩ := hinv hb ho typed ops hp hs ht
  obtain ⟨pre, dropped, hz⟩ := hi.ready
  have hav : k * cfg.step + availableSamples cfg (exec cfg typed ops).1 ≤ (segment cfg w).length :=
    available_le_events hse hz
  generalize (exec cfg typed ops).1 = s at *
  have hov := ov_le cfg ho hb
  unfold getAvailableCount blockCount at h2 ⊢
  by_cases hlt : availableSamples cfg s < cfg.block
  · rw [if_pos hlt] at h2
    exfalso
    split at h2
    · have : min (availableSamples cfg s) 1 ≤ 1 := Nat.min_le_right _ _
      omega
    · omega
  · rw [if_neg hlt, Nat.add_sub_cancel]
    have h3 := Nat.div_mul_le_self (availableSamples cfg s - cfg.block) cfg.step
    generalize (availableSamples cfg s - cfg.block) / cfg.step = z at *
    unfold blockAt
    rw [List.length_take, List.length_drop]
    have e : cfg.block - cfg.block * cfg.overlap / 100 = cfg.step := rfl
    rw [e, Nat.add_mul]
    omega

example : getAvailableCount (exCfg 4 50) (exec (exCfg 4 50) false (exOps.take 3)).1 = 3 := by rfl
example : getAvailableCount (exCfg 4 0) (exec (exCfg 4 0) true [.receive [exData 0 9, exDesc 1, exData 2 4]]).1 = 2 := by
  rfl

/-- **C27** violated: with an overlap of more than half a block the reader moves before its first packet
(undefined behaviour), for packets of one size larger than a block's overlap: blocks of 10 overlapping by 9,
three packets of 10, five blocks read of the 21 available. -/
theorem C27_violation_overlapAboveHalf :
    let s := (exec (exCfg 10 90) true [.receive [exData 0 10, exData 1 10, exData 2 10]]).1
    getAvailableCount (exCfg 10 90) s = 21 ∧
    (step (exCfg 10 90) s (.read .values 5)).2.ret = .fault .beforeBegin := by
  constructor <;> rfl

/-- **C27** violated: with packets of different sizes samples are skipped. Blocks of 12 overlapping by 4, packets
of 10, 8 and 20 samples: the second block must start with sample 8 of the first packet, it starts with the
second packet. -/
theorem C27_violation_packetSizes :
    let s := (exec (exCfg 12 34) true [.receive [exData 0 10, exData 1 8, exData 2 20]]).1
    let l := segment (exCfg 12 34) [exData 0 10, exData 1 8, exData 2 20]
    let o := (step (exCfg 12 34) s (.read .values 2)).2
    getAvailableCount (exCfg 12 34) s = 4 ∧ o.count = 2 ∧
    (o.vals.drop 12).head? = some (1, 0) ∧ (blockAt (exCfg 12 34) l 1).head? = some (0, 8) := by
  refine ⟨?_, ?_, ?_, ?_⟩ <;> rfl

/-- **C27** violated: a data packet without samples makes the reader divide by zero, with every block size. -/
theorem C27_violation_emptyPacket (block : Nat) (hb : 0 < block) (i : Nat) (ps : List Packet) (n : Nat)
    (h0 : 0 < n) (hn : n * block < W) :
    (step (exCfg block 0) (exec (exCfg block 0) true [.receive (exData i 0 :: ps)]).1 (.read .values n)).2.ret =
      .fault .divByZero := by
  have hreq : requested (exCfg block 0) n ≠ 0 := by
    have h1 : (exCfg block 0).step = block := by simp [Cfg.step, Cfg.ov, exCfg]
    have h2 : (exCfg block 0).ov = 0 := by simp [Cfg.ov, exCfg]
    unfold requested
    rw [if_neg (by omega), h1, h2, Nat.add_zero, Nat.mod_eq_of_lt hn]
    exact Nat.ne_of_gt (Nat.mul_pos h0 hb)
  have hs : (exec (exCfg block 0) true [.receive (exData i 0 :: ps)]).1 =
      { conn := exData i 0 :: ps, typed := true } := by
    simp [exec, runTrace, step, init]
  rw [hs]
  show (read _ _ _ _).2.ret = _
  unfold read
  rw [if_neg (by simp)]
  obtain ⟨f, hf⟩ : ∃ f, fuelFor (exCfg block 0) { conn := exData i 0 :: ps, typed := true } n = f + 1 + 1 :=
    ⟨_, rfl⟩
  rw [hf]
  have hl : loop (exCfg block 0) .values (f + 1 + 1) { conn := exData i 0 :: ps, typed := true }
      { rem := requested (exCfg block 0) n } =
      loop (exCfg block 0) .values (f + 1) { conn := ps, ahead := [⟨i, 0, none⟩], typed := true }
        { rem := requested (exCfg block 0) n } := by
    rw [loop]; rfl
  rw [hl, loop]
  simp only
  rw [if_neg hreq]
  have htake : takeCount (exCfg block 0) { conn := ps, ahead := [⟨i, 0, none⟩], typed := true } ⟨i, 0, none⟩ = 0 := by
    simp [takeCount, Connection.wsub]
  have hoz : (exCfg block 0).overlap = 0 := rfl
  simp [readPacketData, htake, hoz, finish, trim, slice, noteOffset]

example : (0 : Nat) < 4 ∧ 2 * 4 < W := by decide

/-- **C27** violated: after a read that found only a part of a block, the next read writes more than it was asked
for. A buffer for one block of 4 samples receives 9. -/
theorem C27_violation_bufferOverrun :
    let ops : List Op := [.receive [exData 0 2], .read .values 1, .receive [exData 1 9]]
    let o := (step (exCfg 4 0) (exec (exCfg 4 0) true ops).1 (.read .values 1)).2
    o.vals.length = 9 ∧ o.count = 2 := by
  constructor <;> rfl

/-- **C27** violated: a whole block is there and can be read, but is not reported as available, because the reader
counts only the rest of one buffered packet. -/
theorem C27_violation_underreported :
    let s := (exec (exCfg 4 50) true [.receive [exData 0 3, exData 1 3], .read .values 1]).1
    getAvailableCount (exCfg 4 50) s = 0 ∧
    (step (exCfg 4 50) s (.read .values 1)).2.count = 1 := by
  constructor <;> rfl

end Verif.Reader.Block
