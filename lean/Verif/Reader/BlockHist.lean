import Verif.Reader.BlockLemmas

/-! Reads and histories of the block reader (no claims here). -/

namespace Verif.Reader.Block

open Connection (Packet EventKind DomPacket DomDesc wadd wsub W)

theorem handleEvent_fields (cfg : Cfg) (s : B) (i : Nat) (k : EventKind) :
    (handleEvent cfg s k).conn = s.conn ∧ (handleEvent cfg s k).behind = s.behind ∧
    (handleEvent cfg s k).ahead = s.ahead ∧ (handleEvent cfg s k).prev = s.prev ∧
    (handleEvent cfg s k).written = s.written ∧ (s.typed = true → (handleEvent cfg s k).typed = true) ∧
    (announces (.event i k) = true → (handleEvent cfg s k).typed = true) := by
  cases k with
  | gap d => simp [handleEvent, announces]
  | other d => simp [handleEvent, announces]
  | descChanged v d =>
    rcases v with _ | _ | v <;> rcases d with _ | _ | d <;>
      simp [handleEvent, handleDescriptorChanged, announces]

theorem ends_eq (cfg : Cfg) (s : B) (i : Nat) (k : EventKind) (hv : s.invalid = false) :
    (!cfg.skipEvents || (handleEvent cfg s k).invalid || isGap k) = ends cfg (.event i k) := by
  cases k with
  | gap d => simp [handleEvent, ends, isGap]
  | other d => simp [handleEvent, ends, isGap, hv]
  | descChanged v d =>
    rcases v with _ | _ | v <;> rcases d with _ | _ | d <;>
      simp [handleEvent, handleDescriptorChanged, ends, isGap, hv, Bool.or_assoc]

/-- What a read leaves behind. -/
inductive Left (cfg : Cfg) (w : List Packet) (K0 c j wr : Nat) (s : B) : Option (Nat × EventKind) → Prop where
  | quiet (pre dropped) (hz : Z cfg w (K0 + j) wr s pre dropped) (hv : s.invalid = false)
      (hend : j = c ∨ (s.conn = [] ∧ s.ahead = [])) : Left cfg w K0 c j wr s none
  | event (i k) (hf : firstEnd cfg w = some (i, k)) (hz : Z cfg (afterEnd cfg w) 0 0 s [] [])
      (hc : s.conn = afterEnd cfg w) (ht : s.typed = true)
      (hall : (segment cfg w).length = (K0 + j) * cfg.step + wr) : Left cfg w K0 c j wr s (some (i, k))

theorem startsTyped_cons_event {i k ps} (h : startsTyped (.event i k :: ps) = true) :
    announces (.event i k) = true := h

theorem loop_ok {cfg : Cfg} {m : Mode} {w : List Packet} (hg : Good cfg w) (K0 c W0 : Nat)
    (hW : c * cfg.block + cfg.block < W)
    (hd : m = .withDomain → ∀ d ∈ dataOf w, d.dom ≠ none) (fuel : Nat) (s : B) (a : Acc) (j wr : Nat)
    (pre : List Packet) (dropped : List DP)
    (hz : Z cfg w (K0 + j) wr s pre dropped) (ha : AccOk cfg m (segment cfg w) K0 c j wr a)
    (hv : s.invalid = false) (hw : s.written = W0 + (j * cfg.block + wr))
    (hf : c * cfg.block + s.conn.length + 1 ≤ fuel + (j * cfg.block + wr)) :
    ∃ s' a' ev wf j' wr', loop cfg m fuel s a = (s', a', .done ev, wf) ∧
      wf = W0 + (j' * cfg.block + wr') ∧ wr' < cfg.block ∧ AccOk cfg m (segment cfg w) K0 c j' wr' a' ∧
      Left cfg w K0 c j' wr' s' ev ∧ (s.typed = true → s'.typed = true) := by
  induction fuel generalizing s a j wr pre dropped with
  | zero =>
    exfalso
    have h1 := hz.wrLt
    rcases ha.rem with ⟨h2, h3⟩ | ⟨h2, h3, h4⟩
    · have : (j + 1) * cfg.block ≤ c * cfg.block := Nat.mul_le_mul_right _ h2
      rw [Nat.succ_mul] at this
      omega
    · rw [h2, h4] at hf; omega
  | succ fuel ih =>
    rw [loop]
    split
    · -- a current packet
      rename_i cur ahead hah
      by_cases h0 : a.rem = 0
      · rw [if_pos h0]
        have hj : j = c := by
          rcases ha.rem with ⟨h2, h3⟩ | ⟨h2, h3, h4⟩
          · have hov := ov_le cfg hg.overlap hg.block
            have hstep : cfg.step + cfg.ov = cfg.block := by unfold Cfg.step; omega
            have : 1 * cfg.step ≤ (c - j) * cfg.step := Nat.mul_le_mul_right _ (by omega)
            have := hz.wrLt
            omega
          · exact h2
        exact ⟨s, a, none, s.written, j, wr, rfl, hw, hz.wrLt, ha, .quiet pre dropped hz hv (.inl hj), id⟩
      · rw [if_neg h0]
        obtain ⟨s', a', dropped', j', wr', e1, e2, e3, e4, e5, e6, e7, e8⟩ := readPacketData_ok hg hz ha hah h0 hW hd
        rw [e1]
        obtain ⟨t1, t2, t3, t4, t5, t6, u1, u2, u3, u4, u5, u6⟩ :=
          ih s' a' j' wr' pre dropped' e2 e3 (by rw [e7]; exact hv) (by omega) (by rw [e6]; omega)
        exact ⟨t1, t2, t3, t4, t5, t6, u1, u2, u3, u4, u5, fun _ => u6 e8⟩
    · rename_i hah
      split
      · rename_i hcn
        exact ⟨s, a, none, s.written, j, wr, rfl, hw, hz.wrLt, ha, .quiet pre dropped hz hv (.inr ⟨hcn, hah⟩), id⟩
      · -- an empty packet
        rename_i i rest hcn
        refine ih (popConn s rest) a j wr (pre ++ [.none i]) dropped ?_ ha hv hw ?_
        · constructor
          · rw [hz.split, hcn]; simp [popConn]
          · intro q hq
            rcases List.mem_append.mp hq with h | h
            · exact hz.noEnd q h
            · rw [List.mem_singleton.mp h]; rfl
          · rw [dataOf_append, hz.data]; simp [dataOf, popConn]
          · exact hz.prev0
          · exact hz.prevLt
          · exact hz.pos
          · exact hz.wrLt
          · exact hz.written
          · exact hz.last
          · exact hz.cover
          · rcases hz.typed with h | ⟨h1, h2⟩
            · exact .inl h
            · rw [hcn] at h2
              refine .inr ⟨fun q hq => ?_, h2⟩
              rcases List.mem_append.mp hq with h | h
              · exact h1 q h
              · exact ⟨i, List.mem_singleton.mp h⟩
        · rw [hcn] at hf; simp only [popConn, List.length_cons] at hf ⊢; omega
      · -- a data packet
        rename_i i n dom rest hcn
        refine ih (push (popConn s rest) ⟨i, n, dom⟩) a j wr (pre ++ [.data i n dom]) dropped ?_ ha hv hw ?_
        · have hp0 := hz.prev0 hah
          have hmem : (⟨i, n, dom⟩ : DP) ∈ dataOf w := by rw [hz.split, hcn]; simp [dataOf]
          constructor
          · rw [hz.split, hcn]; simp [popConn, push]
          · intro q hq
            rcases List.mem_append.mp hq with h | h
            · exact hz.noEnd q h
            · rw [List.mem_singleton.mp h]; rfl
          · rw [dataOf_append, hz.data, hah]; simp [dataOf, popConn, push]
          · intro h; exact nomatch h
          · intro x y h
            have h' : [(⟨i, n, dom⟩ : DP)] = x :: y := h
            injection h' with h' _
            subst h'
            show s.prev < n
            rw [hp0]
            exact (hg.pos _ hmem).1
          · exact hz.pos
          · exact hz.wrLt
          · exact hz.written
          · intro l x h hl
            exfalso
            have h' : [(⟨i, n, dom⟩ : DP)] = l ++ [x] := h
            cases l with
            | nil => exact hl rfl
            | cons y l =>
              have := congrArg List.length h'
              simp at this
          · exact hz.cover
          · rcases hz.typed with h | ⟨h1, h2⟩
            · exact .inl h
            · rw [hcn] at h2; exact nomatch h2
        · rw [hcn] at hf; simp only [popConn, push, List.length_cons] at hf ⊢; omega
      · -- an event
        rename_i i k rest hcn
        obtain ⟨g1, g2, g3, g4, g5, g6, g7⟩ := handleEvent_fields cfg (popConn s rest) i k
        dsimp only
        rw [ends_eq cfg (popConn s rest) i k hv]
        have htyped : (handleEvent cfg (popConn s rest) k).typed = true := by
          rcases hz.typed with h | ⟨h1, h2⟩
          · exact g6 h
          · rw [hcn] at h2; exact g7 (startsTyped_cons_event h2)
        cases hends : ends cfg (.event i k) with
        | true =>
          rw [if_pos rfl]
          have hae : afterEnd cfg w = rest := by
            rw [hz.split, hcn, afterEnd_append cfg _ _ _ hz.noEnd hends]
          refine ⟨_, a, some (i, k), _, j, wr, rfl, by rw [g5]; exact hw, hz.wrLt, ha, .event i k ?_ ?_ ?_ htyped ?_, fun _ => htyped⟩
          · rw [hz.split, hcn, firstEnd_append cfg _ _ hz.noEnd, firstEnd, if_pos hends]
          · rw [hae]
            constructor
            · exact g1.symm
            · intro q hq; exact nomatch hq
            · rfl
            · intro _; rfl
            · intro x y h; exact nomatch h
            · simp [clean]
            · exact hg.block
            · simp [clean]
            · intro l x h hl
              cases l with
              | nil => exact absurd rfl hl
              | cons y l => exact nomatch h
            · simp
            · exact .inl htyped
          · rw [hae]; exact g1
          · rw [hz.split, hcn, segment_append cfg _ _ hz.noEnd, segment, if_pos hends, List.append_nil, toks_length,
              hz.data, hah, ← hz.pos, hz.prev0 hah]
            · simp
            · exact fun _ _ _ h => nomatch h
        | false =>
          rw [if_neg (by simp)]
          have key := ih (handleEvent cfg (popConn s rest) k) a j wr (pre ++ [.event i k]) dropped
          suffices hsuf : Z cfg w (K0 + j) wr (handleEvent cfg (popConn s rest) k) (pre ++ [.event i k]) dropped ∧
              (handleEvent cfg (popConn s rest) k).invalid = false ∧
              c * cfg.block + (handleEvent cfg (popConn s rest) k).conn.length + 1 ≤ fuel + (j * cfg.block + wr) by
            obtain ⟨t1, t2, t3, t4, t5, t6, u1, u2, u3, u4, u5, u6⟩ :=
              key hsuf.1 ha hsuf.2.1 (by rw [g5]; exact hw) hsuf.2.2
            exact ⟨t1, t2, t3, t4, t5, t6, u1, u2, u3, u4, u5, fun _ => u6 htyped⟩
          refine ⟨?_, ?_, ?_⟩
          · constructor
            · rw [g1, hz.split, hcn]; simp [popConn]
            · intro q hq
              rcases List.mem_append.mp hq with h | h
              · exact hz.noEnd q h
              · rw [List.mem_singleton.mp h]; exact hends
            · rw [dataOf_append, hz.data, g2, g3]; simp [dataOf, popConn]
            · rw [g3, g4]; exact hz.prev0
            · rw [g3, g4]; exact hz.prevLt
            · rw [g2, g4]; exact hz.pos
            · exact hz.wrLt
            · rw [g5]; exact hz.written
            · rw [g2, g3]; exact hz.last
            · exact hz.cover
            · exact .inl htyped
          · have := ends_eq cfg (popConn s rest) i k hv
            rw [hends] at this
            cases hi : (handleEvent cfg (popConn s rest) k).invalid with
            | false => rfl
            | true => rw [hi] at this; simp at this
          · rw [g1]; rw [hcn] at hf; simp only [popConn, List.length_cons] at hf ⊢; omega

/-- The state between reads. -/
def Ready (cfg : Cfg) (w : List Packet) (K : Nat) (s : B) : Prop :=
  ∃ pre dropped, Z cfg w K 0 s pre dropped

/-- The samples counted by `availableSamples` are behind the read position. -/
theorem available_le {cfg : Cfg} {w : List Packet} {K : Nat} {s : B} {pre : List Packet} {dropped : List DP}
    (hz : Z cfg w K 0 s pre dropped) (hq : ∀ q ∈ s.conn, ends cfg q = false) :
    K * cfg.step + availableSamples cfg s ≤ (segment cfg w).length := by
  rw [hz.split, segment_append cfg _ _ hz.noEnd, List.length_append, toks_length, hz.data]
  have h1 : samplesUntil (if cfg.skipEvents then isGapPacket else isEventPacket) s.conn ≤
      (segment cfg s.conn).length := by
    generalize s.conn = c at hq
    have hle : ∀ (p : Packet → Bool) (c : List Packet), samplesIn (c.takeWhile fun q => !p q) ≤ samplesIn c := by
      intro p c
      induction c with
      | nil => simp
      | cons q c ih =>
        rw [List.takeWhile_cons]
        split
        · simp only [samplesIn, List.map_cons, List.sum_cons] at ih ⊢; omega
        · simp [samplesIn]
    refine Nat.le_trans (hle _ _) ?_
    induction c with
    | nil => simp [samplesIn]
    | cons q c ih =>
      have h := hq q (by simp)
      have ih := ih (fun q hq' => hq q (by simp [hq']))
      cases q with
      | data i n d => simp only [samplesIn, segment, List.map_cons, List.sum_cons, packetSamples] at ih ⊢; simp; omega
      | event i k =>
        simp only [samplesIn, segment, List.map_cons, List.sum_cons, packetSamples, h] at ih ⊢
        simp; omega
      | none i =>
        simp only [samplesIn, segment, List.map_cons, List.sum_cons, packetSamples, h] at ih ⊢
        simp; omega
  have hp := hz.pos
  unfold availableSamples
  cases ha : s.ahead with
  | nil => simp only [tot_append, tot_reverse, tot_nil]; have := hz.prev0 ha; omega
  | cons cur rest =>
    have := hz.prevLt cur rest ha
    simp only [tot_append, tot_reverse, tot_cons]; omega

/-- Asking politely means that enough samples are there, or an event follows. -/
theorem polite_enough {cfg : Cfg} {w : List Packet} {K n : Nat} {s : B} {pre : List Packet} {dropped : List DP}
    (hg : Good cfg w) (hz : Z cfg w K 0 s pre dropped) (hp : Polite cfg s n) :
    n = 0 ∨ (∃ q ∈ s.conn, ends cfg q = true) ∨ (K + n) * cfg.step + cfg.ov ≤ (segment cfg w).length := by
  rcases hp with hp | hp
  · by_cases hq : ∃ q ∈ s.conn, ends cfg q = true
    · exact .inr (.inl hq)
    · have hq' : ∀ q ∈ s.conn, ends cfg q = false := by
        intro q h
        cases he : ends cfg q with
        | false => rfl
        | true => exact absurd ⟨q, h, he⟩ hq
      have hav := available_le hz hq'
      unfold getAvailableCount blockCount at hp
      by_cases hn : n = 0
      · exact .inl hn
      · right; right
        split at hp
        · split at hp
          · exfalso
            rename_i hany
            simp only [Bool.or_eq_true, Bool.and_eq_true, List.any_eq_true, Bool.not_eq_true'] at hany
            rcases hany with ⟨q, h1, h2⟩ | ⟨h0, q, h1, h2⟩
            · have := hq' q h1
              cases q with
              | event i k => cases k <;> simp [isGapPacket, ends] at h2 this
              | data i n d => exact nomatch h2
              | none i => exact nomatch h2
            · have := hq' q h1
              cases q with
              | event i k => cases k <;> simp [ends, h0] at this
              | data i n d => exact nomatch h2
              | none i => exact nomatch h2
          · omega
        · rename_i hlt
          have hov := ov_le cfg hg.overlap hg.block
          have hstep : cfg.step + cfg.ov = cfg.block := by unfold Cfg.step; omega
          have h1 : (n - 1) * cfg.step ≤ availableSamples cfg s - cfg.block := by
            have : n - 1 ≤ (availableSamples cfg s - cfg.block) / cfg.step := by omega
            exact Nat.le_trans (Nat.mul_le_mul_right _ this) (Nat.div_mul_le_self _ _)
          have h2 : n * cfg.step = (n - 1) * cfg.step + cfg.step := by
            rw [← Nat.succ_mul]; congr 1; omega
          rw [Nat.add_mul]
          omega
  · exact .inr (.inl hp)

theorem firstEnd_mem {cfg : Cfg} (ps : List Packet) (h : ∃ q ∈ ps, ends cfg q = true) : firstEnd cfg ps ≠ none := by
  induction ps with
  | nil => obtain ⟨q, h, -⟩ := h; exact nomatch h
  | cons p ps ih =>
    have tl : ends cfg p = false → firstEnd cfg ps ≠ none := by
      intro hp
      obtain ⟨q, h1, h2⟩ := h
      rcases List.mem_cons.mp h1 with e | e
      · rw [← e, h2] at hp; exact nomatch hp
      · exact ih ⟨q, e, h2⟩
    cases p with
    | data i n d => exact tl rfl
    | none i => exact tl rfl
    | event i k =>
      rw [firstEnd]
      split
      · simp
      · rename_i hne; exact tl (by simpa using hne)

/-- One read. -/
theorem read_ok {cfg : Cfg} {m : Mode} {w : List Packet} {K n : Nat} {s : B} (hg : Good cfg w)
    (hr : Ready cfg w K s) (hp : Polite cfg s n) (hW : n * cfg.block + cfg.block < W)
    (hd : m = .withDomain → ∀ d ∈ dataOf w, d.dom ≠ none) (hv : s.invalid = false)
    (s' : B) (o : Out) (h : read cfg s m n = (s', o)) :
    o.ret = .success ∧ o.count ≤ n ∧
    (o.event = none → o.count = n ∧ o.vals = blocks cfg (segment cfg w) K n ∧ Ready cfg w (K + o.count) s' ∧
      s'.invalid = false ∧ (0 < n → (K + n) * cfg.step + cfg.ov ≤ (segment cfg w).length)) ∧
    (o.event ≠ none → o.event = firstEnd cfg w ∧ s'.conn = afterEnd cfg w ∧ Ready cfg (afterEnd cfg w) 0 s' ∧
      o.vals = blocks cfg (segment cfg w) K o.count ++ (segment cfg w).drop ((K + o.count) * cfg.step) ∧
      (segment cfg w).length < (K + o.count) * cfg.step + cfg.block ∧
      (o.count = n → (segment cfg w).length = (K + o.count) * cfg.step)) ∧
    o.readSamples = o.vals.length ∧ o.vals.length ≤ n * cfg.block ∧ (m = .withDomain → o.doms = o.vals) ∧
    o.offset = o.vals.head? ∧ (s.typed = true → s'.typed = true) ∧ (o.event ≠ none → s'.typed = true) := by
  obtain ⟨pre, dropped, hz⟩ := hr
  have hov := ov_le cfg hg.overlap hg.block
  have hstep : cfg.step + cfg.ov = cfg.block := by unfold Cfg.step; omega
  have hreq : requested cfg n = if n = 0 then 0 else n * cfg.step + cfg.ov := by
    unfold requested
    split
    · rfl
    · have : n * cfg.step ≤ n * cfg.block := Nat.mul_le_mul_left _ (by omega)
      rw [Nat.mod_eq_of_lt (by omega)]
  have hacc : AccOk cfg m (segment cfg w) K n 0 0 { rem := requested cfg n } := by
    refine ⟨Nat.zero_le _, ?_, by simp [written, blocks], fun _ => rfl, rfl, fun h => absurd h (Nat.lt_irrefl 0)⟩
    rw [hreq]
    by_cases h0 : n = 0
    · right; exact ⟨h0.symm, if_pos h0, rfl⟩
    · left; exact ⟨by omega, by rw [if_neg h0]; simp⟩
  obtain ⟨s1, a1, ev, wf, j, wr, e1, e2, e3, e4, e5, e6⟩ := loop_ok hg K n s.written hW hd (fuelFor cfg s n) s
    { rem := requested cfg n } 0 0 pre dropped hz hacc hv (by simp) (by unfold fuelFor; omega)
  unfold read at h
  rw [if_neg (by rw [hv]; simp), e1] at h
  dsimp only at h
  obtain ⟨rfl, rfl⟩ := Prod.mk.inj h
  dsimp only
  have hrs : wf - s.written = j * cfg.block + wr := by omega
  have hdiv : (j * cfg.block + wr) / cfg.block = j := by
    rw [Nat.mul_comm, Nat.mul_add_div hg.block, Nat.div_eq_of_lt e3, Nat.add_zero]
  rw [hrs, hdiv]
  -- in bounds
  have hblen : ∀ (l : List Tok) (k c : Nat), (0 < c → (k + c) * cfg.step + cfg.ov ≤ l.length) →
      (blocks cfg l k c).length = c * cfg.block := by
    intro l k c hc
    induction c with
    | zero => simp [blocks]
    | succ c ih =>
      have hc := hc (by omega)
      rw [← Nat.add_assoc, Nat.succ_mul] at hc
      rw [blocks_succ, List.length_append, ih (by intro _; omega), blockAt_eq, Nat.succ_mul, List.length_take,
        List.length_drop]
      omega
  -- enough samples for the `j` blocks that were written
  have hmono : ∀ x y, x ≤ y → x * cfg.step ≤ y * cfg.step := fun x y h => Nat.mul_le_mul_right _ h
  cases e5 with
  | quiet pre' dropped' hz' hv' hend =>
    have hpos := hz'.pos
    have hjn : j = n := by
      rcases hend with h | ⟨h1, h2⟩
      · exact h
      · have hlen : (segment cfg w).length = (K + j) * cfg.step + wr := by
          rw [hz'.split, h1, List.append_nil, ← List.append_nil pre', segment_append cfg _ _ hz'.noEnd,
            List.length_append, toks_length, hz'.data, h2, ← hpos, hz'.prev0 h2]
          simp [segment]
        have hne : firstEnd cfg w = none := by
          rw [hz'.split, h1, firstEnd_append cfg _ _ hz'.noEnd]; rfl
        rcases polite_enough hg hz hp with h | h | h
        · have := e4.le; omega
        · exfalso
          apply firstEnd_mem w _ hne
          obtain ⟨q, h3, h4⟩ := h
          exact ⟨q, by rw [hz.split]; exact List.mem_append_right _ h3, h4⟩
        · by_cases hlt : j < n
          · exfalso
            have := hmono (K + j + 1) (K + n) (by omega)
            rw [Nat.succ_mul] at this
            omega
          · have := e4.le; omega
    have hwr : wr = 0 := by
      rcases e4.rem with h | h
      · omega
      · exact h.2.2
    subst hjn
    subst hwr
    have hvals : a1.vals = blocks cfg (segment cfg w) K j := by rw [e4.vals]; simp [written]
    have hlen0 : 0 < j → (K + j) * cfg.step + cfg.ov ≤ (segment cfg w).length := e4.bound
    have hl := hblen (segment cfg w) K j hlen0
    refine ⟨rfl, Nat.le_refl _, fun _ => ⟨rfl, hvals, ⟨pre', dropped', hz'⟩, hv', hlen0⟩, fun h => absurd rfl h, ?_, ?_,
      e4.doms, e4.offset, e6, fun h => absurd rfl h⟩
    · rw [hvals, hl]; rfl
    · rw [hvals, hl]; exact Nat.le_refl _
  | event i k hf hz' hc ht hall =>
    have hlt : (segment cfg w).length < (K + j) * cfg.step + cfg.block := by omega
    have htail : ((segment cfg w).drop ((K + j) * cfg.step)).take wr = (segment cfg w).drop ((K + j) * cfg.step) := by
      rw [List.take_of_length_le]; rw [List.length_drop]; omega
    have hvals : a1.vals = blocks cfg (segment cfg w) K j ++ (segment cfg w).drop ((K + j) * cfg.step) := by
      rw [e4.vals, written, htail]
    have hl := hblen (segment cfg w) K j e4.bound
    have hvl : a1.vals.length = j * cfg.block + wr := by
      rw [hvals, List.length_append, hl, List.length_drop]; omega
    have hjw : j = n → wr = 0 := by
      intro h
      rcases e4.rem with h' | h'
      · omega
      · exact h'.2.2
    have hle := e4.le
    refine ⟨rfl, hle, fun h => (nomatch h), fun _ => ⟨hf.symm, hc, ⟨[], [], hz'⟩, hvals, hlt, ?_⟩, hvl.symm, ?_,
      e4.doms, e4.offset, e6, fun _ => ht⟩
    · intro h; have := hjw h; omega
    · rw [hvl]
      by_cases h : j = n
      · rw [h, hjw h]; exact Nat.le_refl _
      · have : (j + 1) * cfg.block ≤ n * cfg.block := Nat.mul_le_mul_right _ (by omega)
        rw [Nat.succ_mul] at this
        omega

/-! ### Histories -/

theorem progress_snoc_receive (cfg : Cfg) (t : Trace) (ps : List Packet) (o : Out) :
    progress cfg (t ++ [(.receive ps, o)]) = ((progress cfg t).1 ++ ps, (progress cfg t).2) := by simp [progress]

theorem progress_snoc_read (cfg : Cfg) (t : Trace) (m : Mode) (n : Nat) (o : Out) :
    progress cfg (t ++ [(.read m n, o)]) =
      if o.event.isSome then (afterEnd cfg (progress cfg t).1, 0)
      else ((progress cfg t).1, (progress cfg t).2 + o.count) := by
  simp [progress]

@[simp] theorem received_append (a b : List Op) : received (a ++ b) = received a ++ received b := by simp [received]

theorem after_sub (cfg : Cfg) (ps : List Packet) : ∀ q ∈ afterEnd cfg ps, q ∈ ps := by
  induction ps with
  | nil => simp [afterEnd]
  | cons p ps ih =>
    intro q hq
    rw [afterEnd] at hq
    split at hq
    · exact List.mem_cons_of_mem _ hq
    · exact List.mem_cons_of_mem _ (ih q hq)

theorem mem_dataOf {ps : List Packet} {i n d} (h : Packet.data i n d ∈ ps) : (⟨i, n, d⟩ : DP) ∈ dataOf ps := by
  induction ps with
  | nil => exact nomatch h
  | cons p ps ih =>
    rcases List.mem_cons.mp h with h' | h'
    · rw [← h']; simp [dataOf]
    · have := ih h'
      cases p <;> simp [dataOf, this]

theorem good_of_sub {cfg : Cfg} (hb : 0 < cfg.block) (ho : cfg.overlap < 100) {recv w : List Packet}
    (hs : GoodSizes cfg recv) (hsub : ∀ q ∈ w, q ∈ recv) : Good cfg w := by
  have hov := ov_le cfg ho hb
  refine ⟨hb, ho, ?_, ?_⟩
  · intro d hd; exact hs.1 d.id d.n d.dom (hsub _ (dataOf_mem w d hd))
  · rcases hs.2 with h | ⟨h, z, hz⟩
    · exact .inl h
    · have h' : 2 * cfg.ov ≤ cfg.block := h
      exact .inr ⟨by unfold Cfg.step; omega, z, fun d hd => hz d.id d.n d.dom (hsub _ (dataOf_mem w d hd))⟩

theorem startsTyped_append (a b : List Packet) (h : startsTyped (a ++ b) = true) : startsTyped a = true := by
  induction a with
  | nil => rfl
  | cons q a ih =>
    cases q with
    | none i => exact ih h
    | event i k => exact h
    | data i n d => simp [startsTyped] at h

/-- More packets arrive. -/
theorem ready_receive {cfg : Cfg} {w : List Packet} {K : Nat} {s : B} (hr : Ready cfg w K s) (ps : List Packet)
    (ht : s.typed = true ∨ startsTyped (w ++ ps) = true) :
    Ready cfg (w ++ ps) K { s with conn := s.conn ++ ps } := by
  obtain ⟨pre, dropped, hz⟩ := hr
  refine ⟨pre, dropped, ?_⟩
  constructor
  · dsimp only; rw [hz.split, List.append_assoc]
  · exact hz.noEnd
  · exact hz.data
  · exact hz.prev0
  · exact hz.prevLt
  · exact hz.pos
  · exact hz.wrLt
  · exact hz.written
  · exact hz.last
  · exact hz.cover
  · rcases hz.typed with h | ⟨h1, h2⟩
    · exact .inl h
    · rcases ht with h | h
      · exact .inl h
      · right
        refine ⟨h1, ?_⟩
        rw [hz.split, List.append_assoc] at h
        dsimp only
        clear hz
        induction pre with
        | nil => exact h
        | cons q pre ih =>
          obtain ⟨i, rfl⟩ := h1 q (by simp)
          exact ih (fun q hq => h1 q (by simp [hq])) h

/-- What every polite history establishes. -/
structure HInv (cfg : Cfg) (typed : Bool) (ops : List Op) : Prop where
  ready : Ready cfg (progress cfg (exec cfg typed ops).2).1 (progress cfg (exec cfg typed ops).2).2 (exec cfg typed ops).1
  sub : ∀ q ∈ (progress cfg (exec cfg typed ops).2).1, q ∈ received ops
  typed : (exec cfg typed ops).1.typed = true ∨ (progress cfg (exec cfg typed ops).2).1 = received ops

theorem exec_snoc (cfg : Cfg) (typed : Bool) (ops : List Op) (op : Op) :
    exec cfg typed (ops ++ [op]) = ((step cfg (exec cfg typed ops).1 op).1,
      (exec cfg typed ops).2 ++ [(op, (step cfg (exec cfg typed ops).1 op).2)]) := by
  simp only [exec, runTrace_snoc]

theorem hinv {cfg : Cfg} (hb : 0 < cfg.block) (ho : cfg.overlap < 100) (typed : Bool) (ops : List Op)
    (hp : AllPolite cfg typed ops) (hs : GoodSizes cfg (received ops))
    (ht : typed = true ∨ startsTyped (received ops) = true) :
    HInv cfg typed ops ∧ (typed = true → (exec cfg typed ops).1.typed = true) := by
  induction ops using list_snoc_induction with
  | nil =>
    refine ⟨⟨⟨[], [], ?_⟩, fun q hq => hq, .inr rfl⟩, fun h => h⟩
    constructor
    · rfl
    · intro q hq; exact nomatch hq
    · rfl
    · intro _; rfl
    · intro x y h; exact nomatch h
    · simp [progress, exec, runTrace, init]
    · exact hb
    · simp [exec, runTrace, init]
    · intro l x h hl
      cases l with
      | nil => exact absurd rfl hl
      | cons y l => exact nomatch h
    · simp
    · exact .inr ⟨fun q hq => (nomatch hq), rfl⟩
  | snoc ops op ih =>
    rw [received_append] at hs ht
    have hs' : GoodSizes cfg (received ops) := by
      refine ⟨fun i n d h => hs.1 i n d (List.mem_append_left _ h), hs.2.imp (fun h => h) ?_⟩
      rintro ⟨h, z, hz⟩
      exact ⟨h, z, fun i n d hq => hz i n d (List.mem_append_left _ hq)⟩
    have hp' : AllPolite cfg typed ops := by
      intro pre m n post h
      obtain ⟨h1, h2, h3⟩ := hp pre m n (post ++ [op]) (by rw [h]; simp)
      refine ⟨h1, h2, fun hm i k hq => h3 hm i k ?_⟩
      rw [received_append]; exact List.mem_append_left _ hq
    obtain ⟨hi, htt⟩ := ih hp' hs' (ht.imp (fun h => h) (startsTyped_append _ _))
    generalize hse : (exec cfg typed ops).1 = s at *
    have hr := hi.ready
    have hty := hi.typed
    rw [hse] at hr hty
    cases op with
    | receive ps =>
      have er : received [.receive ps] = ps := by simp [received]
      rw [er] at ht
      refine ⟨⟨?_, ?_, ?_⟩, ?_⟩
      · rw [exec_snoc, hse]
        simp only [step, progress_snoc_receive]
        refine ready_receive hr ps ?_
        rcases hty with h | h
        · exact .inl h
        · rcases ht with h' | h'
          · exact .inl (htt h')
          · rw [h]; exact .inr h'
      · rw [exec_snoc, hse, received_append, er]
        simp only [step, progress_snoc_receive]
        intro q hq
        rcases List.mem_append.mp hq with h | h
        · exact List.mem_append_left _ (hi.sub q h)
        · exact List.mem_append_right _ h
      · rw [exec_snoc, hse, received_append, er]
        simp only [step, progress_snoc_receive]
        exact hty.imp (fun h => h) (fun h => by rw [h])
      · rw [exec_snoc, hse]; exact htt
    | read m n =>
      have er : received [.read m n] = [] := rfl
      rw [er, List.append_nil] at ht
      obtain ⟨p1, p2, p3⟩ := hp ops m n [] rfl
      rw [hse] at p1
      have hg := good_of_sub hb ho hs' hi.sub
      have hdd : m = .withDomain → ∀ d ∈ dataOf (progress cfg (exec cfg typed ops).2).1, d.dom ≠ none := by
        intro hm d hd hnone
        have := hi.sub _ (dataOf_mem _ d hd)
        rw [hnone] at this
        refine p3 hm d.id d.n ?_
        rw [received_append]
        exact List.mem_append_left _ this
      cases hv : s.invalid with
      | true =>
        have hread : read cfg s m n = (s, { ret := .ignored, valid := false }) := by
          unfold read; rw [if_pos hv]
        refine ⟨⟨?_, ?_, ?_⟩, ?_⟩
        · rw [exec_snoc, hse]
          simp only [step, progress_snoc_read, hread]
          simpa using hr
        · rw [exec_snoc, hse, received_append, er, List.append_nil]
          simp only [step, progress_snoc_read, hread]
          simpa using hi.sub
        · rw [exec_snoc, hse, received_append, er, List.append_nil]
          simp only [step, progress_snoc_read, hread]
          simpa using hty
        · rw [exec_snoc, hse]
          simp only [step, hread]; exact htt
      | false =>
        obtain ⟨r1, r2, r3, r4, r5, r6, r7, r8, r9, r10⟩ := read_ok hg hr p1 p2 hdd hv (read cfg s m n).1 (read cfg s m n).2 rfl
        cases hev : (read cfg s m n).2.event with
        | none =>
          obtain ⟨q1, q2, q3, q4, -⟩ := r3 hev
          refine ⟨⟨?_, ?_, ?_⟩, ?_⟩
          · rw [exec_snoc, hse]
            simp only [step, progress_snoc_read, hev]
            simpa using q3
          · rw [exec_snoc, hse, received_append, er, List.append_nil]
            simp only [step, progress_snoc_read, hev]
            simpa using hi.sub
          · rw [exec_snoc, hse, received_append, er, List.append_nil]
            simp only [step, progress_snoc_read, hev]
            simpa using hty.imp r9 (fun h => h)
          · rw [exec_snoc, hse]
            simp only [step]; exact fun h => r9 (htt h)
        | some e =>
          obtain ⟨q1, q2, q3, q4, -⟩ := r4 (by rw [hev]; simp)
          have q5 := r10 (by rw [hev]; simp)
          refine ⟨⟨?_, ?_, ?_⟩, ?_⟩
          · rw [exec_snoc, hse]
            simp only [step, progress_snoc_read, hev]
            simpa using q3
          · rw [exec_snoc, hse, received_append, er, List.append_nil]
            simp only [step, progress_snoc_read, hev]
            simp only [Option.isSome_some, if_true]
            exact fun q hq => hi.sub q (after_sub cfg _ q hq)
          · rw [exec_snoc, hse]
            simp only [step]; exact .inl q5
          · rw [exec_snoc, hse]
            simp only [step]; exact fun _ => q5

end Verif.Reader.Block
