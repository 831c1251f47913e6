import Verif.PacketStreaming.Server

/-!
# Properties of the packet streaming server (C08–C10)

`srvExec cacheMax threshold ops` runs an arbitrary history of calls (and packet destructions) on a new
server. The vocabulary is in `Spec.lean`. `SizeOK cacheMax` says that a cacheable buffer (payload at most
`cacheMax`, header at most 48 bytes) has a total size below 2^32, so that the 32-bit size sum cannot wrap
(the limit is the server property "StreamingCacheablePayloadSizeMax", chosen by the user).
-/

namespace Verif.PacketStreaming

/-! ## C08 Linear caching bookkeeping -/

/-- C08: no call ever reports a linear caching error. -/
theorem C08_no_linear_caching_error (m thr : Nat) (hm : SizeOK m) (ops : List SrvOp) :
    ∀ x ∈ (srvExec m thr ops).2, x.2 ≠ .linearCachingError :=
  (srvInv m thr hm ops).noErr

/-- C08: if the buffer at the head of the queue is cacheable, count and size reported for its group
are those of the run of cacheable buffers at the head of the queue. -/
theorem C08_head_group (m thr : Nat) (hm : SizeOK m) (ops : List SrvOp) (b : Buf) (rest : List Buf)
    (hq : (srvExec m thr ops).1.queue = b :: rest) (hb : b.cacheable = true) :
    (srvExec m thr ops).1.countOfCacheable b.group = ((b :: rest).takeWhile Buf.cacheable).length ∧
    (srvExec m thr ops).1.sizeOfCacheable b.group =
      (((b :: rest).takeWhile Buf.cacheable).map Buf.size).sum := by
  have h := (srvInv m thr hm ops).g
  have hne : b.group ≠ 0 := by simpa [Buf.cacheable] using hb
  have hs := h.seg
  rw [hq] at hs
  obtain ⟨e1, e2⟩ := seg_head_count hs hne
  have hf := h.find b.group hne
  rw [hq, if_neg (by rw [cntG_cons]; simp), e1, e2] at hf
  refine ⟨by simp [Srv.countOfCacheable, hf], by simp [Srv.sizeOfCacheable, hf]⟩

/-- C08: a group has an entry exactly as long as one of its buffers is queued, and counts them. -/
theorem C08_every_group (m thr : Nat) (hm : SizeOK m) (ops : List SrvOp) (g : Nat) (hg : g ≠ 0) :
    (srvExec m thr ops).1.countOfCacheable g =
      ((srvExec m thr ops).1.queue.filter (fun b => b.group == g)).length ∧
    (srvExec m thr ops).1.sizeOfCacheable g =
      (((srvExec m thr ops).1.queue.filter (fun b => b.group == g)).map Buf.size).sum := by
  have hf := (srvInv m thr hm ops).g.find g hg
  have hc : ((srvExec m thr ops).1.queue.filter (fun b => b.group == g)).length =
      cntG g (srvExec m thr ops).1.queue := by simp [cntG, List.countP_eq_length_filter]
  by_cases h0 : cntG g (srvExec m thr ops).1.queue = 0
  · rw [if_pos h0] at hf
    have hnil : (srvExec m thr ops).1.queue.filter (fun b => b.group == g) = [] := by
      rw [← List.length_eq_zero_iff, hc, h0]
    simp [Srv.countOfCacheable, Srv.sizeOfCacheable, hf, hnil]
  · rw [if_neg h0] at hf
    simp [Srv.countOfCacheable, Srv.sizeOfCacheable, hf, cntG, sizG, List.countP_eq_length_filter]

/-- C08: the number of non-cacheable buffers is exact. -/
theorem C08_non_cacheable (m thr : Nat) (hm : SizeOK m) (ops : List SrvOp) :
    (srvExec m thr ops).1.nonCacheableBuffers =
      ((srvExec m thr ops).1.queue.filter (fun b => !b.cacheable)).length := by
  have h := (srvInv m thr hm ops).g.non
  rw [Srv.nonCacheableBuffers, h, cntG, List.countP_eq_length_filter]
  congr 2
  funext b
  unfold Buf.cacheable
  cases h0 : b.group == 0 <;> simp [bne, h0]

/-- Which of the buffers queued so far are cacheable. -/
def CacheRule (m : Nat) (s : Srv) : Prop :=
  s.cacheMax = m ∧ ∀ b ∈ s.emitted, b.cacheable = true ↔ b.payloadSize ≤ m

theorem groupFor_rule {s s1 : Srv} {n g : Nat} (h : s.groupFor n = some (g, s1)) :
    (g ≠ 0 ↔ n ≤ s.cacheMax) ∧ s1.cacheMax = s.cacheMax ∧ s1.emitted = s.emitted := by
  unfold Srv.groupFor at h
  by_cases hn : n ≤ s.cacheMax
  · rw [if_pos hn] at h
    split at h
    · cases h
    · simp only [Option.some.injEq, Prod.mk.injEq] at h
      obtain ⟨h1, h2⟩ := h
      subst h2
      refine ⟨⟨fun _ => hn, fun _ => ?_⟩, rfl, rfl⟩
      have pos : ∀ k : Nat, (if k = 0 then k + 1 else k) ≠ 0 := by intro k; split <;> omega
      rw [← h1]
      exact pos _
  · rw [if_neg hn] at h
    simp only [Option.some.injEq, Prod.mk.injEq] at h
    obtain ⟨rfl, rfl⟩ := h
    exact ⟨⟨fun hh => absurd rfl hh, fun hh => absurd hh hn⟩, rfl, rfl⟩

theorem push_rule {m : Nat} {s : Srv} {b : Buf} (h : CacheRule m s) (hb : b.cacheable = true ↔ b.payloadSize ≤ m) :
    CacheRule m (s.push b) := by
  obtain ⟨p1, p2, p3, _⟩ := push_fields s b
  refine ⟨p3.trans h.1, fun x hx => ?_⟩
  rw [p2, List.mem_append, List.mem_singleton] at hx
  rcases hx with hx | rfl
  · exact h.2 x hx
  · exact hb

theorem enqueue_rule {m : Nat} {s s' : Srv} {body : Body} {n : Nat} (h : CacheRule m s)
    (he : s.enqueue body n = some s') : CacheRule m s' := by
  unfold Srv.enqueue at he
  split at he
  · cases he
  · rename_i g s1 hg
    obtain ⟨h1, h2, h3⟩ := groupFor_rule hg
    simp only [Option.some.injEq] at he
    subst he
    refine push_rule ⟨h2.trans h.1, by rw [h3]; exact h.2⟩ ?_
    rw [← h.1, ← h1]
    simp [Buf.cacheable]

theorem checkRelease_rule {m : Nat} {s s' : Srv} {f : Bool} (h : CacheRule m s)
    (he : s.checkRelease f = some s') : CacheRule m s' := by
  unfold Srv.checkRelease at he
  split at he
  · simp only [Option.some.injEq] at he; subst he; exact h
  · exact enqueue_rule (s := { s with ready := [] }) h he

theorem addEvent_rule {m : Nat} {s s' : Srv} {sig : Nat} {ev : Event} {len : Nat} (h : CacheRule m s)
    (he : s.addEvent sig ev len = some s') : CacheRule m s' := by
  unfold Srv.addEvent at he
  split at he
  · cases he
  · rename_i g s1 hg
    obtain ⟨h1, h2, h3⟩ := groupFor_rule hg
    simp only [Option.some.injEq] at he
    subst he
    have hb : (⟨.event sig ev, (len + 1) % U32, g⟩ : Buf).cacheable = true ↔ (len + 1) % U32 ≤ m := by
      rw [← h.1, ← h1]; simp [Buf.cacheable]
    have hs : CacheRule m s1 := ⟨h2.trans h.1, by rw [h3]; exact h.2⟩
    split
    · exact push_rule (s := { s1 with descs := _ }) hs hb
    · exact push_rule hs hb

theorem addData_rule {m : Nat} {s s' : Srv} {sig : Nat} {p : DataPacket} {mark : Bool} (h : CacheRule m s)
    (he : s.addData sig p mark = some (some s')) : CacheRule m s' := by
  have hs : CacheRule m (s.shouldSend p.id mark).1 := by
    obtain ⟨_, _, _, _, _, q5, _, _, _, q9, _⟩ := shouldSend_spec s p.id mark
    exact ⟨q5.trans h.1, by rw [q9]; exact h.2⟩
  unfold Srv.addData at he
  split at he
  · cases he
  · rcases hss : s.shouldSend p.id mark with ⟨s0, b0⟩
    rw [hss] at he hs
    cases b0 <;> simp only [Option.map_eq_some_iff, Option.some.injEq, exists_eq_right] at he <;>
      exact enqueue_rule hs he

theorem step_rule {m : Nat} {s : Srv} (h : CacheRule m s) (op : SrvOp) : CacheRule m (s.step op).1 := by
  cases op with
  | addEvent sig ev len =>
    simp only [Srv.step]
    split
    · rename_i s' he
      rw [Option.bind_eq_some_iff] at he
      obtain ⟨a, h1, h2⟩ := he
      exact checkRelease_rule (addEvent_rule h h1) h2
    · exact h
  | addData sig p mark =>
    simp only [Srv.step]
    split
    · exact h
    · exact h
    · rename_i s1 he
      split
      · rename_i s' h2; exact checkRelease_rule (addData_rule h he) h2
      · exact h
  | addOther => exact h
  | getNext =>
    have : (s.getNext).1.emitted = s.emitted ∧ (s.getNext).1.cacheMax = s.cacheMax := by
      unfold Srv.getNext
      simp only
      repeat' (first | exact ⟨rfl, rfl⟩ | split)
    exact ⟨this.2.trans h.1, by simp only [Srv.step]; rw [this.1]; exact h.2⟩
  | destroy i =>
    simp only [Srv.step, Srv.destroy]
    repeat' (first | exact h | split)
  | sendRelease f =>
    simp only [Srv.step]
    split
    · rename_i s' he; exact checkRelease_rule h he
    · exact h

/-- C08: a buffer is cacheable exactly if its payload does not exceed the configured limit. -/
theorem C08_cacheable_iff (m thr : Nat) (ops : List SrvOp) :
    ∀ b ∈ (srvExec m thr ops).1.emitted, b.cacheable = true ↔ b.payloadSize ≤ m := by
  have : CacheRule m (srvExec m thr ops).1 := by
    induction ops using list_snoc_induction with
    | nil => exact ⟨rfl, by intro b hb; cases hb⟩
    | snoc ops op ih => rw [srvExec_snoc]; exact step_rule ih op
  exact this.2

/-- C08: buffers are handed out in the order they were queued. -/
theorem C08_queue_fifo (m thr : Nat) (hm : SizeOK m) (ops : List SrvOp) :
    taken (srvExec m thr ops).2 ++ (srvExec m thr ops).1.queue = (srvExec m thr ops).1.emitted := by
  induction ops using list_snoc_induction with
  | nil => rfl
  | snoc ops op ih =>
    have hi := srvInv m thr hm ops
    have hi' := srvInv m thr hm (ops ++ [op])
    simp only [srvExec, runTrace_snoc] at ih hi hi' ⊢
    generalize (runTrace Srv.step (Srv.init m thr) ops).1 = s at ih hi hi' ⊢
    generalize (runTrace Srv.step (Srv.init m thr) ops).2 = t at ih hi hi' ⊢
    have hm' : SizeOK s.cacheMax := by rw [hi.cacheMax]; exact hm
    have ht : ∀ r, (∀ b, r ≠ .buffer (some b)) → taken (t ++ [(op, r)]) = taken t := by
      intro r hr
      simp only [taken, List.flatMap_append, List.flatMap_cons, List.flatMap_nil, List.append_nil]
      cases r with
      | buffer b => cases b with
        | none => simp
        | some b => exact absurd rfl (hr b)
      | _ => simp
    by_cases hop : op = .getNext
    · subst hop
      obtain ⟨g0, g1, g2, g3, _⟩ := getNext_spec hi.g
      have hst : s.step .getNext = s.getNext := rfl
      rw [hst, g2, g3, g0, ← ih]
      cases hq : s.queue with
      | nil => simp [taken]
      | cons b rest => simp [taken]
    · obtain ⟨l, e1, e2, e3⟩ := step_grow hi.g hm' op hop
      rw [ht _ e3, e1, e2, ← ih, List.append_assoc]

example : ∃ b rest, (srvExec 100 5 [.addEvent 1 (.descChanged (some (some ⟨7, false⟩)) none) 20,
      .addData 1 ⟨1, none, 3, .int 4, some [1, 2, 3]⟩ false,
      .addData 1 ⟨2, none, 3, .none, some (List.replicate 101 0)⟩ false,
      .addData 1 ⟨1, none, 3, .int 4, some [1, 2, 3]⟩ false, .getNext]).1.queue = b :: rest ∧
    b.cacheable = true ∧ rest.length = 2 := by
  refine ⟨_, _, rfl, by decide, by decide⟩

/-- Without the size assumption the property fails: the 32-bit total size of a buffer can wrap to 0,
and taking the preceding buffer of the group then raises the error. -/
theorem C08_violation_size_wrap :
    ∃ ops, ∃ x ∈ (srvExec (U32 - 1) 5 ops).2, x.2 = .linearCachingError :=
  ⟨[.addEvent 1 (.other 0) 3, .addEvent 1 (.other 0) (U32 - 13), .getNext],
    (.getNext, .linearCachingError), by decide, rfl⟩

/-! ## C09 The payload is sent once while the packet is referenced -/

/-- C09: what is queued for a data packet: the full packet if the client does not hold it, otherwise a
reference to it; then possibly a release buffer. A packet on a signal without descriptor is refused
and nothing changes. -/
theorem C09_emitted (m thr : Nat) (hm : SizeOK m) (ops : List SrvOp) (sig : Nat) (p : DataPacket)
    (mark : Bool) :
    let s := (srvExec m thr ops).1
    let t := (srvExec m thr ops).2
    let s' := (srvExec m thr (ops ++ [.addData sig p mark])).1
    let r := (s.step (.addData sig p mark)).2
    (registered sig t = true →
      r = .ok ∧ bodies s' = bodies s ++ [expectedBody t.reverse sig p mark] ++
        (if thr ≤ s.ready.length then [.release s.ready] else [])) ∧
    (registered sig t = false → r = .noDescriptor ∧ s' = s) := by
  have hi := srvInv m thr hm ops
  simp only [srvExec_snoc]
  generalize (srvExec m thr ops).2 = t at hi ⊢
  generalize (srvExec m thr ops).1 = s at hi ⊢
  have hm' : SizeOK s.cacheMax := by rw [hi.cacheMax]; exact hm
  rcases addData_spec hi.g hm' sig p mark with ⟨h1, h2⟩ | ⟨h1, h2, s1, k1, k2, k3, k4, k5, k6, _⟩
  · rw [hi.reg] at h1
    refine ⟨fun e => (by rw [h1] at e; cases e), fun _ => ?_⟩
    rw [h2]
    exact ⟨rfl, rfl⟩
  · rw [hi.reg] at h1
    refine ⟨fun _ => ⟨h2, ?_⟩, fun e => (by rw [h1] at e; cases e)⟩
    rw [k2, k6, hi.thr]
    congr 2
    unfold expectedBody
    by_cases hh : p.id ∈ s.sent
    · rw [if_pos hh, if_pos ((hi.sent _).mp hh)]
    · rw [if_neg hh, if_neg (fun e => hh ((hi.sent _).mpr e))]

/-- C09: in the sequence of queued buffers every already-sent reference is preceded by the full packet
it refers to, sent without release mark. -/
theorem C09_reference_after_payload (m thr : Nat) (hm : SizeOK m) (ops : List SrvOp)
    (pre post : List Body) (sig : Nat) (rel : Bool) (id : Nat) (dom : Option Nat)
    (h : bodies (srvExec m thr ops).1 = pre ++ .alreadySent sig rel id dom :: post) :
    ∃ b ∈ pre, fullUnmarked id b = true := by
  exact (emitInv m thr hm ops).before pre post sig rel id dom h

/-- C09: the payload of a packet is sent without release mark at most once more often than the
packet was destroyed or handed over exclusively. -/
theorem C09_payload_count (m thr : Nat) (hm : SizeOK m) (ops : List SrvOp) (id : Nat) :
    (bodies (srvExec m thr ops).1).countP (fullUnmarked id) ≤
      ends id (srvExec m thr ops).2 + 1 := by
  have := (emitInv m thr hm ops).count id
  split at this <;> omega

/-- C09: while a packet is neither destroyed nor handed over exclusively, its payload is sent at most once. -/
theorem C09_payload_once (m thr : Nat) (hm : SizeOK m) (ops : List SrvOp) (id : Nat)
    (h1 : .destroy id ∉ ops) (h2 : ∀ sig p, p.id = id → .addData sig p true ∉ ops) :
    (bodies (srvExec m thr ops).1).countP (fullUnmarked id) ≤ 1 := by
  have h := C09_payload_count m thr hm ops id
  have h0 : ends id (srvExec m thr ops).2 = 0 := by
    unfold ends
    rw [List.countP_eq_zero]
    rintro ⟨op, r⟩ hx
    have hop : op ∈ ops := by
      have := trace_ops m thr ops
      rw [← this, List.mem_map]
      exact ⟨_, hx, rfl⟩
    cases op with
    | destroy i =>
      simp only [isEnd, beq_iff_eq]
      rintro rfl
      exact h1 hop
    | addData sig p mark =>
      cases mark with
      | false => simp [isEnd]
      | true =>
        have : p.id ≠ id := fun e => h2 sig p e hop
        cases r <;> simp [isEnd, this]
    | _ => simp [isEnd]
  omega

example : (bodies (srvExec 100 5 [.addEvent 1 (.descChanged (some (some ⟨7, false⟩)) none) 20,
      .addData 1 ⟨1, none, 3, .int 4, some [1, 2, 3]⟩ false, .addData 1 ⟨1, none, 3, .int 4, some [1, 2, 3]⟩ false,
      .destroy 1, .sendRelease true]).1) =
    [.event 1 (.descChanged (some (some ⟨7, false⟩)) none), .data 1 2 1 none 3 (.int 4) (some [1, 2, 3]),
     .alreadySent 1 false 1 none, .release [1]] := by decide

/-! ## C10 Release is announced exactly once, after destruction -/

/-- C10: the announced packets followed by those waiting to be announced are the packets destroyed
while the client held them, in order of destruction. -/
theorem C10_announced (m thr : Nat) (hm : SizeOK m) (ops : List SrvOp) :
    announced (bodies (srvExec m thr ops).1) ++ (srvExec m thr ops).1.ready =
      destroyedHeld (srvExec m thr ops).2.reverse := (srvInv m thr hm ops).rel

theorem destroyedHeld_sublist (t : SrvTrace) :
    (destroyedHeld t.reverse).Sublist (t.filterMap (fun | (.destroy i, _) => some i | _ => none)) := by
  induction t using list_snoc_induction with
  | nil => exact List.Sublist.slnil
  | snoc t x ih =>
    obtain ⟨op, r⟩ := x
    rw [List.filterMap_append, List.reverse_append]
    cases op with
    | destroy i =>
      simp only [List.reverse_cons, List.reverse_nil, List.nil_append, List.singleton_append, destroyedHeld,
        List.filterMap_cons, List.filterMap_nil]
      refine List.Sublist.append ih ?_
      split
      · exact List.Sublist.refl _
      · exact List.nil_sublist _
    | _ => simpa [destroyedHeld] using ih

/-- C10: if every packet is destroyed at most once (packet ids are unique), every id is announced at
most once, and only after the packet was destroyed. -/
theorem C10_at_most_once (m thr : Nat) (hm : SizeOK m) (ops : List SrvOp)
    (h : (destroys ops).Nodup) :
    (announced (bodies (srvExec m thr ops).1)).Nodup ∧
    ∀ i ∈ announced (bodies (srvExec m thr ops).1), .destroy i ∈ ops := by
  have hs := destroyedHeld_sublist (srvExec m thr ops).2
  rw [← C10_announced m thr hm ops] at hs
  have hd : (srvExec m thr ops).2.filterMap (fun | (.destroy i, _) => some i | _ => none) =
      destroys ops := by
    have e : destroys ops = destroys ((srvExec m thr ops).2.map Prod.fst) := by rw [trace_ops]
    rw [e, destroys, List.filterMap_map]
    congr 1
    funext x
    obtain ⟨op, r⟩ := x
    cases op <;> rfl
  rw [hd] at hs
  have hs' := (List.sublist_append_left _ _).trans hs
  refine ⟨h.sublist hs', fun i hi => ?_⟩
  have := hs'.subset hi
  simp only [destroys, List.mem_filterMap] at this
  obtain ⟨op, ho, he⟩ := this
  cases op with
  | destroy j => simp at he; rw [← he]; exact ho
  | _ => simp at he

/-- C10: after a forced flush everything destroyed so far has been announced. -/
theorem C10_flush (m thr : Nat) (hm : SizeOK m) (ops : List SrvOp) :
    announced (bodies (srvExec m thr (ops ++ [.sendRelease true])).1) =
      destroyedHeld (srvExec m thr ops).2.reverse := by
  have hi := srvInv m thr hm ops
  have hi' := (srvInv m thr hm (ops ++ [.sendRelease true])).rel
  simp only [srvExec, runTrace_snoc] at hi hi' ⊢
  generalize (runTrace Srv.step (Srv.init m thr) ops).1 = s at hi hi' ⊢
  generalize (runTrace Srv.step (Srv.init m thr) ops).2 = t at hi hi' ⊢
  have hm' : SizeOK s.cacheMax := by rw [hi.cacheMax]; exact hm
  obtain ⟨s', e, i1, i2, i3, i4, i5, i6, i7⟩ := checkRelease_spec hi.g hm' true
  have hst : s.step (.sendRelease true) = (s', .ok) := by simp [Srv.step, e]
  rw [hst] at hi' ⊢
  have hr : s'.ready = [] := by
    rcases i7 with ⟨rfl, _, h⟩ | ⟨_, h, _⟩
    · exact h rfl
    · exact h
  simp only at hi' ⊢
  rw [hr, List.append_nil] at hi'
  rw [hi']
  simp [destroyedHeld]

/-- C10: after every accepted packet and every explicit check fewer than `threshold` destroyed packets
remain unannounced. -/
theorem C10_threshold (m thr : Nat) (hm : SizeOK m) (hthr : 0 < thr) (ops : List SrvOp) (op : SrvOp)
    (hop : (∃ sig ev len, op = .addEvent sig ev len) ∨ (∃ force, op = .sendRelease force) ∨
      ∃ sig p mark, op = .addData sig p mark ∧ registered sig (srvExec m thr ops).2 = true) :
    (srvExec m thr (ops ++ [op])).1.ready.length < thr := by
  have hi := srvInv m thr hm ops
  rw [srvExec_snoc]
  generalize (srvExec m thr ops).2 = t at hi hop ⊢
  generalize (srvExec m thr ops).1 = s at hi ⊢
  have hm' : SizeOK s.cacheMax := by rw [hi.cacheMax]; exact hm
  have key : ∀ (s1 : Srv) (f : Bool), GInv s1 → SizeOK s1.cacheMax → s1.threshold = thr →
      ∃ s2, s1.checkRelease f = some s2 ∧ s2.ready.length < thr := by
    intro s1 f h1 h2 h3
    obtain ⟨s', e, i1, i2, i3, i4, i5, i6, i7⟩ := checkRelease_spec h1 h2 f
    refine ⟨s', e, ?_⟩
    rcases i7 with ⟨rfl, hl, _⟩ | ⟨_, h, _⟩
    · rw [← h3]; exact hl
    · rw [h]; exact hthr
  rcases hop with ⟨sig, ev, len, rfl⟩ | ⟨f, rfl⟩ | ⟨sig, p, mark, rfl, hreg⟩
  · obtain ⟨s1, g, e, i1, i2, i3, i4, i5, _⟩ := addEvent_spec hi.g hm' sig ev len
    obtain ⟨s2, e', hl⟩ := key s1 false i1 (by rw [i4]; exact hm') (by rw [i5, hi.thr])
    have : s.step (.addEvent sig ev len) = (s2, .ok) := by simp [Srv.step, e, e']
    rw [this]; exact hl
  · obtain ⟨s2, e', hl⟩ := key s f hi.g hm' hi.thr
    have : s.step (.sendRelease f) = (s2, .ok) := by simp [Srv.step, e']
    rw [this]; exact hl
  · rcases addData_spec hi.g hm' sig p mark with ⟨h1, _⟩ | ⟨_, _, s1, _, k2, _, _, _, k6, k7, _⟩
    · rw [hi.reg, hreg] at h1; cases h1
    · rw [← k2] at k6 k7
      show (s.step (.addData sig p mark)).1.ready.length < thr
      rw [k6] at k7
      have hl := congrArg List.length k7
      have hb : announced [if p.id ∈ s.sent then Body.alreadySent sig mark p.id p.domain
          else .data sig (dataFlags p mark) p.id p.domain p.samples p.offset p.payload] = [] := by
        split <;> rfl
      simp only [announced_append, hb, List.length_append, List.length_nil, hi.thr] at hl
      by_cases hc : thr ≤ s.ready.length
      · rw [if_pos hc] at hl
        simp only [announced, List.flatMap_cons, List.flatMap_nil, List.append_nil] at hl
        omega
      · rw [if_neg hc] at hl
        simp only [announced, List.flatMap_nil, List.length_nil] at hl
        omega

example : announced (bodies (srvExec 100 2 [.addEvent 1 (.descChanged (some (some ⟨7, false⟩)) none) 20,
      .addData 1 ⟨1, none, 3, .none, some [1]⟩ false, .addData 1 ⟨2, none, 3, .none, some [1]⟩ true,
      .addData 1 ⟨3, none, 3, .none, some [1]⟩ false, .destroy 3, .destroy 2, .destroy 1,
      .addData 1 ⟨4, none, 3, .none, some [1]⟩ false]).1) = [3, 1] := by decide

end Verif.PacketStreaming
