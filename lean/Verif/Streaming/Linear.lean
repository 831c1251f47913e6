import Verif.Streaming.LinearModel
import Verif.PacketStreaming.Props
import Verif.Wire.Props

/-! Helper lemmas about the write tasks. -/

namespace Verif.Streaming
open Verif.PacketStreaming Verif.Wire

/-- The blocks behind a buffer have the sizes given in the packet header. -/
structure Layout.Ok (lay : Layout) : Prop where
  hdr : ∀ b : Buf, (lay b).1.length = b.body.headerSize
  pay : ∀ b : Buf, (lay b).2.length = b.payloadSize

/-- The message fits the transport limit. -/
def Sendable (b : Buf) : Prop := b.body.headerSize + b.payloadSize ≤ maxSize

/-- Bytes of a buffer on the wire. -/
def wire (lay : Layout) (b : Buf) : Bytes :=
  headerBytes tyPacket (b.body.headerSize + b.payloadSize) ++ (lay b).1 ++ (lay b).2

theorem headerBytes_length (t n : Nat) : (headerBytes t n).length = 4 := by
  unfold headerBytes; rw [leBytes_length]

theorem wire_length {lay : Layout} (hl : lay.Ok) (b : Buf) :
    (wire lay b).length = 4 + (b.body.headerSize + b.payloadSize) := by
  simp only [wire, List.length_append, headerBytes_length, hl.hdr, hl.pay]; omega

theorem sendable_size {b : Buf} (h : Sendable b) : b.size = b.body.headerSize + b.payloadSize := by
  unfold Sendable at h
  have hM : maxSize = 0x0FFFFFFF := rfl
  exact Nat.mod_eq_of_lt (by unfold U32; omega)

theorem copyHeaders_ok {lay : Layout} (hl : lay.Ok) {b : Buf} (h : Sendable b) :
    copyHeaders lay b = .ok (headerBytes tyPacket (b.body.headerSize + b.payloadSize) ++ (lay b).1) := by
  unfold copyHeaders readBlock
  have e := sendable_size h
  unfold Sendable at h
  rw [if_neg (by rw [e]; omega), if_pos (by rw [hl.hdr]; omega), e]
  show Except.ok _ = _
  rw [← hl.hdr, List.take_length]

theorem readBlock_pay {lay : Layout} (hl : lay.Ok) (b : Buf) :
    payloadBytes lay b = .ok (lay b).2 := by
  unfold payloadBytes
  have := hl.pay b
  by_cases hp : b.payloadSize > 0
  · rw [if_pos hp, readBlock, if_pos (by omega), ← this, List.take_length]
  · rw [if_neg hp]
    have : (lay b).2 = [] := List.eq_nil_of_length_eq_zero (by omega)
    rw [this]

/-- A block of `n` bytes starting with what was written so far. -/
def Filled (buf : Bytes) (n : Nat) (w : Bytes) : Prop := buf.length = n ∧ buf.take w.length = w

theorem blit_filled {buf w d : Bytes} {n : Nat} (h : Filled buf n w) (hd : w.length + d.length ≤ n) :
    ∃ buf', blit buf w.length d = .ok buf' ∧ Filled buf' n (w ++ d) := by
  obtain ⟨h1, h2⟩ := h
  refine ⟨_, if_pos (by omega), ?_, ?_⟩
  · simp; omega
  · rw [h2]
    rw [List.take_append_of_le_length (by simp), List.take_length]

theorem cacheOne_ok {lay : Layout} (hl : lay.Ok) {b : Buf} (hs : Sendable b) {buf w : Bytes} {n : Nat}
    (hf : Filled buf n w) (hn : w.length + (wire lay b).length ≤ n) :
    ∃ buf', cacheOne lay b.group n buf w.length b = .ok (buf', (w ++ wire lay b).length) ∧
      Filled buf' n (w ++ wire lay b) := by
  have hw := wire_length hl b
  have e1 := hl.hdr b
  have e2 := hl.pay b
  have e3 := headerBytes_length tyPacket (b.body.headerSize + b.payloadSize)
  unfold cacheOne
  rw [if_neg (by simp), if_neg (by omega), copyHeaders_ok hl hs, readBlock_pay hl]
  obtain ⟨b1, h1, f1⟩ := blit_filled hf
    (d := headerBytes tyPacket (b.body.headerSize + b.payloadSize) ++ (lay b).1) (by
      rw [List.length_append]; omega)
  obtain ⟨b2, h2, f2⟩ := blit_filled f1 (d := (lay b).2) (by
    simp only [List.length_append]; omega)
  have el : (w ++ (headerBytes tyPacket (b.body.headerSize + b.payloadSize) ++ (lay b).1)).length =
      w.length + 4 + b.body.headerSize := by simp only [List.length_append]; omega
  rw [el] at h2
  refine ⟨b2, ?_, ?_⟩
  · show (Except.bind (blit buf w.length _) fun buf1 => _) = _
    rw [h1]
    show (Except.bind (blit b1 (w.length + 4 + b.body.headerSize) (lay b).2) fun buf2 => _) = _
    rw [h2]
    show Except.ok _ = _
    rw [List.length_append, hw]
    congr 2
    omega
  · have : w ++ wire lay b = w ++ (headerBytes tyPacket (b.body.headerSize + b.payloadSize) ++ (lay b).1) ++
        (lay b).2 := by simp [wire]
    rw [this]; exact f2

theorem cacheOne_big {lay : Layout} {b : Buf} (hs : ¬ Sendable b)
    (hsz : b.size = b.body.headerSize + b.payloadSize) {buf w : Bytes} {n : Nat}
    (hn : w.length + (4 + (b.body.headerSize + b.payloadSize)) ≤ n) :
    cacheOne lay b.group n buf w.length b = .error .tooBig := by
  unfold cacheOne copyHeaders
  unfold Sendable at hs
  rw [if_neg (by simp), if_neg (by omega), if_pos (by omega)]
  rfl

/-- Take `n` buffers. -/
def drain : Nat → Srv → Srv
  | 0, s => s
  | n + 1, s => drain n s.getNext.1

theorem drain_spec {s : Srv} (h : GInv s) (n : Nat) :
    GInv (drain n s) ∧ (drain n s).queue = s.queue.drop n := by
  induction n generalizing s with
  | zero => exact ⟨h, rfl⟩
  | succ n ih =>
    obtain ⟨_, h1, h2, _⟩ := getNext_spec h
    have := ih h1
    rw [h2] at this
    exact ⟨this.1, by rw [drain, this.2]; cases s.queue <;> simp⟩

theorem drain_add (a b : Nat) (s : Srv) : drain (a + b) s = drain b (drain a s) := by
  induction a generalizing s with
  | zero => simp [drain]
  | succ a ih => rw [Nat.succ_add, drain, drain, ih]

theorem drain_exec (m thr : Nat) (ops : List SrvOp) (n : Nat) :
    drain n (srvExec m thr ops).1 = (srvExec m thr (ops ++ List.replicate n .getNext)).1 := by
  induction n generalizing ops with
  | zero => simp [drain]
  | succ n ih =>
    have e : ops ++ List.replicate (n + 1) SrvOp.getNext = (ops ++ [.getNext]) ++ List.replicate n .getNext := by
      simp [List.replicate_succ]
    rw [e, ← ih, srvExec_snoc]; rfl

theorem getNext_eq {s : Srv} (h : GInv s) {b : Buf} {rest : List Buf} (hq : s.queue = b :: rest) :
    s.getNext = (drain 1 s, .buffer (some b)) := by
  have := (getNext_spec h).1
  rw [hq] at this
  exact Prod.ext rfl this

theorem cacheLoop_spec {lay : Layout} (hl : lay.Ok) (g n : Nat) (grp : List Buf) :
    ∀ {s : Srv} {rest : List Buf} {buf w : Bytes}, GInv s → s.queue = grp ++ rest →
    (∀ b ∈ grp, b.group = g ∧ b.size = b.body.headerSize + b.payloadSize) → Filled buf n w →
    w.length + (grp.map fun b => 4 + b.size).sum ≤ n →
    ((∀ b ∈ grp, Sendable b) → ∃ buf', cacheLoop lay g n grp.length s buf w.length =
        (drain grp.length s, .ok (buf', (w ++ grp.flatMap (wire lay)).length)) ∧
        Filled buf' n (w ++ grp.flatMap (wire lay))) ∧
    ((∃ b ∈ grp, ¬ Sendable b) → (cacheLoop lay g n grp.length s buf w.length).2 = .error .tooBig) := by
  induction grp with
  | nil =>
    intro s rest buf w h hq hg hf hn
    refine ⟨fun _ => ⟨buf, ?_, ?_⟩, fun ⟨b, hb, _⟩ => by cases hb⟩
    · simp [cacheLoop, drain]
    · simpa using hf
  | cons b grp ih =>
    intro s rest buf w h hq hg hf hn
    have hnext := getNext_eq h hq
    have hd := drain_spec h 1
    have hq' : (drain 1 s).queue = grp ++ rest := by rw [hd.2, hq]; rfl
    obtain ⟨hb, hsz⟩ := hg b (by simp)
    simp only [List.map_cons, List.sum_cons] at hn
    have hlen : (b :: grp).length = grp.length + 1 := rfl
    rw [hlen]
    by_cases hs : Sendable b
    · have hwl := wire_length hl b
      obtain ⟨buf', h1, h2⟩ := cacheOne_ok hl hs hf (by omega)
      rw [hb] at h1
      have := ih hd.1 hq' (fun c hc => hg c (by simp [hc])) h2 (by
        rw [List.length_append]; omega)
      have step : cacheLoop lay g n (grp.length + 1) s buf w.length =
          cacheLoop lay g n grp.length (drain 1 s) buf' (w ++ wire lay b).length := by
        rw [cacheLoop, hnext]; simp only [h1]
      rw [step]
      refine ⟨fun hall => ?_, fun hex => this.2 ?_⟩
      · obtain ⟨b2, e1, e2⟩ := this.1 fun c hc => hall c (by simp [hc])
        refine ⟨b2, ?_, ?_⟩
        · rw [e1, Nat.add_comm, drain_add]
          simp only [List.flatMap_cons, List.append_assoc]
        · simpa only [List.flatMap_cons, List.append_assoc] using e2
      · obtain ⟨c, hc, hc2⟩ := hex
        rcases List.mem_cons.mp hc with rfl | hc
        · exact absurd hs hc2
        · exact ⟨c, hc, hc2⟩
    · refine ⟨fun hall => absurd (hall b (by simp)) hs, fun _ => ?_⟩
      have : cacheOne lay g n buf w.length b = .error .tooBig := by
        have := cacheOne_big (lay := lay) (buf := buf) (n := n) hs hsz (w := w) (by omega)
        rwa [hb] at this
      rw [cacheLoop, hnext]; simp only [this]

theorem takeWhile_all {p : Buf → Bool} {l : List Buf} {b : Buf} (h : b ∈ l.takeWhile p) : p b = true := by
  induction l with
  | nil => cases h
  | cons a l ih =>
    rw [List.takeWhile_cons] at h
    split at h
    · rcases List.mem_cons.mp h with rfl | h
      · assumption
      · exact ih h
    · cases h

theorem seg_run {b : Buf} {rest : List Buf} (h : Seg (b :: rest)) :
    ∀ c ∈ (b :: rest).takeWhile Buf.cacheable, c.group = b.group := by
  induction rest generalizing b with
  | nil =>
    intro c hc
    rw [List.takeWhile_cons] at hc
    split at hc
    · have : c = b := by simpa using hc
      rw [this]
    · cases hc
  | cons d r ih =>
    intro c hc
    rw [List.takeWhile_cons] at hc
    split at hc
    · rename_i hb
      have hb0 : b.group ≠ 0 := by simpa [Buf.cacheable] using hb
      rcases List.mem_cons.mp hc with rfl | hc
      · rfl
      · rcases h.2 hb0 with he | ⟨d', r', he, hd⟩
        · cases he
        · cases he
          rcases hd with hd | ⟨hd, _⟩
          · rw [ih h.1 c hc, hd]
          · rw [List.takeWhile_cons] at hc
            have : d.cacheable = false := by simp [Buf.cacheable, hd]
            rw [this] at hc
            simp at hc
    · cases hc

theorem cacheGroup_spec {lay : Layout} (hl : lay.Ok) {m : Nat} (hm : SizeOK m) {s : Srv} (h : GInv s)
    (hr : ∀ b ∈ s.queue, b.cacheable = true → b.payloadSize ≤ m) {b : Buf} {rest : List Buf}
    (hq : s.queue = b :: rest) (hb : b.cacheable = true) :
    let run := s.queue.takeWhile Buf.cacheable
    ((∀ c ∈ run, Sendable c) →
      cacheGroup lay s b.group = (drain run.length s, .ok (run.flatMap (wire lay)))) ∧
    ((∃ c ∈ run, ¬ Sendable c) → (cacheGroup lay s b.group).2 = .error .tooBig) := by
  intro run
  have hne : b.group ≠ 0 := by simpa [Buf.cacheable] using hb
  have hseg := h.seg
  rw [hq] at hseg
  obtain ⟨e1, e2⟩ := seg_head_count hseg hne
  have hf := h.find b.group hne
  rw [hq, if_neg (by rw [cntG_cons]; simp), e1, e2, ← hq] at hf
  have c1 : s.countOfCacheable b.group = run.length := by simp [Srv.countOfCacheable, hf, run]
  have c2 : s.sizeOfCacheable b.group = (run.map Buf.size).sum := by
    simp [Srv.sizeOfCacheable, hf, run]
  have hsplit : s.queue = run ++ s.queue.dropWhile Buf.cacheable := (List.takeWhile_append_dropWhile).symm
  have hmem : ∀ c ∈ run, c ∈ s.queue := fun c hc => by rw [hsplit]; simp [hc]
  have hgrp : ∀ c ∈ run, c.group = b.group ∧ c.size = c.body.headerSize + c.payloadSize := by
    intro c hc
    refine ⟨?_, (size_pos hm (hr c (hmem c hc) (takeWhile_all hc))).1⟩
    have := seg_run hseg c
    rw [← hq] at this
    exact this hc
  have hsum : (run.map fun c => 4 + c.size).sum = 4 * run.length + (run.map Buf.size).sum := by
    generalize run = l
    induction l with
    | nil => rfl
    | cons a l ih => simp only [List.map_cons, List.sum_cons, List.length_cons, ih]; omega
  have hav : ¬ s.availableBuffers < run.length := by
    have : s.queue.length = run.length + (s.queue.dropWhile Buf.cacheable).length := by
      rw [← List.length_append, ← hsplit]
    unfold Srv.availableBuffers; omega
  have hwl : ((run.flatMap (wire lay)).length) = 4 * run.length + (run.map Buf.size).sum := by
    rw [← hsum]
    have : ∀ l : List Buf, (∀ c ∈ l, c.size = c.body.headerSize + c.payloadSize) →
        (l.flatMap (wire lay)).length = (l.map fun c => 4 + c.size).sum := by
      intro l hl2
      induction l with
      | nil => rfl
      | cons a l ih =>
        rw [List.flatMap_cons, List.length_append, wire_length hl, ih (fun c hc => hl2 c (by simp [hc]))]
        have := hl2 a (by simp)
        simp only [List.map_cons, List.sum_cons]; omega
    exact this run fun c hc => (hgrp c hc).2
  have hloop := cacheLoop_spec hl b.group (4 * run.length + (run.map Buf.size).sum) run h hsplit hgrp
    (buf := List.replicate (4 * run.length + (run.map Buf.size).sum) 0) (w := [])
    ⟨by simp, rfl⟩ (by rw [hsum]; simp)
  unfold cacheGroup
  rw [c1, c2, if_neg hav]
  simp only [List.nil_append, List.length_nil] at hloop
  refine ⟨fun hall => ?_, fun hex => ?_⟩
  · obtain ⟨buf', h1, h2, h3⟩ := hloop.1 hall
    simp only
    rw [h1]
    simp only [hwl, ne_eq, not_true, if_false]
    rw [hwl, ← h2, List.take_length] at h3
    rw [h3]
  · have := hloop.2 hex
    simp only
    obtain ⟨s', r, e⟩ : ∃ s' r, cacheLoop lay b.group (4 * run.length + (run.map Buf.size).sum) run.length s
        (List.replicate (4 * run.length + (run.map Buf.size).sum) 0) 0 = (s', r) := ⟨_, _, rfl⟩
    rw [e] at this ⊢
    subst this; rfl

theorem bufferTasks_ok {lay : Layout} (hl : lay.Ok) {b : Buf} (h : Sendable b) :
    ∃ ts, bufferTasks lay b = .ok ts ∧ ts.flatten = wire lay b := by
  unfold bufferTasks
  rw [copyHeaders_ok hl h]
  have := hl.pay b
  by_cases hp : b.payloadSize > 0
  · refine ⟨[headerBytes tyPacket (b.body.headerSize + b.payloadSize) ++ (lay b).1, (lay b).2], ?_, ?_⟩
    · show (if b.payloadSize > 0 then _ else _) = _
      rw [if_pos hp, readBlock, if_pos (by omega), ← this, List.take_length]; rfl
    · simp [wire]
  · refine ⟨[headerBytes tyPacket (b.body.headerSize + b.payloadSize) ++ (lay b).1], ?_, ?_⟩
    · show (if b.payloadSize > 0 then _ else _) = _
      rw [if_neg hp]; rfl
    · have : (lay b).2 = [] := List.eq_nil_of_length_eq_zero (by omega)
      simp [wire, this]

theorem bufferTasks_cases {lay : Layout} (hl : lay.Ok) (b : Buf) :
    (∃ ts, bufferTasks lay b = .ok ts) ∨ bufferTasks lay b = .error .tooBig := by
  unfold bufferTasks copyHeaders
  by_cases hbig : b.size > maxSize
  · right; rw [if_pos hbig]; rfl
  · left
    rw [if_neg hbig]
    have e1 := hl.hdr b
    have e2 := hl.pay b
    rw [readBlock, if_pos (by omega)]
    by_cases hp : b.payloadSize > 0
    · refine ⟨[headerBytes tyPacket b.size ++ (lay b).1.take b.body.headerSize,
        (lay b).2.take b.payloadSize], ?_⟩
      show (if b.payloadSize > 0 then _ else _) = _
      rw [if_pos hp, readBlock, if_pos (by omega)]; rfl
    · refine ⟨[headerBytes tyPacket b.size ++ (lay b).1.take b.body.headerSize], ?_⟩
      show (if b.payloadSize > 0 then _ else _) = _
      rw [if_neg hp]; rfl

theorem writeLoop_spec {lay : Layout} (hl : lay.Ok) {m : Nat} (hm : SizeOK m) (fuel : Nat) :
    ∀ {s : Srv} (tasks : List Bytes), GInv s →
    (∀ b ∈ s.queue, b.cacheable = true → b.payloadSize ≤ m) → s.queue.length ≤ fuel →
    ((∀ b ∈ s.queue, Sendable b) → ∃ ts, writeLoop lay fuel s tasks =
      (drain s.queue.length s, .ok (tasks ++ ts)) ∧ ts.flatten = s.queue.flatMap (wire lay)) ∧
    ((∃ ts, (writeLoop lay fuel s tasks).2 = .ok ts) ∨ (writeLoop lay fuel s tasks).2 = .error .tooBig) := by
  induction fuel with
  | zero =>
    intro s tasks h hr hle
    have hq : s.queue = [] := List.eq_nil_of_length_eq_zero (by omega)
    have : writeLoop lay 0 s tasks = (s, .ok tasks) := by unfold writeLoop; rw [hq]; rfl
    rw [this]
    exact ⟨fun _ => ⟨[], by simp [hq, drain], by simp [hq]⟩, .inl ⟨tasks, rfl⟩⟩
  | succ fuel ih =>
    intro s tasks h hr hle
    cases hq : s.queue with
    | nil =>
      have : writeLoop lay (fuel + 1) s tasks = (s, .ok tasks) := by unfold writeLoop; rw [hq]; rfl
      rw [this]
      exact ⟨fun _ => ⟨[], by simp [drain], by simp⟩, .inl ⟨tasks, rfl⟩⟩
    | cons b rest =>
      by_cases hb : b.cacheable = true
      · obtain ⟨g1, g2⟩ := cacheGroup_spec hl hm h hr hq hb
        have hrun : s.queue.takeWhile Buf.cacheable ++ s.queue.dropWhile Buf.cacheable = s.queue :=
          List.takeWhile_append_dropWhile
        have hpos : 0 < (s.queue.takeWhile Buf.cacheable).length := by
          rw [hq, List.takeWhile_cons, if_pos hb]; simp
        generalize s.queue.takeWhile Buf.cacheable = run at g1 g2 hrun hpos
        generalize s.queue.dropWhile Buf.cacheable = rest' at hrun
        have hd := drain_spec h run.length
        have hq' : (drain run.length s).queue = rest' := by rw [hd.2, ← hrun]; simp
        have hlen : s.queue.length = run.length + rest'.length := by rw [← hrun]; simp
        by_cases hall : ∀ c ∈ run, Sendable c
        · have step : writeLoop lay (fuel + 1) s tasks =
              writeLoop lay fuel (drain run.length s) (tasks ++ [run.flatMap (wire lay)]) := by
            rw [writeLoop, hq]
            simp only [List.head?_cons, hb, if_true, g1 hall]
          have := ih (tasks ++ [run.flatMap (wire lay)]) hd.1
            (fun c hc => hr c (by rw [← hrun]; rw [hq'] at hc; simp [hc])) (by rw [hq']; omega)
          rw [step]
          refine ⟨fun hs => ?_, this.2⟩
          rw [← hq] at hs ⊢
          obtain ⟨ts, e1, e2⟩ := this.1 fun c hc => hs c (by rw [← hrun]; rw [hq'] at hc; simp [hc])
          refine ⟨run.flatMap (wire lay) :: ts, ?_, ?_⟩
          · rw [e1, hq', hlen, drain_add]; simp
          · rw [← hrun, List.flatten_cons, e2, hq', List.flatMap_append]
        · have hex : ∃ c ∈ run, ¬ Sendable c := by
            apply Classical.byContradiction
            intro hn
            exact hall fun c hc => Classical.byContradiction fun h2 => hn ⟨c, hc, h2⟩
          have hbig := g2 hex
          have : (writeLoop lay (fuel + 1) s tasks).2 = .error .tooBig := by
            rw [writeLoop, hq]
            simp only [List.head?_cons, hb, if_true]
            obtain ⟨s', r, e⟩ : ∃ s' r, cacheGroup lay s b.group = (s', r) := ⟨_, _, rfl⟩
            rw [e] at hbig ⊢
            subst hbig; rfl
          refine ⟨fun hs => ?_, .inr this⟩
          rw [← hq] at hs
          exact absurd (fun c hc => hs c (by rw [← hrun]; simp [hc])) hall
      · have hd := drain_spec h 1
        have hq' : (drain 1 s).queue = rest := by rw [hd.2, hq]; rfl
        have hnext := getNext_eq h hq
        have hlen : rest.length ≤ fuel := by rw [hq] at hle; simpa using hle
        have hr' : ∀ c ∈ (drain 1 s).queue, c.cacheable = true → c.payloadSize ≤ m :=
          fun c hc => hr c (by rw [hq]; rw [hq'] at hc; simp [hc])
        have step : ∀ ts, bufferTasks lay b = .ok ts →
            writeLoop lay (fuel + 1) s tasks = writeLoop lay fuel (drain 1 s) (tasks ++ ts) := by
          intro ts e
          rw [writeLoop, hq]
          simp only [List.head?_cons, hb, hnext, e]
          rfl
        refine ⟨fun hs => ?_, ?_⟩
        · obtain ⟨ts, e1, e2⟩ := bufferTasks_ok hl (hs b (by simp))
          obtain ⟨ts', e1', e2'⟩ := (ih (tasks ++ ts) hd.1 hr' (by rw [hq']; exact hlen)).1 fun c hc =>
            hs c (by rw [hq'] at hc; simp [hc])
          refine ⟨ts ++ ts', ?_, ?_⟩
          · rw [step ts e1, e1', hq', List.length_cons, Nat.add_comm, drain_add]; simp
          · rw [List.flatten_append, e2, e2', hq', List.flatMap_cons]
        · rcases bufferTasks_cases hl b with ⟨ts, e⟩ | e
          · rw [step ts e]
            exact (ih (tasks ++ ts) hd.1 hr' (by rw [hq']; exact hlen)).2
          · right
            rw [writeLoop, hq]
            simp only [List.head?_cons, hb, hnext, e]
            rfl

end Verif.Streaming
