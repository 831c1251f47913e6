import Verif.Reader.StreamAvail

/-!
# Properties of the stream reader (C23–C25, C53)

`exec cfg g ops` runs an arbitrary history of producer and reader calls on a new reader.
-/

namespace Verif.Reader

open Connection (Packet EventKind DomPacket DomDesc)

/-! ## Example histories -/

def exCfg : Cfg := { skipEvents := false, badValue := fun v => v == 99, badDomain := fun _ => false }
def exSkip : Cfg := { exCfg with skipEvents := true }

def exDom : DomDesc := ⟨0, true, .int 1, .int64⟩
def exDesc (i v : Nat) : Op := .conn (.enqueue .plain (.event i (.descChanged (some (some v)) (some (some exDom)))))
def exData (i n : Nat) (off : Int) : Op := .conn (.enqueue .plain (.data i n (some ⟨.int off, n⟩)))

/-- Two packets, a gap of 5, a third packet and a new descriptor; reads in pieces. -/
def exOps : List Op :=
  [exDesc 1 7, exData 2 4 0, .read .values 3, .read .values 3, exData 3 2 4, exData 4 3 11,
   .read .values 2, .read .withDomain 9, .read .withDomain 2, exDesc 5 8, exData 6 1 14, .read .values 9,
   .read .values 9, .read .values 9]

instance (o : Out) : Decidable (IsFault o) :=
  match h : o.ret with
  | .success => isFalse (by rintro ⟨e, he⟩; rw [h] at he; exact nomatch he)
  | .ignored => isFalse (by rintro ⟨e, he⟩; rw [h] at he; exact nomatch he)
  | .fault e => isTrue ⟨e, h⟩

instance (op : Op) : Decidable (Normal op) :=
  match op with
  | .conn (.enqueue _ _) => isTrue trivial
  | .conn (.enqueueMultiple _) => isTrue trivial
  | .conn (.setActive _) => isTrue trivial
  | .conn (.setNotify _) => isTrue trivial
  | .conn .dequeue => isFalse id
  | .conn .dequeueAll => isFalse id
  | .conn (.dequeueUpTo _) => isFalse id
  | .conn .enqueueLastDescriptor => isFalse id
  | .read _ _ => isTrue trivial
  | .markAsInvalid => isTrue trivial

/-! ## C23 Every sample and event exactly once, in order -/

/-- C23: each call returns exactly the items that follow those consumed before: `count` samples
(the same ones in the values and the domain buffer) and then the returned event, if any. -/
theorem C23_nextItems (cfg : Cfg) (g : Bool) (ops : List Op) (hn : ∀ op ∈ ops, Normal op)
    (hf : ∀ x ∈ (exec cfg g ops).2, ¬ IsFault x.2) (m : Mode) (n : Nat) :
    let t := (exec cfg g ops).2
    let o := (step cfg (exec cfg g ops).1 (.read m n)).2
    ¬ IsFault o → ∃ toks rest, toks.length = o.count ∧
      (itemStream cfg g t).drop (consumed t) =
        toks.map Item.sample ++ (o.event.toList.map fun e => Item.event e.1 e.2) ++ rest ∧
      (m ≠ .skip → o.vals = toks) ∧ (m = .skip → o.vals = []) ∧
      o.doms = (if m = .withDomain then toks else []) := by
  intro t o ho
  have h := rinv cfg g ops hn hf
  obtain ⟨K, hK, hKl, -⟩ := h.items
  have hdrop : (itemStream cfg g t).drop (consumed t) = pending cfg (exec cfg g ops).1 := by
    rw [hK, ← hKl, List.drop_left]
  rcases hi : (exec cfg g ops).1.invalid with _ | _
  · obtain ⟨p', new, k, s, hret, hcount, hvals, hvals', hdoms, -⟩ := readOp_spec cfg _ m n hi h.good ho
    exact ⟨new, _, hcount.symm, by rw [hdrop]; exact s.pend, hvals, hvals', hdoms⟩
  · have : o = { ret := .ignored, valid := false } := by simp [o, step, readOp, hi]
    exact ⟨[], (itemStream cfg g t).drop (consumed t), by rw [this]; rfl, by rw [this]; simp,
      fun _ => by rw [this], fun _ => by rw [this], by rw [this]; simp⟩

/-- C23: whatever the sizes of the reads and of the packets and however they interleave, the samples
and events returned so far, put together, are a prefix of those offered by the connection: nothing
is lost, repeated or reordered. -/
theorem C23_exactlyOnce (cfg : Cfg) (g : Bool) (ops : List Op) (hn : ∀ op ∈ ops, Normal op)
    (hf : ∀ x ∈ (exec cfg g ops).2, ¬ IsFault x.2) (hs : ∀ n, Op.read .skip n ∉ ops) :
    returned (exec cfg g ops).2 <+: itemStream cfg g (exec cfg g ops).2 := by
  obtain ⟨K, hK, -, hKr⟩ := (rinv cfg g ops hn hf).items
  rw [← hKr, hK]
  · exact List.prefix_append _ _
  · intro x hx n he
    apply hs n
    have : (exec cfg g ops).2.map Prod.fst = ops := by
      have : ∀ (s : R) (l : List Op), (runTrace (step cfg) s l).2.map Prod.fst = l := by
        intro s l; induction l generalizing s with
        | nil => rfl
        | cons a l ih => simp [runTrace, ih]
      exact this _ _
    rw [← this, ← he]; exact List.mem_map_of_mem hx

/-- C23: when a read gets less than it asked for and no event, everything offered so far has been
consumed. -/
theorem C23_complete (cfg : Cfg) (g : Bool) (ops : List Op) (hn : ∀ op ∈ ops, Normal op)
    (hf : ∀ x ∈ (exec cfg g ops).2, ¬ IsFault x.2) (m : Mode) (n : Nat) :
    let t' := (exec cfg g (ops ++ [.read m n])).2
    let o := (step cfg (exec cfg g ops).1 (.read m n)).2
    o.ret = .success → o.count < n → o.event = none → consumed t' = (itemStream cfg g t').length := by
  intro t' o ho hc he
  have h := rinv cfg g ops hn hf
  have hnf : ¬ IsFault o := by rintro ⟨e, h'⟩; rw [ho] at h'; exact nomatch h'
  have hi : (exec cfg g ops).1.invalid = false := by
    cases hi : (exec cfg g ops).1.invalid with
    | false => rfl
    | true => simp [o, step, readOp, hi] at ho
  obtain ⟨p', new, k, s, hret, hcount, -⟩ := readOp_spec cfg _ m n hi h.good hnf
  have h' := rinv_step h (.read m n) trivial hnf
  obtain ⟨K, hK, hKl, -⟩ := h'.items
  have hr := s.rem
  obtain ⟨q1, q2⟩ := s.more (by
    have : (readOp cfg (exec cfg g ops).1 m n).2.count < n := hc
    dsimp only at hr; omega) he
  have hpd : pending cfg (step cfg (exec cfg g ops).1 (.read m n)).1 = [] := by
    show pending cfg (readOp cfg (exec cfg g ops).1 m n).1 = []
    simp [pending, q1, q2]
  rw [hpd, List.append_nil] at hK
  show consumed (exec cfg g (ops ++ [.read m n])).2 = (itemStream cfg g (exec cfg g (ops ++ [.read m n])).2).length
  rw [exec_snoc]
  dsimp only
  rw [hK, hKl]

/-- The example history returns everything: 10 samples, 2 descriptor events and the gap, in order. -/
example : (∀ op ∈ exOps, Normal op) ∧ (∀ x ∈ (exec exCfg true exOps).2, ¬ IsFault x.2) ∧
    (∀ n, Op.read .skip n ∉ exOps) ∧
    returned (exec exCfg true exOps).2 = itemStream exCfg true (exec exCfg true exOps).2 ∧
    (returned (exec exCfg true exOps).2).length = 13 := by
  refine ⟨by decide, by decide, by simp [exOps, exDesc, exData], by decide, by decide⟩

/-- C23 (partial): no call hangs or writes out of bounds when the value descriptor is the first
packet and, if the domain is read, every data packet has a domain packet covering its samples.
Missing: the two conditions are needed, see the violations below. -/
theorem C23_noFault_partial (cfg : Cfg) (g : Bool) (ops : List Op) (hn : ∀ op ∈ ops, Normal op)
    (ht : (∀ m n, Op.read m n ∈ ops → m = .skip) ∨
      ∀ q, (packetStream g (exec cfg g ops).2).head? = some q → announces q = true)
    (hd : (∀ n, Op.read .withDomain n ∉ ops) ∨ ∀ q ∈ packetStream g (exec cfg g ops).2, domainCovers q = true) :
    ∀ x ∈ (exec cfg g ops).2, ¬ IsFault x.2 :=
  noFault cfg g ops hn ht hd

example : (∀ q, (packetStream true (exec exCfg true exOps).2).head? = some q → announces q = true) ∧
    (∀ q ∈ packetStream true (exec exCfg true exOps).2, domainCovers q = true) := by
  constructor
  · intro q hq
    have : (packetStream true (exec exCfg true exOps).2).head? =
      some (.event 1 (.descChanged (some (some 7)) (some (some exDom)))) := by decide
    rw [this] at hq; injection hq with hq; subst hq; rfl
  · decide

/-- C23 fails: reading values with domain from a packet without a domain packet never returns, and
every round writes the packet's samples again, behind the caller's buffer. -/
theorem C23_violation_missingDomainPacket :
    let s := (exec exCfg false [exDesc 1 7, .read .values 1,
      .conn (.enqueue .plain (.data 2 4 none))]).1
    (step exCfg s (.read .withDomain 4)).2.ret = .fault .overrun := by decide

/-- C23 fails: reading a data packet that arrived before any value descriptor never returns. -/
theorem C23_violation_noDescriptor :
    let s := (exec exCfg false [.conn (.enqueue .plain (.data 2 4 none))]).1
    (step exCfg s (.read .values 1)).2.ret = .fault .hang := by decide

/-! ## C24 Size and end of a read -/

/-- C24: the returned count is at most the requested one, and exactly the number of samples written;
a read with domain writes the same number of domain samples. -/
theorem C24_count (cfg : Cfg) (g : Bool) (ops : List Op) (hn : ∀ op ∈ ops, Normal op)
    (hf : ∀ x ∈ (exec cfg g ops).2, ¬ IsFault x.2) (m : Mode) (n : Nat) :
    let o := (step cfg (exec cfg g ops).1 (.read m n)).2
    ¬ IsFault o → o.count ≤ n ∧ (m ≠ .skip → o.vals.length = o.count) ∧
      (m = .withDomain → o.doms.length = o.count) ∧ (m ≠ .withDomain → o.doms = []) := by
  intro o ho
  obtain ⟨toks, rest, h1, h2, h3, h4, h5⟩ := C23_nextItems cfg g ops hn hf m n ho
  refine ⟨?_, fun hm => by rw [h3 hm, h1], fun hm => by rw [h5, if_pos hm, h1], fun hm => by rw [h5, if_neg hm]⟩
  rcases hi : (exec cfg g ops).1.invalid with _ | _
  · have := readOp_count cfg _ m n hi (rinv cfg g ops hn hf).good ho
    show (readOp cfg (exec cfg g ops).1 m n).2.count ≤ n
    rw [this]; exact Nat.min_le_left _ _
  · simp [o, step, readOp, hi]

/-- C24: a successful read returns fewer samples than requested only because it returned an event or
because there are no more samples; a returned event is one that is to be reported. -/
theorem C24_shortRead (cfg : Cfg) (g : Bool) (ops : List Op) (hn : ∀ op ∈ ops, Normal op)
    (hf : ∀ x ∈ (exec cfg g ops).2, ¬ IsFault x.2) (m : Mode) (n : Nat) :
    let t := (exec cfg g ops).2
    let o := (step cfg (exec cfg g ops).1 (.read m n)).2
    o.ret = .success → o.count = n ∨ (∃ e, o.event = some e ∧ reported cfg e.2 = true) ∨
      (o.event = none ∧ consumed t + o.count = (itemStream cfg g t).length) := by
  intro t o ho
  have h := rinv cfg g ops hn hf
  have hnf : ¬ IsFault o := by rintro ⟨e, h'⟩; rw [ho] at h'; exact nomatch h'
  have hi : (exec cfg g ops).1.invalid = false := by
    cases hi : (exec cfg g ops).1.invalid with
    | false => rfl
    | true => simp [o, step, readOp, hi] at ho
  obtain ⟨p', new, k, s, hret, hcount, -⟩ := readOp_spec cfg _ m n hi h.good hnf
  have hle := (C24_count cfg g ops hn hf m n hnf).1
  by_cases hc : o.count = n
  · exact .inl hc
  · refine .inr ?_
    cases he : o.event with
    | some e => exact .inl ⟨e, rfl, s.rep e he⟩
    | none =>
      refine .inr ⟨rfl, ?_⟩
      have := C23_complete cfg g ops hn hf m n ho (Nat.lt_of_le_of_ne hle hc) he
      rw [exec_snoc] at this
      obtain ⟨e1, e2, e3⟩ := packetStream_nonprod g t (.read m n) o (by simp)
      dsimp only at this
      rw [itemStream, e2] at this
      rw [itemStream, ← this, consumed_snoc]
      simp only [consumedBy]
      have he' : (step cfg (exec cfg g ops).1 (.read m n)).2.event = none := he
      rw [he']; rfl

/-- C24: with `skipEvents` a read ends early only at a gap or at a descriptor that cannot be
converted. -/
theorem C24_skipEvents (cfg : Cfg) (hsk : cfg.skipEvents = true) (g : Bool) (ops : List Op)
    (hn : ∀ op ∈ ops, Normal op) (hf : ∀ x ∈ (exec cfg g ops).2, ¬ IsFault x.2) (m : Mode) (n : Nat)
    (e : Nat × EventKind) :
    let o := (step cfg (exec cfg g ops).1 (.read m n)).2
    o.ret = .success → o.event = some e → (∃ d, e.2 = .gap d) ∨ inconvertible cfg e.2 = true := by
  intro o ho he
  have h := rinv cfg g ops hn hf
  have hnf : ¬ IsFault o := by rintro ⟨e, h'⟩; rw [ho] at h'; exact nomatch h'
  have hi : (exec cfg g ops).1.invalid = false := by
    cases hi : (exec cfg g ops).1.invalid with
    | false => rfl
    | true => simp [o, step, readOp, hi] at ho
  obtain ⟨p', new, k, s, -⟩ := readOp_spec cfg _ m n hi h.good hnf
  have := s.rep e he
  obtain ⟨i, k⟩ := e
  cases k with
  | gap d => exact .inl ⟨d, rfl⟩
  | descChanged v d => simp only [reported, hsk] at this; exact .inr (by simpa using this)
  | other x => simp [reported, hsk, inconvertible] at this

/-- C24: the status is invalid exactly when the returned event carries a descriptor that cannot be
converted, and from then on every read is refused and returns nothing. -/
theorem C24_invalid (cfg : Cfg) (g : Bool) (ops : List Op) (hn : ∀ op ∈ ops, Normal op)
    (hf : ∀ x ∈ (exec cfg g ops).2, ¬ IsFault x.2) (m : Mode) (n : Nat) :
    let o := (step cfg (exec cfg g ops).1 (.read m n)).2
    let s' := (step cfg (exec cfg g ops).1 (.read m n)).1
    o.ret = .success →
      (o.valid = false ↔ ∃ e, o.event = some e ∧ inconvertible cfg e.2 = true) ∧
      (o.valid = false → ∀ m' n', step cfg s' (.read m' n') = (s', { ret := .ignored, valid := false })) := by
  intro o s' ho
  have h := rinv cfg g ops hn hf
  have hnf : ¬ IsFault o := by rintro ⟨e, h'⟩; rw [ho] at h'; exact nomatch h'
  have hi : (exec cfg g ops).1.invalid = false := by
    cases hi : (exec cfg g ops).1.invalid with
    | false => rfl
    | true => simp [o, step, readOp, hi] at ho
  obtain ⟨p', new, k, s, hret, hcount, hv1, hv2, hdm, hvalid, -⟩ := readOp_spec cfg _ m n hi h.good hnf
  have hv : o.valid = !s'.invalid := hvalid
  refine ⟨?_, ?_⟩
  · rw [hv]
    constructor
    · intro hh
      have hinv : s'.invalid = true := by simpa using hh
      have hne := s.inv hinv
      cases he : o.event with
      | none => exact absurd he hne
      | some e => exact ⟨e, rfl, by rw [← s.invEv e he]; exact hinv⟩
    · rintro ⟨e, he, hc⟩
      have := s.invEv e he
      rw [hc] at this
      rw [show s'.invalid = true from this]; rfl
  · intro hh m' n'
    have hinv : s'.invalid = true := by rw [hv] at hh; simpa using hh
    simp [step, readOp, hinv]

/-- C24: the domain offset in the status is that of the first returned sample (packets without
samples aside). -/
theorem C24_offset (cfg : Cfg) (g : Bool) (ops : List Op) (hn : ∀ op ∈ ops, Normal op)
    (hf : ∀ x ∈ (exec cfg g ops).2, ¬ IsFault x.2) (m : Mode) (n : Nat) (hm : m ≠ .skip)
    (hz : ∀ id k d, Packet.data id k d ∈ packetStream g (exec cfg g ops).2 → 0 < k) :
    let o := (step cfg (exec cfg g ops).1 (.read m n)).2
    o.ret = .success → 0 < o.count → o.offset = o.vals.head? := by
  intro o ho hpos
  have h := rinv cfg g ops hn hf
  have hnf : ¬ IsFault o := by rintro ⟨e, h'⟩; rw [ho] at h'; exact nomatch h'
  have hi : (exec cfg g ops).1.invalid = false := by
    cases hi : (exec cfg g ops).1.invalid with
    | false => rfl
    | true => simp [o, step, readOp, hi] at ho
  obtain ⟨p', new, k, s, hret, hcount, hvals, hv2, hdm, hvalid, hoff⟩ := readOp_spec cfg _ m n hi h.good hnf
  have hne : new ≠ [] := by
    rintro rfl
    have : o.count = 0 := hcount
    omega
  obtain ⟨q, h1, h2⟩ := s.off rfl hne
  obtain ⟨dl, hdl⟩ := h.queued
  have := h2 (fun id k d hm => hz id k d (by rw [hdl]; exact List.mem_append_right _ hm)) (h.prevOk hz)
  show (readOp cfg (exec cfg g ops).1 m n).2.offset = (readOp cfg (exec cfg g ops).1 m n).2.vals.head?
  rw [hoff, hvals hm, h1, this]

/-- For the examples: count, event, validity and offset of each read. -/
def readOuts (cfg : Cfg) (ops : List Op) : List (Nat × Bool × Bool × Option Tok) :=
  (exec cfg true ops).2.filterMap fun x => match x.1 with
    | .read _ _ => some (x.2.count, x.2.event.isSome, x.2.valid, x.2.offset)
    | _ => none

/-- Reads that stop at a gap, read on with events skipped, and end at a bad descriptor. -/
example :
    readOuts exCfg exOps = [(0, true, true, none), (3, false, true, some (2, 0)), (2, false, true, some (2, 3)),
      (1, true, true, some (3, 1)), (2, false, true, some (4, 0)), (1, true, true, some (4, 2)),
      (1, false, true, some (6, 0)), (0, false, true, none)] ∧
    readOuts exSkip [exDesc 1 7, exData 2 4 0, exDesc 3 8, exData 4 4 4, .read .values 6, exDesc 5 99, exData 6 1 8,
      .read .values 9, .read .values 9] =
      [(6, false, true, some (2, 0)), (2, true, false, some (4, 2)), (0, false, false, none)] := by
  constructor <;> rfl

/-! ## C25 The available count is exact -/

/-- C25: a read returns `min requested available` samples, where `available` is the answer of
`getAvailableCount` just before (reader reporting all events). -/
theorem C25_availableCount (cfg : Cfg) (hsk : cfg.skipEvents = false) (g : Bool) (ops : List Op)
    (hn : ∀ op ∈ ops, Normal op) (hf : ∀ x ∈ (exec cfg g ops).2, ¬ IsFault x.2)
    (hgap : ∀ op ∈ connOps ops, Connection.NoExternalGap op) (hl : Connection.load (connOps ops) < 2 ^ 64)
    (htot : Connection.totalSamples (packetStream g (exec cfg g ops).2) < 2 ^ 64) (m : Mode) (n : Nat) :
    let s := (exec cfg g ops).1
    let o := (step cfg s (.read m n)).2
    o.ret = .success → o.count = min n (getAvailableCount cfg s) := by
  intro s o ho
  have h := rinv cfg g ops hn hf
  have hnf : ¬ IsFault o := by rintro ⟨e, h'⟩; rw [ho] at h'; exact nomatch h'
  have hi : s.invalid = false := by
    cases hi : s.invalid with
    | false => rfl
    | true => simp [o, step, readOp, hi] at ho
  have hc : o.count = min n (leading (pending cfg s)) := readOp_count cfg _ m n hi h.good hnf
  obtain ⟨cops, hh⟩ := h.hist
  have htr := exec_ops cfg g ops
  obtain ⟨k, hk, hq⟩ := Connection.C04_untilEvent g cops (hh.noGap (by rw [htr]; exact hgap))
    (by rw [hh.load, htr]; exact hl)
  rw [← hh.conn] at hk hq
  have hlead := leading_packets (cfg := cfg) s.conn.packets k (fun q _ => by
    constructor
    · rintro ⟨i, k, rfl⟩; exact ⟨i, k, rfl, by rw [reported_iff, hsk]; rfl⟩
    · rintro ⟨i, k, rfl, _⟩; exact ⟨i, k, rfl⟩) hk
  have hL := pending_leading cfg s
  rw [hlead] at hL
  have hlt := pending_lt h htot
  rw [hc, getAvailableCount, hsk]
  simp only [Bool.false_eq_true, if_false]
  have hq' : Connection.getSamplesUntilNextEventPacket s.conn = k % 2 ^ 64 := hq
  rw [hq', Nat.add_mod_mod, ← hL]
  congr 1
  exact (Nat.mod_eq_of_lt hlt).symm

/-- C25 (partial): the same for a reader that skips events, as long as no offered descriptor is
inconvertible. Missing: with one, the read ends early, see below. -/
theorem C25_availableCount_skipEvents_partial (cfg : Cfg) (hsk : cfg.skipEvents = true) (g : Bool) (ops : List Op)
    (hn : ∀ op ∈ ops, Normal op) (hf : ∀ x ∈ (exec cfg g ops).2, ¬ IsFault x.2)
    (hgap : ∀ op ∈ connOps ops, Connection.NoExternalGap op) (hl : Connection.load (connOps ops) < 2 ^ 64)
    (htot : Connection.totalSamples (packetStream g (exec cfg g ops).2) < 2 ^ 64)
    (hconv : ∀ i k, Packet.event i k ∈ packetStream g (exec cfg g ops).2 → inconvertible cfg k = false)
    (m : Mode) (n : Nat) :
    let s := (exec cfg g ops).1
    let o := (step cfg s (.read m n)).2
    o.ret = .success → o.count = min n (getAvailableCount cfg s) := by
  intro s o ho
  have h := rinv cfg g ops hn hf
  have hnf : ¬ IsFault o := by rintro ⟨e, h'⟩; rw [ho] at h'; exact nomatch h'
  have hi : s.invalid = false := by
    cases hi : s.invalid with
    | false => rfl
    | true => simp [o, step, readOp, hi] at ho
  have hc : o.count = min n (leading (pending cfg s)) := readOp_count cfg _ m n hi h.good hnf
  obtain ⟨cops, hh⟩ := h.hist
  have htr := exec_ops cfg g ops
  obtain ⟨k, hk, hq⟩ := Connection.C04_untilGap g cops (hh.noGap (by rw [htr]; exact hgap))
    (by rw [hh.load, htr]; exact hl)
  rw [← hh.conn] at hk hq
  obtain ⟨dl, hdl⟩ := h.queued
  have hlead := leading_packets (cfg := cfg) s.conn.packets k (fun q hq => by
    constructor
    · rintro ⟨i, d, rfl⟩; exact ⟨i, .gap d, rfl, rfl⟩
    · rintro ⟨i, k, rfl, hr⟩
      have := hconv i k (by rw [hdl]; exact List.mem_append_right _ hq)
      rw [reported_iff, hsk, this] at hr
      cases k with
      | gap d => exact ⟨i, d, rfl⟩
      | descChanged v d => simp [isGapKind] at hr
      | other x => simp [isGapKind] at hr) hk
  have hL := pending_leading cfg s
  rw [hlead] at hL
  have hlt := pending_lt h htot
  rw [hc, getAvailableCount, hsk]
  simp only [if_true]
  have hq' : Connection.getSamplesUntilNextGapPacket s.conn = k % 2 ^ 64 := hq
  rw [hq', Nat.add_mod_mod, ← hL]
  congr 1
  exact (Nat.mod_eq_of_lt hlt).symm

example : getAvailableCount exCfg (exec exCfg true (exOps.take 6)).1 = 3 ∧
    (step exCfg (exec exCfg true (exOps.take 6)).1 (.read .values 100)).2.count = 3 ∧
    getAvailableCount exCfg (exec exCfg true (exOps.take 3)).1 = 4 ∧
    Connection.load (connOps exOps) = 12 ∧
    Connection.totalSamples (packetStream true (exec exCfg true exOps).2) = 10 := by decide

/-- C25 fails when events are skipped: 6 samples are announced, but the read stops after 2 at the
descriptor that cannot be converted. -/
theorem C25_violation_inconvertible :
    let s := (exec exSkip true [exDesc 1 7, exData 2 2 0, exDesc 3 99, exData 4 4 2]).1
    getAvailableCount exSkip s = 6 ∧ (step exSkip s (.read .values 6)).2.count = 2 ∧
      (step exSkip s (.read .values 6)).2.valid = false := by decide

/-- C25: `getEmpty` is true only when a read would return neither a sample nor an event (reader
reporting all events). -/
theorem C25_empty (cfg : Cfg) (hsk : cfg.skipEvents = false) (g : Bool) (ops : List Op)
    (hn : ∀ op ∈ ops, Normal op) (hf : ∀ x ∈ (exec cfg g ops).2, ¬ IsFault x.2)
    (hgap : ∀ op ∈ connOps ops, Connection.NoExternalGap op) (hl : Connection.load (connOps ops) < 2 ^ 64)
    (htot : Connection.totalSamples (packetStream g (exec cfg g ops).2) < 2 ^ 64) (m : Mode) (n : Nat) :
    let s := (exec cfg g ops).1
    let o := (step cfg s (.read m n)).2
    getEmpty cfg s = true → o.ret = .success → o.count = 0 ∧ o.event = none := by
  intro s o he ho
  have h := rinv cfg g ops hn hf
  have hnf : ¬ IsFault o := by rintro ⟨e, h'⟩; rw [ho] at h'; exact nomatch h'
  have hi : s.invalid = false := by
    cases hi : s.invalid with
    | false => rfl
    | true => simp [o, step, readOp, hi] at ho
  obtain ⟨cops, hh⟩ := h.hist
  have htr := exec_ops cfg g ops
  simp only [getEmpty, hsk, Bool.not_false, Bool.true_and, Bool.false_and, Bool.false_eq_true, if_false] at he
  split at he
  · exact nomatch he
  · next he1 =>
    split at he
    · exact nomatch he
    · next he2 =>
      split at he
      · exact nomatch he
      · next he3 =>
        have hev : ∀ p ∈ s.conn.packets, ¬ Connection.IsEvent p := by
          have := Connection.C03_noEventMissed_partial g cops (hh.noGap (by rw [htr]; exact hgap))
            (by rw [hh.load, htr]; exact hl)
          rw [← hh.conn] at this
          exact this (by simpa using he1)
        have hs : Connection.getAvailableSamples s.conn = Connection.totalSamples s.conn.packets % 2 ^ 64 := by
          have := Connection.C02_availableSamples g cops
          rw [← hh.conn] at this
          exact this
        obtain ⟨dl, hdl⟩ := h.queued
        have htot' : Connection.totalSamples s.conn.packets < 2 ^ 64 := by
          rw [hdl] at htot
          simp only [Connection.totalSamples, List.map_append, List.sum_append] at htot ⊢
          exact Nat.lt_of_le_of_lt (Nat.le_add_left _ _) htot
        rw [hs, Nat.mod_eq_of_lt htot'] at he3
        have hz : Connection.totalSamples s.conn.packets = 0 := by omega
        have hpk : s.conn.packets.flatMap (itemsOf cfg) = [] := by
          rw [List.flatMap_eq_nil_iff]
          intro q hq
          cases q with
          | data i k d =>
            have : k = 0 := by
              obtain ⟨a, b, hab⟩ := List.append_of_mem hq
              rw [hab] at hz
              simp only [Connection.totalSamples, List.map_append, List.sum_append, List.map_cons, List.sum_cons,
                Connection.samplesOf] at hz
              omega
            subst this; rfl
          | event i k => exact absurd ⟨i, k, rfl⟩ (hev _ hq)
          | none i => rfl
        have hpd : pending cfg s = [] := by
          simp only [pending, hpk, List.append_nil]
          simp only [buffered] at he2
          cases hcur : s.cur with
          | none => rfl
          | some c =>
            rw [hcur] at he2
            have : c.n - s.prev = 0 := by
              simpa using he2
            simp [this, slice]
        obtain ⟨p', new, k, sp, hret, hcount, -⟩ := readOp_spec cfg s m n hi h.good hnf
        have hpend := sp.pend
        rw [hpd] at hpend
        have hall := List.append_eq_nil_iff.mp hpend.symm
        have hall2 := List.append_eq_nil_iff.mp hall.1
        have h1 : new = [] := by simpa using hall2.1
        have h2 : (readOp cfg s m n).2.event = none := by
          have := hall2.2
          cases hev : (readOp cfg s m n).2.event with
          | none => rfl
          | some e => rw [hev] at this; simp at this
        exact ⟨by show (readOp cfg s m n).2.count = 0; rw [hcount, h1]; rfl, h2⟩

example : getEmpty exCfg (exec exCfg true exOps).1 = true ∧
    getEmpty exCfg (exec exCfg true (exOps.take 3)).1 = false ∧
    getEmpty exCfg (exec exCfg true (exOps.take 4)).1 = false := by decide

/-- C25 fails the other way: after an event other than a descriptor change or a gap the reader is
never empty again, although nothing can be read. -/
theorem C25_violation_neverEmpty :
    let s := (exec exCfg false [exDesc 1 7, .conn (.enqueue .plain (.event 2 (.other 3))), .read .values 1,
      .read .values 1]).1
    getEmpty exCfg s = false ∧ (step exCfg s (.read .values 1)).2.count = 0 ∧
      (step exCfg s (.read .values 1)).2.event = none := by decide

/-! ## C53 A read whose samples are available does not wait -/

/-- C53 fails: 3 samples are available, 1 is requested, but the read waits for its whole timeout:
the wait condition asks the connection for 1 - 3 samples as an unsigned number. -/
theorem C53_violation_underflow :
    let s := (exec exCfg true [exDesc 1 7, exData 2 4 0, .read .values 0, .read .values 1]).1
    getAvailableCount exCfg s = 3 ∧ (step exCfg s (.read .values 1)).2.count = 1 ∧
      waitOver exCfg .all s 1 = false := by
  refine ⟨by decide, by decide, ?_⟩
  have h1 : buffered (exec exCfg true [exDesc 1 7, exData 2 4 0, .read .values 0, .read .values 1]).1 = 3 := by
    decide
  have h2 : Connection.getAvailableSamples
    (exec exCfg true [exDesc 1 7, exData 2 4 0, .read .values 0, .read .values 1]).1.conn = 0 := by decide
  have h3 : Connection.hasEventPacket
    (exec exCfg true [exDesc 1 7, exData 2 4 0, .read .values 0, .read .values 1]).1.conn = false := by decide
  have h4 : exCfg.skipEvents = false := rfl
  simp [waitOver, h1, h2, h3, h4, W64]

/-- C53 fails: with `ReadTimeoutType::Any` samples left over from the packet being read do not count,
and the read waits for its whole timeout. -/
theorem C53_violation_any :
    let s := (exec exCfg true [exDesc 1 7, exData 2 4 0, .read .values 0, .read .values 1]).1
    getAvailableCount exCfg s = 3 ∧ waitOver exCfg .any s 3 = false := by
  refine ⟨by decide, by decide⟩

/-- C53 (partial): when the packet being read holds no more samples than requested and the requested
samples are available, a read that waits for all samples does not wait. Missing: the two violations
above. -/
theorem C53_all_partial (cfg : Cfg) (hsk : cfg.skipEvents = false) (g : Bool) (ops : List Op)
    (hn : ∀ op ∈ ops, Normal op) (hf : ∀ x ∈ (exec cfg g ops).2, ¬ IsFault x.2)
    (hgap : ∀ op ∈ connOps ops, Connection.NoExternalGap op) (hl : Connection.load (connOps ops) < 2 ^ 64)
    (htot : Connection.totalSamples (packetStream g (exec cfg g ops).2) < 2 ^ 64) (n : Nat) (hn64 : n < 2 ^ 64) :
    let s := (exec cfg g ops).1
    buffered s ≤ n → n ≤ getAvailableCount cfg s → waitOver cfg .all s n = true := by
  intro s hb ha
  have h := rinv cfg g ops hn hf
  obtain ⟨cops, hh⟩ := h.hist
  have htr := exec_ops cfg g ops
  obtain ⟨k, hk, hq⟩ := Connection.C04_untilEvent g cops (hh.noGap (by rw [htr]; exact hgap))
    (by rw [hh.load, htr]; exact hl)
  rw [← hh.conn] at hk hq
  have hq' : Connection.getSamplesUntilNextEventPacket s.conn = k % 2 ^ 64 := hq
  have hs : Connection.getAvailableSamples s.conn = Connection.totalSamples s.conn.packets % 2 ^ 64 := by
    have := Connection.C02_availableSamples g cops
    rw [← hh.conn] at this
    exact this
  obtain ⟨dl, hdl⟩ := h.queued
  have htot' : Connection.totalSamples s.conn.packets < 2 ^ 64 := by
    rw [hdl] at htot
    simp only [Connection.totalSamples, List.map_append, List.sum_append] at htot ⊢
    exact Nat.lt_of_le_of_lt (Nat.le_add_left _ _) htot
  have hkle : k ≤ Connection.totalSamples s.conn.packets := by
    have : Connection.SamplesBeforeFirst Connection.IsEvent s.conn.packets k := hk
    rcases this with ⟨a, q, b, hab, _, _, rfl⟩ | ⟨_, rfl⟩
    · rw [hab]; simp only [Connection.totalSamples, List.map_append, List.sum_append]; exact Nat.le_add_right _ _
    · exact Nat.le_refl _
  simp only [getAvailableCount, hsk, hq', Bool.false_eq_true, if_false] at ha
  simp only [waitOver, hsk, Bool.false_and, Bool.false_eq_true, if_false, Bool.not_false, Bool.true_and]
  split
  · rfl
  · rw [decide_eq_true_eq, hs, Nat.mod_eq_of_lt htot']
    rw [Nat.mod_eq_of_lt (show k < 2 ^ 64 from Nat.lt_of_le_of_lt hkle htot')] at ha
    have e : n + W64 - buffered s = (n - buffered s) + W64 := by
      rw [Nat.sub_add_comm hb]
    rw [e, Nat.add_mod_right, Nat.mod_eq_of_lt (Nat.lt_of_le_of_lt (Nat.sub_le _ _) hn64)]
    have hle : (buffered s + k) % W64 ≤ buffered s + k := Nat.mod_le _ _
    have : n ≤ buffered s + k := Nat.le_trans ha hle
    omega

example : let s := (exec exCfg true (exOps.take 3)).1
    buffered s = 0 ∧ getAvailableCount exCfg s = 4 ∧ waitOver exCfg .all s 4 = true ∧
      waitOver exCfg .all s 5 = false := by decide

/-- C53 (partial): a queued event ends the wait at once, whatever number of samples is asked for and whichever
timeout type is used, unless events are skipped. -/
theorem C53_event_partial (cfg : Cfg) (hsk : cfg.skipEvents = false) (g : Bool) (ops : List Op)
    (hn : ∀ op ∈ ops, Normal op) (hf : ∀ x ∈ (exec cfg g ops).2, ¬ IsFault x.2)
    (hgap : ∀ op ∈ connOps ops, Connection.NoExternalGap op) (hl : Connection.load (connOps ops) < 2 ^ 64)
    (tt : TimeoutType) (n : Nat) :
    let s := (exec cfg g ops).1
    (∃ p ∈ s.conn.packets, Connection.IsEvent p) → waitOver cfg tt s n = true := by
  intro s he
  have h := rinv cfg g ops hn hf
  obtain ⟨cops, hh⟩ := h.hist
  have htr := exec_ops cfg g ops
  have key := Connection.C03_noEventMissed_partial g cops (hh.noGap (by rw [htr]; exact hgap))
    (by rw [hh.load, htr]; exact hl)
  rw [← hh.conn] at key
  have hev : Connection.hasEventPacket s.conn = true := by
    cases hc : Connection.hasEventPacket s.conn with
    | true => rfl
    | false =>
      obtain ⟨p, h1, h2⟩ := he
      exact absurd h2 (key hc p h1)
  simp [waitOver, hsk, hev]

example : (exec exCfg true [exDesc 1 7, exData 2 4 0]).1.conn.packets =
      [.event 1 (.descChanged (some (some 7)) (some (some exDom))), .data 2 4 (some ⟨.int 0, 4⟩)] ∧
    waitOver exCfg .any (exec exCfg true [exDesc 1 7, exData 2 4 0]).1 100 = true := by decide

/-- C53: conversely, when the wait is over because enough samples are queued, the read returns all
requested samples or an event. -/
theorem C53_notInVain (cfg : Cfg) (g : Bool) (ops : List Op)
    (hn : ∀ op ∈ ops, Normal op) (hf : ∀ x ∈ (exec cfg g ops).2, ¬ IsFault x.2) (m : Mode) (n : Nat) :
    let s := (exec cfg g ops).1
    let o := (step cfg s (.read m n)).2
    n ≤ buffered s + Connection.getAvailableSamples s.conn → o.ret = .success →
      o.count = n ∨ o.event.isSome = true := by
  intro s o ha ho
  have h := rinv cfg g ops hn hf
  obtain ⟨cops, hh⟩ := h.hist
  have hnf : ¬ IsFault o := by rintro ⟨e, h'⟩; rw [ho] at h'; exact nomatch h'
  have hi : s.invalid = false := by
    cases hi : s.invalid with
    | false => rfl
    | true => simp [o, step, readOp, hi] at ho
  have hs : Connection.getAvailableSamples s.conn ≤ Connection.totalSamples s.conn.packets := by
    have := Connection.C02_availableSamples g cops
    rw [← hh.conn] at this
    rw [show Connection.getAvailableSamples s.conn = _ from this]
    exact Nat.mod_le _ _
  obtain ⟨p', new, k, sp, hret, hcount, -⟩ := readOp_spec cfg s m n hi h.good hnf
  by_cases hc : o.count = n
  · exact .inl hc
  · right
    cases he : o.event with
    | some e => rfl
    | none =>
      exfalso
      have hr := sp.rem
      dsimp only at hr
      have hco : o.count = new.length := hcount
      obtain ⟨q1, q2⟩ := sp.more (by omega) he
      have hpend := sp.pend
      have he' : (readOp cfg s m n).2.event = none := he
      have hp0 : pending cfg (readOp cfg s m n).1 = [] := by simp [pending, q1, q2]
      rw [he', hp0] at hpend
      have hcount2 : (pending cfg s).countP isSample = buffered s + Connection.totalSamples s.conn.packets := by
        unfold pending buffered
        rw [List.countP_append, countP_items]
        cases s.cur with
        | none => rfl
        | some c =>
          simp only [List.countP_map]
          rw [List.countP_eq_length.mpr (by simp [isSample])]; simp
      rw [hpend] at hcount2
      simp only [Option.toList_none, List.map_nil, List.append_nil, List.countP_map] at hcount2
      rw [List.countP_eq_length.mpr (by simp [isSample])] at hcount2
      omega

end Verif.Reader
