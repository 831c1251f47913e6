import Verif.Connection.Stream

/-! Invariants of the cached counters and flags (helper lemmas). -/

namespace Verif.Connection

@[simp] theorem totalSamples_nil : totalSamples [] = 0 := rfl
@[simp] theorem totalSamples_cons (p ps) : totalSamples (p :: ps) = samplesOf p + totalSamples ps := by
  simp [totalSamples]
@[simp] theorem totalSamples_append (a b) : totalSamples (a ++ b) = totalSamples a + totalSamples b := by
  simp [totalSamples]

theorem sampleCount_eq (p : Packet) : p.sampleCount = samplesOf p := by cases p <;> rfl

theorem W_pos : 0 < W := by unfold W; decide

theorem wadd_mod (a b : Nat) : wadd (a % W) b = (a + b) % W := by simp [wadd]

theorem wsub_mod (a b : Nat) : wsub ((a + b) % W) b = a % W := by
  have h : 0 < W := W_pos
  unfold wsub
  generalize W = w at *
  have h1 : (a + b) % w = (a % w + b % w) % w := by simp
  have h2 : b % w < w := Nat.mod_lt _ h
  have h3 : a % w < w := Nat.mod_lt _ h
  rw [h1]
  by_cases hlt : a % w + b % w < w
  · rw [Nat.mod_eq_of_lt hlt, if_pos (by omega)]; omega
  · have : (a % w + b % w) % w = a % w + b % w - w := by
      rw [Nat.mod_eq_sub_mod (by omega), Nat.mod_eq_of_lt (by omega)]
    rw [this, if_neg (by omega)]; omega

theorem wadd_eq {a b : Nat} (h : a + b < W) : wadd a b = a + b := Nat.mod_eq_of_lt h

theorem wsub_one {a : Nat} (h : a < W) (h0 : 0 < a) : wsub a 1 = a - 1 := by
  obtain ⟨b, rfl⟩ : ∃ b, a = b + 1 := ⟨a - 1, by omega⟩
  have := wsub_mod b 1
  rw [Nat.mod_eq_of_lt h, Nat.mod_eq_of_lt (show b < W by omega)] at this
  simpa using this

/-! ### Shape of `enqueue` without any invariant -/

theorem checkForGaps_shape {s s' : State} {p : Packet} (h : checkForGaps s p = .ok s') :
    SameButGap s s' ∧ ∃ gp : List Packet, gp.length ≤ 1 ∧ (∀ q ∈ gp, q.isGap = true) ∧
      s'.packets = s.packets ++ gp ∧ s'.gapCnt = gp.foldl (fun a _ => wadd a 1) s.gapCnt := by
  have same : ∀ s : State, SameButGap s s := fun s => ⟨rfl, rfl, rfl, rfl, rfl, rfl, rfl⟩
  cases p with
  | none => cases h; exact ⟨same _, [], by simp⟩
  | event i k =>
    simp only [checkForGaps] at h
    split at h
    · next s1 h1 =>
      cases h
      unfold initGapCheck at h1
      split at h1
      · split at h1 <;> cases h1 <;> exact ⟨⟨rfl, rfl, rfl, rfl, rfl, rfl, rfl⟩, [], by simp⟩
      · cases h1; exact ⟨⟨rfl, rfl, rfl, rfl, rfl, rfl, rfl⟩, [], by simp⟩
      · split at h1
        · cases h1; exact ⟨⟨rfl, rfl, rfl, rfl, rfl, rfl, rfl⟩, [], by simp⟩
        · split at h1 <;> cases h1 <;> exact ⟨⟨rfl, rfl, rfl, rfl, rfl, rfl, rfl⟩, [], by simp⟩
      · cases h1
      · cases h1; exact ⟨same _, [], by simp⟩
    · cases h
  | data i n d =>
    simp only [checkForGaps] at h
    split at h
    · cases h
    split at h
    · cases h; exact ⟨same _, [], by simp⟩
    split at h
    · cases h
    · next dp =>
      split at h
      · cases h
        simp only [beginGapCheck]
        split <;> exact ⟨⟨rfl, rfl, rfl, rfl, rfl, rfl, rfl⟩, [], by simp⟩
      · have hd : SameButGap s (doGapCheck s dp).2 ∧ (doGapCheck s dp).2.packets = s.packets ∧
            (doGapCheck s dp).2.gapCnt = s.gapCnt := by
          simp only [doGapCheck]
          split <;> exact ⟨⟨rfl, rfl, rfl, rfl, rfl, rfl, rfl⟩, rfl, rfl⟩
        split at h
        · next diff s1 h1 =>
          cases h
          rw [h1] at hd
          obtain ⟨a, b, c⟩ := hd
          simp only at a b c
          refine ⟨⟨a.1, a.2, a.3, a.4, a.5, a.6, a.7⟩, [.event 0 (.gap diff)], by simp, ?_, ?_, ?_⟩
          · simp [Packet.isGap]
          · simp [enqueueGapPacket, b]
          · simp [enqueueGapPacket, c]
        · next s1 h1 =>
          cases h
          rw [h1] at hd
          exact ⟨hd.1, [], by simp, by simp, by simpa using hd.2.1, by simpa using hd.2.2⟩

theorem enqueue_shape (s : State) (m : EnqueueMode) (p : Packet) :
    (enqueue s m p).2.packets = [] ∧
    ((enqueue s m p).2.ret ≠ .success →
      (enqueue s m p).1 = s ∧ (enqueue s m p).2.notified = none) ∧
    ((enqueue s m p).2.ret = .success →
      (enqueue s m p).2.notified = notification s.notify m s.queueEmpty ∧
      ∃ s1 gp, SameButGap s s1 ∧ gp.length ≤ 1 ∧ (∀ q ∈ gp, q.isGap = true) ∧
        s1.packets = s.packets ++ gp ∧ s1.gapCnt = gp.foldl (fun a _ => wadd a 1) s.gapCnt ∧
        (enqueue s m p).1 =
          { onPacketEnqueued s1 p with packets := s.packets ++ gp ++ [p], queueEmpty := false }) := by
  unfold enqueue
  split
  · simp
  · simp only
    split
    · next e h =>
      refine ⟨rfl, fun _ => ⟨rfl, rfl⟩, fun h' => ?_⟩
      simp only at h'
      subst h'
      split at h
      · cases h
      · exfalso
        cases p with
        | none => cases h
        | event i k => simp only [checkForGaps] at h; split at h <;> cases h
        | data i n d =>
          simp only [checkForGaps] at h
          split at h
          · cases h
          split at h
          · cases h
          split at h
          · cases h
          split at h
          · cases h
          split at h <;> cases h
    · next s1 h =>
      refine ⟨rfl, fun h' => absurd rfl h', fun _ => ⟨rfl, s1, ?_⟩⟩
      split at h
      · cases h
        exact ⟨[], ⟨rfl, rfl, rfl, rfl, rfl, rfl, rfl⟩, by simp, by simp, by simp, by simp, by simp⟩
      · obtain ⟨a, gp, b1, b2, b3, b4⟩ := checkForGaps_shape h
        exact ⟨gp, a, b1, b2, b3, b4, by simp [b3]⟩

/-! ### Sample counter -/

theorem onPacketEnqueued_samples' {s : State} {p : Packet} {n : Nat} (h : s.samplesCnt = n % W) :
    (onPacketEnqueued s p).samplesCnt = (n + samplesOf p) % W := by
  cases p with
  | data => simp [onPacketEnqueued, samplesOf, h, wadd_mod]
  | none => simp [onPacketEnqueued, samplesOf, h]
  | event i k => cases k <;> simp [onPacketEnqueued, samplesOf, h]

theorem totalSamples_gaps {gp : List Packet} (h : ∀ q ∈ gp, q.isGap = true) : totalSamples gp = 0 := by
  induction gp with
  | nil => rfl
  | cons q gp ih =>
    have := h q (by simp)
    rw [totalSamples_cons, ih fun q hq => h q (by simp [hq])]
    cases q with
    | event => rfl
    | _ => simp [Packet.isGap] at this

theorem foldl_wadd_samples (ps : List Packet) (a : Nat) :
    ps.foldl (fun acc p => wadd acc p.sampleCount) (a % W) = (a + totalSamples ps) % W := by
  induction ps generalizing a with
  | nil => simp
  | cons p ps ih =>
    rw [List.foldl_cons, wadd_mod, ih, sampleCount_eq, totalSamples_cons]
    congr 1; omega

theorem foldl_wadd_events (ps : List Packet) (a : Nat) :
    ps.foldl (fun acc p => if p.isEvent then wadd acc 1 else acc) (a % W) =
      (a + ps.countP Packet.isEvent) % W := by
  induction ps generalizing a with
  | nil => simp
  | cons p ps ih =>
    simp only [List.foldl_cons]
    by_cases h : p.isEvent = true
    · simp only [h, if_true, wadd_mod, ih, List.countP_cons]
      congr 1; omega
    · simp only [h, Bool.false_eq_true, if_false, ih, List.countP_cons]
      rfl

theorem foldl_pushOne_samples (ps : List Packet) (s : State) (n : Nat) (h : s.samplesCnt = n % W) :
    (ps.foldl pushOne s).samplesCnt = (n + totalSamples ps) % W := by
  induction ps generalizing s n with
  | nil => simpa using h
  | cons p ps ih =>
    simp only [List.foldl_cons, totalSamples_cons]
    have := ih (pushOne s p) (n + samplesOf p) (by
      simpa [pushOne] using onPacketEnqueued_samples' h)
    rw [this]; congr 1; omega

def SampleInv (s : State) : Prop := s.samplesCnt = totalSamples s.packets % W

theorem sampleInv_step {s : State} (h : SampleInv s) (op : Op) : SampleInv (step s op).1 := by
  unfold SampleInv at *
  cases op with
  | enqueue m p =>
    simp only [step]
    obtain ⟨_, h2, h3⟩ := enqueue_shape s m p
    by_cases hr : (enqueue s m p).2.ret = .success
    · obtain ⟨_, s1, gp, ha, _, hb, _, _, he⟩ := h3 hr
      rw [he]
      simp only [totalSamples_append, totalSamples_gaps hb, totalSamples_cons, totalSamples_nil,
        Nat.add_zero]
      exact onPacketEnqueued_samples' (by rw [ha.samplesCnt, h])
    · rw [(h2 hr).1]; exact h
  | enqueueMultiple ps =>
    simp only [step, enqueueMultiple_eq]
    split
    · exact h
    · simp only [(foldl_pushOne ps s).1, totalSamples_append]
      exact foldl_pushOne_samples ps s _ h
  | dequeue =>
    simp only [step, dequeue]
    split
    · next hp => simpa [hp] using h
    · next p rest hp =>
      rw [hp] at h
      rw [(onPacketDequeued_gapFields _ _).2.2.2.2.2.2.1]
      cases p with
      | data i n d =>
        simp only [onPacketDequeued, h, totalSamples_cons, samplesOf]
        rw [Nat.add_comm, wsub_mod]
      | none => simpa [onPacketDequeued, samplesOf] using h
      | event i k => cases k <;> simpa [onPacketDequeued, samplesOf] using h
  | dequeueAll => simp [step, dequeueAll]
  | dequeueUpTo n =>
    simp only [step, dequeueUpTo, countPackets]
    have := foldl_wadd_samples (s.packets.drop (min n s.packets.length)) 0
    simpa using this
  | enqueueLastDescriptor =>
    simp only [step, enqueueLastDescriptor]
    split
    · simpa [samplesOf] using h
    · exact h
  | setActive b => exact h
  | setNotify m => exact h

theorem sampleInv (g : Bool) (ops : List Op) : SampleInv (exec g ops).1 :=
  runTrace_inv (P := fun s _ => SampleInv s) (by simp [SampleInv, init])
    (fun s _ op h => sampleInv_step h op) ops

/-! ### Event and gap counters: lower bounds -/

/-- Events other than gaps. -/
def evCount (ps : List Packet) : Nat := ps.countP (fun p => p.isEvent && !p.isGap)

def gapCount (ps : List Packet) : Nat := ps.countP Packet.isGap

theorem evCount_cons (p : Packet) (ps : List Packet) :
    evCount (p :: ps) = evCount ps + if p.isEvent && !p.isGap then 1 else 0 := by
  simp only [evCount, List.countP_cons]

theorem gapCount_cons (p : Packet) (ps : List Packet) :
    gapCount (p :: ps) = gapCount ps + if p.isGap then 1 else 0 := by
  simp only [gapCount, List.countP_cons]

@[simp] theorem isEvent_data (i n d) : (Packet.data i n d).isEvent = false := rfl
@[simp] theorem isEvent_none (i) : (Packet.none i).isEvent = false := rfl
@[simp] theorem isEvent_event (i k) : (Packet.event i k).isEvent = true := rfl
@[simp] theorem isGap_data (i n d) : (Packet.data i n d).isGap = false := rfl
@[simp] theorem isGap_none (i) : (Packet.none i).isGap = false := rfl
@[simp] theorem isGap_desc (i v d) : (Packet.event i (.descChanged v d)).isGap = false := rfl
@[simp] theorem isGap_gap (i d) : (Packet.event i (.gap d)).isGap = true := rfl
@[simp] theorem isGap_other (i d) : (Packet.event i (.other d)).isGap = false := rfl

theorem evCount_add_gapCount (ps : List Packet) :
    ps.countP Packet.isEvent = evCount ps + gapCount ps := by
  induction ps with
  | nil => rfl
  | cons p ps ih =>
    simp only [evCount, gapCount, List.countP_cons] at *
    rw [ih]
    cases p with
    | data => simp 
    | none => simp 
    | event i k => cases k <;> simp  <;> omega

theorem evCount_gaps {gp : List Packet} (h : ∀ q ∈ gp, q.isGap = true) :
    evCount gp = 0 ∧ gapCount gp = gp.length := by
  constructor
  · simp only [evCount, List.countP_eq_zero]
    intro q hq; simp [h q hq]
  · simp only [gapCount]
    exact List.countP_eq_length.mpr h

theorem foldl_wadd_one (gp : List Packet) (a : Nat) (h : a + gp.length < W) :
    gp.foldl (fun a _ => wadd a 1) a = a + gp.length := by
  induction gp generalizing a with
  | nil => rfl
  | cons q gp ih =>
    simp only [List.length_cons] at h
    rw [List.foldl_cons, wadd_eq (by omega), ih (a + 1) (by omega), List.length_cons]; omega

theorem onPacketEnqueued_eventCnt (s : State) (p : Packet) :
    (onPacketEnqueued s p).eventCnt = if p.isEvent then wadd s.eventCnt 1 else s.eventCnt := by
  cases p with
  | data => rfl
  | none => rfl
  | event i k => cases k <;> rfl

theorem isGap_iff (p : Packet) : p.isGap = true ↔ IsGap p := by
  cases p with
  | data => simp [Packet.isGap, IsGap]
  | none => simp [Packet.isGap, IsGap]
  | event i k => cases k <;> simp [Packet.isGap, IsGap]

theorem isEvent_iff (p : Packet) : p.isEvent = true ↔ IsEvent p := by
  cases p <;> simp [Packet.isEvent, IsEvent]

theorem isDescriptor_iff (p : Packet) : p.isDescriptor = true ↔ IsDescriptorChange p := by
  cases p with
  | data => simp [Packet.isDescriptor, IsDescriptorChange]
  | none => simp [Packet.isDescriptor, IsDescriptorChange]
  | event i k => cases k <;> simp [Packet.isDescriptor, IsDescriptorChange]

/-- Counters bounded by the load and not below what is in the queue. -/
structure LowerInv (s : State) (n : Nat) : Prop where
  len : s.packets.length ≤ n
  evU : s.eventCnt ≤ n
  gapU : s.gapCnt ≤ n
  evL : evCount s.packets ≤ s.eventCnt
  gapL : gapCount s.packets ≤ s.gapCnt

theorem lowerInv_push {s : State} {n : Nat} (h : LowerInv s n) (hn : n + 1 < W) (p : Packet)
    (hp : ¬ IsGap p) : LowerInv (pushOne s p) (n + 1) := by
  have hf := onPacketEnqueued_gapFields s p
  have hg : p.isGap = false := by
    cases hh : p.isGap with
    | false => rfl
    | true => exact absurd ((isGap_iff p).mp hh) hp
  obtain ⟨h1, h2, h3, h4, h5⟩ := h
  have hev := onPacketEnqueued_eventCnt s p
  refine ⟨?_, ?_, ?_, ?_, ?_⟩
  · simp [pushOne]; omega
  · simp only [pushOne, hev]; split
    · rw [wadd_eq (by omega)]; omega
    · omega
  · simp only [pushOne, hf.2.2.2.2.2.2.1]; omega
  · simp only [pushOne, hev, onPacketEnqueued_packets]
    simp only [evCount, List.countP_append, List.countP_cons, List.countP_nil, hg] at h4 ⊢
    split
    · rw [wadd_eq (by omega)]; simp_all
    · simp_all
  · simp only [pushOne, hf.2.2.2.2.2.2.1, onPacketEnqueued_packets]
    simp only [gapCount, List.countP_append, List.countP_cons, List.countP_nil, hg] at h5 ⊢
    simpa using h5

theorem lowerInv_pushAll (ps : List Packet) {s : State} {n : Nat} (h : LowerInv s n)
    (hn : n + ps.length < W) (hp : ∀ p ∈ ps, ¬ IsGap p) :
    LowerInv (ps.foldl pushOne s) (n + ps.length) := by
  induction ps generalizing s n with
  | nil => simpa using h
  | cons p ps ih =>
    simp only [List.length_cons] at hn ⊢
    have := ih (lowerInv_push h (by omega) p (hp p (by simp))) (by omega)
      (fun q hq => hp q (by simp [hq]))
    simpa [Nat.add_assoc, Nat.add_comm 1] using this

theorem lowerInv_step {s : State} {n : Nat} (h : LowerInv s n) (op : Op) (hop : NoExternalGap op)
    (hn : n + opLoad op < W) : LowerInv (step s op).1 (n + opLoad op) := by
  cases op with
  | enqueue m p =>
    simp only [step, opLoad, NoExternalGap] at *
    obtain ⟨_, h2, h3⟩ := enqueue_shape s m p
    by_cases hr : (enqueue s m p).2.ret = .success
    · obtain ⟨_, s1, gp, ha, hlen, hb, hpk, hgc, he⟩ := h3 hr
      have hs1 : LowerInv s1 (n + 1) := by
        obtain ⟨h1, h2, h3, h4, h5⟩ := h
        have hgc' : s1.gapCnt = s.gapCnt + gp.length := by
          rw [hgc, foldl_wadd_one _ _ (by omega)]
        have := evCount_gaps hb
        refine ⟨?_, ?_, ?_, ?_, ?_⟩
        · rw [hpk]; simp; omega
        · rw [ha.eventCnt]; omega
        · omega
        · rw [hpk, ha.eventCnt]
          simp only [evCount, List.countP_append] at *; omega
        · rw [hpk, hgc']
          simp only [gapCount, List.countP_append] at *; omega
      have := lowerInv_push hs1 (by omega) p hop
      rw [he]
      have hpush : { onPacketEnqueued s1 p with packets := s.packets ++ gp ++ [p], queueEmpty := false }
          = { pushOne s1 p with queueEmpty := false } := by
        simp [pushOne, hpk]
      rw [hpush]
      exact ⟨this.1, this.2, this.3, this.4, this.5⟩
    · rw [(h2 hr).1]
      exact ⟨by have := h.1; omega, by have := h.2; omega, by have := h.3; omega, h.4, h.5⟩
  | enqueueMultiple ps =>
    simp only [step, enqueueMultiple_eq, opLoad] at *
    split
    · exact ⟨by have := h.1; simp; omega, by have := h.2; simp; omega, by have := h.3; simp; omega,
        h.4, h.5⟩
    · have := lowerInv_pushAll ps h hn hop
      exact ⟨this.1, this.2, this.3, this.4, this.5⟩
  | dequeue =>
    obtain ⟨h1, h2, h3, h4, h5⟩ := h
    simp only [step, dequeue, opLoad] at *
    split
    · exact ⟨h1, h2, h3, h4, h5⟩
    · next p rest hp =>
      have hf := onPacketDequeued_gapFields { s with packets := rest } p
      rw [hp] at h1 h4 h5
      simp only [evCount_cons, gapCount_cons, List.length_cons] at h1 h4 h5
      cases p with
      | data i k d =>
        refine ⟨?_, h2, h3, ?_, ?_⟩ <;>
          simp_all [onPacketDequeued, evCount_cons, gapCount_cons] <;> omega
      | none i =>
        refine ⟨?_, h2, h3, ?_, ?_⟩ <;>
          simp_all [onPacketDequeued, evCount_cons, gapCount_cons] <;> omega
      | event i k =>
        cases k with
        | other e =>
          refine ⟨?_, h2, h3, ?_, ?_⟩ <;>
            simp_all [onPacketDequeued, evCount_cons, gapCount_cons] <;> omega
        | descChanged v d =>
          have h4' : 0 < s.eventCnt := by
            simp  at h4; omega
          have hw := wsub_one (a := s.eventCnt) (by omega) h4'
          refine ⟨?_, ?_, h3, ?_, ?_⟩ <;>
            simp_all [onPacketDequeued, evCount_cons, gapCount_cons] <;> omega
        | gap e =>
          have h5' : 0 < s.gapCnt := by
            simp [Packet.isGap] at h5; omega
          have hw := wsub_one (a := s.gapCnt) (by omega) h5'
          refine ⟨?_, h2, ?_, ?_, ?_⟩ <;>
            simp_all [onPacketDequeued, evCount_cons, gapCount_cons] <;> omega
  | dequeueAll =>
    exact ⟨by simp [step, dequeueAll], by simp [step, dequeueAll], h.3, by
      simp [step, dequeueAll, evCount], by simp [step, dequeueAll, gapCount]⟩
  | dequeueUpTo k =>
    obtain ⟨h1, h2, h3, h4, h5⟩ := h
    simp only [step, dequeueUpTo, countPackets, opLoad, Nat.add_zero] at *
    have hsub := List.drop_sublist (min k s.packets.length) s.packets
    generalize s.packets.drop (min k s.packets.length) = ps at *
    have hl := hsub.length_le
    have he := foldl_wadd_events ps 0
    have hc := evCount_add_gapCount ps
    have hcl := List.countP_le_length (p := Packet.isEvent) (l := ps)
    simp only [Nat.zero_mod, Nat.zero_add] at he
    rw [Nat.mod_eq_of_lt (by omega)] at he
    refine ⟨by simp; omega, by simp only [he]; omega, h3, by simp only [he]; omega, ?_⟩
    have : gapCount ps ≤ gapCount s.packets := hsub.countP_le
    simp only; omega
  | enqueueLastDescriptor =>
    obtain ⟨h1, h2, h3, h4, h5⟩ := h
    simp only [step, enqueueLastDescriptor, opLoad] at *
    split
    · refine ⟨by simp; omega, by simp only [wadd_eq (show s.eventCnt + 1 < W by omega)]; omega,
        by simp only; omega, ?_, ?_⟩
      · simp only [wadd_eq (show s.eventCnt + 1 < W by omega), evCount, List.countP_cons] at *
        simp ; omega
      · simp only [gapCount, List.countP_cons] at *
        simp; omega
    · exact ⟨by simp only; omega, by simp only; omega, by simp only; omega, h4, h5⟩
  | setActive b => exact ⟨h.1, h.2, h.3, h.4, h.5⟩
  | setNotify m => exact ⟨h.1, h.2, h.3, h.4, h.5⟩

theorem load_append (a b : List Op) : load (a ++ b) = load a + load b := by simp [load]

theorem lowerInv (g : Bool) (ops : List Op) (hok : ∀ op ∈ ops, NoExternalGap op) (hl : load ops < W) :
    LowerInv (exec g ops).1 (load ops) := by
  revert hok hl
  refine list_snoc_induction (P := fun ops => (∀ op ∈ ops, NoExternalGap op) → load ops < W →
    LowerInv (exec g ops).1 (load ops)) ?_ ?_ ops
  · intro _ _
    exact ⟨by simp [exec, init], by simp [exec, init], by simp [exec, init],
      by simp [exec, init, evCount], by simp [exec, init, gapCount]⟩
  · intro l a ih hok hl
    have e : load (l ++ [a]) = load l + opLoad a := by simp [load]
    rw [e] at hl ⊢
    have := ih (fun op ho => hok op (by simp [ho])) (by omega)
    have hs := lowerInv_step this a (hok a (by simp)) hl
    simpa [exec, runTrace_snoc] using hs

theorem countP_zero_iff' (ps : List Packet) :
    ps.countP Packet.isGap = 0 ↔ ∀ p ∈ ps, ¬ IsGap p := by
  rw [List.countP_eq_zero]
  exact ⟨fun a p hp hq => a p hp ((isGap_iff p).mpr hq), fun a p hp hf => a p hp ((isGap_iff p).mp hf)⟩

/-! ### Exact counters for restricted histories -/

/-- Calls for which the event counters stay exact. -/
def ExactOp (g : Bool) (op : Op) : Prop :=
  OnlyDescriptorEvents op ∧ (g = true → op ≠ .dequeueAll ∧ ∀ n, op ≠ .dequeueUpTo n)

structure ExactInv (s : State) (n : Nat) : Prop where
  len : s.packets.length ≤ n
  ev : s.eventCnt = evCount s.packets
  gap : s.gapCnt = gapCount s.packets
  noOther : ∀ p ∈ s.packets, IsEvent p → IsDescriptorChange p ∨ IsGap p

theorem countP_le (f : Packet → Bool) (ps : List Packet) : ps.countP f ≤ ps.length :=
  List.countP_le_length

theorem exactInv_push {s : State} {n : Nat} (h : ExactInv s n) (hn : n + 1 < W) (p : Packet)
    (hp : IsEvent p → IsDescriptorChange p) : ExactInv (pushOne s p) (n + 1) := by
  have hf := onPacketEnqueued_gapFields s p
  obtain ⟨h1, h2, h3, h4⟩ := h
  have hev := onPacketEnqueued_eventCnt s p
  have hc := countP_le (fun p => p.isEvent && !p.isGap) s.packets
  have hg : p.isGap = false := by
    cases hh : p.isGap with
    | false => rfl
    | true =>
      obtain ⟨i, d, rfl⟩ := (isGap_iff p).mp hh
      obtain ⟨_, _, _, h⟩ := hp ⟨_, _, rfl⟩
      cases h
  refine ⟨?_, ?_, ?_, ?_⟩
  · simp [pushOne]; omega
  · simp only [pushOne, hev, onPacketEnqueued_packets]
    simp only [evCount, List.countP_append, List.countP_cons, List.countP_nil, hg] at h2 ⊢
    split
    · rw [wadd_eq (by omega), h2]; simp_all
    · simp_all
  · simp only [pushOne, hf.2.2.2.2.2.2.1, onPacketEnqueued_packets]
    simp only [gapCount, List.countP_append, List.countP_cons, List.countP_nil, hg] at h3 ⊢
    simpa using h3
  · intro q hq
    simp only [pushOne, onPacketEnqueued_packets, List.mem_append, List.mem_singleton] at hq
    rcases hq with hq | rfl
    · exact h4 q hq
    · exact fun he => .inl (hp he)

theorem exactInv_pushAll (ps : List Packet) {s : State} {n : Nat} (h : ExactInv s n)
    (hn : n + ps.length < W) (hp : ∀ p ∈ ps, IsEvent p → IsDescriptorChange p) :
    ExactInv (ps.foldl pushOne s) (n + ps.length) := by
  induction ps generalizing s n with
  | nil => simpa using h
  | cons p ps ih =>
    simp only [List.length_cons] at hn ⊢
    have := ih (exactInv_push h (by omega) p (hp p (by simp))) (by omega)
      (fun q hq => hp q (by simp [hq]))
    simpa [Nat.add_assoc, Nat.add_comm 1] using this

theorem evCount_eq_countP {ps : List Packet} (h : gapCount ps = 0) :
    ps.countP Packet.isEvent = evCount ps := by rw [evCount_add_gapCount, h, Nat.add_zero]

theorem exactInv_step {g : Bool} {s : State} {n : Nat} (h : ExactInv s n)
    (hg : g = false → gapCount s.packets = 0) (op : Op) (hop : ExactOp g op)
    (hn : n + opLoad op < W) : ExactInv (step s op).1 (n + opLoad op) := by
  obtain ⟨hop, hop'⟩ := hop
  cases op with
  | enqueue m p =>
    simp only [step, opLoad, OnlyDescriptorEvents] at *
    obtain ⟨_, h2, h3⟩ := enqueue_shape s m p
    by_cases hr : (enqueue s m p).2.ret = .success
    · obtain ⟨_, s1, gp, ha, hlen, hb, hpk, hgc, he⟩ := h3 hr
      have hs1 : ExactInv s1 (n + 1) := by
        obtain ⟨h1, h2, h3, h4⟩ := h
        have hcc := countP_le Packet.isGap s.packets
        have hgc' : s1.gapCnt = s.gapCnt + gp.length := by
          rw [hgc, foldl_wadd_one _ _ (by simp only [gapCount] at h3; omega)]
        have := evCount_gaps hb
        refine ⟨?_, ?_, ?_, ?_⟩
        · rw [hpk]; simp; omega
        · rw [hpk, ha.eventCnt]
          simp only [evCount, List.countP_append] at *; omega
        · rw [hpk, hgc']
          simp only [gapCount, List.countP_append] at *; omega
        · intro q hq
          rw [hpk, List.mem_append] at hq
          rcases hq with hq | hq
          · exact h4 q hq
          · exact fun _ => .inr ((isGap_iff q).mp (hb q hq))
      have := exactInv_push hs1 (by omega) p hop
      rw [he]
      have hpush : { onPacketEnqueued s1 p with packets := s.packets ++ gp ++ [p], queueEmpty := false }
          = { pushOne s1 p with queueEmpty := false } := by
        simp [pushOne, hpk]
      rw [hpush]
      exact ⟨this.1, this.2, this.3, this.4⟩
    · rw [(h2 hr).1]
      exact ⟨by have := h.1; omega, h.2, h.3, h.4⟩
  | enqueueMultiple ps =>
    simp only [step, enqueueMultiple_eq, opLoad] at *
    split
    · exact ⟨by have := h.1; simp; omega, h.2, h.3, h.4⟩
    · have := exactInv_pushAll ps h hn hop
      exact ⟨this.1, this.2, this.3, this.4⟩
  | dequeue =>
    obtain ⟨h1, h2, h3, h4⟩ := h
    simp only [step, dequeue, opLoad] at *
    split
    · exact ⟨h1, h2, h3, h4⟩
    · next p rest hp =>
      have hf := onPacketDequeued_gapFields { s with packets := rest } p
      rw [hp] at h1 h2 h3 h4
      have hc1 : evCount rest ≤ rest.length := countP_le _ rest
      have hc2 : gapCount rest ≤ rest.length := countP_le _ rest
      have h4' : ∀ q ∈ rest, IsEvent q → IsDescriptorChange q ∨ IsGap q :=
        fun q hq => h4 q (by simp [hq])
      simp only [evCount_cons, gapCount_cons, List.length_cons] at h1 h2 h3
      cases p with
      | data i k d =>
        refine ⟨?_, ?_, ?_, h4'⟩ <;>
          simp_all [onPacketDequeued, evCount_cons, gapCount_cons] <;> omega
      | none i =>
        refine ⟨?_, ?_, ?_, h4'⟩ <;>
          simp_all [onPacketDequeued, evCount_cons, gapCount_cons] <;> omega
      | event i k =>
        cases k with
        | other e =>
          have := h4 (.event i (.other e)) (by simp) ⟨_, _, rfl⟩
          rcases this with ⟨_, _, _, h⟩ | ⟨_, _, h⟩ <;> cases h
        | descChanged v d =>
          simp  at h2 h3
          have hw := wsub_one (a := s.eventCnt) (by omega) (by omega)
          refine ⟨?_, ?_, ?_, h4'⟩ <;>
            simp only [onPacketDequeued] <;> omega
        | gap e =>
          simp  at h2 h3
          have hw := wsub_one (a := s.gapCnt) (by omega) (by omega)
          refine ⟨?_, ?_, ?_, h4'⟩ <;>
            simp only [onPacketDequeued] <;> omega
  | dequeueAll =>
    cases g with
    | true => exact absurd rfl (hop' rfl).1
    | false =>
      exact ⟨by simp [step, dequeueAll], by simp [step, dequeueAll, evCount],
        by have := h.3; simp only [step, dequeueAll]; rw [this, hg rfl]; rfl,
        by simp [step, dequeueAll]⟩
  | dequeueUpTo k =>
    cases g with
    | true => exact absurd rfl ((hop' rfl).2 k)
    | false =>
      obtain ⟨h1, h2, h3, h4⟩ := h
      have hg' := hg rfl
      simp only [step, dequeueUpTo, countPackets, opLoad, Nat.add_zero] at *
      have hsub := List.drop_sublist (min k s.packets.length) s.packets
      generalize s.packets.drop (min k s.packets.length) = ps at *
      have hl := hsub.length_le
      have he := foldl_wadd_events ps 0
      have hcl := countP_le Packet.isEvent ps
      have hgz : gapCount ps = 0 := by
        have : gapCount ps ≤ gapCount s.packets := hsub.countP_le
        omega
      simp only [Nat.zero_mod, Nat.zero_add] at he
      rw [Nat.mod_eq_of_lt (by omega)] at he
      refine ⟨by simp; omega, by simp only [he]; exact evCount_eq_countP hgz, by simp only; omega, ?_⟩
      intro q hq
      exact h4 q (hsub.subset hq)
  | enqueueLastDescriptor =>
    obtain ⟨h1, h2, h3, h4⟩ := h
    have hc1 := countP_le (fun p => p.isEvent && !p.isGap) s.packets
    simp only [step, enqueueLastDescriptor, opLoad] at *
    split
    · have hw : s.eventCnt + 1 < W := by simp only [evCount] at h2; omega
      refine ⟨by simp; omega, ?_, ?_, ?_⟩
      · simp only [wadd_eq hw, evCount, List.countP_cons] at *
        simp ; omega
      · simp only [gapCount, List.countP_cons] at *
        simp; omega
      · intro q hq
        rcases List.mem_cons.mp hq with rfl | hq
        · exact fun _ => .inl ⟨_, _, _, rfl⟩
        · exact h4 q hq
    · exact ⟨by simp only; omega, h2, h3, h4⟩
  | setActive b => exact ⟨h.1, h.2, h.3, h.4⟩
  | setNotify m => exact ⟨h.1, h.2, h.3, h.4⟩

theorem noGap_step {s : State} (hd : s.gap = .disabled) (h : gapCount s.packets = 0) (op : Op)
    (hop : OnlyDescriptorEvents op) : gapCount (step s op).1.packets = 0 := by
  have key : ∀ ps : List Packet, (∀ p ∈ ps, IsEvent p → IsDescriptorChange p) → gapCount ps = 0 := by
    intro ps hps
    simp only [gapCount]
    refine (countP_zero_iff' ps).mpr ?_
    rintro p hp ⟨i, d, rfl⟩
    obtain ⟨_, _, _, h⟩ := hps _ hp ⟨_, _, rfl⟩
    cases h
  cases op with
  | enqueue m p =>
    simp only [step, OnlyDescriptorEvents] at *
    obtain ⟨_, _, h3, h4⟩ := enqueue_unchecked hd [] m p
    by_cases hr : (enqueue s m p).2.ret = .success
    · rw [(h4 hr).2]
      have := key [p] (by simpa using hop)
      simp only [gapCount, List.countP_append] at *; omega
    · rw [(h3 hr).1]; exact h
  | enqueueMultiple ps =>
    simp only [step, enqueueMultiple_eq]
    split
    · exact h
    · simp only [(foldl_pushOne ps s).1]
      have := key ps hop
      simp only [gapCount, List.countP_append] at *; omega
  | dequeue =>
    simp only [step, dequeue]
    split
    · exact h
    · next p rest hp =>
      rw [(onPacketDequeued_gapFields _ _).2.2.2.2.2.2.1]
      rw [hp] at h
      simp only [gapCount, List.countP_cons] at *; omega
  | dequeueAll => simp [step, dequeueAll, gapCount]
  | dequeueUpTo k =>
    simp only [step, dequeueUpTo, countPackets]
    have : gapCount (s.packets.drop (min k s.packets.length)) ≤ gapCount s.packets :=
      (List.drop_sublist _ _).countP_le
    omega
  | enqueueLastDescriptor =>
    simp only [step, enqueueLastDescriptor]
    split
    · simp only [gapCount, List.countP_cons] at *
      simpa [Packet.isGap] using h
    · exact h
  | setActive b => exact h
  | setNotify m => exact h

theorem exactInv (g : Bool) (ops : List Op) (hok : ∀ op ∈ ops, ExactOp g op) (hl : load ops < W) :
    ExactInv (exec g ops).1 (load ops) := by
  have main : ExactInv (exec g ops).1 (load ops) ∧
      (g = false → gapCount (exec g ops).1.packets = 0) := by
    revert hok hl
    refine list_snoc_induction (P := fun ops => (∀ op ∈ ops, ExactOp g op) → load ops < W →
      ExactInv (exec g ops).1 (load ops) ∧
      (g = false → gapCount (exec g ops).1.packets = 0)) ?_ ?_ ops
    · intro _ _
      exact ⟨⟨by simp [exec, init], by simp [exec, init, evCount], by simp [exec, init, gapCount],
        by simp [exec, init]⟩, fun _ => by simp [exec, init, gapCount]⟩
    · intro l a ih hok hl
      have e : load (l ++ [a]) = load l + opLoad a := by simp [load]
      rw [e] at hl ⊢
      obtain ⟨i1, i2⟩ := ih (fun op ho => hok op (by simp [ho])) (by omega)
      have hs := exactInv_step i1 i2 a (hok a (by simp)) hl
      have hst := (streamInv g l).gap
      refine ⟨by simpa [exec, runTrace_snoc] using hs, fun hgf => ?_⟩
      subst hgf
      have := noGap_step (by simpa using hst) (i2 rfl) a (hok a (by simp)).1
      simpa [exec, runTrace_snoc] using this
  exact main.1

theorem scanUntil_eq (stop : Packet → Bool) (ps : List Packet) (acc : Nat) :
    scanUntil stop ps (acc % W) =
      (acc + totalSamples (ps.takeWhile (fun p => !stop p))) % W := by
  induction ps generalizing acc with
  | nil => simp [scanUntil]
  | cons p ps ih =>
    simp only [scanUntil, List.takeWhile_cons]
    by_cases h : stop p = true
    · simp [h]
    · simp only [h, Bool.false_eq_true, if_false, wadd_mod, ih, Bool.not_false, if_true,
        totalSamples_cons, sampleCount_eq]
      congr 1; omega

theorem samplesBeforeFirst_takeWhile {stop : Packet → Bool} {Q : Packet → Prop}
    (h : ∀ p, stop p = true ↔ Q p) (ps : List Packet) :
    SamplesBeforeFirst Q ps (totalSamples (ps.takeWhile (fun p => !stop p))) := by
  induction ps with
  | nil => exact .inr ⟨by simp, rfl⟩
  | cons p ps ih =>
    by_cases hp : stop p = true
    · exact .inl ⟨[], p, ps, rfl, by simp, (h p).mp hp, by simp [hp]⟩
    · have hq : ¬ Q p := fun hq => hp ((h p).mpr hq)
      have hp' : stop p = false := by simpa using hp
      rcases ih with ⟨pre, q, post, e, h1, h2, h3⟩ | ⟨h1, h2⟩
      · refine .inl ⟨p :: pre, q, post, by simp [e], ?_, h2, ?_⟩
        · intro r hr
          rcases List.mem_cons.mp hr with rfl | hr
          · exact hq
          · exact h1 r hr
        · simp [hp', h3]
      · refine .inr ⟨?_, by simp [hp', h2]⟩
        intro r hr
        rcases List.mem_cons.mp hr with rfl | hr
        · exact hq
        · exact h1 r hr

theorem countP_zero_iff {f : Packet → Bool} {Q : Packet → Prop} (h : ∀ p, f p = true ↔ Q p)
    (ps : List Packet) : ps.countP f = 0 ↔ ∀ p ∈ ps, ¬ Q p := by
  rw [List.countP_eq_zero]
  exact ⟨fun a p hp hq => a p hp ((h p).mpr hq), fun a p hp hf => a p hp ((h p).mp hf)⟩

end Verif.Connection
