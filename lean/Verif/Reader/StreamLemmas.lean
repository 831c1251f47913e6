import Verif.Connection.Attr
import Verif.Reader.StreamSpec

/-! Helper lemmas for the stream reader (no claims here). -/

namespace Verif.Reader

open Connection (Packet EventKind DomPacket DomDesc)

/-! ### Dequeuing -/

theorem dequeue_packets (s : Connection.State) : (Connection.dequeue s).1.packets = s.packets.tail := by
  simp only [Connection.dequeue]
  cases h : s.packets with
  | nil => simp [h]
  | cons q qs => simp [(Connection.onPacketDequeued_gapFields _ _).2.2.2.2.2.2.1]

/-- `k` calls of `dequeue`. -/
def deqs : Nat → Connection.State → Connection.State
  | 0, s => s
  | k + 1, s => deqs k (Connection.dequeue s).1

theorem deqs_add (a b : Nat) (s : Connection.State) : deqs (a + b) s = deqs b (deqs a s) := by
  induction a generalizing s with
  | zero => simp [deqs]
  | succ a ih => rw [Nat.add_right_comm]; simp [deqs, ih]

theorem deqs_eq_runTrace (k : Nat) (s : Connection.State) :
    deqs k s = (runTrace Connection.step s (List.replicate k .dequeue)).1 := by
  induction k generalizing s with
  | zero => rfl
  | succ k ih => simp [deqs, List.replicate_succ, runTrace, Connection.step, ih]

theorem deqs_packets (k : Nat) (s : Connection.State) : (deqs k s).packets = s.packets.drop k := by
  induction k generalizing s with
  | zero => rfl
  | succ k ih => simp [deqs, ih, dequeue_packets]

/-! ### Samples of a packet -/

theorem slice_append (id a k n : Nat) : slice id a (k + n) = slice id a k ++ slice id (a + k) n := by
  simp only [slice, List.range_add, List.map_append, List.map_map]
  congr 1
  refine List.map_congr_left fun i _ => ?_
  simp [Nat.add_assoc]

@[simp] theorem slice_length (id a k : Nat) : (slice id a k).length = k := by simp [slice]

/-- The items the reader has not consumed yet. -/
def pending (cfg : Cfg) (r : R) : List Item :=
  (match r.cur with
    | some c => (slice c.id r.prev (c.n - r.prev)).map Item.sample
    | none => []) ++ r.conn.packets.flatMap (itemsOf cfg)

/-- Between packets the index is reset. -/
def Good (r : R) : Prop := r.cur = none → r.prev = 0

/-- Everything `readPacketData` does when it succeeds. -/
theorem readPacketData_ok {m : Mode} {r : R} {c : Cur} {p : Prog} {r' : R} {p' : Prog}
    (h : readPacketData m r c p = .ok (r', p')) (hc : r.cur = some c) :
    let k := min p.rem (c.n - r.prev)
    r'.conn = r.conn ∧ r'.invalid = r.invalid ∧ r'.typed = r.typed ∧ Good r' ∧
    p'.taken = p.taken ++ slice c.id r.prev k ∧ p'.rem = p.rem - k ∧ p'.offset = p.offset ∧
    p'.doms = (if m = .withDomain then p.doms ++ slice c.id r.prev k else p.doms) ∧
    (∀ cfg, pending cfg r = (slice c.id r.prev k).map Item.sample ++ pending cfg r') ∧
    (k = c.n - r.prev → r'.cur = none) ∧ (k < c.n - r.prev → r'.cur = some c ∧ r'.prev = r.prev + k) := by
  intro k
  have hk : k ≤ c.n - r.prev := Nat.min_le_right _ _
  have main : ∀ (q : Prog), Except.ok (ε := Res) (if k < c.n - r.prev then { r with prev := r.prev + k } else { r with cur := none, prev := 0 }, { q with rem := q.rem - k }) = .ok (r', p') →
      r'.conn = r.conn ∧ r'.invalid = r.invalid ∧ r'.typed = r.typed ∧ Good r' ∧
      p' = { q with rem := q.rem - k } ∧
      (∀ cfg, pending cfg r = (slice c.id r.prev k).map Item.sample ++ pending cfg r') ∧
      (k = c.n - r.prev → r'.cur = none) ∧ (k < c.n - r.prev → r'.cur = some c ∧ r'.prev = r.prev + k) := by
    intro q hq
    injection hq with hq
    injection hq with h1 h2
    subst h1 h2
    by_cases hlt : k < c.n - r.prev
    · rw [if_pos hlt]
      refine ⟨rfl, rfl, rfl, fun hn => ?_, rfl, fun cfg => ?_, fun he => by omega, fun _ => ⟨hc, rfl⟩⟩
      · simp [hc] at hn
      · simp only [pending, hc]
        rw [← List.append_assoc, ← List.map_append]
        congr 2
        have : c.n - r.prev = k + (c.n - (r.prev + k)) := by omega
        rw [this, slice_append]
    · rw [if_neg hlt]
      refine ⟨rfl, rfl, rfl, fun _ => rfl, rfl, fun cfg => ?_, fun _ => rfl, fun hh => absurd hh hlt⟩
      have : c.n - r.prev = k := by omega
      simp [pending, hc, this]
  simp only [readPacketData] at h
  by_cases h1 : m ≠ .skip ∧ r.typed = false
  · rw [if_pos h1] at h; exact nomatch h
  · rw [if_neg h1] at h
    have fin : ∀ q : Prog, q.taken = p.taken ++ slice c.id r.prev k → q.rem = p.rem → q.offset = p.offset →
        q.doms = (if m = .withDomain then p.doms ++ slice c.id r.prev k else p.doms) →
        Except.ok (ε := Res) (if k < c.n - r.prev then { r with prev := r.prev + k } else { r with cur := none, prev := 0 }, { q with rem := q.rem - k }) = .ok (r', p') →
        _ := fun q ht hr ho hd hq => by
      obtain ⟨a1, a2, a3, a4, a5, a6, a7, a8⟩ := main q hq
      exact (⟨a1, a2, a3, a4, by rw [a5]; exact ht, by rw [a5]; simp [hr], by rw [a5]; exact ho,
        by rw [a5]; exact hd, a6, a7, a8⟩ :
        r'.conn = r.conn ∧ r'.invalid = r.invalid ∧ r'.typed = r.typed ∧ Good r' ∧
        p'.taken = p.taken ++ slice c.id r.prev k ∧ p'.rem = p.rem - k ∧ p'.offset = p.offset ∧
        p'.doms = (if m = .withDomain then p.doms ++ slice c.id r.prev k else p.doms) ∧
        (∀ cfg, pending cfg r = (slice c.id r.prev k).map Item.sample ++ pending cfg r') ∧
        (k = c.n - r.prev → r'.cur = none) ∧ (k < c.n - r.prev → r'.cur = some c ∧ r'.prev = r.prev + k))
    cases m with
    | values => exact fin { p with taken := p.taken ++ slice c.id r.prev k } rfl rfl rfl rfl h
    | skip => exact fin { p with taken := p.taken ++ slice c.id r.prev k } rfl rfl rfl rfl h
    | withDomain =>
      cases hd : c.dom with
      | none => rw [hd] at h; exact nomatch h
      | some d =>
        rw [hd] at h
        dsimp only at h
        by_cases h2 : d.count < r.prev + min p.rem (c.n - r.prev)
        · rw [if_pos h2] at h; exact nomatch h
        · rw [if_neg h2] at h
          exact fin { p with taken := p.taken ++ slice c.id r.prev k, doms := p.doms ++ slice c.id r.prev k } rfl rfl rfl rfl h

/-! ### Events -/

theorem handleEvent_fields (cfg : Cfg) (r : R) (k : EventKind) :
    (handleEvent cfg r k).conn = r.conn ∧ (handleEvent cfg r k).cur = r.cur ∧
    (handleEvent cfg r k).prev = r.prev ∧
    (handleEvent cfg r k).invalid = (r.invalid || inconvertible cfg k) ∧
    (r.typed = true → (handleEvent cfg r k).typed = true) := by
  cases k with
  | descChanged v d =>
    rcases v with _ | _ | v <;> rcases d with _ | _ | d <;>
      simp [handleEvent, handleDescriptorChanged, inconvertible, Bool.or_assoc]
  | gap x => simp [handleEvent, inconvertible]
  | other x => simp [handleEvent, inconvertible]

theorem handleEvent_announces (cfg : Cfg) (r : R) (i : Nat) (k : EventKind)
    (h : announces (.event i k) = true) : (handleEvent cfg r k).typed = true := by
  cases k with
  | descChanged v d =>
    rcases v with _ | _ | v
    · simp [announces] at h
    · simp [announces] at h
    · rcases d with _ | _ | d <;> simp [handleEvent, handleDescriptorChanged]
  | gap x => simp [announces] at h
  | other x => simp [announces] at h

theorem reported_iff (cfg : Cfg) (k : EventKind) :
    reported cfg k = (!cfg.skipEvents || inconvertible cfg k || isGapKind k) := by
  cases k <;> simp [reported, isGapKind, inconvertible]

/-! ### The loop -/

/-- The value descriptor is known or announced by the first queued packet. -/
def Typed (r : R) : Prop :=
  r.typed = true ∨ (r.cur = none ∧ ∀ q, r.conn.packets.head? = some q → announces q = true)

/-- What a finished loop has done. -/
structure LoopSpec (cfg : Cfg) (m : Mode) (r : R) (p : Prog) (r' : R) (p' : Prog)
    (ev : Option (Nat × EventKind)) (new : List Tok) (k : Nat) : Prop where
  conn : r'.conn = deqs k r.conn
  taken : p'.taken = p.taken ++ new
  doms : p'.doms = if m = .withDomain then p.doms ++ new else p.doms
  rem : new.length + p'.rem = p.rem
  pend : pending cfg r = new.map Item.sample ++ (ev.toList.map fun e => Item.event e.1 e.2) ++ pending cfg r'
  more : p'.rem ≠ 0 → ev = none → r'.conn.packets = [] ∧ r'.cur = none
  good : Good r'
  inv : r'.invalid = true → ev ≠ none
  rep : ∀ e, ev = some e → reported cfg e.2 = true
  invEv : ∀ e, ev = some e → r'.invalid = inconvertible cfg e.2
  typed : r.typed = true → r'.typed = true
  off : p.offset = none → new ≠ [] → ∃ o, p'.offset = some o ∧
    ((∀ id n d, Packet.data id n d ∈ r.conn.packets → 0 < n) →
      (∀ c, r.cur = some c → r.prev < c.n) → new.head? = some o)
  offKeep : ∀ o, p.offset = some o → p'.offset = some o
  prevOk : (∀ id n d, Packet.data id n d ∈ r.conn.packets → 0 < n) →
      (∀ c, r.cur = some c → r.prev < c.n) → (∀ c, r'.cur = some c → r'.prev < c.n)
  curFrom : (∀ c, r.cur = some c → r.prev ≤ c.n) → ∀ c, r'.cur = some c →
    r'.prev ≤ c.n ∧ (r.cur = some c ∨ Packet.data c.id c.n c.dom ∈ r.conn.packets)
  fresh : Typed r → r'.typed = true ∨ (r.cur = none ∧ r'.cur = none ∧ r.conn.packets = [])

theorem noteOffset_fields (r : R) (c : Cur) (p : Prog) :
    (noteOffset r c p).rem = p.rem ∧ (noteOffset r c p).taken = p.taken ∧ (noteOffset r c p).doms = p.doms ∧
    (p.offset = none → (noteOffset r c p).offset = some (c.id, r.prev)) ∧
    (∀ o, p.offset = some o → (noteOffset r c p).offset = some o) := by
  unfold noteOffset; cases h : p.offset <;> simp [h]

/-- One successful round on a data packet followed by the rest of the loop. -/
theorem loop_data {cfg : Cfg} {m : Mode} {r : R} {c : Cur} {p : Prog} {r1 r' : R} {p1 p' : Prog}
    {ev : Option (Nat × EventKind)} (hc : r.cur = some c) (hrem : p.rem ≠ 0)
    (h1 : readPacketData m r c (noteOffset r c p) = .ok (r1, p1))
    (ih : ∃ new k, LoopSpec cfg m r1 p1 r' p' ev new k) :
    ∃ new k, LoopSpec cfg m r p r' p' ev new k := by
  obtain ⟨new, k, ih⟩ := ih
  obtain ⟨b1, b2, b3, b4, b5⟩ := noteOffset_fields r c p
  obtain ⟨a1, a2, a3, a4, a5, a6, a7, a8, a9, a10, a11⟩ := readPacketData_ok h1 hc
  rw [b1] at a5 a6 a8 a9 a10 a11
  rw [b2] at a5
  rw [b3] at a8
  have hlt : (∀ c', r.cur = some c' → r.prev < c'.n) → ∀ c', r1.cur = some c' → r1.prev < c'.n := by
    intro hcn c' hc'
    by_cases he : min p.rem (c.n - r.prev) = c.n - r.prev
    · rw [a10 he] at hc'; exact nomatch hc'
    · obtain ⟨e1, e2⟩ := a11 (by have := Nat.min_le_right p.rem (c.n - r.prev); omega)
      rw [e1] at hc'
      injection hc' with hc'
      subst hc'
      rw [e2]
      have := Nat.min_le_right p.rem (c.n - r.prev)
      omega
  refine ⟨slice c.id r.prev (min p.rem (c.n - r.prev)) ++ new, k, ?_⟩
  constructor
  · rw [ih.conn, a1]
  · rw [ih.taken, a5, List.append_assoc]
  · rw [ih.doms, a8]; split <;> simp [List.append_assoc]
  · have := ih.rem
    rw [a6] at this
    have : min p.rem (c.n - r.prev) ≤ p.rem := Nat.min_le_left _ _
    simp only [List.length_append, slice_length]; omega
  · rw [a9 cfg, ih.pend]; simp [List.append_assoc]
  · exact ih.more
  · exact ih.good
  · exact ih.inv
  · exact ih.rep
  · exact ih.invEv
  · intro h; exact ih.typed (by rw [a3]; exact h)
  · intro ho _
    refine ⟨(c.id, r.prev), ih.offKeep _ (by rw [a7]; exact b4 ho), ?_⟩
    intro _ hcn
    have hpos : 0 < min p.rem (c.n - r.prev) := by
      have := hcn c hc
      have : 0 < p.rem := Nat.pos_of_ne_zero hrem
      have : 0 < c.n - r.prev := by omega
      exact Nat.lt_min.mpr ⟨by omega, by omega⟩
    obtain ⟨q, hq⟩ : ∃ q, min p.rem (c.n - r.prev) = q + 1 := ⟨_, (Nat.succ_pred_eq_of_pos hpos).symm⟩
    rw [hq]
    simp [slice, List.range_succ_eq_map]
  · intro o ho; exact ih.offKeep _ (by rw [a7]; exact b5 o ho)
  · intro hz hcn; exact ih.prevOk (by rw [a1]; exact hz) (hlt hcn)
  · intro hcn c' hc'
    have hsub : ∀ c'', r1.cur = some c'' → r1.prev ≤ c''.n ∧ c'' = c := by
      intro c'' hc''
      by_cases he : min p.rem (c.n - r.prev) = c.n - r.prev
      · rw [a10 he] at hc''; exact nomatch hc''
      · obtain ⟨e1, e2⟩ := a11 (by have := Nat.min_le_right p.rem (c.n - r.prev); omega)
        rw [e1] at hc''
        injection hc'' with hc''
        subst hc''
        rw [e2]
        have := Nat.min_le_right p.rem (c.n - r.prev)
        have := hcn c hc
        exact ⟨by omega, rfl⟩
    obtain ⟨h1, h2⟩ := ih.curFrom (fun c'' h => (hsub c'' h).1) c' hc'
    refine ⟨h1, ?_⟩
    rcases h2 with h2 | h2
    · rw [(hsub c' h2).2]; exact .inl hc
    · rw [a1] at h2; exact .inr h2
  · intro ht
    rcases ht with ht | ⟨ht, _⟩
    · exact .inl (ih.typed (by rw [a3]; exact ht))
    · rw [hc] at ht; exact nomatch ht

/-- A round that takes a packet without items from the queue. -/
theorem loop_drop {cfg : Cfg} {m : Mode} {r r1 r' : R} {p p' : Prog} {q : Packet} {qs : List Packet}
    {ev : Option (Nat × EventKind)} (hq : r.conn.packets = q :: qs) (hc : r.cur = none)
    (hi : itemsOf cfg q = []) (e1 : r1.conn = (Connection.dequeue r.conn).1) (e2 : r1.cur = none)
    (e3 : r.typed = true ∨ announces q = true → r1.typed = true)
    (ih : ∃ new k, LoopSpec cfg m r1 p r' p' ev new k) : ∃ new k, LoopSpec cfg m r p r' p' ev new k := by
  obtain ⟨new, k, ih⟩ := ih
  have hpk : r1.conn.packets = qs := by rw [e1, dequeue_packets, hq]; rfl
  refine ⟨new, k + 1, ?_⟩
  constructor
  · rw [ih.conn, e1]; rfl
  · exact ih.taken
  · exact ih.doms
  · exact ih.rem
  · rw [← ih.pend]; simp [pending, hc, e2, hq, hpk, hi]
  · exact ih.more
  · exact ih.good
  · exact ih.inv
  · exact ih.rep
  · exact ih.invEv
  · intro h; exact ih.typed (e3 (.inl h))
  · intro ho hn
    obtain ⟨o, h1, h2⟩ := ih.off ho hn
    refine ⟨o, h1, fun hz _ => h2 (fun id n d hm => ?_) (fun c hc' => ?_)⟩
    · exact hz id n d (by rw [hq]; rw [hpk] at hm; exact List.mem_cons_of_mem _ hm)
    · rw [e2] at hc'; exact nomatch hc'
  · exact ih.offKeep
  · intro hz _
    refine ih.prevOk (fun id n d hm => ?_) (fun c hc' => ?_)
    · exact hz id n d (by rw [hq]; rw [hpk] at hm; exact List.mem_cons_of_mem _ hm)
    · rw [e2] at hc'; exact nomatch hc'
  · intro _ c hc'
    obtain ⟨h1, h2⟩ := ih.curFrom (fun c hc' => by rw [e2] at hc'; exact nomatch hc') c hc'
    refine ⟨h1, .inr ?_⟩
    rcases h2 with h2 | h2
    · rw [e2] at h2; exact nomatch h2
    · rw [hq]; rw [hpk] at h2; exact List.mem_cons_of_mem _ h2
  · intro ht
    rcases ht with ht | ⟨_, ht⟩
    · exact .inl (ih.typed (e3 (.inl ht)))
    · exact .inl (ih.typed (e3 (.inr (ht q (by rw [hq]; rfl)))))

theorem loop_spec (cfg : Cfg) (m : Mode) (f : Nat) (r : R) (p : Prog) (r' : R) (p' : Prog)
    (ev : Option (Nat × EventKind)) (hinv : r.invalid = false) (hg : Good r)
    (h : loop cfg m f r p = (r', p', .done ev)) :
    ∃ new k, LoopSpec cfg m r p r' p' ev new k := by
  induction f generalizing r p with
  | zero => simp [loop] at h
  | succ f ih =>
    rw [loop] at h
    cases hc : r.cur with
    | some c =>
      rw [hc] at h
      dsimp only at h
      by_cases hrem : p.rem = 0
      · rw [if_pos hrem] at h
        simp only [Prod.mk.injEq, Res.done.injEq] at h
        obtain ⟨rfl, rfl, rfl⟩ := h
        refine ⟨[], 0, ?_⟩
        constructor <;> (try simp_all [deqs])
        simp_all [Typed]
      · rw [if_neg hrem] at h
        cases h1 : readPacketData m r c (noteOffset r c p) with
        | error e =>
          rw [h1] at h
          simp only [Prod.mk.injEq] at h
          obtain ⟨rfl, rfl, rfl⟩ := h
          exfalso
          simp only [readPacketData] at h1
          split at h1
          · simp at h1
          · split at h1
            · simp at h1
            · split at h1 <;> simp at h1
            · simp at h1
        | ok rp =>
          obtain ⟨r1, p1⟩ := rp
          rw [h1] at h
          dsimp only at h
          obtain ⟨a1, a2, a3, a4, _⟩ := readPacketData_ok h1 hc
          exact loop_data hc hrem h1 (ih r1 p1 (by rw [a2, hinv]) a4 h)
    | none =>
      rw [hc] at h
      dsimp only at h
      cases hq : r.conn.packets with
      | nil =>
        rw [hq] at h
        simp only [Prod.mk.injEq, Res.done.injEq] at h
        obtain ⟨rfl, rfl, rfl⟩ := h
        have hp : (Connection.dequeue r.conn).1.packets = [] := by rw [dequeue_packets, hq]; rfl
        refine ⟨[], 1, ?_⟩
        constructor
        · rfl
        · simp
        · simp
        · simp
        · simp [pending, popConn, hc, hq, hp]
        · intro _ _; exact ⟨hp, hc⟩
        · exact hg
        · intro hh; rw [show (popConn r).invalid = r.invalid from rfl, hinv] at hh; exact nomatch hh
        · intro e he; exact nomatch he
        · intro e he; exact nomatch he
        · exact fun h => h
        · simp
        · exact fun o ho => ho
        · intro _ hh; exact hh
        · intro _ c hc'; rw [show (popConn r).cur = r.cur from rfl, hc] at hc'; exact nomatch hc'
        · intro _; exact .inr ⟨hc, hc, hq⟩
      | cons q qs =>
        rw [hq] at h
        have hd : (Connection.dequeue r.conn).1.packets = qs := by rw [dequeue_packets, hq]; rfl
        cases q with
        | none i =>
          dsimp only at h
          exact loop_drop (r1 := popConn r) hq hc rfl rfl hc (fun h => by show r.typed = true; simpa [announces] using h) (ih _ _ hinv hg h)
        | event i k =>
          dsimp only at h
          obtain ⟨f1, f2, f3, f4, f5⟩ := handleEvent_fields cfg (popConn r) k
          generalize hr1 : handleEvent cfg (popConn r) k = r1 at *
          rw [show (popConn r).conn = (Connection.dequeue r.conn).1 from rfl] at f1
          rw [show (popConn r).cur = r.cur from rfl] at f2
          rw [show (popConn r).prev = r.prev from rfl] at f3
          rw [show (popConn r).invalid = r.invalid from rfl] at f4
          rw [show (popConn r).typed = r.typed from rfl] at f5
          rw [hinv, Bool.false_or] at f4
          have hann : announces (.event i k) = true → r1.typed = true := by
            rw [← hr1]; exact handleEvent_announces cfg _ i k
          by_cases hrep : (!cfg.skipEvents || r1.invalid || isGapKind k) = true
          · rw [if_pos hrep] at h
            simp only [Prod.mk.injEq, Res.done.injEq] at h
            obtain ⟨rfl, rfl, rfl⟩ := h
            have hrep' : reported cfg k = true := by rw [reported_iff, ← f4]; exact hrep
            refine ⟨[], 1, ?_⟩
            constructor
            · rw [f1]; rfl
            · simp
            · simp
            · simp
            · simp [pending, hc, f2, hq, f1, hd, itemsOf, hrep']
            · simp
            · intro _; rw [f3]; exact hg hc
            · simp
            · intro e he; injection he with he; subst he; exact hrep'
            · intro e he; injection he with he; subst he; exact f4
            · exact f5
            · simp
            · exact fun o ho => ho
            · intro _ _ c hc'; rw [f2, hc] at hc'; exact nomatch hc'
            · intro _ c hc'; rw [f2, hc] at hc'; exact nomatch hc'
            · rintro (ht | ⟨_, ht⟩)
              · exact .inl (f5 ht)
              · exact .inl (hann (ht _ (by rw [hq]; rfl)))
          · rw [if_neg hrep] at h
            simp only [Bool.or_eq_true, not_or, Bool.not_eq_true] at hrep
            refine loop_drop hq hc ?_ f1 (by rw [f2]; exact hc) (fun h => h.elim f5 hann) (ih r1 p hrep.1.2 (fun _ => by rw [f3]; exact hg hc) h)
            have : reported cfg k = false := by rw [reported_iff, ← f4]; simp [hrep]
            simp [itemsOf, this]
        | data i n dom =>
          dsimp only at h
          have hp0 : r.prev = 0 := hg hc
          generalize hr1 : withCur (popConn r) ⟨i, n, dom⟩ = r1 at *
          have g1 : r1.cur = some ⟨i, n, dom⟩ := by rw [← hr1]; rfl
          have g2 : r1.conn = (Connection.dequeue r.conn).1 := by rw [← hr1]; rfl
          have g3 : r1.prev = 0 := by rw [← hr1]; exact hp0
          have g4 : r1.invalid = false := by rw [← hr1]; exact hinv
          have g5 : r1.typed = r.typed := by rw [← hr1]; rfl
          have hpd : pending cfg r = pending cfg r1 := by
            simp [pending, hc, g1, hq, g2, hd, itemsOf, g3, slice, Function.comp_def]
          have lift : (∃ new k, LoopSpec cfg m r1 p r' p' ev new k) → ∃ new k, LoopSpec cfg m r p r' p' ev new k := by
            rintro ⟨new, k, s⟩
            have hz' : (∀ id n d, Packet.data id n d ∈ r.conn.packets → 0 < n) →
                (∀ id n d, Packet.data id n d ∈ r1.conn.packets → 0 < n) ∧
                (∀ c, r1.cur = some c → r1.prev < c.n) := by
              intro hz
              refine ⟨fun id n' d hm => ?_, fun c hc' => ?_⟩
              · exact hz id n' d (by rw [hq]; rw [g2, hd] at hm; exact List.mem_cons_of_mem _ hm)
              · rw [g1] at hc'; injection hc' with hc'; subst hc'; rw [g3]
                exact hz i n dom (by rw [hq]; simp)
            refine ⟨new, k + 1, ⟨?_, s.taken, s.doms, s.rem, by rw [hpd]; exact s.pend, s.more, s.good, s.inv,
              s.rep, s.invEv, fun h => s.typed (by rw [g5]; exact h), fun ho hn => ?_, s.offKeep,
              fun hz _ => s.prevOk (hz' hz).1 (hz' hz).2, fun _ c hc' => ?_, fun ht => ?_⟩⟩
            · rw [s.conn, g2]; rfl
            · obtain ⟨o, h1, h2⟩ := s.off ho hn
              exact ⟨o, h1, fun hz _ => h2 (hz' hz).1 (hz' hz).2⟩
            · obtain ⟨h1, h2⟩ := s.curFrom (fun c hc'' => by rw [g3]; exact Nat.zero_le _) c hc'
              refine ⟨h1, .inr ?_⟩
              rw [hq]
              rcases h2 with h2 | h2
              · rw [g1] at h2; injection h2 with h2; subst h2; simp
              · rw [g2, hd] at h2; exact List.mem_cons_of_mem _ h2
            · rcases ht with ht | ⟨_, ht⟩
              · exact .inl (s.typed (by rw [g5]; exact ht))
              · have := ht _ (by rw [hq]; rfl)
                simp [announces] at this
          by_cases hrem : p.rem = 0
          · rw [if_pos hrem] at h
            simp only [Prod.mk.injEq, Res.done.injEq] at h
            obtain ⟨rfl, rfl, rfl⟩ := h
            refine lift ⟨[], 0, ?_⟩
            constructor <;> (try simp_all [deqs, Good])
            simp_all [Typed]
          · rw [if_neg hrem] at h
            cases h1 : readPacketData m r1 ⟨i, n, dom⟩ (noteOffset r1 ⟨i, n, dom⟩ p) with
            | error e =>
              rw [h1] at h
              simp only [Prod.mk.injEq] at h
              obtain ⟨rfl, rfl, rfl⟩ := h
              exfalso
              simp only [readPacketData] at h1
              split at h1
              · simp at h1
              · split at h1
                · simp at h1
                · split at h1 <;> simp at h1
                · simp at h1
            | ok rp =>
              obtain ⟨r2, p2⟩ := rp
              rw [h1] at h
              dsimp only at h
              obtain ⟨a1, a2, a3, a4, _⟩ := readPacketData_ok h1 g1
              exact lift (loop_data g1 hrem h1 (ih r2 p2 (by rw [a2, g4]) a4 h))

end Verif.Reader
