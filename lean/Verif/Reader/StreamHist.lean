import Verif.Reader.StreamLemmas

/-! Invariants of the stream reader over histories (no claims here). -/

namespace Verif.Reader

open Connection (Packet EventKind DomPacket DomDesc)

/-! ### No fault -/

def DomOk (r : R) : Prop :=
  (∀ c, r.cur = some c → r.prev ≤ c.n ∧ domainCovers (.data c.id c.n c.dom) = true) ∧
    ∀ q ∈ r.conn.packets, domainCovers q = true

def measure (r : R) (p : Prog) : Nat :=
  r.conn.packets.length + (if r.cur.isSome then 1 else 0) + (if p.rem = 0 then 0 else 1)

theorem readPacketData_total {m : Mode} {r : R} {c : Cur} {p : Prog} (ht : m = .skip ∨ r.typed = true)
    (hd : m = .withDomain → r.prev ≤ c.n ∧ domainCovers (.data c.id c.n c.dom) = true) :
    ∃ r' p', readPacketData m r c p = .ok (r', p') := by
  simp only [readPacketData]
  have h1 : ¬ (m ≠ .skip ∧ r.typed = false) := by
    rintro ⟨a, b⟩; rcases ht with h | h
    · exact a h
    · rw [h] at b; exact nomatch b
  rw [if_neg h1]
  cases m with
  | values => exact ⟨_, _, rfl⟩
  | skip => exact ⟨_, _, rfl⟩
  | withDomain =>
    obtain ⟨hp, hd⟩ := hd rfl
    cases hdom : c.dom with
    | none => rw [hdom] at hd; simp [domainCovers] at hd
    | some d =>
      rw [hdom] at hd
      simp only [domainCovers, decide_eq_true_eq] at hd
      have : ¬ d.count < r.prev + min p.rem (c.n - r.prev) := by
        have := Nat.min_le_right p.rem (c.n - r.prev); omega
      dsimp only
      rw [if_neg this]
      exact ⟨_, _, rfl⟩

/-- Progress and preservation for one round on a data packet. -/
theorem readPacketData_next {m : Mode} {r : R} {c : Cur} {p : Prog} {r' : R} {p' : Prog}
    (h : readPacketData m r c (noteOffset r c p) = .ok (r', p')) (hc : r.cur = some c) (hrem : p.rem ≠ 0)
    (ht : m = .skip ∨ r.typed = true) (hd : m = .withDomain → DomOk r) :
    measure r' p' < measure r p ∧ (m = .skip ∨ Typed r') ∧ (m = .withDomain → DomOk r') := by
  obtain ⟨b1, -⟩ := noteOffset_fields r c p
  obtain ⟨a1, a2, a3, a4, a5, a6, a7, a8, a9, a10, a11⟩ := readPacketData_ok h hc
  rw [b1] at a6 a10 a11
  have hmin := Nat.min_le_right p.rem (c.n - r.prev)
  refine ⟨?_, ?_, ?_⟩
  · simp only [measure, a1, hc, hrem, a6]
    by_cases he : min p.rem (c.n - r.prev) = c.n - r.prev
    · rw [a10 he]; simp; split <;> omega
    · have : min p.rem (c.n - r.prev) = p.rem := by omega
      rw [this]; simp; split <;> omega
  · rcases ht with h | h
    · exact .inl h
    · exact .inr (.inl (by rw [a3]; exact h))
  · intro hm
    obtain ⟨d1, d2⟩ := hd hm
    refine ⟨fun c' hc' => ?_, by rw [a1]; exact d2⟩
    by_cases he : min p.rem (c.n - r.prev) = c.n - r.prev
    · rw [a10 he] at hc'; exact nomatch hc'
    · obtain ⟨e1, e2⟩ := a11 (by omega)
      rw [e1] at hc'; injection hc' with hc'; subst hc'
      have := d1 c hc
      exact ⟨by rw [e2]; omega, this.2⟩

theorem loop_fuel (cfg : Cfg) (m : Mode) (f : Nat) (r : R) (p : Prog) (hf : measure r p < f)
    (hg : Good r) (ht : m = .skip ∨ Typed r) (hd : m = .withDomain → DomOk r) :
    ∃ r' p' ev, loop cfg m f r p = (r', p', .done ev) := by
  induction f generalizing r p with
  | zero => omega
  | succ f ih =>
    rw [loop]
    cases hc : r.cur with
    | some c =>
      dsimp only
      by_cases hrem : p.rem = 0
      · rw [if_pos hrem]; exact ⟨_, _, _, rfl⟩
      · rw [if_neg hrem]
        have ht' : m = .skip ∨ r.typed = true := by
          rcases ht with h | h | ⟨h, _⟩
          · exact .inl h
          · exact .inr h
          · rw [hc] at h; exact nomatch h
        obtain ⟨r1, p1, h1⟩ := readPacketData_total (m := m) (r := r) (c := c) (p := noteOffset r c p) ht'
          (fun hm => (hd hm).1 c hc)
        obtain ⟨g1, g2, g3⟩ := readPacketData_next h1 hc hrem ht' hd
        rw [h1]
        exact ih r1 p1 (by omega) (readPacketData_ok h1 hc).2.2.2.1 g2 g3
    | none =>
      dsimp only
      cases hq : r.conn.packets with
      | nil => exact ⟨_, _, _, rfl⟩
      | cons q qs =>
        have hd' : (popConn r).conn.packets = qs := by
          show (Connection.dequeue r.conn).1.packets = qs
          rw [dequeue_packets, hq]; rfl
        have hdom : m = .withDomain → DomOk (popConn r) := fun hm => by
          refine ⟨fun c hc' => ?_, fun q' hq' => ?_⟩
          · rw [show (popConn r).cur = r.cur from rfl, hc] at hc'; exact nomatch hc'
          · rw [hd'] at hq'; exact (hd hm).2 q' (by rw [hq]; exact List.mem_cons_of_mem _ hq')
        have hmeas : ∀ r1 : R, r1.conn = (popConn r).conn → r1.cur = none → measure r1 p < f := by
          intro r1 e1 e2
          simp only [measure, e1, e2, hd'] at hf ⊢
          simp only [hq, hc, List.length_cons] at hf
          simp only [Option.isSome_none] at hf ⊢
          omega
        cases q with
        | none i =>
          dsimp only
          refine ih (popConn r) p (hmeas _ rfl hc) hg ?_ hdom
          rcases ht with h | h | ⟨_, h⟩
          · exact .inl h
          · exact .inr (.inl h)
          · have := h _ (by rw [hq]; rfl)
            simp [announces] at this
        | event i k =>
          dsimp only
          obtain ⟨f1, f2, f3, f4, f5⟩ := handleEvent_fields cfg (popConn r) k
          split
          · exact ⟨_, _, _, rfl⟩
          · refine ih _ p (hmeas _ f1 (by rw [f2]; exact hc)) ?_ ?_ ?_
            · intro _; rw [f3]; exact hg hc
            · rcases ht with h | h | ⟨_, h⟩
              · exact .inl h
              · exact .inr (.inl (f5 h))
              · have := h _ (by rw [hq]; rfl)
                right; left
                cases k with
                | descChanged v d =>
                  rcases v with _ | _ | v
                  · simp [announces] at this
                  · simp [announces] at this
                  · rcases d with _ | _ | d <;> simp [handleEvent, handleDescriptorChanged]
                | gap x => simp [announces] at this
                | other x => simp [announces] at this
            · intro hm
              obtain ⟨d1, d2⟩ := hdom hm
              refine ⟨fun c hc' => ?_, by rw [f1]; exact d2⟩
              rw [f2, show (popConn r).cur = r.cur from rfl, hc] at hc'
              exact nomatch hc'
        | data i n dom =>
          dsimp only
          generalize hr1 : withCur (popConn r) ⟨i, n, dom⟩ = r1
          have g1 : r1.cur = some ⟨i, n, dom⟩ := by rw [← hr1]; rfl
          have g2 : r1.conn.packets = qs := by rw [← hr1]; exact hd'
          have g3 : r1.prev = 0 := by rw [← hr1]; exact hg hc
          have g5 : r1.typed = r.typed := by rw [← hr1]; rfl
          by_cases hrem : p.rem = 0
          · rw [if_pos hrem]; exact ⟨_, _, _, rfl⟩
          · rw [if_neg hrem]
            have ht' : m = .skip ∨ r1.typed = true := by
              rcases ht with h | h | ⟨_, h⟩
              · exact .inl h
              · exact .inr (by rw [g5]; exact h)
              · have := h _ (by rw [hq]; rfl)
                simp [announces] at this
            have hd1 : m = .withDomain → DomOk r1 := fun hm => by
              refine ⟨fun c hc' => ?_, fun q' hq' => ?_⟩
              · rw [g1] at hc'; injection hc' with hc'; subst hc'
                exact ⟨by rw [g3]; exact Nat.zero_le _, (hd hm).2 _ (by rw [hq]; simp)⟩
              · rw [g2] at hq'; exact (hd hm).2 q' (by rw [hq]; exact List.mem_cons_of_mem _ hq')
            obtain ⟨r2, p2, h1⟩ := readPacketData_total (m := m) (r := r1) (c := ⟨i, n, dom⟩)
              (p := noteOffset r1 ⟨i, n, dom⟩ p) ht' (fun hm => (hd1 hm).1 _ g1)
            obtain ⟨e1, e2, e3⟩ := readPacketData_next h1 g1 hrem ht' hd1
            rw [h1]
            refine ih r2 p2 ?_ (readPacketData_ok h1 g1).2.2.2.1 e2 e3
            have : measure r1 p = measure r p := by
              simp [measure, g1, g2, hq, hc]
            omega

/-! ### The read call -/

/-- What a read that returns has done. -/
theorem readOp_spec (cfg : Cfg) (r : R) (m : Mode) (n : Nat) (hinv : r.invalid = false) (hg : Good r)
    (hf : ¬ IsFault (readOp cfg r m n).2) :
    ∃ p' new k, LoopSpec cfg m r { rem := n } (readOp cfg r m n).1 p' (readOp cfg r m n).2.event new k ∧
      (readOp cfg r m n).2.ret = .success ∧
      (readOp cfg r m n).2.count = new.length ∧ (m ≠ .skip → (readOp cfg r m n).2.vals = new) ∧
      (m = .skip → (readOp cfg r m n).2.vals = []) ∧
      (readOp cfg r m n).2.doms = (if m = .withDomain then new else []) ∧
      (readOp cfg r m n).2.valid = !(readOp cfg r m n).1.invalid ∧
      (readOp cfg r m n).2.offset = p'.offset := by
  revert hf
  simp only [readOp, hinv, Bool.false_eq_true, if_false]
  cases h : loop cfg m (fuelFor r) r { rem := n } with
  | mk r' rest =>
    obtain ⟨p', res⟩ := rest
    cases res with
    | done ev =>
      intro _
      obtain ⟨new, k, s⟩ := loop_spec cfg m _ r { rem := n } r' p' ev hinv hg h
      refine ⟨p', new, k, s, rfl, ?_, ?_, ?_, ?_, rfl, rfl⟩
      · have := s.rem; dsimp only at this ⊢; omega
      · intro hm; simp only [hm, if_false]; simpa using s.taken
      · intro hm; simp only [hm, if_true]
      · have := s.doms; simpa using this
    | hang => intro hf; exact absurd ⟨_, rfl⟩ hf
    | overrun => intro hf; exact absurd ⟨_, rfl⟩ hf
    | domainOob => intro hf; exact absurd ⟨_, rfl⟩ hf

/-! ### Histories -/

open Connection in
/-- Two connection histories that differ only in what the consumer did. -/
def SameStream (a b : Connection.Trace) : Prop :=
  accepted a = accepted b ∧ checked a = checked b ∧ expectedStream [] a = expectedStream [] b

theorem sameStream_snoc {a b : Connection.Trace} (h : SameStream a b) (x) : SameStream (a ++ [x]) (b ++ [x]) := by
  obtain ⟨h1, h2, h3⟩ := h
  refine ⟨by simp [h1], by simp [h2], ?_⟩
  rw [Connection.expectedStream_append, Connection.expectedStream_append, h3, h2]

theorem sameStream_dequeue {a b : Connection.Trace} (h : SameStream a b) (o) :
    SameStream (a ++ [(.dequeue, o)]) b := by
  obtain ⟨h1, h2, h3⟩ := h
  refine ⟨by simp [h1, Connection.acceptedBy], by simp [h2, Connection.checkedBy], ?_⟩
  rw [Connection.expectedStream_append, h3]; simp [Connection.expectedStream]

def curItems (r : R) : List Item :=
  match r.cur with
  | some c => (slice c.id r.prev (c.n - r.prev)).map Item.sample
  | none => []

def curPackets (r : R) : List Packet :=
  match r.cur with
  | some c => [.data c.id c.n c.dom]
  | none => []

/-- The connection of the reader was driven by the producer calls of the history, and `dequeue`. -/
structure Hist (g : Bool) (r : R) (t : Trace) (cops : List Connection.Op) : Prop where
  conn : r.conn = (Connection.exec g cops).1
  ops : ∀ op ∈ cops, Producer op ∨ op = .dequeue
  noGap : (∀ op ∈ connOps (t.map Prod.fst), Connection.NoExternalGap op) → ∀ op ∈ cops, Connection.NoExternalGap op
  onlyDesc : (∀ op ∈ connOps (t.map Prod.fst), Connection.OnlyDescriptorEvents op) →
    ∀ op ∈ cops, Connection.OnlyDescriptorEvents op
  load : Connection.load cops = Connection.load (connOps (t.map Prod.fst))
  same : SameStream (Connection.exec g cops).2 (producer t)

theorem Hist.stream {g r t cops} (h : Hist g r t cops) :
    Connection.delivered (Connection.exec g cops).2 ++ r.conn.packets = packetStream g t := by
  have hn : .enqueueLastDescriptor ∉ cops := fun hm => by
    rcases h.ops _ hm with h | h
    · exact h
    · exact nomatch h
  have hs := (Connection.streamInv g cops).stream (fun x hx he => hn (by
    rw [← Connection.trace_ops g cops, List.mem_map]; exact ⟨x, hx, he⟩))
  rw [h.conn]
  unfold packetStream
  cases g with
  | true => have := hs; rw [if_pos rfl] at this; rw [this]; exact h.same.2.2
  | false => have := hs; rw [if_neg (by simp)] at this; rw [this]; exact h.same.1


@[simp] theorem connOps_snoc (l : List Op) (o : Op) : connOps (l ++ [o]) = connOps l ++ connOps [o] := by
  simp [connOps]

@[simp] theorem producer_snoc (t : Trace) (x) : producer (t ++ [x]) = producer t ++ producer [x] := by
  simp [producer]

@[simp] theorem consumed_snoc (t : Trace) (x) : consumed (t ++ [x]) = consumed t + consumedBy x := by
  simp [consumed]

@[simp] theorem returned_snoc (t : Trace) (x) : returned (t ++ [x]) = returned t ++ returnedBy x := by
  simp [returned]

theorem Hist.dequeues {g r t cops} (h : Hist g r t cops) (k : Nat) (r' : R) (hr : r'.conn = deqs k r.conn) (t' : Trace)
    (ht : producer t' = producer t) (hc : connOps (t'.map Prod.fst) = connOps (t.map Prod.fst)) :
    ∃ cops', Hist g r' t' cops' := by
  refine ⟨cops ++ List.replicate k .dequeue, ?_⟩
  constructor
  · rw [hr, h.conn, deqs_eq_runTrace]; simp [Connection.exec, runTrace_append]
  · intro op hm
    rw [List.mem_append] at hm
    rcases hm with hm | hm
    · exact h.ops op hm
    · exact .inr (List.eq_of_mem_replicate hm)
  · intro hh op hm
    rw [List.mem_append] at hm
    rcases hm with hm | hm
    · exact h.noGap (by rw [← hc]; exact hh) op hm
    · rw [List.eq_of_mem_replicate hm]; trivial
  · intro hh op hm
    rw [List.mem_append] at hm
    rcases hm with hm | hm
    · exact h.onlyDesc (by rw [← hc]; exact hh) op hm
    · rw [List.eq_of_mem_replicate hm]; trivial
  · rw [Connection.load_append, hc, ← h.load]
    simp [Connection.load, Connection.opLoad]
  · rw [ht]
    have : ∀ (j : Nat) (cs : List Connection.Op), SameStream (Connection.exec g cs).2 (producer t) →
        SameStream (Connection.exec g (cs ++ List.replicate j .dequeue)).2 (producer t) := by
      intro j
      induction j with
      | zero => intro cs hs; simpa using hs
      | succ j ih =>
        intro cs hs
        rw [List.replicate_succ, show cs ++ Connection.Op.dequeue :: List.replicate j .dequeue =
          (cs ++ [.dequeue]) ++ List.replicate j .dequeue by simp]
        apply ih
        simp only [Connection.exec, runTrace_snoc]
        exact sameStream_dequeue hs _
    exact this k cops h.same

theorem Hist.produce {g r t cops} (h : Hist g r t cops) (op : Connection.Op) (hp : Producer op) (r' : R)
    (hr : r'.conn = (Connection.step r.conn op).1) (o : Out) (ho : o.conn = some (Connection.step r.conn op).2) :
    Hist g r' (t ++ [(.conn op, o)]) (cops ++ [op]) := by
  have hconn := h.conn
  constructor
  · rw [hr, hconn]; simp [Connection.exec, runTrace_snoc]
  · intro op' hm
    rw [List.mem_append, List.mem_singleton] at hm
    rcases hm with hm | hm
    · exact h.ops op' hm
    · rw [hm]; exact .inl hp
  · intro hh op' hm
    simp only [List.map_append, List.map_cons, List.map_nil, connOps_snoc] at hh
    rw [List.mem_append, List.mem_singleton] at hm
    rcases hm with hm | hm
    · exact h.noGap (fun x hx => hh x (List.mem_append_left _ hx)) op' hm
    · rw [hm]; exact hh op (by simp [connOps])
  · intro hh op' hm
    simp only [List.map_append, List.map_cons, List.map_nil, connOps_snoc] at hh
    rw [List.mem_append, List.mem_singleton] at hm
    rcases hm with hm | hm
    · exact h.onlyDesc (fun x hx => hh x (List.mem_append_left _ hx)) op' hm
    · rw [hm]; exact hh op (by simp [connOps])
  · simp only [List.map_append, List.map_cons, List.map_nil, connOps_snoc, Connection.load_append, h.load]
    simp [connOps]
  · have : producer (t ++ [(.conn op, o)]) = producer t ++ [(op, (Connection.step r.conn op).2)] := by
      simp [producer, ho]
    rw [this, hconn]
    simp only [Connection.exec, runTrace_snoc]
    exact sameStream_snoc h.same _

theorem packetStream_nonprod (g : Bool) (t : Trace) (op : Op) (o : Out) (h : ∀ c, op ≠ .conn c) :
    producer (t ++ [(op, o)]) = producer t ∧ packetStream g (t ++ [(op, o)]) = packetStream g t ∧
    connOps ((t ++ [(op, o)]).map Prod.fst) = connOps (t.map Prod.fst) := by
  have : producer (t ++ [(op, o)]) = producer t := by
    cases op with
    | conn c => exact absurd rfl (h c)
    | read m n => simp [producer]
    | markAsInvalid => simp [producer]
  refine ⟨this, by simp [packetStream, this], ?_⟩
  cases op with
  | conn c => exact absurd rfl (h c)
  | read m n => simp [connOps]
  | markAsInvalid => simp [connOps]

theorem step_producer_delivers (s : Connection.State) (op : Connection.Op) (h : Producer op) :
    (Connection.step s op).2.packets = [] := by
  cases op with
  | enqueue m p => simp only [Connection.step, Connection.enqueue]; split; · rfl
                   · split <;> rfl
  | enqueueMultiple ps => simp only [Connection.step, Connection.enqueueMultiple]; split <;> rfl
  | setActive b => rfl
  | setNotify m => rfl
  | dequeue => exact h.elim
  | dequeueAll => exact h.elim
  | dequeueUpTo n => exact h.elim
  | enqueueLastDescriptor => exact h.elim

theorem packetStream_prefix (g : Bool) (t : Trace) (x) : ∃ more, packetStream g (t ++ [x]) = packetStream g t ++ more := by
  simp only [packetStream, producer_snoc]
  cases g with
  | true => exact ⟨_, by simp only [if_true]; rw [Connection.expectedStream_append]⟩
  | false => exact ⟨Connection.accepted (producer [x]), by simp [Connection.accepted]⟩

/-- The main invariant, for histories without faults. -/
structure RInv (cfg : Cfg) (g : Bool) (r : R) (t : Trace) : Prop where
  hist : ∃ cops, Hist g r t cops
  items : ∃ K, itemStream cfg g t = K ++ pending cfg r ∧ K.length = consumed t ∧
    ((∀ x ∈ t, ∀ n, x.1 ≠ .read .skip n) → K = returned t)
  good : Good r
  cur : ∀ c, r.cur = some c → r.prev ≤ c.n ∧ Packet.data c.id c.n c.dom ∈ packetStream g t
  fresh : r.typed = true ∨ (r.cur = none ∧ r.conn.packets = packetStream g t) ∨
    ∃ q, (packetStream g t).head? = some q ∧ announces q = false
  queued : ∃ dl, packetStream g t = dl ++ r.conn.packets
  prevOk : (∀ id n d, Packet.data id n d ∈ packetStream g t → 0 < n) → ∀ c, r.cur = some c → r.prev < c.n
  inval : r.invalid = true → (∃ x ∈ t, x.2.valid = false ∨ x.1 = .markAsInvalid)

theorem RInv.typed {cfg g r t} (h : RInv cfg g r t)
    (hd : ∀ q, (packetStream g t).head? = some q → announces q = true) : Typed r := by
  rcases h.fresh with h1 | ⟨h1, h2⟩ | ⟨q, h1, h2⟩
  · exact .inl h1
  · exact .inr ⟨h1, by rw [h2]; exact hd⟩
  · rw [hd q h1] at h2; exact nomatch h2

theorem rinv_init (cfg : Cfg) (g : Bool) : RInv cfg g (init g) [] := by
  have hp : packetStream g [] = [] := by cases g <;> rfl
  constructor
  · exact ⟨[], ⟨rfl, by simp, by simp, by simp, rfl, ⟨rfl, rfl, rfl⟩⟩⟩
  · refine ⟨[], ?_, rfl, fun _ => rfl⟩
    simp [itemStream, hp, pending, init, Connection.init]
  · intro _; rfl
  · intro c hc; exact nomatch hc
  · exact .inr (.inl ⟨rfl, by rw [hp]; rfl⟩)
  · exact ⟨[], by rw [hp]; rfl⟩
  · intro _ c hc; exact nomatch hc
  · intro h; exact nomatch h

theorem rinv_step {cfg : Cfg} {g : Bool} {r : R} {t : Trace} (h : RInv cfg g r t) (op : Op) (hn : Normal op)
    (hf : ¬ IsFault (step cfg r op).2) : RInv cfg g (step cfg r op).1 (t ++ [(op, (step cfg r op).2)]) := by
  obtain ⟨cops, hh⟩ := h.hist
  obtain ⟨K, hK, hKl, hKr⟩ := h.items
  obtain ⟨more, hmore⟩ := packetStream_prefix g t (op, (step cfg r op).2)
  have skips : ∀ x : Op × Out, (∀ y ∈ t ++ [x], ∀ n, y.1 ≠ .read .skip n) → K = returned t :=
    fun x hx => hKr fun y hy => hx y (List.mem_append_left _ hy)
  have invalKeep : ∀ x : Op × Out, r.invalid = true → ∃ y ∈ t ++ [x], y.2.valid = false ∨ y.1 = .markAsInvalid := by
    intro x hi
    obtain ⟨y, hy, hy2⟩ := h.inval hi
    exact ⟨y, List.mem_append_left _ hy, hy2⟩
  cases op with
  | conn cop =>
    have hh' := hh.produce cop hn (step cfg r (.conn cop)).1 rfl (step cfg r (.conn cop)).2 rfl
    have hs := hh.stream
    have hs' := hh'.stream
    have hdel : Connection.delivered (Connection.exec g (cops ++ [cop])).2 =
        Connection.delivered (Connection.exec g cops).2 := by
      simp only [Connection.exec, runTrace_snoc, Connection.delivered_snoc]
      rw [step_producer_delivers _ _ hn, List.append_nil]
    have hpk : (step cfg r (.conn cop)).1.conn.packets = r.conn.packets ++ more := by
      rw [hdel, hmore, ← hs, List.append_assoc] at hs'
      exact List.append_cancel_left hs'
    constructor
    · exact ⟨_, hh'⟩
    · refine ⟨K, ?_, by simp [hKl, consumedBy], fun hx => by simp [returnedBy, skips _ hx]⟩
      rw [itemStream, hmore, List.flatMap_append]
      rw [itemStream] at hK
      rw [hK]
      simp only [pending, hpk, List.flatMap_append]
      simp [step, List.append_assoc]
    · exact h.good
    · intro c hc
      obtain ⟨h1, h2⟩ := h.cur c hc
      exact ⟨h1, by rw [hmore]; exact List.mem_append_left _ h2⟩
    · rcases h.fresh with h1 | ⟨h1, h2⟩ | ⟨q, h1, h2⟩
      · exact .inl h1
      · exact .inr (.inl ⟨h1, by rw [hpk, hmore, h2]⟩)
      · refine .inr (.inr ⟨q, ?_, h2⟩)
        rw [hmore]
        cases hl : packetStream g t with
        | nil => rw [hl] at h1; exact nomatch h1
        | cons a l => rw [hl] at h1; exact h1
    · obtain ⟨dl, hdl⟩ := h.queued
      exact ⟨dl, by rw [hpk, hmore, hdl, List.append_assoc]⟩
    · intro hz
      exact h.prevOk (fun id n d hm => hz id n d (by rw [hmore]; exact List.mem_append_left _ hm))
    · exact fun hi => invalKeep _ hi
  | markAsInvalid =>
    obtain ⟨e1, e2, e3⟩ := packetStream_nonprod g t .markAsInvalid (step cfg r .markAsInvalid).2 (by simp)
    have hh' := hh.dequeues 0 (step cfg r .markAsInvalid).1 rfl _ e1 e3
    constructor
    · exact hh'
    · refine ⟨K, ?_, by simp [hKl, consumedBy], fun hx => by simp [returnedBy, skips _ hx]⟩
      rw [itemStream, e2]; exact hK
    · exact h.good
    · rw [e2]; exact h.cur
    · rw [e2]; exact h.fresh
    · rw [e2]; exact h.queued
    · rw [e2]; exact h.prevOk
    · intro _; exact ⟨_, List.mem_append_right _ (List.mem_singleton.mpr rfl), .inr rfl⟩
  | read m n =>
    obtain ⟨e1, e2, e3⟩ := packetStream_nonprod g t (.read m n) (step cfg r (.read m n)).2 (by simp)
    rcases hi : r.invalid with _ | _
    · obtain ⟨p', new, k, s, hret, hcount, hvals, hvals', hdoms, hvalid, hoff⟩ := readOp_spec cfg r m n hi h.good hf
      have hh' := hh.dequeues k (step cfg r (.read m n)).1 s.conn _ e1 e3
      constructor
      · exact hh'
      · refine ⟨K ++ (new.map Item.sample ++ ((step cfg r (.read m n)).2.event.toList.map fun e => Item.event e.1 e.2)), ?_, ?_, ?_⟩
        · rw [itemStream, e2]
          rw [itemStream] at hK
          rw [hK, s.pend]
          simp [step, List.append_assoc]
        · simp only [consumed_snoc, consumedBy, List.length_append, List.length_map, hKl]
          simp only [step, hcount]
        · intro hx
          have hm : m ≠ .skip := fun hm => hx _ (List.mem_append_right _ (List.mem_singleton.mpr rfl)) n (by rw [hm])
          rw [returned_snoc, skips _ hx]
          simp only [returnedBy, step, hvals hm]
      · exact s.good
      · intro c hc
        obtain ⟨h1, h2⟩ := s.curFrom (fun c hc => (h.cur c hc).1) c hc
        refine ⟨h1, ?_⟩
        rw [e2]
        rcases h2 with h2 | h2
        · exact (h.cur c h2).2
        · obtain ⟨dl, hdl⟩ := h.queued
          rw [hdl]; exact List.mem_append_right _ h2
      · rw [e2]
        rcases h.fresh with h1 | ⟨h1, h2⟩ | h1
        · exact .inl (s.typed h1)
        · by_cases ha : ∀ q, (packetStream g t).head? = some q → announces q = true
          · rcases s.fresh (.inr ⟨h1, by rw [h2]; exact ha⟩) with h3 | ⟨_, h4, h5⟩
            · exact .inl h3
            · refine .inr (.inl ⟨h4, ?_⟩)
              show (readOp cfg r m n).1.conn.packets = _
              rw [s.conn, deqs_packets, ← h2, h5]; simp
          · simp only [Classical.not_forall] at ha
            obtain ⟨q, hq, hq2⟩ := ha
            exact .inr (.inr ⟨q, hq, by simpa using hq2⟩)
        · exact .inr (.inr h1)
      · obtain ⟨dl, hdl⟩ := h.queued
        refine ⟨dl ++ r.conn.packets.take k, ?_⟩
        show _ = _ ++ (readOp cfg r m n).1.conn.packets
        rw [e2, s.conn, deqs_packets, List.append_assoc, List.take_append_drop]; exact hdl
      · intro hz
        rw [e2] at hz
        obtain ⟨dl, hdl⟩ := h.queued
        exact s.prevOk (fun id n d hm => hz id n d (by rw [hdl]; exact List.mem_append_right _ hm)) (h.prevOk hz)
      · intro hi'
        refine ⟨_, List.mem_append_right _ (List.mem_singleton.mpr rfl), .inl ?_⟩
        show (readOp cfg r m n).2.valid = false
        rw [hvalid]
        rw [show (readOp cfg r m n).1.invalid = true from hi']; rfl
    · have hst : step cfg r (.read m n) = (r, { ret := .ignored, valid := false }) := by
        simp [step, readOp, hi]
      rw [hst] at e1 e2 e3 ⊢
      have hh' := hh.dequeues 0 r rfl _ e1 e3
      constructor
      · exact hh'
      · refine ⟨K, ?_, by simp [hKl, consumedBy], fun hx => by simp [returnedBy, skips _ hx]⟩
        rw [itemStream, e2]; exact hK
      · exact h.good
      · rw [e2]; exact h.cur
      · rw [e2]; exact h.fresh
      · rw [e2]; exact h.queued
      · rw [e2]; exact h.prevOk
      · exact fun hi => invalKeep _ hi

theorem exec_snoc (cfg : Cfg) (g : Bool) (ops : List Op) (op : Op) : exec cfg g (ops ++ [op]) =
    ((step cfg (exec cfg g ops).1 op).1, (exec cfg g ops).2 ++ [(op, (step cfg (exec cfg g ops).1 op).2)]) := by
  simp [exec, runTrace_snoc]

theorem rinv (cfg : Cfg) (g : Bool) (ops : List Op) (hn : ∀ op ∈ ops, Normal op)
    (hf : ∀ x ∈ (exec cfg g ops).2, ¬ IsFault x.2) : RInv cfg g (exec cfg g ops).1 (exec cfg g ops).2 := by
  induction ops using list_snoc_induction with
  | nil => exact rinv_init cfg g
  | snoc l a ih =>
    rw [exec_snoc] at hf ⊢
    exact rinv_step (ih (fun op ho => hn op (by simp [ho])) fun x hx => hf x (List.mem_append_left _ hx)) a
      (hn a (by simp)) (hf _ (List.mem_append_right _ (List.mem_singleton.mpr rfl)))

/-- No call faults when the value descriptor comes first and (for reads with domain) every packet has
a domain packet. -/
theorem noFault (cfg : Cfg) (g : Bool) (ops : List Op) (hn : ∀ op ∈ ops, Normal op)
    (ht : (∀ m n, Op.read m n ∈ ops → m = .skip) ∨
      ∀ q, (packetStream g (exec cfg g ops).2).head? = some q → announces q = true)
    (hd : (∀ n, Op.read .withDomain n ∉ ops) ∨ ∀ q ∈ packetStream g (exec cfg g ops).2, domainCovers q = true) :
    ∀ x ∈ (exec cfg g ops).2, ¬ IsFault x.2 := by
  induction ops using list_snoc_induction with
  | nil => intro x hx; exact nomatch hx
  | snoc l a ih =>
    rw [exec_snoc] at ht hd ⊢
    obtain ⟨more, hmore⟩ := packetStream_prefix g (exec cfg g l).2 (a, (step cfg (exec cfg g l).1 a).2)
    dsimp only at ht hd
    rw [hmore] at ht hd
    have ht' : (∀ m n, Op.read m n ∈ l → m = .skip) ∨
        ∀ q, (packetStream g (exec cfg g l).2).head? = some q → announces q = true := by
      rcases ht with h | h
      · exact .inl fun m n hm => h m n (by simp [hm])
      · refine .inr fun q hq => h q ?_
        cases hl : packetStream g (exec cfg g l).2 with
        | nil => rw [hl] at hq; exact nomatch hq
        | cons a l => rw [hl] at hq; exact hq
    have hd' : (∀ n, Op.read .withDomain n ∉ l) ∨
        ∀ q ∈ packetStream g (exec cfg g l).2, domainCovers q = true := by
      rcases hd with h | h
      · exact .inl fun n hm => h n (by simp [hm])
      · exact .inr fun q hq => h q (List.mem_append_left _ hq)
    have hl := ih (fun op ho => hn op (by simp [ho])) ht' hd'
    have hinv := rinv cfg g l (fun op ho => hn op (by simp [ho])) hl
    intro x hx
    rw [List.mem_append, List.mem_singleton] at hx
    rcases hx with hx | hx
    · exact hl x hx
    · subst hx
      generalize (exec cfg g l).1 = r at *
      cases a with
      | conn c => rintro ⟨e, he⟩; simp [step] at he
      | markAsInvalid => rintro ⟨e, he⟩; simp [step] at he
      | read m n =>
        rintro ⟨e, he⟩
        simp only [step, readOp] at he
        split at he
        · exact nomatch he
        · obtain ⟨r', p', ev, hloop⟩ := loop_fuel cfg m (fuelFor r) r { rem := n }
            (by simp only [measure, fuelFor]; split <;> split <;> omega) hinv.good
            (by
              rcases ht with h | h
              · exact .inl (h m n (by simp))
              · rcases ht' with h' | h'
                · refine .inr (hinv.typed fun q hq => h q ?_)
                  cases hl : packetStream g (exec cfg g l).2 with
                  | nil => rw [hl] at hq; exact nomatch hq
                  | cons a l => rw [hl] at hq; exact hq
                · exact .inr (hinv.typed h'))
            (by
              intro hm
              rcases hd with h | h
              · exact absurd (by rw [hm]; simp) (h n)
              · refine ⟨fun c hc => ⟨(hinv.cur c hc).1, h _ (List.mem_append_left _ (hinv.cur c hc).2)⟩, fun q hq => ?_⟩
                obtain ⟨dl, hdl⟩ := hinv.queued
                exact h q (List.mem_append_left _ (by rw [hdl]; exact List.mem_append_right _ hq)))
          rw [hloop] at he
          exact nomatch he

end Verif.Reader
