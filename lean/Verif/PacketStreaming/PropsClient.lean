import Verif.PacketStreaming.AnyOrder

/-!
# Properties of the packet streaming client fed by the server (C11, C12, C47)

`Cli.init.run (srvExec m thr ops).1.emitted` feeds a new client with all buffers the server queued during
the history `ops`, in order.
-/

namespace Verif.PacketStreaming

/-! ## C11 The client reproduces the stream -/

/-- C11: if packets are sent while the client holds their domain packet, the client never fails and
delivers exactly the expected sequence of packets and descriptor changes. -/
theorem C11_exact (m thr : Nat) (hm : SizeOK m) (ops : List SrvOp)
    (hwf : DomainFirst (srvExec m thr ops).2.reverse) :
    ∃ c, Cli.init.run (srvExec m thr ops).1.emitted = .ok c ∧
      c.out = expectedOut (srvExec m thr ops).2.reverse := by
  obtain ⟨c, h1, h2⟩ := firstInv m thr hm ops hwf
  exact ⟨c, h1, h2.out⟩

theorem deliveredPackets_append (a b) : deliveredPackets (a ++ b) = deliveredPackets a ++ deliveredPackets b := by
  simp [deliveredPackets]

theorem copyOf_contents {desc : Option Desc} {p : DataPacket}
    (h : isBinary desc p = true → p.samples = 1 ∧ p.offset = .int 0) :
    (⟨(copyOf desc p).src, (copyOf desc p).domain, (copyOf desc p).samples, (copyOf desc p).offset,
      (copyOf desc p).payload⟩ : DataPacket) = p := by
  obtain ⟨id, dom, n, off, pl⟩ := p
  unfold copyOf
  cases hb : isBinary desc ⟨id, dom, n, off, pl⟩ with
  | false => simp [hb]
  | true =>
    obtain ⟨h1, h2⟩ := h hb
    simp only at h1 h2
    subst h1 h2
    simp [hb]

theorem consistent_tail {x} {t : SrvTrace} (h : Consistent (x :: t)) : Consistent t := by
  obtain ⟨op, r⟩ := x
  cases op <;> cases r <;> simp only [Consistent] at h <;> first | exact h | exact h.2.2

/-- Objects have the contents of the packet they were made from. -/
theorem objectOf_contents (t : SrvTrace) (h : Consistent t) (id : Nat) :
    (∀ q, objectOf id t = some q → ∃ g ∈ givenPackets t, g.2.id = id ∧
      (⟨q.src, q.domain, q.samples, q.offset, q.payload⟩ : DataPacket) = g.2) ∧
    (held id t = true → (objectOf id t).isSome) := by
  induction t with
  | nil => exact ⟨by simp [objectOf], by simp [held]⟩
  | cons x t ih =>
    have hm : ∀ g ∈ givenPackets t, g ∈ givenPackets (x :: t) := by
      intro g hg
      simp only [givenPackets, List.mem_filterMap] at hg ⊢
      obtain ⟨y, hy, he⟩ := hg
      exact ⟨y, List.mem_cons_of_mem _ hy, he⟩
    obtain ⟨i1, i2⟩ := ih (consistent_tail h)
    have lift : ∀ q, objectOf id t = some q → ∃ g ∈ givenPackets (x :: t), g.2.id = id ∧
        (⟨q.src, q.domain, q.samples, q.offset, q.payload⟩ : DataPacket) = g.2 := by
      intro q hq
      obtain ⟨g, hg, e⟩ := i1 q hq
      exact ⟨g, hm g hg, e⟩
    obtain ⟨op, r⟩ := x
    cases op with
    | addData sig p mark =>
      cases r with
      | ok =>
        obtain ⟨h1, h2, h3⟩ := h
        constructor
        · intro q hq
          simp only [objectOf] at hq
          split at hq
          · rename_i hc
            simp only [Option.some.injEq] at hq
            subst hq
            refine ⟨(sig, p), by simp [givenPackets], hc.1, copyOf_contents h1⟩
          · exact lift q hq
        · intro hh
          simp only [held] at hh
          simp only [objectOf]
          by_cases hp : p.id = id
          · cases hb : held id t with
            | false => simp [hp]
            | true => simp [i2 hb]
          · rw [if_neg hp] at hh
            simp [hp, i2 hh]
      | _ => exact ⟨lift, i2⟩
    | destroy i =>
      refine ⟨lift, ?_⟩
      intro hh
      simp only [held] at hh
      split at hh
      · cases hh
      · exact i2 hh
    | _ => exact ⟨lift, i2⟩

theorem expectedOut_contents (t : SrvTrace) (h : Consistent t) :
    deliveredPackets (expectedOut t) = (givenPackets t.reverse) := by
  induction t with
  | nil => rfl
  | cons x t ih =>
    have hi := ih (consistent_tail h)
    have e : givenPackets (x :: t).reverse = givenPackets t.reverse ++ givenPackets [x] := by
      simp [givenPackets]
    rw [e, ← hi]
    obtain ⟨op, r⟩ := x
    cases op with
    | addEvent sig ev len =>
      simp only [expectedOut]
      rw [deliveredPackets_append]
      split <;> simp [deliveredPackets, givenPackets]
    | addData sig p mark =>
      cases r with
      | ok =>
        obtain ⟨h1, h2, h3⟩ := h
        simp only [expectedOut]
        rw [deliveredPackets_append]
        congr 1
        have hobj : ∃ q, objectOf p.id ((.addData sig p mark, .ok) :: t) = some q ∧
            (⟨q.src, q.domain, q.samples, q.offset, q.payload⟩ : DataPacket) = p := by
          simp only [objectOf]
          cases hb : held p.id t with
          | false => exact ⟨_, by simp, copyOf_contents h1⟩
          | true =>
            obtain ⟨j1, j2⟩ := objectOf_contents t h3 p.id
            obtain ⟨q, hq⟩ := Option.isSome_iff_exists.mp (j2 hb)
            obtain ⟨g, hg, e1, e2⟩ := j1 q hq
            exact ⟨q, by simp [hq], e2.trans (h2 g hg e1)⟩
        obtain ⟨q, hq, hc⟩ := hobj
        rw [hq]
        show [(sig, (⟨q.src, q.domain, q.samples, q.offset, q.payload⟩ : DataPacket))] = _
        rw [hc]; rfl
      | _ => simp [expectedOut, givenPackets]
    | _ => simp [expectedOut, givenPackets]

/-- C11: the delivered packets are exactly the given ones, in order, on the same signals, with the same
contents and domain packets. -/
theorem C11_same_packets (m thr : Nat) (hm : SizeOK m) (ops : List SrvOp)
    (hwf : DomainFirst (srvExec m thr ops).2.reverse) (hcons : Consistent (srvExec m thr ops).2.reverse) :
    ∃ c, Cli.init.run (srvExec m thr ops).1.emitted = .ok c ∧
      deliveredPackets c.out = givenPackets (srvExec m thr ops).2 := by
  obtain ⟨c, h1, h2⟩ := C11_exact m thr hm ops hwf
  refine ⟨c, h1, ?_⟩
  rw [h2, expectedOut_contents _ hcons, List.reverse_reverse]

/-- A history with a domain packet (1) shared by two value packets (2, 3), of which 2 is sent on two signals. -/
def exampleOps : List SrvOp :=
  [.addEvent 1 (.descChanged (some (some ⟨7, false⟩)) (some none)) 20,
   .addEvent 3 (.descChanged (some (some ⟨7, false⟩)) (some none)) 20,
   .addEvent 2 (.descChanged (some (some ⟨8, false⟩)) (some none)) 20,
   .addData 2 ⟨1, none, 3, .int 40, none⟩ false, .addData 1 ⟨2, some 1, 3, .none, some [1, 2, 3]⟩ false,
   .addData 3 ⟨2, some 1, 3, .none, some [1, 2, 3]⟩ false, .addEvent 1 (.descChanged (some (some ⟨9, false⟩)) none) 5,
   .addData 1 ⟨3, some 1, 2, .none, some [4, 5]⟩ true, .destroy 2, .destroy 1, .sendRelease true]

example : SizeOK 100 ∧ DomainFirst (srvExec 100 5 exampleOps).2.reverse ∧
    Consistent (srvExec 100 5 exampleOps).2.reverse ∧
    (givenPackets (srvExec 100 5 exampleOps).2).length = 4 ∧
    (expectedOut (srvExec 100 5 exampleOps).2.reverse).length = 8 := by
  refine ⟨by unfold SizeOK U32; omega, by decide, by decide, by decide, by decide⟩

/-! ## C47 Domain packets in any order -/

/-- C47: whatever the order of value and domain packets, the client never fails; every packet given to the
server has been delivered exactly once or waits, on its signal, with its payload and domain packet. -/
theorem C47_exactly_once (m thr : Nat) (hm : SizeOK m) (ops : List SrvOp)
    (hwf : Lawful (srvExec m thr ops).2.reverse) :
    ∃ c, Cli.init.run (srvExec m thr ops).1.emitted = .ok c ∧
      (outItems c.out ++ wlist c).Perm (given (srvExec m thr ops).2) := by
  obtain ⟨c, h1, h2⟩ := anyInv m thr hm ops hwf
  exact ⟨c, h1, h2.items⟩

theorem waiting_nil {s : Srv} {t : SrvTrace} {c : Cli} (h : AnyInv s t c)
    (hall : ∀ g ∈ given t, ∀ d, g.domain = some d → wasSent d t) : c.waiting = [] := by
  have key : ∀ n, ∀ w ∈ c.waiting, w.id < n → False := by
    intro n
    induction n with
    | zero => intro w _ h; omega
    | succ n ih =>
      intro w hw hlt
      obtain ⟨d, hd, hlt', hor⟩ := h.dom w hw
      obtain ⟨g, hg, _, e2, _⟩ := h.was w hw
      have hs := hall g hg d (by rw [e2, hd])
      rcases hor with hn | hi
      · exact hn hs
      · obtain ⟨v, hv, e⟩ := mem_ids.mp hi
        exact ih v hv (by omega)
  cases hc : c.waiting with
  | nil => rfl
  | cons w l => exact (key (w.id + 1) w (by simp [hc]) (by omega)).elim

/-- C47: once every referenced domain packet was sent, everything is delivered exactly once. -/
theorem C47_complete (m thr : Nat) (hm : SizeOK m) (ops : List SrvOp)
    (hwf : Lawful (srvExec m thr ops).2.reverse)
    (hall : ∀ g ∈ given (srvExec m thr ops).2, ∀ d, g.domain = some d → wasSent d (srvExec m thr ops).2) :
    ∃ c, Cli.init.run (srvExec m thr ops).1.emitted = .ok c ∧ c.waiting = [] ∧
      (outItems c.out).Perm (given (srvExec m thr ops).2) := by
  obtain ⟨c, h1, h2⟩ := anyInv m thr hm ops hwf
  have hw := waiting_nil h2 hall
  refine ⟨c, h1, hw, ?_⟩
  have := h2.items
  simpa [wlist, hw] using this

/-- C47: a packet is held back only for a domain packet that was not sent or is itself held back. -/
theorem C47_waits_for_domain (m thr : Nat) (hm : SizeOK m) (ops : List SrvOp)
    (hwf : Lawful (srvExec m thr ops).2.reverse) :
    ∃ c, Cli.init.run (srvExec m thr ops).1.emitted = .ok c ∧
      ∀ w ∈ c.waiting, ∃ d, w.domain = some d ∧
        (¬ wasSent d (srvExec m thr ops).2 ∨ ∃ v ∈ c.waiting, v.id = d) := by
  obtain ⟨c, h1, h2⟩ := anyInv m thr hm ops hwf
  refine ⟨c, h1, fun w hw => ?_⟩
  obtain ⟨d, e, _, hor⟩ := h2.dom w hw
  exact ⟨d, e, hor.imp_right mem_ids.mp⟩

/-- A value packet (2) sent twice before its domain packet (1), with a descriptor change in between. -/
def lateDomainOps : List SrvOp :=
  [.addEvent 1 (.descChanged (some (some ⟨7, false⟩)) (some none)) 20,
   .addEvent 2 (.descChanged (some (some ⟨8, false⟩)) (some none)) 20,
   .addEvent 3 (.descChanged (some (some ⟨8, false⟩)) (some none)) 20,
   .addData 1 ⟨2, some 1, 3, .none, some [1, 2, 3]⟩ false, .addData 3 ⟨2, some 1, 3, .none, some [1, 2, 3]⟩ false,
   .addEvent 1 (.descChanged (some (some ⟨9, false⟩)) none) 5,
   .addData 2 ⟨1, none, 3, .int 40, none⟩ true]

example : SizeOK 100 ∧ Lawful (srvExec 100 5 lateDomainOps).2.reverse ∧
    (given (srvExec 100 5 lateDomainOps).2).length = 3 ∧
    (∀ g ∈ given (srvExec 100 5 lateDomainOps).2, ∀ d, g.domain = some d → wasSent d (srvExec 100 5 lateDomainOps).2) := by
  refine ⟨by unfold SizeOK U32; omega, by decide, by decide, by decide⟩

/-- C11/C47 finding: with the domain packet sent last, the client delivers the value packet after a
descriptor change that followed it, and with the new descriptor: the sequence on the signal differs. -/
theorem C47_violation_reordered : ∃ ops, SizeOK 100 ∧ Lawful (srvExec 100 5 ops).2.reverse ∧
    ∃ c, Cli.init.run (srvExec 100 5 ops).1.emitted = .ok c ∧ c.waiting = [] ∧
      onSignal 1 (expectedOut (srvExec 100 5 ops).2.reverse) =
        [.event 1 (.descChanged (some (some ⟨7, false⟩)) (some none)),
         .data 1 ⟨2, some ⟨7, false⟩, some 1, 3, .none, some [1, 2, 3], 3⟩,
         .event 1 (.descChanged (some (some ⟨9, false⟩)) none)] ∧
      onSignal 1 c.out =
        [.event 1 (.descChanged (some (some ⟨7, false⟩)) (some none)),
         .event 1 (.descChanged (some (some ⟨9, false⟩)) none),
         .data 1 ⟨2, some ⟨9, false⟩, some 1, 3, .none, some [1, 2, 3], 3⟩] := by
  refine ⟨lateDomainOps, by unfold SizeOK U32; omega, by decide, ?_⟩
  cases h : Cli.init.run (srvExec 100 5 lateDomainOps).1.emitted with
  | error e =>
    have : (match Cli.init.run (srvExec 100 5 lateDomainOps).1.emitted with | .ok _ => true | .error _ => false) = true := by
      decide
    rw [h] at this; cases this
  | ok c =>
    have : (match Cli.init.run (srvExec 100 5 lateDomainOps).1.emitted with
        | .ok c => (c.waiting, onSignal 1 c.out) | .error _ => ([], [])) = ([],
        [.event 1 (.descChanged (some (some ⟨7, false⟩)) (some none)),
         .event 1 (.descChanged (some (some ⟨9, false⟩)) none),
         .data 1 ⟨2, some ⟨9, false⟩, some 1, 3, .none, some [1, 2, 3], 3⟩]) := by decide
    rw [h] at this
    simp only [Prod.mk.injEq] at this
    exact ⟨c, rfl, this.1, by decide, this.2⟩

/-! ## C12 No reference is kept after all packets are released -/

theorem ready_nil_iff (m thr : Nat) (hm : SizeOK m) (ops : List SrvOp) :
    (srvExec m thr ops).1.ready = [] ↔
      announced (bodies (srvExec m thr ops).1) = destroyedHeld (srvExec m thr ops).2.reverse := by
  rw [← (srvInv m thr hm ops).rel]
  constructor
  · intro h; rw [h, List.append_nil]
  · intro h
    have := congrArg List.length h
    rw [List.length_append] at this
    exact List.eq_nil_of_length_eq_zero (by omega)

/-- C12: with packets sent while the client holds their domain packet, `areReferencesCleared` answers true
exactly when no sent packet is still held and every destroyed one was announced. -/
theorem C12_domain_first (m thr : Nat) (hm : SizeOK m) (ops : List SrvOp)
    (hwf : DomainFirst (srvExec m thr ops).2.reverse) :
    ∃ c, Cli.init.run (srvExec m thr ops).1.emitted = .ok c ∧
      (c.referencesCleared = true ↔ (∀ id, held id (srvExec m thr ops).2.reverse = false) ∧
        announced (bodies (srvExec m thr ops).1) = destroyedHeld (srvExec m thr ops).2.reverse) := by
  obtain ⟨c, h1, h2⟩ := firstInv m thr hm ops hwf
  refine ⟨c, h1, ?_⟩
  have hs := (srvInv m thr hm ops).sent
  rw [← ready_nil_iff m thr hm ops]
  unfold Cli.referencesCleared
  rw [h2.waiting, h2.refBufs]
  simp only [List.isEmpty_nil, Bool.true_and, Bool.and_true, List.isEmpty_iff]
  constructor
  · intro he
    have hn : ∀ id, ¬ (id ∈ (srvExec m thr ops).1.sent ∨ id ∈ (srvExec m thr ops).1.ready) := by
      intro id hid
      have e := h2.refs id
      rw [if_pos hid, he] at e
      have := h2.obj id hid
      rw [← e] at this
      cases this
    refine ⟨fun id => ?_, List.eq_nil_iff_forall_not_mem.mpr fun id hid => hn id (.inr hid)⟩
    cases hh : held id (srvExec m thr ops).2.reverse with
    | false => rfl
    | true => exact (hn id (.inl ((hs id).mpr hh))).elim
  · rintro ⟨ha, hb⟩
    apply AList.get_eq_none_of_nil
    intro id
    rw [h2.refs id, if_neg]
    rintro (h | h)
    · rw [hs id, ha id] at h; cases h
    · rw [hb] at h; cases h

/-- Both sides of the equivalence occur: cleared at the end of `exampleOps`, not before the last two calls. -/
example : DomainFirst (srvExec 100 5 exampleOps).2.reverse ∧
    (Cli.init.run (srvExec 100 5 exampleOps).1.emitted).toOption.map Cli.referencesCleared = some true ∧
    DomainFirst (srvExec 100 5 (exampleOps.take 9)).2.reverse ∧
    (Cli.init.run (srvExec 100 5 (exampleOps.take 9)).1.emitted).toOption.map Cli.referencesCleared = some false := by
  refine ⟨by decide, by decide, by decide, by decide⟩

/-- C12 in any order, for histories in which no packet the client holds is handed over exclusively by
sending it again (see `C12_violation_handed_over`). -/
theorem C12_any_order_partial (m thr : Nat) (hm : SizeOK m) (ops : List SrvOp)
    (hwf : Lawful (srvExec m thr ops).2.reverse)
    (hall : ∀ g ∈ given (srvExec m thr ops).2, ∀ d, g.domain = some d → wasSent d (srvExec m thr ops).2)
    (hno : ∀ id, ¬ handedOverAgain id (srvExec m thr ops).2.reverse)
    (hheld : ∀ id, held id (srvExec m thr ops).2.reverse = false)
    (hann : announced (bodies (srvExec m thr ops).1) = destroyedHeld (srvExec m thr ops).2.reverse) :
    ∃ c, Cli.init.run (srvExec m thr ops).1.emitted = .ok c ∧ c.referencesCleared = true := by
  obtain ⟨c, h1, h2⟩ := anyInv m thr hm ops hwf
  refine ⟨c, h1, ?_⟩
  have hs := (srvInv m thr hm ops).sent
  have hr := (ready_nil_iff m thr hm ops).mpr hann
  have hw := waiting_nil h2 hall
  have hb : c.refBufs = [] := List.eq_nil_iff_forall_not_mem.mpr fun i hi => by
    have := (h2.bufs i).mp hi
    rw [hw] at this; cases this
  have hp : c.refPackets = [] := by
    apply AList.get_eq_none_of_nil
    intro id
    cases hg : c.refPackets.get id with
    | none => rfl
    | some o =>
      rcases h2.keys' id ((AList.has_iff _ _).mpr ⟨o, hg⟩) with h | h | h
      · rw [hs id, hheld id] at h; cases h
      · rw [hr] at h; cases h
      · exact (hno id h).elim
  simp [Cli.referencesCleared, hb, hp, hw]

example : Lawful (srvExec 100 5 (lateDomainOps ++ [.destroy 2, .sendRelease true])).2.reverse ∧
    (∀ id, ¬ handedOverAgain id (srvExec 100 5 (lateDomainOps ++ [.destroy 2, .sendRelease true])).2.reverse) ∧
    (∀ id, held id (srvExec 100 5 (lateDomainOps ++ [.destroy 2, .sendRelease true])).2.reverse = false) ∧
    announced (bodies (srvExec 100 5 (lateDomainOps ++ [.destroy 2, .sendRelease true])).1) =
      destroyedHeld (srvExec 100 5 (lateDomainOps ++ [.destroy 2, .sendRelease true])).2.reverse := by
  have e : (srvExec 100 5 (lateDomainOps ++ [.destroy 2, .sendRelease true])).2 =
      (lateDomainOps ++ [SrvOp.destroy 2, SrvOp.sendRelease true]).map (fun o => (o, SrvRes.ok)) := by decide
  refine ⟨by decide, ?_, ?_, by decide⟩
  · rw [e]; intro id; simp [lateDomainOps, handedOverAgain, held]; omega
  · rw [e]; intro id; simp [lateDomainOps, held]; omega

/-- C12 finding: a packet waiting for its domain packet that is sent again with the release mark is kept by
the client for ever: nothing is held, nothing remains to be announced, references are not cleared. -/
theorem C12_violation_handed_over : ∃ ops, SizeOK 100 ∧ Lawful (srvExec 100 5 ops).2.reverse ∧
    (∀ g ∈ given (srvExec 100 5 ops).2, ∀ d, g.domain = some d → wasSent d (srvExec 100 5 ops).2) ∧
    (srvExec 100 5 ops).1.sent = [] ∧ (srvExec 100 5 ops).1.ready = [] ∧
    (Cli.init.run (srvExec 100 5 ops).1.emitted).toOption.map Cli.referencesCleared = some false := by
  refine ⟨[.addEvent 1 (.descChanged (some (some ⟨7, false⟩)) (some none)) 20,
   .addEvent 2 (.descChanged (some (some ⟨8, false⟩)) (some none)) 20,
   .addData 1 ⟨2, some 1, 3, .none, some [1, 2, 3]⟩ false, .addData 1 ⟨2, some 1, 3, .none, some [1, 2, 3]⟩ true,
   .addData 2 ⟨1, none, 3, .int 40, none⟩ true], by unfold SizeOK U32; omega, by decide, by decide, by decide, by decide, by decide⟩

end Verif.PacketStreaming
