import Verif.Pull.Spec

/-! # What one act does -/

namespace Verif.Pull

/-- What the client has received and what waits for it. -/
def State.all (s : State) : List Pkt := s.got ++ s.waiting

/-- The part of the state that reading and telling leave as it is. -/
structure Same (s t : State) : Prop where
  all : t.all = s.all
  live : t.live = s.live
  active : t.active = s.active
  desc : t.desc = s.desc
  ext : t.ext = s.ext
  callback : t.callback = s.callback
  sched : t.sched = s.sched
  held : t.held.isSome = s.held.isSome
  last : t.held.map Conn.last = s.held.map Conn.last

theorem Same.refl (s : State) : Same s s := ⟨rfl, rfl, rfl, rfl, rfl, rfl, rfl, rfl, rfl⟩

theorem Same.trans {s t u : State} (a : Same s t) (b : Same t u) : Same s u :=
  ⟨b.all.trans a.all, b.live.trans a.live, b.active.trans a.active, b.desc.trans a.desc,
    b.ext.trans a.ext, b.callback.trans a.callback, b.sched.trans a.sched, b.held.trans a.held,
    b.last.trans a.last⟩

theorem same_take (s : State) (n : Option Nat) : Same s (s.take n) := by
  unfold State.take
  cases h : s.held with
  | none => exact Same.refl s
  | some c =>
    cases n with
    | none => exact ⟨by simp [State.all, State.waiting, h], rfl, rfl, rfl, rfl, rfl, rfl, by simp [h], by simp [h]⟩
    | some n =>
      exact ⟨by simp [State.all, State.waiting, h], rfl, rfl, rfl, rfl, rfl, rfl, by simp [h], by simp [h]⟩

theorem same_tell (s : State) (n : Notice) : Same s (s.tell n) := by
  unfold State.tell
  cases h : s.ext with
  | none => exact Same.refl s
  | some e => exact ⟨rfl, rfl, rfl, rfl, h.symm, rfl, rfl, rfl, rfl⟩

theorem same_received (s : State) : Same s s.received := by
  unfold State.received
  cases s.callback with
  | none => exact same_tell s _
  | some c =>
    have a : Same s { s.take c.takes with calls := s.calls + 1 } :=
      (same_take s c.takes).trans ⟨rfl, rfl, rfl, rfl, rfl, rfl, rfl, rfl, rfl⟩
    simp only
    split
    · exact a
    · exact a.trans (same_tell _ _)

theorem same_notify (s : State) : Same s s.notify := by
  unfold State.notify
  split
  · exact ⟨rfl, rfl, rfl, rfl, rfl, rfl, rfl, rfl, rfl⟩
  · exact same_received s

/-- The descriptor announced last after a packet. -/
def lastAfter (o : Option Nat) : Pkt → Option Nat
  | .desc d => some d
  | .data _ _ => o

theorem put_fields (s : State) (p : Pkt) (c : Conn) (h : s.held = some c) :
    (s.put p).all = s.all ++ [p] ∧ (s.put p).live = s.live ∧ (s.put p).active = s.active
      ∧ (s.put p).desc = s.desc ∧ (s.put p).ext = s.ext ∧ (s.put p).callback = s.callback
      ∧ (s.put p).sched = s.sched ∧ (s.put p).held = some ⟨c.queue ++ [p], lastAfter c.last p⟩
      ∧ (s.put p).got = s.got ∧ (s.put p).calls = s.calls ∧ (s.put p).pending = s.pending
      ∧ (s.put p).told = s.told := by
  cases p <;> simp [State.put, h, State.all, State.waiting, lastAfter]

/-- What holds of the reader and the line all the time. -/
structure Inv (l : Line) (s : State) : Prop where
  on : l.on = s.live
  active : l.active = s.active
  desc : l.on = true → l.desc = s.desc
  refuses : l.refuses = decide (s.ext = some ⟨true⟩)
  held : s.live = true → s.held.isSome = true

theorem inv_init : Inv .start init := ⟨rfl, rfl, nofun, rfl, nofun⟩

theorem arrive_spec (s : State) (p : Pkt) (hh : s.live = true → s.held.isSome = true) :
    (s.arrive p).all = s.all
        ++ (if s.live && (match p with | .desc _ => true | .data _ _ => s.active) then [p] else [])
      ∧ (s.arrive p).live = s.live ∧ (s.arrive p).active = s.active ∧ (s.arrive p).desc = s.desc
      ∧ (s.arrive p).ext = s.ext ∧ (s.arrive p).held.isSome = s.held.isSome
      ∧ (s.arrive p).callback = s.callback ∧ (s.arrive p).sched = s.sched
      ∧ (s.arrive p).held.map Conn.last = s.held.map (fun c =>
        if s.live && (match p with | .desc _ => true | .data _ _ => s.active) then lastAfter c.last p
        else c.last) := by
  cases hl : s.live with
  | false => simp [State.arrive, hl]
  | true =>
    obtain ⟨c, hc⟩ := Option.isSome_iff_exists.mp (hh hl)
    obtain ⟨a1, a2, a3, a4, a5, a6, a7, a8, _⟩ := put_fields s p c hc
    have n := same_notify (s.put p)
    have e : s.live = true → True := fun _ => trivial
    cases p with
    | desc d =>
      simp only [State.arrive, hl, Bool.not_true, Bool.false_eq_true, if_false, Bool.true_and, if_true]
      exact ⟨n.all.trans a1, n.live.trans (a2.trans hl), n.active.trans a3, n.desc.trans a4, n.ext.trans a5,
        n.held.trans (by rw [a8, hc]; rfl), n.callback.trans a6, n.sched.trans a7,
        n.last.trans (by rw [a8, hc]; rfl)⟩
    | data d m =>
      cases ha : s.active with
      | false =>
        simp [State.arrive, hl, ha]
      | true =>
        simp only [State.arrive, hl, ha, Bool.not_true, Bool.false_eq_true, if_false, Bool.true_and, if_true]
        exact ⟨n.all.trans a1, n.live.trans (a2.trans hl), n.active.trans (a3.trans ha), n.desc.trans a4,
          n.ext.trans a5, n.held.trans (by rw [a8, hc]; rfl), n.callback.trans a6, n.sched.trans a7,
          n.last.trans (by rw [a8, hc]; rfl)⟩

theorem same_read (s : State) : Same s s.read.1 := by
  unfold State.read
  cases s.held with
  | none => exact Same.refl s
  | some c =>
    cases h : c.queue with
    | nil => simp only [h]; exact Same.refl s
    | cons p ps => simp only [h]; exact same_take s _

theorem same_readAll (s : State) : Same s s.readAll.1 := by
  unfold State.readAll
  split
  · exact Same.refl s
  · exact same_take s (some _)

theorem Inv.same {l : Line} {s t : State} (i : Inv l s) (m : Same s t) : Inv l t :=
  ⟨i.on.trans m.live.symm, i.active.trans m.active.symm, fun h => (i.desc h).trans m.desc.symm,
    by rw [i.refuses, m.ext], fun h => by rw [m.held]; exact i.held (by rw [← m.live]; exact h)⟩

/-- A new connection that is not refused. -/
theorem connect_accepted (s : State) (d : Nat) (h : s.ext ≠ some ⟨true⟩) :
    (s.connect d).2 = .none ∧ (s.connect d).1.all = s.got ++ [.desc d] ∧ (s.connect d).1.live = true
      ∧ (s.connect d).1.active = s.active ∧ (s.connect d).1.desc = d ∧ (s.connect d).1.ext = s.ext
      ∧ (s.connect d).1.held.isSome = true ∧ (s.connect d).1.callback = s.callback
      ∧ (s.connect d).1.sched = s.sched ∧ (s.connect d).1.held.map Conn.last = some (some d) := by
  have k : ∀ t : State, t.held = some ⟨[], none⟩ → t.got = s.got → t.live = true → t.active = s.active →
      t.desc = d → t.ext = s.ext → t.callback = s.callback → t.sched = s.sched →
      ((t.put (.desc d)).received).all = s.got ++ [.desc d] ∧ ((t.put (.desc d)).received).live = true
      ∧ ((t.put (.desc d)).received).active = s.active ∧ ((t.put (.desc d)).received).desc = d
      ∧ ((t.put (.desc d)).received).ext = s.ext ∧ ((t.put (.desc d)).received).held.isSome = true
      ∧ ((t.put (.desc d)).received).callback = s.callback
      ∧ ((t.put (.desc d)).received).sched = s.sched
      ∧ ((t.put (.desc d)).received).held.map Conn.last = some (some d) := by
    intro t e1 e2 e3 e4 e5 e6 e7 e8
    obtain ⟨a1, a2, a3, a4, a5, a6, a7, a8, _⟩ := put_fields t (.desc d) _ e1
    have n := same_received (t.put (.desc d))
    refine ⟨n.all.trans (a1.trans ?_), n.live.trans (a2.trans e3), n.active.trans (a3.trans e4),
      n.desc.trans (a4.trans e5), n.ext.trans (a5.trans e6), n.held.trans (by rw [a8]; rfl),
      n.callback.trans (a6.trans e7), n.sched.trans (a7.trans e8), n.last.trans (by rw [a8]; rfl)⟩
    simp [State.all, State.waiting, e1, e2]
  cases he : s.ext with
  | none =>
    have := k { s with held := some ⟨[], none⟩, live := true, desc := d } rfl rfl rfl rfl rfl rfl rfl rfl
    rw [he] at this
    simp only [State.connect, he]
    exact ⟨trivial, this⟩
  | some e =>
    cases e with
    | mk r =>
      cases r with
      | true => exact absurd he h
      | false =>
        have := k (State.tell { s with held := some ⟨[], none⟩, live := true, desc := d } .connected)
          (by simp [State.tell, he]) (by simp [State.tell, he]) (by simp [State.tell, he])
          (by simp [State.tell, he]) (by simp [State.tell, he]) (by simp [State.tell, he])
          (by simp [State.tell, he]) (by simp [State.tell, he])
        rw [he] at this
        simp only [State.connect, he, Bool.false_eq_true, if_false]
        exact ⟨trivial, this⟩

/-- A new connection that is refused. -/
theorem connect_refused (s : State) (d : Nat) (h : s.ext = some ⟨true⟩) :
    (s.connect d).2 = .refused ∧ (s.connect d).1.all = s.got ∧ (s.connect d).1.got = s.got
      ∧ (s.connect d).1.live = false
      ∧ (s.connect d).1.active = s.active ∧ (s.connect d).1.ext = s.ext
      ∧ (s.connect d).1.held = some ⟨[], none⟩ ∧ (s.connect d).1.waiting = [] := by
  simp [State.connect, h, State.tell, State.all, State.waiting]

theorem disconnect_live (s : State) (h : s.live = true) :
    s.disconnect.all = s.got ∧ s.disconnect.got = s.got ∧ s.disconnect.live = false
      ∧ s.disconnect.active = s.active ∧ s.disconnect.desc = s.desc ∧ s.disconnect.ext = s.ext
      ∧ s.disconnect.held = none ∧ s.disconnect.callback = s.callback := by
  cases he : s.ext <;> simp [State.disconnect, h, State.tell, he, State.all, State.waiting]

theorem inv_step (l : Line) (s : State) (op : Op) (i : Inv l s) : Inv (l.next op) (s.step op).1 := by
  cases op with
  | connect d =>
    by_cases h : s.ext = some ⟨true⟩
    · obtain ⟨_, _, _, a, b, c, e, _⟩ := connect_refused s d h
      have r : l.refuses = true := by rw [i.refuses]; exact decide_eq_true h
      exact ⟨by simp only [Line.next, r]; exact a.symm, i.active.trans b.symm,
        by simp only [Line.next, r]; exact nofun,
        by simp only [Line.next, State.step, c]; exact i.refuses, fun z => by
          simp only [State.step] at z ⊢; rw [e]; rfl⟩
    · obtain ⟨_, _, a, b, c, e, g, _⟩ := connect_accepted s d h
      have r : l.refuses = false := by rw [i.refuses]; exact decide_eq_false h
      exact ⟨by simp only [Line.next, r]; exact a.symm, i.active.trans b.symm, fun _ => c.symm,
        by simp only [Line.next, State.step, e]; exact i.refuses, fun _ => g⟩
  | disconnect =>
    cases h : s.live with
    | true =>
      obtain ⟨_, _, a, b, _, c, _⟩ := disconnect_live s h
      exact ⟨a.symm, i.active.trans b.symm, nofun, by
        simp only [Line.next, State.step, c]; exact i.refuses, fun z => by
        simp only [State.step] at z; rw [a] at z; cases z⟩
    | false =>
      have e : s.disconnect = s := by simp [State.disconnect, h]
      simp only [State.step, e]
      exact ⟨h.symm, i.active, nofun, i.refuses, i.held⟩
  | send n =>
    obtain ⟨_, a, b, c, d, e, _⟩ := arrive_spec s (.data s.desc n) i.held
    exact ⟨i.on.trans a.symm, i.active.trans b.symm, fun h => (i.desc h).trans c.symm,
      by simp only [Line.next, State.step, d]; exact i.refuses, fun z => by
        simp only [State.step] at z ⊢; rw [e]; rw [a] at z; exact i.held z⟩
  | setDesc d =>
    obtain ⟨_, a, b, c, d', e, _⟩ := arrive_spec { s with desc := d } (.desc d) i.held
    exact ⟨i.on.trans a.symm, i.active.trans b.symm, fun _ => c.symm,
      by simp only [Line.next, State.step, d']; exact i.refuses, fun z => by
        simp only [State.step] at z ⊢; rw [e]; rw [a] at z; exact i.held z⟩
  | setActive b => exact ⟨i.on, rfl, i.desc, i.refuses, i.held⟩
  | takeOver b =>
    refine ⟨i.on, i.active, i.desc, rfl, fun z => ?_⟩
    have z' : s.live = true := z
    obtain ⟨c, hc⟩ := Option.isSome_iff_exists.mp (i.held z')
    simp only [State.step, State.takeOver, z', if_true, hc]
    cases c.last <;> rfl
  | setCallback c => exact ⟨i.on, i.active, i.desc, i.refuses, i.held⟩
  | setExt e => exact ⟨i.on, i.active, i.desc, rfl, i.held⟩
  | work =>
    simp only [State.step]
    split
    · exact i
    · exact Inv.same (s := { s with pending := s.pending - 1 }) ⟨i.on, i.active, i.desc, i.refuses, i.held⟩
        (same_received _)
  | read => exact i.same (same_read s)
  | readAll => exact i.same (same_readAll s)
  | available => exact i
  | isEmpty => exact i

/-- Acts that leave the connection add what is sent. -/
theorem steady_step (l : Line) (s : State) (op : Op) (i : Inv l s) (h : Steady op) :
    (s.step op).1.all = s.all ++ l.sent op := by
  cases op with
  | connect d => exact h.elim
  | disconnect => exact h.elim
  | takeOver b => exact h.elim
  | send n =>
    rw [show (s.step (.send n)).1 = s.arrive (.data s.desc n) from rfl, (arrive_spec s _ i.held).1]
    simp only [Line.sent, i.on, i.active]
    cases hl : s.live with
    | false => rfl
    | true => rw [i.desc (i.on.trans hl)]
  | setDesc d =>
    rw [show (s.step (.setDesc d)).1 = State.arrive { s with desc := d } (.desc d) from rfl,
      (arrive_spec { s with desc := d } (.desc d) i.held).1]
    simp only [Line.sent, i.on, Bool.and_true]
    rfl
  | setActive b => simp [State.step, Line.sent, State.all, State.waiting]
  | setCallback c => simp [State.step, Line.sent, State.all, State.waiting]
  | setExt e => simp [State.step, Line.sent, State.all, State.waiting]
  | work =>
    simp only [Line.sent, List.append_nil, State.step]
    split
    · rfl
    · exact (same_received _).all
  | read => simp only [Line.sent, List.append_nil]; exact (same_read s).all
  | readAll => simp only [Line.sent, List.append_nil]; exact (same_readAll s).all
  | available => simp [State.step, Line.sent]
  | isEmpty => simp [State.step, Line.sent]

end Verif.Pull
