import Verif.Pull.Steps
import Verif.Pull.Demo

/-! # Properties of packet readers -/

namespace Verif.Pull

/-- The line after a history. -/
def lineAfter : Line → List Op → Line
  | l, [] => l
  | l, op :: ops => lineAfter (l.next op) ops

theorem inv_run (ops : List Op) : ∀ (l : Line) (s : State), Inv l s → Inv (lineAfter l ops) (run s ops) := by
  induction ops with
  | nil => exact fun _ _ i => i
  | cons op ops ih => exact fun l s i => ih _ _ (inv_step l s op i)

theorem run_append (a b : List Op) : ∀ s, run s (a ++ b) = run (run s a) b := by
  induction a with
  | nil => exact fun _ => rfl
  | cons op a ih => exact fun s => ih _

theorem datas_append (a b : List Pkt) : datas (a ++ b) = datas a ++ datas b := List.filter_append ..

theorem takeOver_all (s : State) (b : Bool) :
    datas (s.takeOver b).all = datas (if s.live then s.all else s.got) := by
  cases hl : s.live with
  | false => simp [State.takeOver, hl, State.all, State.waiting]
  | true =>
    cases hh : s.held with
    | none => simp [State.takeOver, hl, hh, State.all, State.waiting]
    | some c =>
      cases hc : c.last with
      | none => simp [State.takeOver, hl, hh, hc, State.all, State.waiting]
      | some d => simp [State.takeOver, hl, hh, hc, State.all, State.waiting, datas]

theorem order_step (l : Line) (s : State) (op : Op) (i : Inv l s) :
    (datas (s.step op).1.all).Sublist (datas s.all ++ datas (l.sent op)) := by
  have g : (datas s.got).Sublist (datas s.all) := by
    rw [State.all, datas_append]; exact List.sublist_append_left _ _
  by_cases h : Steady op
  · rw [steady_step l s op i h, datas_append]
  · cases op with
    | connect d =>
      by_cases e : s.ext = some ⟨true⟩
      · rw [show (s.step (.connect d)).1 = (s.connect d).1 from rfl, (connect_refused s d e).2.1]
        exact g.trans (List.sublist_append_left _ _)
      · rw [show (s.step (.connect d)).1 = (s.connect d).1 from rfl, (connect_accepted s d e).2.1,
          datas_append]
        exact (by simpa [datas] using g : (datas s.got ++ datas [.desc d]).Sublist (datas s.all)).trans
          (List.sublist_append_left _ _)
    | disconnect =>
      cases e : s.live with
      | true =>
        rw [show (s.step .disconnect).1 = s.disconnect from rfl, (disconnect_live s e).1]
        exact g.trans (List.sublist_append_left _ _)
      | false =>
        rw [show (s.step .disconnect).1 = s from by simp [State.step, State.disconnect, e]]
        exact List.sublist_append_left _ _
    | takeOver b =>
      rw [show (s.step (.takeOver b)).1 = s.takeOver b from rfl, takeOver_all]
      split
      · exact List.sublist_append_left _ _
      · exact g.trans (List.sublist_append_left _ _)
    | _ => exact absurd trivial h

theorem order_run (ops : List Op) : ∀ (l : Line) (s : State) (ps : List Pkt), Inv l s →
    (datas s.all).Sublist (datas ps) → (datas (run s ops).all).Sublist (datas (ps ++ sent l ops)) := by
  induction ops with
  | nil => intro l s ps _ h; simpa [run, sent] using h
  | cons op ops ih =>
    intro l s ps i h
    have := ih (l.next op) (s.step op).1 (ps ++ l.sent op) (inv_step l s op i) (by
      rw [datas_append]
      exact (order_step l s op i).trans (h.append (List.Sublist.refl _)))
    simpa [run, sent, List.append_assoc] using this

/-! ## C348: packets are read in order, none twice, none invented -/

/-- Whatever the client, the signals, the listener and the scheduler do, and however the client reads —
packet by packet, all at once or in its callback — the data it receives are among the data sent to the
reader, in the order they were sent, none of them twice. -/
theorem C348_order (ops : List Op) :
    (datas (run init ops).got).Sublist (datas (sent .start ops)) := by
  have h := order_run ops .start init [] inv_init (List.Sublist.refl _)
  rw [State.all, datas_append] at h
  exact (List.sublist_append_left _ _).trans h

example : datas (run init mixed).got = [.data 1 10, .data 2 20] := by decide

/-- As long as the connection stays, nothing is lost either: what the client has received and what waits
for it are the packets sent, data and descriptors, in the order they were sent. -/
theorem C348_complete (pre ops : List Op) (h : ∀ op ∈ ops, Steady op) :
    (run init (pre ++ ops)).got ++ (run init (pre ++ ops)).waiting
      = (run init pre).got ++ (run init pre).waiting ++ sent (lineAfter .start pre) ops := by
  have k : ∀ (ops : List Op) (l : Line) (s : State), Inv l s → (∀ op ∈ ops, Steady op) →
      (run s ops).all = s.all ++ sent l ops := by
    intro ops
    induction ops with
    | nil => intro l s _ _; simp [run, sent]
    | cons op ops ih =>
      intro l s i h
      rw [show run s (op :: ops) = run (s.step op).1 ops from rfl,
        ih _ _ (inv_step l s op i) (fun o m => h o (List.mem_cons_of_mem _ m)),
        steady_step l s op i (h op List.mem_cons_self), List.append_assoc]
      rfl
  rw [run_append]
  exact k ops _ _ (inv_run pre _ _ inv_init) h

example : (∀ op ∈ mixed.tail, Steady op)
    ∧ (run init mixed).got = [.desc 1, .data 1 10, .desc 2, .data 2 20]
    ∧ (run init mixed).waiting = [.data 2 22] := by
  refine ⟨fun op m => ?_, by decide, by decide⟩
  simp only [mixed, List.tail_cons, List.mem_cons, List.not_mem_nil, or_false] at m
  rcases m with rfl | rfl | rfl | rfl | rfl | rfl | rfl | rfl | rfl <;> trivial

/-! ## C349: every packet can be read -/

/-- When signals are disconnected, and replaced, only after everything was read, all data sent to the
reader have been received or wait.  Missing: the other histories. -/
theorem C349_lost_partial (ops : List Op) (h : Tidy init ops) :
    datas ((run init ops).got ++ (run init ops).waiting) = datas (sent .start ops) := by
  have k : ∀ (ops : List Op) (l : Line) (s : State), Inv l s → Tidy s ops →
      datas (run s ops).all = datas s.all ++ datas (sent l ops) := by
    intro ops
    induction ops with
    | nil => intro l s _ _; simp [run, sent, datas]
    | cons op ops ih =>
      intro l s i h
      have e : datas (s.step op).1.all = datas s.all ++ datas (l.sent op) := by
        by_cases st : Steady op
        · rw [steady_step l s op i st, datas_append]
        · cases op with
          | connect d =>
            have w := h.1 (.inl ⟨d, rfl⟩)
            by_cases e : s.ext = some ⟨true⟩
            · rw [show (s.step (.connect d)).1 = (s.connect d).1 from rfl, (connect_refused s d e).2.1]
              have r : l.refuses = true := by rw [i.refuses]; exact decide_eq_true e
              simp [State.all, w, Line.sent, r, datas]
            · rw [show (s.step (.connect d)).1 = (s.connect d).1 from rfl, (connect_accepted s d e).2.1]
              have r : l.refuses = false := by rw [i.refuses]; exact decide_eq_false e
              simp [State.all, w, Line.sent, r, datas]
          | disconnect =>
            have w := h.1 (.inr (.inl rfl))
            cases e : s.live with
            | true =>
              rw [show (s.step .disconnect).1 = s.disconnect from rfl, (disconnect_live s e).1]
              simp [State.all, w, Line.sent, datas]
            | false =>
              rw [show (s.step .disconnect).1 = s from by simp [State.step, State.disconnect, e]]
              simp [Line.sent, datas]
          | takeOver b =>
            rw [show (s.step (.takeOver b)).1 = s.takeOver b from rfl, takeOver_all]
            cases e : s.live with
            | true => simp [Line.sent, datas]
            | false =>
              have w := h.1 (.inr (.inr ⟨b, rfl, e⟩))
              simp [State.all, w, Line.sent, datas]
          | _ => exact absurd trivial st
      rw [show run s (op :: ops) = run (s.step op).1 ops from rfl, ih _ _ (inv_step l s op i) h.2, e,
        List.append_assoc, ← datas_append]
      rfl
  have := k ops .start init inv_init h
  simpa [State.all, init, State.waiting, datas] using this

example : Tidy init tidy ∧ datas (sent .start tidy) = [.data 1 10, .data 2 20]
    ∧ (run init tidy).waiting = [.data 2 20] := by
  refine ⟨?_, by decide, by decide⟩
  simp only [tidy, Tidy]
  exact ⟨fun _ => by decide, fun h => absurd h (by simp), fun h => absurd h (by simp), fun _ => by decide,
    fun _ => by decide, fun h => absurd h (by simp), fun h => absurd h (by simp), trivial⟩

/-- A packet that waits when its signal is disconnected can no longer be read. -/
theorem C349_lost_violation :
    Pkt.data 1 11 ∈ sent .start late ∧ Pkt.data 1 11 ∉ (run init late).got
      ∧ (run init late).waiting = [] := by decide

/-! ## C350: the count announces what is read -/

/-- In every state, the number of available packets is the number of packets that reading all of them
gives; the reader is empty exactly if that is none; reading all of them leaves none; and reading one
gives the first of them and leaves the others, or nothing and changes nothing. -/
theorem C350_count (s : State) :
    ∃ ps, (s.step .readAll).2 = .packets ps ∧ (s.step .available).2 = .count ps.length
      ∧ (s.step .isEmpty).2 = .empty (decide (ps = []))
      ∧ (s.step .readAll).1.got = s.got ++ ps
      ∧ ((s.step .readAll).1.step .available).2 = .count 0
      ∧ (∀ p rest, ps = p :: rest → (s.step .read).2 = .packet p ∧ (s.step .read).1.got = s.got ++ [p]
        ∧ ((s.step .read).1.step .readAll).2 = .packets rest)
      ∧ (ps = [] → (s.step .read).1 = s ∧ ((s.step .read).2 = .noMore ∨ (s.step .read).2 = .nothing)) := by
  cases h : s.held with
  | none =>
    refine ⟨[], ?_⟩
    simp [State.step, State.readAll, State.read, h]
  | some c =>
    refine ⟨c.queue, ?_⟩
    cases q : c.queue with
    | nil => simp [State.step, State.readAll, State.read, h, q, State.take]
    | cons p ps => simp [State.step, State.readAll, State.read, h, q, State.take]

example : ((run init changed).step .available).2 = .count 3 := by decide

/-! ## C351: the callback is called for every packet -/

theorem calls_received (s : State) (c : Callback) (h : s.callback = some c) :
    s.received.calls = s.calls + 1 ∧ s.received.pending = s.pending := by
  have e : (s.take c.takes).pending = s.pending := by
    cases hh : s.held <;> cases ht : c.takes <;> simp [State.take, hh]
  simp only [State.received, h]
  split
  · exact ⟨rfl, e⟩
  · unfold State.tell
    cases hx : (s.take c.takes).ext <;> simp [hx, e]

theorem calls_notify (s : State) (c : Callback) (h : s.callback = some c) :
    s.notify.calls + s.notify.pending = s.calls + s.pending + 1 := by
  unfold State.notify
  split
  · simp only; omega
  · obtain ⟨a, b⟩ := calls_received s c h
    omega

theorem calls_arrive (s : State) (p : Pkt) (c : Callback) (h : s.callback = some c)
    (hh : s.live = true → s.held.isSome = true) :
    (s.arrive p).calls + (s.arrive p).pending = s.calls + s.pending
      + (if s.live && (match p with | .desc _ => true | .data _ _ => s.active) then [p] else []).length := by
  cases hl : s.live with
  | false => simp [State.arrive, hl]
  | true =>
    obtain ⟨k, hk⟩ := Option.isSome_iff_exists.mp (hh hl)
    obtain ⟨_, _, _, _, _, a, _, _, _, b, d, _⟩ := put_fields s p k hk
    have n := calls_notify (s.put p) c (a.trans h)
    cases p with
    | desc d => simp only [State.arrive, hl]; simpa [b, d] using n.trans (by omega)
    | data d m =>
      cases ha : s.active with
      | false => simp [State.arrive, hl, ha]
      | true => simp only [State.arrive, hl, ha]; simpa using n.trans (by omega)

/-- Acts that leave the callback. -/
def Kept : Op → Prop
  | .setCallback _ | .takeOver _ => False
  | _ => True

theorem callback_step (s : State) (op : Op) (k : Kept op) (hh : s.live = true → s.held.isSome = true) :
    (s.step op).1.callback = s.callback := by
  cases op with
  | setCallback c => exact k.elim
  | takeOver b => exact k.elim
  | connect d =>
    by_cases e : s.ext = some ⟨true⟩
    · simp [State.step, State.connect, e, State.tell]
    · exact (connect_accepted s d e).2.2.2.2.2.2.2.1
  | disconnect =>
    cases e : s.live with
    | true => exact (disconnect_live s e).2.2.2.2.2.2.2
    | false => simp [State.step, State.disconnect, e]
  | send n => exact (arrive_spec s _ hh).2.2.2.2.2.2.1
  | setDesc d => exact (arrive_spec { s with desc := d } _ hh).2.2.2.2.2.2.1
  | work =>
    simp only [State.step]
    split
    · rfl
    · exact (same_received _).callback
  | read => exact (same_read s).callback
  | readAll => exact (same_readAll s).callback
  | _ => rfl

theorem calls_step (l : Line) (s : State) (op : Op) (c : Callback) (i : Inv l s) (h : s.callback = some c)
    (k : Kept op) :
    (s.step op).1.calls + (s.step op).1.pending = s.calls + s.pending + (l.sent op).length := by
  cases op with
  | setCallback c => exact k.elim
  | takeOver b => exact k.elim
  | connect d =>
    by_cases e : s.ext = some ⟨true⟩
    · have r : l.refuses = true := by rw [i.refuses]; exact decide_eq_true e
      simp [State.step, State.connect, e, State.tell, Line.sent, r]
    · have r : l.refuses = false := by rw [i.refuses]; exact decide_eq_false e
      cases he : s.ext with
      | none =>
        obtain ⟨a, b⟩ := calls_received (State.put { s with held := some ⟨[], none⟩, live := true, desc := d }
          (.desc d)) c (by simp [State.put, h])
        simp only [State.step, State.connect, he, Line.sent, r, Bool.false_eq_true, if_false]
        simp only [he] at a b
        rw [a, b]
        simp [State.put]
        omega
      | some x =>
        have hx : x.refuses = false := by
          cases x with
          | mk q => cases q with
            | true => exact absurd he e
            | false => rfl
        obtain ⟨a, b⟩ := calls_received (State.put (State.tell { s with held := some ⟨[], none⟩, live := true, desc := d }
          .connected) (.desc d)) c (by simp [State.put, State.tell, he, h])
        simp only [State.step, State.connect, he, Line.sent, r, hx, Bool.false_eq_true, if_false]
        simp only [he] at a b
        rw [a, b]
        simp [State.put, State.tell]
        omega
  | disconnect =>
    cases e : s.live <;> cases he : s.ext <;> simp [State.step, State.disconnect, e, State.tell, he, Line.sent]
  | send n =>
    rw [show (s.step (.send n)).1 = s.arrive (.data s.desc n) from rfl, calls_arrive s _ c h i.held]
    simp only [Line.sent, i.on, i.active]
    cases s.live <;> cases s.active <;> rfl
  | setDesc d =>
    rw [show (s.step (.setDesc d)).1 = State.arrive { s with desc := d } (.desc d) from rfl,
      calls_arrive { s with desc := d } _ c h i.held]
    simp only [Line.sent, i.on]
    cases s.live <;> rfl
  | work =>
    simp only [State.step, Line.sent]
    split
    · rfl
    · obtain ⟨a, b⟩ := calls_received { s with pending := s.pending - 1 } c h
      rw [a, b]
      simp only [List.length_nil]
      omega
  | read =>
    cases hh : s.held with
    | none => simp [State.step, State.read, hh, Line.sent]
    | some k => cases q : k.queue <;> simp [State.step, State.read, hh, q, Line.sent, State.take]
  | readAll => cases hh : s.held <;> simp [State.step, State.readAll, hh, Line.sent, State.take]
  | _ => simp [State.step, Line.sent]

/-- From the moment a callback is set until another one is set, it is called once for every packet sent to
the reader, at once or as soon as the scheduler comes to it: calls made and calls waiting add up to the
packets, however many of them are read meanwhile, and whether the callback fails or not. -/
theorem C351_called (pre ops : List Op) (c : Callback) (h : ∀ op ∈ ops, Kept op)
    (w : (run init pre).callback = some c) :
    (run init (pre ++ ops)).calls + (run init (pre ++ ops)).pending
      = (run init pre).calls + (run init pre).pending + (sent (lineAfter .start pre) ops).length := by
  have k : ∀ (ops : List Op) (l : Line) (s : State), Inv l s → (∀ op ∈ ops, Kept op) → s.callback = some c →
      (run s ops).calls + (run s ops).pending = s.calls + s.pending + (sent l ops).length := by
    intro ops
    induction ops with
    | nil => intro l s _ _ _; simp [run, sent]
    | cons op ops ih =>
      intro l s i h w
      have m := h op List.mem_cons_self
      rw [show run s (op :: ops) = run (s.step op).1 ops from rfl,
        ih _ _ (inv_step l s op i) (fun o m => h o (List.mem_cons_of_mem _ m))
          ((callback_step s op m i.held).trans w),
        calls_step l s op c i w m]
      simp only [sent, List.length_append]
      omega
  rw [run_append]
  exact k ops _ _ (inv_run pre _ _ inv_init) h w

example : (run init later).calls = 2 ∧ (run init later).pending = 1 ∧ (sent .start later).length = 3
    ∧ (run init (later.take 2)).callback = some ⟨some 1, false⟩ := by decide

/-! ## C352: a callback that reads everything leaves nothing behind -/

theorem drained_received (s : State) (f : Bool) (h : s.callback = some ⟨none, f⟩) : s.received.waiting = [] := by
  have e : (s.take none).waiting = [] := by
    cases hh : s.held <;> simp [State.take, State.waiting, hh]
  simp only [State.received, h]
  split
  · exact e
  · unfold State.tell
    cases hx : (s.take none).ext with
    | none => simp only [hx]; exact e
    | some x => simp only [hx]; exact e

theorem drained_step (l : Line) (s : State) (op : Op) (f : Bool) (i : Inv l s)
    (h : s.callback = some ⟨none, f⟩) (g : s.sched = false) (w : s.waiting = []) (k : Kept op) :
    (s.step op).1.waiting = [] ∧ (s.step op).1.sched = false := by
  have n : ∀ t : State, t.callback = some ⟨none, f⟩ → t.sched = false →
      t.notify.waiting = [] ∧ t.notify.sched = false := by
    intro t a b
    rw [show t.notify = t.received by simp [State.notify, b]]
    exact ⟨drained_received t f a, (same_received t).sched.trans b⟩
  have ar : ∀ (t : State) (p : Pkt), t.callback = some ⟨none, f⟩ → t.sched = false → t.waiting = [] →
      (t.live = true → t.held.isSome = true) → (t.arrive p).waiting = [] ∧ (t.arrive p).sched = false := by
    intro t p a b w hh
    cases hl : t.live with
    | false => simp [State.arrive, hl, w, b]
    | true =>
      obtain ⟨q, hq⟩ := Option.isSome_iff_exists.mp (hh hl)
      obtain ⟨_, _, _, _, _, x, y, _⟩ := put_fields t p q hq
      have := n (t.put p) (x.trans a) (y.trans b)
      cases p with
      | desc d => simpa [State.arrive, hl] using this
      | data d m =>
        cases ha : t.active with
        | false => simp [State.arrive, hl, ha, w, b]
        | true => simpa [State.arrive, hl, ha] using this
  cases op with
  | setCallback c => exact k.elim
  | takeOver b => exact k.elim
  | connect d =>
    by_cases e : s.ext = some ⟨true⟩
    · exact ⟨(connect_refused s d e).2.2.2.2.2.2.2, by simp [State.step, State.connect, e, State.tell, g]⟩
    · refine ⟨?_, (connect_accepted s d e).2.2.2.2.2.2.2.2.1.trans g⟩
      cases he : s.ext with
      | none =>
        have := drained_received (State.put { s with held := some ⟨[], none⟩, live := true, desc := d }
          (.desc d)) f (by simp [State.put, h])
        simpa [State.step, State.connect, he] using this
      | some x =>
        have hx : x.refuses = false := by
          cases x with
          | mk q => cases q with
            | true => exact absurd he e
            | false => rfl
        have := drained_received (State.put (State.tell { s with held := some ⟨[], none⟩, live := true, desc := d }
          .connected) (.desc d)) f (by simp [State.put, State.tell, he, h])
        simpa [State.step, State.connect, he, hx] using this
  | disconnect =>
    cases e : s.live with
    | true =>
      refine ⟨?_, ?_⟩
      · simp only [State.step, State.waiting, (disconnect_live s e).2.2.2.2.2.2.1]
      · cases he : s.ext <;> simp [State.step, State.disconnect, e, State.tell, he, g]
    | false => simp [State.step, State.disconnect, e, w, g]
  | send m => exact ar s _ h g w i.held
  | setDesc d => exact ar { s with desc := d } _ h g w i.held
  | work =>
    simp only [State.step]
    split
    · exact ⟨w, g⟩
    · exact ⟨drained_received _ f h, (same_received _).sched.trans g⟩
  | read =>
    have : s.read.1 = s := by
      cases hh : s.held with
      | none => simp [State.read, hh]
      | some q => simp only [State.waiting, hh] at w; simp [State.read, hh, w]
    simp only [State.step, this]
    exact ⟨w, g⟩
  | readAll =>
    refine ⟨?_, (same_readAll s).sched.trans g⟩
    cases hh : s.held <;> simp [State.step, State.readAll, hh, State.waiting, State.take]
  | _ => exact ⟨w, g⟩

/-- When the callback of a reader of a signal reads everything that is available, nothing waits after any
act of anyone, and all packets sent from then on have been received — whether it fails afterwards or not. -/
theorem C352_drained (pre ops : List Op) (f : Bool) (h : ∀ op ∈ ops, Kept op)
    (c : (run init pre).callback = some ⟨none, f⟩) (g : (run init pre).sched = false)
    (w : (run init pre).waiting = []) : (run init (pre ++ ops)).waiting = [] := by
  have k : ∀ (ops : List Op) (l : Line) (s : State), Inv l s → (∀ op ∈ ops, Kept op) →
      s.callback = some ⟨none, f⟩ → s.sched = false → s.waiting = [] → (run s ops).waiting = [] := by
    intro ops
    induction ops with
    | nil => exact fun _ _ _ _ _ _ w => w
    | cons op ops ih =>
      intro l s i h c g w
      have m := h op List.mem_cons_self
      have d := drained_step l s op f i c g w m
      exact ih _ _ (inv_step l s op i) (fun o m => h o (List.mem_cons_of_mem _ m))
        ((callback_step s op m i.held).trans c) d.2 d.1
  rw [run_append]
  exact k ops _ _ (inv_run pre _ _ inv_init) h c g w

example : (run init greedy).waiting = [] ∧ (run init greedy).got = [.desc 1, .data 1 10, .desc 2, .data 2 20]
    ∧ (run init (greedy.take 1)).callback = some ⟨none, false⟩ := by decide

/-- Such a callback also takes what was waiting before: the next packet, or the next notification the
scheduler comes to, leaves nothing waiting. -/
theorem C352_caught_up (s : State) (f : Bool) (c : s.callback = some ⟨none, f⟩) :
    (s.pending ≠ 0 → (s.step .work).1.waiting = [] ∧ (s.step .work).1.got = s.got ++ s.waiting)
      ∧ ∀ n, s.sched = false → s.live = true → s.active = true → s.held.isSome →
        (s.step (.send n)).1.waiting = []
          ∧ (s.step (.send n)).1.got = s.got ++ s.waiting ++ [.data s.desc n] := by
  have r : ∀ t : State, t.callback = some ⟨none, f⟩ →
      t.received.waiting = [] ∧ t.received.got = t.got ++ t.waiting := by
    intro t ht
    cases f <;> cases hh : t.held <;> cases he : t.ext <;>
      simp [State.received, ht, State.tell, he, State.take, hh, State.waiting]
  refine ⟨fun p => ?_, fun n g l a h => ?_⟩
  · simp only [State.step, if_neg p]
    exact r { s with pending := s.pending - 1 } c
  · obtain ⟨d, hd⟩ := Option.isSome_iff_exists.mp h
    have e : (s.step (.send n)).1 = ({ s with held := some ⟨d.queue ++ [Pkt.data s.desc n], d.last⟩ }).received := by
      simp [State.step, State.arrive, l, a, State.put, hd, State.notify, g]
    rw [e]
    obtain ⟨x, y⟩ := r { s with held := some ⟨d.queue ++ [Pkt.data s.desc n], d.last⟩ } c
    exact ⟨x, by rw [y]; simp [State.waiting, hd]⟩

example : ((run init [.connect 1, .send 10, .send 11, .setCallback (some ⟨none, false⟩)]).step (.send 12)).1.got
    = [.desc 1, .data 1 10, .data 1 11, .data 1 12] := by decide

/-! ## C353: the external listener is told of every packet -/

/-- A packet of which the reader learns is passed on to the external listener if there is no callback, or
the callback does not fail.  Missing: callbacks that fail. -/
theorem C353_told_partial (s : State) (e : Ext) (h : s.ext = some e)
    (c : ∀ c, s.callback = some c → c.fails = false) : s.received.told = s.told ++ [.packet] := by
  cases hc : s.callback with
  | none => simp [State.received, hc, State.tell, h]
  | some k =>
    have x := (same_take s k.takes).ext.trans h
    have t : (s.take k.takes).told = s.told := by
      cases hh : s.held <;> cases ht : k.takes <;> simp [State.take, hh]
    simp [State.received, hc, c k hc, State.tell, x, t]

example : (run init greedy).told = [.connected, .packet, .packet, .packet, .packet] := by decide

theorem told_received (s : State) : ∃ r, s.received.told = s.told ++ r := by
  have t : ∀ s : State, ∃ r, (s.tell .packet).told = s.told ++ r := fun s => by
    unfold State.tell
    cases s.ext with
    | none => exact ⟨[], (List.append_nil _).symm⟩
    | some e => exact ⟨[.packet], rfl⟩
  cases hc : s.callback with
  | none => simpa [State.received, hc] using t s
  | some k =>
    have e : (s.take k.takes).told = s.told := by
      cases hh : s.held <;> cases ht : k.takes <;> simp [State.take, hh]
    simp only [State.received, hc]
    split
    · exact ⟨[], by simp [e]⟩
    · obtain ⟨r, hr⟩ := t { s.take k.takes with calls := s.calls + 1 }
      exact ⟨r, hr.trans (by simp [e])⟩

/-- The external listener is told of every connection, before anything else of it and also when it
refuses, and of every disconnection of a connected signal. -/
theorem C353_links (s : State) (e : Ext) (d : Nat) (h : s.ext = some e) :
    (∃ r, (s.step (.connect d)).1.told = s.told ++ .connected :: r)
      ∧ (s.live = true → (s.step .disconnect).1.told = s.told ++ [.disconnected])
      ∧ (s.live = false → (s.step .disconnect).1.told = s.told) := by
  refine ⟨?_, fun z => by simp [State.step, State.disconnect, z, State.tell, h],
    fun z => by simp [State.step, State.disconnect, z]⟩
  cases hr : e.refuses with
  | true => exact ⟨[], by simp [State.step, State.connect, h, hr, State.tell]⟩
  | false =>
    obtain ⟨r, q⟩ := told_received (State.put (State.tell { s with held := some ⟨[], none⟩, live := true, desc := d }
      .connected) (.desc d))
    refine ⟨r, ?_⟩
    simp only [h] at q
    simp only [State.step, State.connect, h, hr, Bool.false_eq_true, if_false]
    rw [q]
    simp [State.put, State.tell]

example : (run init (greedy ++ [.disconnect])).told
    = [.connected, .packet, .packet, .packet, .packet, .disconnected] := by decide

/-- When the callback fails, the external listener is not told. -/
theorem C353_told_violation :
    (run init failing).ext = some ⟨false⟩ ∧ (run init failing).calls = 2
      ∧ (run init failing).told = [.connected] := by decide

/-! ## C354: data are read after their descriptor -/

/-- The descriptor in force after some packets. -/
def inForce : Option Nat → List Pkt → Option Nat
  | o, [] => o
  | _, .desc d :: ps => inForce (some d) ps
  | o, .data _ _ :: ps => inForce o ps

theorem described_append (a b : List Pkt) : ∀ o, Described o (a ++ b)
    ↔ Described o a ∧ Described (inForce o a) b := by
  induction a with
  | nil => intro o; simp [Described, inForce]
  | cons p a ih =>
    intro o
    cases p with
    | desc d => simpa [Described, inForce] using ih _
    | data d n => simp [Described, inForce, ih, and_assoc]

theorem inForce_append (a b : List Pkt) : ∀ o, inForce o (a ++ b) = inForce (inForce o a) b := by
  induction a with
  | nil => exact fun _ => rfl
  | cons p a ih => intro o; cases p <;> simpa [inForce] using ih _

/-- What holds as long as no other reader takes over the port. -/
structure Told (s : State) : Prop where
  described : Described none s.all
  force : s.live = true → inForce none s.all = some s.desc
  last : s.live = true → s.held.map Conn.last = some (some s.desc)

theorem Told.same {s t : State} (i : Told s) (m : Same s t) : Told t :=
  ⟨by rw [m.all]; exact i.described, fun h => by rw [m.all, m.desc]; exact i.force (m.live.symm.trans h),
    fun h => by rw [m.last, m.desc]; exact i.last (m.live.symm.trans h)⟩

theorem told_step (l : Line) (s : State) (op : Op) (i : Inv l s) (t : Told s) (k : ∀ b, op ≠ .takeOver b) :
    Told (s.step op).1 := by
  have g : Described none s.got := ((described_append _ _ _).mp t.described).1
  cases op with
  | takeOver b => exact absurd rfl (k b)
  | connect d =>
    by_cases e : s.ext = some ⟨true⟩
    · obtain ⟨_, a, _, b, _⟩ := connect_refused s d e
      exact ⟨by rw [show (s.step (.connect d)).1.all = _ from a]; exact g,
        fun z => (by rw [show (s.step (.connect d)).1.live = _ from b] at z; cases z),
        fun z => (by rw [show (s.step (.connect d)).1.live = _ from b] at z; cases z)⟩
    · obtain ⟨_, a, _, _, b, _, _, _, _, c⟩ := connect_accepted s d e
      refine ⟨?_, fun _ => ?_, fun _ => ?_⟩
      · rw [show (s.step (.connect d)).1.all = _ from a, described_append]
        exact ⟨g, trivial⟩
      · rw [show (s.step (.connect d)).1.all = _ from a, show (s.step (.connect d)).1.desc = _ from b,
          inForce_append]
        rfl
      · rw [show (s.step (.connect d)).1.desc = _ from b]
        exact c
  | disconnect =>
    cases e : s.live with
    | true =>
      obtain ⟨a, _, b, _⟩ := disconnect_live s e
      exact ⟨by rw [show (s.step .disconnect).1.all = _ from a]; exact g,
        fun z => (by rw [show (s.step .disconnect).1.live = _ from b] at z; cases z),
        fun z => (by rw [show (s.step .disconnect).1.live = _ from b] at z; cases z)⟩
    | false =>
      rw [show (s.step .disconnect).1 = s from by simp [State.step, State.disconnect, e]]
      exact t
  | send n =>
    obtain ⟨a, b, _, c, _, _, _, _, d⟩ := arrive_spec s (.data s.desc n) i.held
    have a' : (s.step (.send n)).1.all = s.all
        ++ (if s.live && s.active then [.data s.desc n] else []) := a
    refine ⟨?_, fun z => ?_, fun z => ?_⟩
    · rw [a']
      split
      · next q =>
        rw [described_append]
        exact ⟨t.described, t.force (by simp only [Bool.and_eq_true] at q; exact q.1), trivial⟩
      · rw [List.append_nil]; exact t.described
    · rw [show (s.step (.send n)).1.live = _ from b] at z
      rw [a', show (s.step (.send n)).1.desc = _ from c, inForce_append,
        t.force z]
      split <;> rfl
    · rw [show (s.step (.send n)).1.live = _ from b] at z
      rw [show (s.step (.send n)).1.desc = _ from c, ← t.last z]
      refine d.trans ?_
      cases s.held <;> simp [lastAfter]
  | setDesc d =>
    obtain ⟨a, b, _, c, _, _, _, _, e⟩ := arrive_spec { s with desc := d } (.desc d) i.held
    have a' : (s.step (.setDesc d)).1.all = s.all ++ (if s.live && true then [.desc d] else []) := a
    refine ⟨?_, fun z => ?_, fun z => ?_⟩
    · rw [a']
      split
      · rw [described_append]; exact ⟨t.described, trivial⟩
      · rw [List.append_nil]; exact t.described
    · have z' : s.live = true := by rw [← z]; exact b.symm
      rw [a', show (s.step (.setDesc d)).1.desc = d from c, inForce_append, z']
      rfl
    · have z' : s.live = true := by rw [← z]; exact b.symm
      rw [show (s.step (.setDesc d)).1.desc = d from c]
      refine e.trans ?_
      obtain ⟨q, hq⟩ := Option.isSome_iff_exists.mp (i.held z')
      simp [hq, z', lastAfter]
  | setActive b => exact ⟨t.described, t.force, t.last⟩
  | setCallback c => exact ⟨t.described, t.force, t.last⟩
  | setExt e => exact ⟨t.described, t.force, t.last⟩
  | work =>
    simp only [State.step]
    split
    · exact t
    · exact Told.same (s := { s with pending := s.pending - 1 }) ⟨t.described, t.force, t.last⟩ (same_received _)
  | read => exact t.same (same_read s)
  | readAll => exact t.same (same_readAll s)
  | available => exact t
  | isEmpty => exact t

theorem told_run (ops : List Op) (h : ∀ op ∈ ops, ∀ b, op ≠ .takeOver b) : Told (run init ops) := by
  have k : ∀ (ops : List Op) (l : Line) (s : State), Inv l s → Told s → (∀ op ∈ ops, ∀ b, op ≠ .takeOver b) →
      Told (run s ops) := by
    intro ops
    induction ops with
    | nil => exact fun _ _ _ t _ => t
    | cons op ops ih =>
      intro l s i t h
      exact ih _ _ (inv_step l s op i) (told_step l s op i t (h op List.mem_cons_self))
        (fun o m => h o (List.mem_cons_of_mem _ m))
  exact k ops _ _ inv_init ⟨trivial, nofun, nofun⟩ h

/-- Whatever happens at the port of a reader that is its only reader, the client receives every data packet
after its descriptor, with no other descriptor between them — also when signals are replaced, and packets
are lost, in between. -/
theorem C354_described (ops : List Op) (h : ∀ op ∈ ops, ∀ b, op ≠ .takeOver b) :
    Described none ((run init ops).got ++ (run init ops).waiting) := (told_run ops h).described

example : (run init mixed).got = [.desc 1, .data 1 10, .desc 2, .data 2 20] := by decide

/-! ## C355: a reader that takes over a port is told the descriptor -/

theorem described_plain (ps : List Pkt) : ∀ o, Described o ps → (∀ d, Pkt.desc d ∉ ps) → inForce o ps = o := by
  induction ps with
  | nil => exact fun _ _ _ => rfl
  | cons p ps ih =>
    intro o h n
    cases p with
    | desc d => exact absurd List.mem_cons_self (n d)
    | data d m => exact ih o h.2 (fun d z => n d (List.mem_cons_of_mem _ z))

/-- When no change of the descriptor waits, a reader that takes over the port from another one finds every
waiting data packet after its descriptor.  Missing: a change of the descriptor waits. -/
theorem C355_takeover_partial (ops : List Op) (h : ∀ op ∈ ops, ∀ b, op ≠ .takeOver b) (sched : Bool)
    (n : ∀ d, Pkt.desc d ∉ (run init ops).waiting) :
    Described none ((run init ops).step (.takeOver sched)).1.waiting := by
  have t := told_run ops h
  have i := inv_run ops _ _ inv_init
  generalize run init ops = s at t i n
  cases hl : s.live with
  | false => simp [State.step, State.takeOver, hl, State.waiting, Described]
  | true =>
    obtain ⟨c, hc⟩ := Option.isSome_iff_exists.mp (i.held hl)
    have e := t.last hl
    rw [hc] at e
    have e' : c.last = some s.desc := Option.some.inj e
    have w : s.waiting = c.queue := by simp [State.waiting, hc]
    have d := ((described_append _ _ _).mp t.described).2
    have f := t.force hl
    rw [State.all, inForce_append, described_plain _ _ d n] at f
    rw [f, w] at d
    simpa [State.step, State.takeOver, hl, hc, e', State.waiting, Described] using d

example : (∀ d, Pkt.desc d ∉ (run init unchanged).waiting)
    ∧ ((run init unchanged).step (.takeOver true)).1.waiting = [.desc 1, .data 1 10, .data 1 11] := by
  refine ⟨fun d => ?_, by decide⟩
  rw [show (run init unchanged).waiting = [.data 1 10, .data 1 11] by decide]
  simp

/-- When the descriptor changed while packets were waiting, the reader that takes over is told the newest
descriptor first, and then finds data of the descriptor before. -/
theorem C355_takeover_violation :
    ((run init changed).step (.takeOver true)).1.waiting = [.desc 2, .data 1 10, .desc 2, .data 2 20]
      ∧ ¬ Described none ((run init changed).step (.takeOver true)).1.waiting := by
  have e : ((run init changed).step (.takeOver true)).1.waiting
      = [.desc 2, .data 1 10, .desc 2, .data 2 20] := by decide
  exact ⟨e, by rw [e]; simp [Described]⟩

/-! ## C356: a connection that is refused leaves the reader as it was -/

/-- A connection that the external listener refuses leaves nothing waiting and takes nothing from what was
read; nothing is sent to the reader until a connection is accepted.  Missing: what waited before. -/
theorem C356_refused_partial (s : State) (d n : Nat) (h : s.ext = some ⟨true⟩) (w : s.waiting = []) :
    (s.step (.connect d)).2 = .refused ∧ (s.step (.connect d)).1.waiting = s.waiting
      ∧ (s.step (.connect d)).1.got = s.got
      ∧ ((s.step (.connect d)).1.step (.send n)).1 = (s.step (.connect d)).1 := by
  obtain ⟨a, _, b, c, _, _, _, e⟩ := connect_refused s d h
  refine ⟨a, e.trans w.symm, b, ?_⟩
  have c' : (s.step (.connect d)).1.live = false := c
  simp [State.step, State.arrive, show (s.connect d).1.live = false from c]

example : ((run init (refusing ++ [.readAll])).step (.connect 2)).2 = .refused
    ∧ (run init (refusing ++ [.readAll])).waiting = [] := by decide

/-- A refused connection takes the signal connected before away from the reader, and the packets that
waited. -/
theorem C356_refused_violation :
    (run init refusing).waiting = [.desc 1, .data 1 10] ∧ (run init refusing).live = true
      ∧ ((run init refusing).step (.connect 2)).2 = .refused
      ∧ ((run init refusing).step (.connect 2)).1.waiting = []
      ∧ (run init (refusing ++ [.connect 2, .send 11, .readAll])).got = [] := by decide

end Verif.Pull
