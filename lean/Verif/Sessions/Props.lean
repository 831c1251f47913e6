import Verif.Sessions.Lst

/-!
# Properties C148 to C157: sessions of the native streaming server

A history has fewer than 2^64 messages (the counters are 64 bit).
-/

namespace Verif.Sessions.Props

open Spec

/-- A history on a server that has just been started. -/
abbrev hist (m : Nat) (ops : List Op) : St := ((start m 0 0).run ops).1

theorem hist_inv (m p t : Nat) (ops : List Op) (hb : ops.length < 2 ^ 64) : Inv ((start m p t).run ops).1 :=
  (run_inv (start_inv m p t) ops (by change 0 + ops.length < 2 ^ 64; omega)).1

theorem hist_next (m p t : Nat) (ops : List Op) (hb : ops.length < 2 ^ 64) : ((start m p t).run ops).1.next < 2 ^ 64 := by
  have := (run_inv (start_inv m p t) ops (by change 0 + ops.length < 2 ^ 64; omega)).2
  change _ ≤ 0 + ops.length at this
  omega

theorem step_max {st : St} (h : Inv st) (hb : st.next < 2 ^ 64) (op : Op) :
    (st.step op).1.max = st.max ∧ (st.step op).1.payloadMax = st.payloadMax ∧ (st.step op).1.threshold = st.threshold := by
  cases op with
  | accept u =>
    change (st.accept u).1.max = _ ∧ (st.accept u).1.payloadMax = _ ∧ (st.accept u).1.threshold = _
    rcases accept_cases st u with ⟨_, e⟩ | ⟨_, e⟩ <;> rw [e] <;> exact ⟨rfl, rfl, rfl⟩
  | announce sid p =>
    change (st.announce sid p).1.max = _ ∧ (st.announce sid p).1.payloadMax = _ ∧ (st.announce sid p).1.threshold = _
    rcases get_cases h sid with e | ⟨s, hs, rfl⟩
    · rw [announce_none p e]
      exact ⟨rfl, rfl, rfl⟩
    · have ha := announced h hb hs p
      generalize st.announce s.sid p = r at *
      cases ha with
      | plain _ => exact ⟨rfl, rfl, rfl⟩
      | renamed _ _ => exact ⟨rfl, rfl, rfl⟩
      | taken _ _ _ => exact ⟨rfl, rfl, rfl⟩
      | over _ _ _ _ hr => exact ⟨hr.max, hr.payloadMax, hr.threshold⟩
      | self _ hr => exact ⟨hr.max, hr.payloadMax, hr.threshold⟩
  | config sid =>
    change (st.config sid).1.max = _ ∧ (st.config sid).1.payloadMax = _ ∧ (st.config sid).1.threshold = _
    rcases get_cases h sid with e | ⟨s, hs, rfl⟩
    · rw [config_none e]
      exact ⟨rfl, rfl, rfl⟩
    · have ha := configured h hb hs
      generalize st.config s.sid = r at *
      cases ha with
      | served _ => exact ⟨rfl, rfl, rfl⟩
      | full _ _ _ => exact ⟨rfl, rfl, rfl⟩
      | refused _ _ _ => exact ⟨rfl, rfl, rfl⟩
      | granted _ _ _ _ hg => exact ⟨hg.max, hg.payloadMax, hg.threshold⟩
      | dropped _ _ _ _ _ _ hg =>
        obtain ⟨⟨h1, h2⟩, _, _, h3⟩ := releaseAll_ind
          (P := fun t => t.payloadMax = st.payloadMax ∧ t.threshold = st.threshold)
          (fun a b x _ _ _ hp hr => ⟨hr.payloadMax.trans hp.1, hr.threshold.trans hp.2⟩) h hb ⟨rfl, rfl⟩ (st.others s.sid)
        exact ⟨hg.max.trans h3, hg.payloadMax.trans h1, hg.threshold.trans h2⟩
  | init sid =>
    change (st.init sid).1.max = _ ∧ (st.init sid).1.payloadMax = _ ∧ (st.init sid).1.threshold = _
    rcases get_cases h sid with e | ⟨s, hs, rfl⟩
    · rw [init_none e]
      exact ⟨rfl, rfl, rfl⟩
    · have ha := inited h hs
      generalize st.init s.sid = r at *
      cases ha with
      | again _ => exact ⟨rfl, rfl, rfl⟩
      | done _ hd => exact ⟨hd.max, hd.payloadMax, hd.threshold⟩
  | lost sid =>
    change (st.release sid).1.max = _ ∧ (st.release sid).1.payloadMax = _ ∧ (st.release sid).1.threshold = _
    rcases get_cases h sid with e | ⟨s, hs, rfl⟩
    · rw [release_none e]
      exact ⟨rfl, rfl, rfl⟩
    · obtain ⟨t, et, hr⟩ := release_some h hb hs
      rw [et]
      exact ⟨hr.max, hr.payloadMax, hr.threshold⟩
  | addSignal =>
    change (st.addSignal).1.max = _ ∧ (st.addSignal).1.payloadMax = _ ∧ (st.addSignal).1.threshold = _
    unfold St.addSignal
    split <;> exact ⟨rfl, rfl, rfl⟩

theorem run_max {st : St} (h : Inv st) (ops : List Op) (hb : st.next + ops.length < 2 ^ 64) :
    (st.run ops).1.max = st.max ∧ (st.run ops).1.payloadMax = st.payloadMax ∧ (st.run ops).1.threshold = st.threshold := by
  induction ops generalizing st with
  | nil => exact ⟨rfl, rfl, rfl⟩
  | cons op l ih =>
    rw [List.length_cons] at hb
    have h1 := step_inv h (by omega) op
    have h2 := step_max h (by omega) op
    have h3 := ih h1.1 (by omega)
    exact ⟨h3.1.trans h2.1, h3.2.1.trans h2.2.1, h3.2.2.trans h2.2.2⟩

theorem hist_max (m p t : Nat) (ops : List Op) (hb : ops.length < 2 ^ 64) : ((start m p t).run ops).1.max = m :=
  (run_max (start_inv m p t) ops (by change 0 + ops.length < 2 ^ 64; omega)).1

theorem on_length (l : List Sess) : (on l).length = cnt (·.config) l := (List.countP_eq_length_filter).symm

/-! ## C148: the limit of configuration connections, and the kind a session is served as -/

/-- Whatever clients send, there are never more configuration connections than allowed. -/
theorem C148_limit (m p t : Nat) (ops : List Op) (hb : ops.length < 2 ^ 64) (hm : m ≠ 0) :
    (on ((start m p t).run ops).1.sess).length ≤ m := by
  have h := hist_inv m p t ops hb
  have := h.lim (by rw [hist_max m p t ops hb]; exact hm)
  rw [hist_max m p t ops hb, h.cfg] at this
  rw [on_length]
  exact this

/-- Three clients, two connections allowed: the third is refused, and let in when one of the others left. -/
def demoLimit : List Op := [.accept 0, .accept 0, .accept 0, .config 0, .config 1, .config 2]

example : (on (hist 2 demoLimit).sess).length = 2 ∧ ((start 2 0 0).run demoLimit).2.getLast? = some (.rejected 2 .limit) ∧
    ((start 2 0 0).run (demoLimit ++ [.lost 0, .config 2])).2.getLast? = some (.passed 2 .control) := by
  decide +kernel

/-- A session that uses the configuration is served as the kind it was when it was let in. -/
theorem C148_kind (m p t : Nat) (ops : List Op) (hb : ops.length < 2 ^ 64) (op : Op) (s s' : Sess) (k : Kind)
    (hs : s ∈ ((start m p t).run ops).1.sess) (hk : s.serves = some k)
    (hs' : s' ∈ (((start m p t).run ops).1.step op).1.sess) (hid : s'.sid = s.sid) : s'.serves = some k := by
  have h := hist_inv m p t ops hb
  have hn := hist_next m p t ops hb
  generalize ((start m p t).run ops).1 = st at *
  have same : s' ∈ st.sess → s'.serves = some k := fun hm => by rw [inj_of h.sids hm hs hid]; exact hk
  have put : ∀ (u : St) (x x0 : Sess), (∀ y ∈ u.sess, y ∈ st.sess) → s' ∈ (u.put x).sess → x0 ∈ st.sess → x.sid = x0.sid →
      x.serves = x0.serves → s'.serves = some k := by
    intro u x x0 hu hm hx hxi hxs
    rcases mem_putL (l := u.sess) hm with rfl | ⟨hm, _⟩
    · rw [hxs, inj_of h.sids hx hs (hxi.symm.trans hid)]
      exact hk
    · exact same (hu _ hm)
  have grant : ∀ (u v : St) (x : Sess), (∀ y ∈ u.sess, y ∈ st.sess) → x ∈ st.sess → x.serves = none → Granted u v x →
      s' ∈ v.sess → s'.serves = some k := by
    intro u v x hu hx hxs hg hm
    rw [hg.sess] at hm
    rcases mem_putL hm with rfl | ⟨hm, _⟩
    · have : x = s := inj_of h.sids hx hs hid
      rw [this, hk] at hxs
      cases hxs
    · exact same (hu _ hm)
  cases op with
  | accept u =>
    change s' ∈ (st.accept u).1.sess at hs'
    rcases accept_cases st u with ⟨_, e⟩ | ⟨_, e⟩
    · rw [e] at hs'
      exact same hs'
    · rw [e] at hs'
      rcases List.mem_append.1 hs' with hs' | hs'
      · exact same hs'
      · simp at hs'
        subst hs'
        have := h.lt s hs
        change st.next = s.sid at hid
        omega
  | announce sid p =>
    change s' ∈ (st.announce sid p).1.sess at hs'
    rcases get_cases h sid with e | ⟨x, hx, rfl⟩
    · rw [announce_none p e] at hs'
      exact same hs'
    · have ha := announced h hn hx p
      generalize st.announce x.sid p = r at *
      cases ha with
      | plain _ => exact put st _ x (fun _ y => y) hs' hx rfl rfl
      | renamed _ _ => exact put st _ x (fun _ y => y) hs' hx rfl rfl
      | taken _ _ _ => exact put st _ x (fun _ y => y) hs' hx rfl rfl
      | over _ _ _ _ hr =>
        exact put _ _ x (fun y hy => by rw [hr.sess] at hy; exact (List.mem_filter.1 hy).1) hs' hx rfl rfl
      | self _ hr =>
        rw [hr.sess] at hs'
        exact same (List.mem_filter.1 hs').1
  | config sid =>
    change s' ∈ (st.config sid).1.sess at hs'
    rcases get_cases h sid with e | ⟨x, hx, rfl⟩
    · rw [config_none e] at hs'
      exact same hs'
    · have ha := configured h hn hx
      generalize st.config x.sid = r at *
      cases ha with
      | served _ => exact same hs'
      | full _ _ _ => exact same hs'
      | refused _ _ _ => exact same hs'
      | granted e _ _ _ hg => exact grant st _ x (fun _ y => y) hx e hg hs'
      | dropped e _ _ _ _ _ hg =>
        obtain ⟨h1, _⟩ := releaseAll_ind (P := fun u => ∀ y ∈ u.sess, y ∈ st.sess)
          (fun a b x _ _ _ hp hr y hy => hp y (by rw [hr.sess] at hy; exact (List.mem_filter.1 hy).1)) h hn
          (fun _ y => y) (st.others x.sid)
        exact grant _ _ x h1 hx e hg hs'
  | init sid =>
    change s' ∈ (st.init sid).1.sess at hs'
    rcases get_cases h sid with e | ⟨x, hx, rfl⟩
    · rw [init_none e] at hs'
      exact same hs'
    · have ha := inited h hx
      generalize st.init x.sid = r at *
      cases ha with
      | again _ => exact same hs'
      | done _ hd =>
        rw [hd.sess] at hs'
        exact same hs'
  | lost sid =>
    change s' ∈ (st.release sid).1.sess at hs'
    rcases get_cases h sid with e | ⟨x, hx, rfl⟩
    · rw [release_none e] at hs'
      exact same hs'
    · obtain ⟨t, et, hr⟩ := release_some h hn hx
      rw [et] at hs'
      have hs2 : s' ∈ t.sess := hs'
      rw [hr.sess] at hs2
      exact same (List.mem_filter.1 hs2).1
  | addSignal =>
    change s' ∈ (st.addSignal).1.sess at hs'
    unfold St.addSignal at hs'
    split at hs' <;> exact same hs'

/-- Packets of such a session are handled as that kind, and nothing else happens. -/
theorem C148_served (m p t : Nat) (ops : List Op) (hb : ops.length < 2 ^ 64) (s : Sess) (k : Kind)
    (hs : s ∈ ((start m p t).run ops).1.sess) (hk : s.serves = some k) :
    ((start m p t).run ops).1.step (.config s.sid) = (((start m p t).run ops).1, [.passed s.sid k]) := by
  have h := hist_inv m p t ops hb
  generalize ((start m p t).run ops).1 = st at *
  change st.config s.sid = _
  unfold St.config
  rw [(get_iff h.sids).2 ⟨hs, rfl⟩]
  simp only [hk]

/-- A view-only client that announces control once it is connected stays view-only. -/
example : ((start 0 0 0).run [.accept 0, .announce 0 { kind := some .viewOnly }, .config 0, .announce 0 { kind := some .control },
    .config 0]).2 = [.passed 0 .viewOnly, .passed 0 .viewOnly] := by
  decide +kernel

/-! ## C149: exclusive control -/

/-- What the server decides about a client, and what becomes of the others, if all clients announce themselves before they use the
server. -/
theorem C149_verdict (m p t : Nat) (ops : List Op) (hb : ops.length < 2 ^ 64) (hor : orderly [] ops = true) (s : Sess)
    (hs : s ∈ ((start m p t).run ops).1.sess) (hn : s.serves = none) :
    let st := ((start m p t).run ops).1
    match verdict m st.sess s with
    | .full => st.step (.config s.sid) = (st, [.rejected s.sid .limit])
    | .refused => st.step (.config s.sid) = (st, [.rejected s.sid .control])
    | .granted closed =>
      (st.step (.config s.sid)).2 = closed.map .closed ++ [.passed s.sid s.kind] ∧
        (st.step (.config s.sid)).1.sess = after st.sess s closed := by
  have h := hist_inv m p t ops hb
  have hnx := hist_next m p t ops hb
  have hmx := hist_max m p t ops hb
  obtain ⟨used, ho⟩ := Ord.run (start_inv m p t) (Ord.start m p t) ops (by change 0 + ops.length < 2 ^ 64; omega) hor
  generalize ((start m p t).run ops).1 = st at *
  intro st
  have hcf := serves_none h hs hn
  have ha := configured h hnx hs
  have hlen : (on st.sess).length = st.cfg := by rw [on_length]; exact h.cfg.symm
  have hfull : (m ≠ 0 ∧ m ≤ (on st.sess).length) ↔ (st.max ≠ 0 ∧ st.cfg = st.max) := by
    rw [hlen, hmx]
    constructor
    · rintro ⟨h1, h2⟩
      have h3 := h.lim (by rw [hmx]; exact h1)
      rw [hmx] at h3
      exact ⟨h1, Nat.le_antisymm h3 h2⟩
    · rintro ⟨h1, h2⟩
      exact ⟨h1, by rw [h2]; exact Nat.le_refl _⟩
  have hafter : ∀ (u v : St), Granted u v s → ∀ closed, u.sess = st.sess.filter (fun x => decide (x.sid ∉ closed)) →
      v.sess = after st.sess s closed := by
    intro u v hg closed hu
    rw [hg.sess, hu]
    unfold after putL
    refine List.map_congr_left ?_
    intro x _
    by_cases e : x.sid = s.sid <;> simp [e]
  have hnil : st.sess = st.sess.filter (fun x => decide (x.sid ∉ ([] : List Nat))) := by
    refine (List.filter_eq_self.2 ?_).symm
    intro x _
    simp
  change match verdict m st.sess s with
    | .full => st.config s.sid = (st, [.rejected s.sid .limit])
    | .refused => st.config s.sid = (st, [.rejected s.sid .control])
    | .granted closed =>
      (st.config s.sid).2 = closed.map .closed ++ [.passed s.sid s.kind] ∧
        (st.config s.sid).1.sess = after st.sess s closed
  generalize st.config s.sid = r at *
  unfold verdict
  cases ha with
  | served e =>
    rw [hn] at e
    cases e
  | full _ h1 h2 =>
    rw [if_pos (hfull.2 ⟨h1, h2⟩)]
  | refused _ h1 h2 =>
    rw [if_neg (fun hh => h2 (hfull.1 hh))]
    rcases h1 with ⟨hk, h1⟩ | ⟨hk, h1, h3⟩
    · rw [hk]
      simp only
      rw [if_pos ((exc_pos ho).1 h1)]
    · rw [hk]
      simp only
      rw [if_neg (fun hh => (steering_nil ho).1 hh h1), if_neg h3]
  | granted _ h1 h2 h3 hg =>
    rw [if_neg (fun hh => h1 (hfull.1 hh))]
    cases hk : s.kind with
    | viewOnly => exact ⟨rfl, hafter st _ hg [] hnil⟩
    | control =>
      simp only
      rw [if_neg (fun hh => h2 ⟨hk, (exc_pos ho).2 hh⟩)]
      exact ⟨rfl, hafter st _ hg [] hnil⟩
    | exclusive =>
      simp only
      rw [if_pos ((steering_nil ho).2 (fun hh => h3 ⟨hk, hh⟩))]
      exact ⟨rfl, hafter st _ hg [] hnil⟩
  | dropped _ h1 hk h2 h3 h4 hg =>
    rw [if_neg (fun hh => h1 (hfull.1 hh)), hk]
    simp only
    rw [if_neg (fun hh => (steering_nil ho).1 hh h2), if_pos ⟨h3, h4⟩]
    simp only
    rw [← others_steering h hs hcf]
    refine ⟨rfl, ?_⟩
    have hoth : ∀ n ∈ st.others s.sid, ∃ x ∈ st.sess, x.sid = n := fun n hn => by
      obtain ⟨x, hx, hxn, _⟩ := mem_others hn
      exact ⟨x, hx, hxn⟩
    exact hafter _ _ hg _ (releaseAll_ok h hnx _ (others_nodup h s.sid) hoth).2

/-- If all clients announce themselves before they use the server, whoever has exclusive control is the only one who may change
something, and is served as what they announced. -/
theorem C149_exclusive (m p t : Nat) (ops : List Op) (hb : ops.length < 2 ^ 64) (hor : orderly [] ops = true) :
    Exclusive ((start m p t).run ops).1.sess ∧
      ∀ s ∈ ((start m p t).run ops).1.sess, ∀ k, s.serves = some k → s.kind = k := by
  obtain ⟨used, ho⟩ := Ord.run (start_inv m p t) (Ord.start m p t) ops (by change 0 + ops.length < 2 ^ 64; omega) hor
  exact ⟨ho.excl, ho.kinds⟩

/-- A view-only, two control and two exclusive clients; the last drops others. -/
def demo : List Op :=
  [.accept 1, .announce 0 { id := some (.own 10, false), kind := some .viewOnly }, .config 0,
   .accept 1, .announce 1 { id := some (.own 11, false), kind := some .control }, .config 1,
   .accept 2, .announce 2 { id := some (.own 12, false), kind := some .control }, .config 2,
   .accept 2, .announce 3 { id := some (.own 13, false), kind := some .exclusive }, .config 3,
   .accept 3, .announce 4 { id := some (.own 14, false), kind := some .exclusive, drop := some true }, .config 4,
   .config 3, .accept 4, .config 5]

example : orderly [] demo = true ∧
    ((start 0 0 0).run demo).2 = [.passed 0 .viewOnly, .passed 1 .control, .passed 2 .control, .rejected 3 .control,
      .closed 1, .closed 2, .passed 4 .exclusive, .rejected 3 .control, .rejected 5 .control] ∧
    (steering (hist 0 demo).sess).map (·.sid) = [4] ∧ (on (hist 0 demo).sess).map (·.sid) = [0, 4] := by
  decide +kernel

/-! ## C150: nobody can take away exclusive control by what they announce later -/

/-- Whatever clients send: the decision about a client that only views depends on the connections there are, and closes none. -/
theorem C150_view_partial (m p t : Nat) (ops : List Op) (hb : ops.length < 2 ^ 64) (s : Sess)
    (hs : s ∈ ((start m p t).run ops).1.sess) (hn : s.serves = none) (hk : s.kind = .viewOnly) :
    let st := ((start m p t).run ops).1
    (verdict m st.sess s = .full → st.step (.config s.sid) = (st, [.rejected s.sid .limit])) ∧
      (verdict m st.sess s ≠ .full → (st.step (.config s.sid)).2 = [.passed s.sid .viewOnly] ∧
        (st.step (.config s.sid)).1.sess = after st.sess s []) := by
  have h := hist_inv m p t ops hb
  have hnx := hist_next m p t ops hb
  have hmx := hist_max m p t ops hb
  generalize ((start m p t).run ops).1 = st at *
  intro st
  have ha := configured h hnx hs
  have hlen : (on st.sess).length = st.cfg := by rw [on_length]; exact h.cfg.symm
  change (_ → st.config s.sid = _) ∧ (_ → (st.config s.sid).2 = _ ∧ (st.config s.sid).1.sess = _)
  generalize st.config s.sid = r at *
  unfold verdict
  rw [hk]
  simp only
  cases ha with
  | served e =>
    rw [hn] at e
    cases e
  | full _ h1 h2 =>
    rw [if_pos ⟨by rw [← hmx]; exact h1, by rw [hlen, h2, hmx]; exact Nat.le_refl _⟩]
    exact ⟨fun _ => rfl, fun hh => absurd rfl hh⟩
  | refused _ h1 _ =>
    rw [hk] at h1
    rcases h1 with ⟨h1, _⟩ | ⟨h1, _⟩ <;> cases h1
  | @granted u _ h1 _ _ hg =>
    rw [if_neg (by
      rintro ⟨h2, h3⟩
      have h4 := h.lim (by rw [hmx]; exact h2)
      rw [hmx] at h4
      rw [hlen] at h3
      exact h1 ⟨by rw [hmx]; exact h2, by rw [hmx]; exact Nat.le_antisymm h4 h3⟩)]
    refine ⟨fun hh => (by cases hh), fun _ => ⟨by change [Ev.passed s.sid s.kind] = _; rw [hk], ?_⟩⟩
    change u.sess = _
    rw [hg.sess]
    unfold after putL
    have hnil : st.sess.filter (fun x => decide (x.sid ∉ ([] : List Nat))) = st.sess := by
      refine List.filter_eq_self.2 ?_
      intro x _
      simp
    rw [hnil]
    refine List.map_congr_left ?_
    intro x _
    by_cases e : x.sid = s.sid <;> simp [e]
  | dropped _ _ h1 _ _ _ _ =>
    rw [hk] at h1
    cases h1

/-- A client has exclusive control; a client that only views announces another kind and leaves; after that a third client gets
control beside the exclusive one. -/
theorem C150_violation_lost :
    let ops : List Op := [.accept 0, .announce 0 { kind := some .exclusive }, .config 0,
      .accept 1, .announce 1 { kind := some .viewOnly }, .config 1, .announce 1 { kind := some .exclusive }, .lost 1,
      .accept 2, .config 2]
    ¬ Exclusive (hist 0 ops).sess ∧ (steering (hist 0 ops).sess).map (fun s => (s.sid, s.serves)) =
      [(0, some .exclusive), (2, some .control)] := by
  refine ⟨?_, by decide +kernel⟩
  intro h
  have := h { sid := 0, user := 0, cid := .assigned 0, config := true, kind := .exclusive, serves := some .exclusive }
    (by decide +kernel) rfl
    { sid := 2, user := 2, cid := .assigned 2, config := true, kind := .control, serves := some .control } (by decide +kernel)
  cases this

/-- A client that only views announces another kind and leaves; after that nobody gets control of a server without any connection. -/
theorem C150_violation_locked :
    let ops : List Op := [.accept 1, .announce 0 { kind := some .viewOnly }, .config 0, .announce 0 { kind := some .exclusive },
      .lost 0, .accept 2]
    (hist 0 ops).exc = 2 ^ 64 - 1 ∧ on (hist 0 ops).sess = [] ∧
      ((hist 0 ops).step (.config 1)).2 = [.rejected 1 .control] := by
  decide +kernel

/-- A control client announces that it only views and leaves; after that nobody gets exclusive control of a server without any
connection. -/
theorem C150_violation_stuck :
    let ops : List Op := [.accept 1, .config 0, .announce 0 { kind := some .viewOnly }, .lost 0, .accept 2,
      .announce 1 { kind := some .exclusive }]
    on (hist 0 ops).sess = [] ∧ ((hist 0 ops).step (.config 1)).2 = [.rejected 1 .control] := by
  decide +kernel

/-! ## C151: who can end a session -/

/-- Whatever clients send: a session ends if it is lost, if its id is announced as that of a client that reconnected, or if it may
change something and a client with exclusive control that drops others comes. -/
theorem C151_closed_partial (m p t : Nat) (ops : List Op) (hb : ops.length < 2 ^ 64) (op : Op) (n : Nat)
    (hc : Ev.closed n ∈ (((start m p t).run ops).1.step op).2) :
    let st := ((start m p t).run ops).1
    op = .lost n ∨
    (∃ sid q s, op = .announce sid q ∧ s ∈ st.sess ∧ s.sid = n ∧ q.id = some (s.cid, true)) ∨
    (∃ x s, op = .config x.sid ∧ x ∈ st.sess ∧ x.kind = .exclusive ∧ x.drop = true ∧ x.reconnected = false ∧
      s ∈ steering st.sess ∧ s.sid = n ∧ s.sid ≠ x.sid) := by
  have h := hist_inv m p t ops hb
  have hnx := hist_next m p t ops hb
  generalize ((start m p t).run ops).1 = st at *
  intro st
  cases op with
  | accept u =>
    change _ ∈ (st.accept u).2 at hc
    rcases accept_cases st u with ⟨_, e⟩ | ⟨_, e⟩ <;> rw [e] at hc <;> cases hc
  | announce sid q =>
    change _ ∈ (st.announce sid q).2 at hc
    refine Or.inr (Or.inl ?_)
    rcases get_cases h sid with e | ⟨x, hx, rfl⟩
    · rw [announce_none q e] at hc
      cases hc
    · have ha := announced h hnx hx q
      generalize st.announce x.sid q = r at *
      cases ha with
      | plain _ => cases hc
      | renamed _ _ => cases hc
      | taken _ _ _ => cases hc
      | @over c o u e1 ho hoc hne hr =>
        simp at hc
        subst hoc
        exact ⟨_, q, o, rfl, ho, hc.symm, e1⟩
      | self e1 hr =>
        simp at hc
        exact ⟨_, q, x, rfl, hx, hc.symm, e1⟩
  | config sid =>
    change _ ∈ (st.config sid).2 at hc
    refine Or.inr (Or.inr ?_)
    rcases get_cases h sid with e | ⟨x, hx, rfl⟩
    · rw [config_none e] at hc
      cases hc
    · have ha := configured h hnx hx
      generalize st.config x.sid = r at *
      cases ha with
      | served _ => simp at hc
      | full _ _ _ => simp at hc
      | refused _ _ _ => simp at hc
      | granted _ _ _ _ _ => simp at hc
      | dropped _ _ h1 _ h2 h3 _ =>
        rcases List.mem_append.1 hc with hc | hc
        · obtain ⟨k, hk, e⟩ := List.mem_map.1 hc
          cases e
          obtain ⟨s, hs, hsn, hne, hsc, hsk⟩ := mem_others hk
          exact ⟨x, s, rfl, hx, h1, h2, h3, mem_steering.2 ⟨hs, hsc, hsk⟩, hsn, hsn ▸ hne⟩
        · simp at hc
  | init sid =>
    change _ ∈ (st.init sid).2 at hc
    rcases get_cases h sid with e | ⟨x, hx, rfl⟩
    · rw [init_none e] at hc
      cases hc
    · have ha := inited h hx
      generalize st.init x.sid = r at *
      cases ha with
      | again _ => simp at hc
      | done _ _ => simp at hc
  | lost sid =>
    change _ ∈ (st.release sid).2 at hc
    rcases get_cases h sid with e | ⟨x, hx, rfl⟩
    · rw [release_none e] at hc
      cases hc
    · obtain ⟨u, et, hr⟩ := release_some h hnx hx
      rw [et] at hc
      simp at hc
      rw [hc]
      exact Or.inl rfl
  | addSignal =>
    change _ ∈ (st.addSignal).2 at hc
    unfold St.addSignal at hc
    split at hc <;> simp at hc

/-- Whatever clients send: a session that is not closed and has not sent the message is as it was. -/
theorem C151_kept_partial (m p t : Nat) (ops : List Op) (hb : ops.length < 2 ^ 64) (op : Op) (s : Sess)
    (hs : s ∈ ((start m p t).run ops).1.sess) (hc : Ev.closed s.sid ∉ (((start m p t).run ops).1.step op).2)
    (ha : ∀ q, op ≠ .announce s.sid q) (hg : op ≠ .config s.sid) : s ∈ (((start m p t).run ops).1.step op).1.sess := by
  have h := hist_inv m p t ops hb
  have hnx := hist_next m p t ops hb
  generalize ((start m p t).run ops).1 = st at *
  cases op with
  | accept u =>
    change s ∈ (st.accept u).1.sess
    rcases accept_cases st u with ⟨_, e⟩ | ⟨_, e⟩
    · rw [e]
      exact hs
    · rw [e]
      exact List.mem_append_left _ hs
  | announce sid q =>
    change Ev.closed s.sid ∉ (st.announce sid q).2 at hc
    change s ∈ (st.announce sid q).1.sess
    rcases get_cases h sid with e | ⟨x, hx, rfl⟩
    · rw [announce_none q e]
      exact hs
    · have hne : s.sid ≠ x.sid := fun e => ha q (by rw [e])
      have hq := announced h hnx hx q
      generalize st.announce x.sid q = r at *
      cases hq with
      | plain _ => exact putL_mem hs hne
      | renamed _ _ => exact putL_mem hs hne
      | taken _ _ _ => exact putL_mem hs hne
      | @over c o u e1 ho hoc hno hr =>
        refine putL_mem ?_ hne
        rw [hr.sess]
        refine List.mem_filter.2 ⟨hs, ?_⟩
        have : s.sid ≠ o.sid := fun e => hc (by rw [e]; simp)
        simpa using this
      | self e1 hr =>
        rw [hr.sess]
        exact List.mem_filter.2 ⟨hs, by simpa using hne⟩
  | config sid =>
    change Ev.closed s.sid ∉ (st.config sid).2 at hc
    change s ∈ (st.config sid).1.sess
    rcases get_cases h sid with e | ⟨x, hx, rfl⟩
    · rw [config_none e]
      exact hs
    · have hne : s.sid ≠ x.sid := fun e => hg (by rw [e])
      have hq := configured h hnx hx
      generalize st.config x.sid = r at *
      cases hq with
      | served _ => exact hs
      | full _ _ _ => exact hs
      | refused _ _ _ => exact hs
      | granted _ _ _ _ hgr =>
        rw [hgr.sess]
        exact putL_mem hs hne
      | dropped _ _ h1 _ h2 h3 hgr =>
        rw [hgr.sess]
        refine putL_mem ?_ hne
        have hoth : ∀ n ∈ st.others x.sid, ∃ x ∈ st.sess, x.sid = n := fun n hn => by
          obtain ⟨x, hx, hxn, _⟩ := mem_others hn
          exact ⟨x, hx, hxn⟩
        rw [(releaseAll_ok h hnx _ (others_nodup h x.sid) hoth).2]
        refine List.mem_filter.2 ⟨hs, ?_⟩
        simp only [decide_eq_true_eq]
        intro hm
        exact hc (List.mem_append_left _ (List.mem_map.2 ⟨_, hm, rfl⟩))
  | init sid =>
    change s ∈ (st.init sid).1.sess
    rcases get_cases h sid with e | ⟨x, hx, rfl⟩
    · rw [init_none e]
      exact hs
    · have hq := inited h hx
      generalize st.init x.sid = r at *
      cases hq with
      | again _ => exact hs
      | done _ hd =>
        rw [hd.sess]
        exact hs
  | lost sid =>
    change Ev.closed s.sid ∉ (st.release sid).2 at hc
    change s ∈ (st.release sid).1.sess
    rcases get_cases h sid with e | ⟨x, hx, rfl⟩
    · rw [release_none e]
      exact hs
    · obtain ⟨u, et, hr⟩ := release_some h hnx hx
      rw [et] at hc ⊢
      change s ∈ u.sess
      rw [hr.sess]
      refine List.mem_filter.2 ⟨hs, ?_⟩
      have : s.sid ≠ x.sid := fun e => hc (by rw [e]; simp)
      simpa using this
  | addSignal =>
    change s ∈ (st.addSignal).1.sess
    unfold St.addSignal
    split <;> exact hs

/-- A client that reconnects with its own id ends its old session. -/
example : ((start 0 0 0).run [.accept 1, .announce 0 { id := some (.own 7, false) }, .config 0, .accept 1,
    .announce 1 { id := some (.own 7, true) }, .config 1]).2 = [.passed 0 .control, .closed 0, .passed 1 .control] := by
  decide +kernel

/-- Another user, too, can end a session: it is enough to know its id. -/
theorem C151_violation_user :
    let ops : List Op := [.accept 1, .announce 0 { id := some (.own 7, false), kind := some .exclusive }, .config 0, .accept 2]
    (hist 0 ops).sess.map (fun s => (s.sid, s.user)) = [(0, 1), (1, 2)] ∧
      ((hist 0 ops).step (.announce 1 { id := some (.own 7, true), kind := some .viewOnly })).2 = [.closed 0] := by
  decide +kernel

/-! ## C152 and C153: the list of connected clients -/

/-- If all clients announce themselves before they use the server and a session uses one service, the list of connected clients
shows exactly the sessions that use the server, each once, with what it uses and its host. -/
theorem C152_shown (m p t : Nat) (ops : List Op) (hb : ops.length < 2 ^ 64) (hor : orderly [] ops = true)
    (hsi : single [] [] ops = true) :
    (shown ((start m p t).run ops).1).Perm ((users ((start m p t).run ops).1).map entry) := by
  have hb' : (start m p t).next + ops.length < 2 ^ 64 := by change 0 + ops.length < 2 ^ 64; omega
  obtain ⟨a, b, hl⟩ := Lst.run (start_inv m p t) (Ord.start m p t) (Lst.start m p t) ops hb' hor hsi
  exact hl.perm (hist_inv m p t ops hb)

/-- Two clients, each with a session for the configuration and one for streaming; one of them reconnects. -/
def demoList : List Op :=
  [.accept 1, .announce 0 { id := some (.own 10, false), host := some 5 }, .config 0,
   .accept 1, .announce 1 { id := some (.own 11, false), host := some 5 }, .init 1,
   .accept 2, .announce 2 { id := some (.own 12, false), kind := some .viewOnly, host := some 6 }, .config 2,
   .accept 2, .announce 3 { id := some (.own 13, false), host := some 6 }, .init 3,
   .lost 1, .accept 1, .announce 4 { id := some (.own 11, true), host := some 5 }, .init 4, .lost 3]

example : orderly [] demoList = true ∧ single [] [] demoList = true ∧
    shown (hist 0 demoList) = [(some .control, 5), (some .viewOnly, 6), (none, 5)] ∧
    (hist 0 demoList).info.map (·.1) = [1, 3, 2] := by
  decide +kernel

/-- Whatever clients send: the numbers in the list are distinct and were given out, and a client that left can always be added
again under its number. -/
theorem C153_numbers_partial (m p t : Nat) (ops : List Op) (hb : ops.length < 2 ^ 64) :
    let st := ((start m p t).run ops).1
    (st.info.map (·.1)).Nodup ∧ (∀ n ∈ st.info.map (·.1), 0 < n ∧ n ≤ st.total) ∧
      ∀ c n, (c, n) ∈ st.gone → n ∉ st.info.map (·.1) := by
  have h := (hist_inv m p t ops hb).reg
  exact ⟨h.inodup, h.ile, fun c n hm => h.gsep _ hm⟩

/-- A session that uses both services shows twice, and once after it is gone. -/
theorem C153_violation_both :
    let ops : List Op := [.accept 1, .config 0, .init 0]
    orderly [] ops = true ∧ shown (hist 0 ops) = [(some .control, 0), (none, 0)] ∧
      (hist 0 (ops ++ [.lost 0])).sess = [] ∧ shown (hist 0 (ops ++ [.lost 0])) = [(none, 0)] := by
  decide +kernel

/-- A session that changes its id stays in the list when it is gone. -/
theorem C153_violation_renamed :
    let ops : List Op := [.accept 1, .config 0, .announce 0 { id := some (.own 7, false) }, .lost 0]
    single [] [] ops = true ∧ (hist 0 ops).sess = [] ∧ shown (hist 0 ops) = [(some .control, 0)] := by
  decide +kernel

/-! ## C154: new signals are announced to the streaming clients -/

/-- If all clients announce themselves before they use the server, a new signal is announced to exactly the sessions that stream. -/
theorem C154_announced_partial (m p t : Nat) (ops : List Op) (hb : ops.length < 2 ^ 64) (hor : orderly [] ops = true) :
    let st := ((start m p t).run ops).1
    ∃ l, st.step .addSignal = (st, [.announced l]) ∧ ∀ c, c ∈ l ↔ ∃ s ∈ st.sess, s.cid = c ∧ c ∈ st.streams.map (·.cid) := by
  obtain ⟨used, ho⟩ := Ord.run (start_inv m p t) (Ord.start m p t) ops (by change 0 + ops.length < 2 ^ 64; omega) hor
  have h := hist_inv m p t ops hb
  generalize ((start m p t).run ops).1 = st at *
  intro st
  refine ⟨st.streams.map (·.cid), ?_, ?_⟩
  · change st.addSignal = _
    unfold St.addSignal
    rw [if_pos]
    rw [List.all_eq_true]
    intro x hx
    obtain ⟨y, hy, hyc⟩ := ho.strm x hx
    rw [(byId_iff h.cids).2 ⟨hy, hyc⟩]
    rfl
  · intro c
    constructor
    · intro hc
      obtain ⟨x, hx, rfl⟩ := List.mem_map.1 hc
      obtain ⟨y, hy, hyc⟩ := ho.strm x hx
      exact ⟨y, hy, hyc, hc⟩
    · rintro ⟨_, _, _, hc⟩
      exact hc

example : ((hist 0 demoList).step .addSignal).2 = [.announced [.own 11]] := by
  decide +kernel

/-- A streaming client changes its id and leaves: after that every new signal is an exception. -/
theorem C154_violation_renamed :
    let ops : List Op := [.accept 1, .init 0, .announce 0 { id := some (.own 7, false) }, .lost 0]
    (hist 0 ops).sess = [] ∧ ((hist 0 ops).step .addSignal).2 = [.threw] := by
  decide +kernel

/-! ## C155: every connection gets a session -/

/-- Ids that look like those the server assigns are those it assigned. -/
def Assigned (st : St) : Prop := ∀ s ∈ st.sess, ∀ n, s.cid = .assigned n → n < st.next

theorem Assigned.step {st : St} (h : Inv st) (hb : st.next < 2 ^ 64) (ha : Assigned st) (op : Op) (l : List Op)
    (ho : ownIds (op :: l) = true) : Assigned (st.step op).1 ∧ ownIds l = true := by
  have put : ∀ (u : St) (x x0 : Sess), u.next = st.next → (∀ y ∈ u.sess, y ∈ st.sess) → x0 ∈ st.sess →
      (x.cid = x0.cid ∨ ∀ n, x.cid ≠ .assigned n) → Assigned (u.put x) := by
    intro u x x0 hn hu hx hc s hs n hsn
    change n < u.next
    rw [hn]
    rcases mem_putL (l := u.sess) hs with rfl | ⟨hs, _⟩
    · rcases hc with hc | hc
      · exact ha x0 hx n (hc.symm.trans hsn)
      · exact absurd hsn (hc n)
    · exact ha s (hu s hs) n hsn
  have sub : ∀ (u : St), u.next = st.next → (∀ y ∈ u.sess, y ∈ st.sess) → Assigned u := by
    intro u hn hu s hs n hsn
    rw [hn]
    exact ha s (hu s hs) n hsn
  have grant : ∀ (u v : St) (x : Sess), u.next = st.next → (∀ y ∈ u.sess, y ∈ st.sess) → x ∈ st.sess → Granted u v x →
      Assigned v := by
    intro u v x hn hu hx hg s hs n hsn
    rw [hg.next, hn]
    rw [hg.sess] at hs
    rcases mem_putL hs with rfl | ⟨hs, _⟩
    · exact ha x hx n hsn
    · exact ha s (hu s hs) n hsn
  cases op with
  | accept u =>
    refine ⟨?_, ho⟩
    change Assigned (st.accept u).1
    rcases accept_cases st u with ⟨_, e⟩ | ⟨_, e⟩
    · rw [e]
      exact fun s hs n hn => Nat.lt_succ_of_lt (ha s hs n hn)
    · rw [e]
      intro s hs n hn
      change n < st.next + 1
      rcases List.mem_append.1 hs with hs | hs
      · exact Nat.lt_succ_of_lt (ha s hs n hn)
      · simp at hs
        subst hs
        cases hn
        omega
  | announce sid p =>
    unfold ownIds at ho
    rw [Bool.and_eq_true] at ho
    refine ⟨?_, ho.2⟩
    have hp : ∀ c r, p.id = some (c, r) → ∀ n, c ≠ .assigned n := by
      rintro c r e n rfl
      rw [e] at ho
      exact absurd ho.1 Bool.false_ne_true
    change Assigned (st.announce sid p).1
    rcases get_cases h sid with e | ⟨x, hx, rfl⟩
    · rw [announce_none p e]
      exact ha
    · have hq := announced h hb hx p
      generalize st.announce x.sid p = r at *
      cases hq with
      | plain _ => exact put st _ x rfl (fun _ y => y) hx (Or.inl rfl)
      | renamed e _ => exact put st _ x rfl (fun _ y => y) hx (Or.inr (hp _ _ e))
      | taken _ _ _ => exact put st _ x rfl (fun _ y => y) hx (Or.inl rfl)
      | over e _ _ _ hr =>
        exact put _ _ x hr.next (fun y hy => by rw [hr.sess] at hy; exact (List.mem_filter.1 hy).1) hx (Or.inr (hp _ _ e))
      | self _ hr => exact sub _ hr.next (fun y hy => by rw [hr.sess] at hy; exact (List.mem_filter.1 hy).1)
  | config sid =>
    refine ⟨?_, ho⟩
    change Assigned (st.config sid).1
    rcases get_cases h sid with e | ⟨x, hx, rfl⟩
    · rw [config_none e]
      exact ha
    · have hq := configured h hb hx
      generalize st.config x.sid = r at *
      cases hq with
      | served _ => exact ha
      | full _ _ _ => exact ha
      | refused _ _ _ => exact ha
      | granted _ _ _ _ hg => exact grant st _ x rfl (fun _ y => y) hx hg
      | dropped _ _ _ _ _ _ hg =>
        obtain ⟨h1, _, h3, _⟩ := releaseAll_ind (P := fun u => ∀ y ∈ u.sess, y ∈ st.sess)
          (fun a b x _ _ _ hp hr y hy => hp y (by rw [hr.sess] at hy; exact (List.mem_filter.1 hy).1)) h hb
          (fun _ y => y) (st.others x.sid)
        exact grant _ _ x h3 h1 hx hg
  | init sid =>
    refine ⟨?_, ho⟩
    change Assigned (st.init sid).1
    rcases get_cases h sid with e | ⟨x, hx, rfl⟩
    · rw [init_none e]
      exact ha
    · have hq := inited h hx
      generalize st.init x.sid = r at *
      cases hq with
      | again _ => exact ha
      | done _ hd => exact sub _ hd.next (by rw [hd.sess]; exact fun _ y => y)
  | lost sid =>
    refine ⟨?_, ho⟩
    change Assigned (st.release sid).1
    rcases get_cases h sid with e | ⟨x, hx, rfl⟩
    · rw [release_none e]
      exact ha
    · obtain ⟨t, et, hr⟩ := release_some h hb hx
      rw [et]
      exact sub _ hr.next (fun y hy => by rw [hr.sess] at hy; exact (List.mem_filter.1 hy).1)
  | addSignal =>
    refine ⟨?_, ho⟩
    change Assigned (st.addSignal).1
    unfold St.addSignal
    split <;> exact ha

theorem Assigned.run {st : St} (h : Inv st) (ha : Assigned st) (ops : List Op) (hb : st.next + ops.length < 2 ^ 64)
    (ho : ownIds ops = true) : Assigned (st.run ops).1 := by
  induction ops generalizing st with
  | nil => exact ha
  | cons op l ih =>
    rw [List.length_cons] at hb
    have h1 := step_inv h (by omega) op
    obtain ⟨h2, h3⟩ := ha.step h (by omega) op l ho
    exact ih h1.1 h2 (by omega) h3

/-- If no client takes an id of the form the server assigns, every connection gets a session with a new id. -/
theorem C155_session_partial (m p t : Nat) (ops : List Op) (hb : ops.length < 2 ^ 64) (ho : ownIds ops = true) (user : Nat) :
    let st := ((start m p t).run ops).1
    ∃ s, (st.step (.accept user)).1.sess = st.sess ++ [s] ∧ s.user = user ∧ s.config = false ∧ s.kind = .control ∧
      (∀ x ∈ st.sess, x.sid ≠ s.sid ∧ x.cid ≠ s.cid) := by
  have h := hist_inv m p t ops hb
  have ha : Assigned ((start m p t).run ops).1 :=
    Assigned.run (start_inv m p t) (fun s hs => by simp [start] at hs) ops (by change 0 + ops.length < 2 ^ 64; omega) ho
  generalize ((start m p t).run ops).1 = st at *
  intro st
  refine ⟨newSess st user, ?_, rfl, rfl, rfl, ?_⟩
  · change (st.accept user).1.sess = _
    rcases accept_cases st user with ⟨⟨s, hs, e⟩, _⟩ | ⟨_, e⟩
    · exact absurd (ha s hs _ e) (Nat.lt_irrefl _)
    · rw [e]
  · intro x hx
    refine ⟨fun e => ?_, fun e => ?_⟩
    · have h1 := h.lt x hx
      rw [e] at h1
      exact Nat.lt_irrefl _ h1
    · exact Nat.lt_irrefl _ (ha x hx st.next e)

example : ownIds demo = true ∧ ownIds demoList = true := by decide +kernel

/-- A client takes the id that the server assigns next: the next connection gets no session. -/
theorem C155_violation_taken :
    let ops : List Op := [.accept 1, .announce 0 { id := some (.assigned 1, false) }]
    ((hist 0 ops).step (.accept 2)).1.sess = (hist 0 ops).sess ∧ (hist 0 ops).sess.map (·.user) = [1] := by
  decide +kernel

/-! ## C156: the settings of streaming -/

/-- Every streaming client gets the threshold for releases as the largest size of cached payloads, and the other way round. -/
def Swapped (st : St) : Prop := ∀ x ∈ st.streams, x.payloadMax = st.threshold ∧ x.threshold = st.payloadMax

theorem Swapped.step {st : St} (h : Inv st) (hb : st.next < 2 ^ 64) (ha : Swapped st) (op : Op) : Swapped (st.step op).1 := by
  obtain ⟨_, h1, h2⟩ := step_max h hb op
  have sub : ∀ (u : St), u.payloadMax = st.payloadMax → u.threshold = st.threshold → (∀ x ∈ u.streams, x ∈ st.streams) → Swapped u := by
    intro u e1 e2 hu x hx
    rw [e1, e2]
    exact ha x (hu x hx)
  have rel : ∀ (v w : St) (s : Sess), Released v w s → (∀ x ∈ v.streams, x ∈ st.streams) → ∀ x ∈ w.streams, x ∈ st.streams := by
    intro v w s hr hv x hx
    rw [hr.streams] at hx
    exact hv x (List.mem_filter.1 hx).1
  cases op with
  | accept u =>
    refine sub _ h1 h2 ?_
    change ∀ x ∈ (st.accept u).1.streams, _
    rcases accept_cases st u with ⟨_, e⟩ | ⟨_, e⟩ <;> rw [e] <;> exact fun _ y => y
  | announce sid p =>
    refine sub _ h1 h2 ?_
    change ∀ x ∈ (st.announce sid p).1.streams, _
    rcases get_cases h sid with e | ⟨x, hx, rfl⟩
    · rw [announce_none p e]
      exact fun _ y => y
    · have hq := announced h hb hx p
      generalize st.announce x.sid p = r at *
      cases hq with
      | plain _ => exact fun _ y => y
      | renamed e _ => exact fun _ y => y
      | taken _ _ _ => exact fun _ y => y
      | over e _ _ _ hr => exact fun y hy => rel st _ _ hr (fun _ z => z) y hy
      | self _ hr => exact rel _ _ _ hr (fun _ y => y)
  | config sid =>
    refine sub _ h1 h2 ?_
    change ∀ x ∈ (st.config sid).1.streams, _
    rcases get_cases h sid with e | ⟨x, hx, rfl⟩
    · rw [config_none e]
      exact fun _ y => y
    · have hq := configured h hb hx
      generalize st.config x.sid = r at *
      cases hq with
      | served _ => exact fun _ y => y
      | full _ _ _ => exact fun _ y => y
      | refused _ _ _ => exact fun _ y => y
      | granted _ _ _ _ hg =>
        rw [hg.streams]
        exact fun _ y => y
      | dropped _ _ _ _ _ _ hg =>
        rw [hg.streams]
        exact (releaseAll_ind (P := fun u => ∀ x ∈ u.streams, x ∈ st.streams)
          (fun a b x _ _ _ hp hr => rel a b x hr hp) h hb (fun _ y => y) (st.others x.sid)).1
  | init sid =>
    change Swapped (st.init sid).1
    rcases get_cases h sid with e | ⟨x, hx, rfl⟩
    · rw [init_none e]
      exact ha
    · have hq := inited h hx
      generalize st.init x.sid = r at *
      cases hq with
      | again _ => exact ha
      | done _ hd =>
        intro y hy
        rw [hd.payloadMax, hd.threshold]
        rw [hd.streams] at hy
        rcases List.mem_append.1 hy with hy | hy
        · exact ha y hy
        · simp at hy
          subst hy
          exact ⟨rfl, rfl⟩
  | lost sid =>
    refine sub _ h1 h2 ?_
    change ∀ x ∈ (st.release sid).1.streams, _
    rcases get_cases h sid with e | ⟨x, hx, rfl⟩
    · rw [release_none e]
      exact fun _ y => y
    · obtain ⟨t, et, hr⟩ := release_some h hb hx
      rw [et]
      exact rel _ _ _ hr (fun _ y => y)
  | addSignal =>
    change Swapped (st.addSignal).1
    unfold St.addSignal
    split <;> exact ha

theorem Swapped.run {st : St} (h : Inv st) (ha : Swapped st) (ops : List Op) (hb : st.next + ops.length < 2 ^ 64) :
    Swapped (st.run ops).1 := by
  induction ops generalizing st with
  | nil => exact ha
  | cons op l ih =>
    rw [List.length_cons] at hb
    have h1 := step_inv h (by omega) op
    exact ih h1.1 (ha.step h (by omega) op) (by omega)

/-- The settings of the server reach every streaming client if the two are the same number, and only then. -/
theorem C156_settings_partial (m p t : Nat) (ops : List Op) (hb : ops.length < 2 ^ 64) :
    ∀ x ∈ ((start m p t).run ops).1.streams, (x.payloadMax = p ∧ x.threshold = t) ↔ p = t := by
  have hb' : (start m p t).next + ops.length < 2 ^ 64 := by change 0 + ops.length < 2 ^ 64; omega
  have h := Swapped.run (start_inv m p t) (fun x hx => by simp [start] at hx) ops hb'
  obtain ⟨_, h1, h2⟩ := run_max (start_inv m p t) ops hb'
  intro x hx
  obtain ⟨h3, h4⟩ := h x hx
  rw [h2] at h3
  rw [h1] at h4
  change x.payloadMax = t at h3
  change x.threshold = p at h4
  constructor
  · rintro ⟨h5, _⟩
    rw [← h5, h3]
  · intro e
    exact ⟨by rw [h3, e], by rw [h4, e]⟩

/-- Payloads of up to 1024 bytes are to be cached, releases to be sent after 50 packets: the client gets 50 bytes and 1024 packets. -/
theorem C156_violation_swapped :
    ((start 0 1024 50).run [.accept 1, .init 0]).1.streams = [⟨.assigned 0, 50, 1024⟩] := by
  decide +kernel

/-! ## C157: no message is an exception for the server -/

/-- Whatever clients send: an exception leaves the handler only if streaming is requested again, if a session announces its own
id as that of a client that reconnected, or if a signal is added while a streaming client has no session. -/
theorem C157_threw_partial (m p t : Nat) (ops : List Op) (hb : ops.length < 2 ^ 64) (op : Op)
    (hc : Ev.threw ∈ (((start m p t).run ops).1.step op).2) :
    let st := ((start m p t).run ops).1
    (∃ s ∈ st.sess, op = .init s.sid ∧ s.cid ∈ st.streams.map (·.cid)) ∨
    (∃ s ∈ st.sess, ∃ q, op = .announce s.sid q ∧ q.id = some (s.cid, true)) ∨
    (op = .addSignal ∧ ∃ x ∈ st.streams, ∀ s ∈ st.sess, s.cid ≠ x.cid) := by
  have h := hist_inv m p t ops hb
  have hnx := hist_next m p t ops hb
  generalize ((start m p t).run ops).1 = st at *
  intro st
  cases op with
  | accept u =>
    change _ ∈ (st.accept u).2 at hc
    rcases accept_cases st u with ⟨_, e⟩ | ⟨_, e⟩ <;> rw [e] at hc <;> cases hc
  | announce sid q =>
    change _ ∈ (st.announce sid q).2 at hc
    refine Or.inr (Or.inl ?_)
    rcases get_cases h sid with e | ⟨x, hx, rfl⟩
    · rw [announce_none q e] at hc
      cases hc
    · have ha := announced h hnx hx q
      generalize st.announce x.sid q = r at *
      cases ha with
      | plain _ => cases hc
      | renamed _ _ => cases hc
      | taken _ _ _ => cases hc
      | over _ _ _ _ _ => simp at hc
      | self e1 _ => exact ⟨x, hx, q, rfl, e1⟩
  | config sid =>
    change _ ∈ (st.config sid).2 at hc
    exfalso
    rcases get_cases h sid with e | ⟨x, hx, rfl⟩
    · rw [config_none e] at hc
      cases hc
    · have ha := configured h hnx hx
      generalize st.config x.sid = r at *
      cases ha with
      | served _ => simp at hc
      | full _ _ _ => simp at hc
      | refused _ _ _ => simp at hc
      | granted _ _ _ _ _ => simp at hc
      | dropped _ _ _ _ _ _ _ => simp at hc
  | init sid =>
    change _ ∈ (st.init sid).2 at hc
    rcases get_cases h sid with e | ⟨x, hx, rfl⟩
    · rw [init_none e] at hc
      cases hc
    · have ha := inited h hx
      generalize st.init x.sid = r at *
      cases ha with
      | again e => exact Or.inl ⟨x, hx, rfl, e⟩
      | done _ _ => simp at hc
  | lost sid =>
    change _ ∈ (st.release sid).2 at hc
    exfalso
    rcases get_cases h sid with e | ⟨x, hx, rfl⟩
    · rw [release_none e] at hc
      cases hc
    · obtain ⟨u, et, hr⟩ := release_some h hnx hx
      rw [et] at hc
      simp at hc
  | addSignal =>
    change _ ∈ (st.addSignal).2 at hc
    refine Or.inr (Or.inr ⟨rfl, ?_⟩)
    unfold St.addSignal at hc
    split at hc
    · simp at hc
    · rename_i e
      simp only [List.all_eq_true, not_forall] at e
      obtain ⟨x, hx, e⟩ := e
      refine ⟨x, hx, ?_⟩
      cases e2 : st.byId x.cid with
      | none => exact byId_none.1 e2
      | some y => exact absurd (by rw [e2]; rfl) e

/-- A second request for streaming in a session. -/
theorem C157_violation_init : ((start 0 0 0).run [.accept 1, .init 0, .init 0]).2 = [.initDone 0, .threw] := by
  decide +kernel

/-- A session that announces its own id as that of a client that reconnected: it is closed, and that is an exception. -/
theorem C157_violation_self :
    ((start 0 0 0).run [.accept 1, .announce 0 { id := some (.own 7, false) }, .announce 0 { id := some (.own 7, true) }]).2 =
      [.closed 0, .threw] := by
  decide +kernel

end Verif.Sessions.Props
