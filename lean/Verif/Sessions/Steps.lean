import Verif.Sessions.Inv

/-!
# What each message does
-/

namespace Verif.Sessions

/-- The session as its client announced it. -/
def upd (s : Sess) (p : Props) (c : Cid) (r : Bool) : Sess :=
  { s with host := p.host.getD s.host, cid := c, reconnected := r, kind := p.kind.getD .control, drop := p.drop.getD false }

/-- What an announcement does. -/
inductive Announced (st : St) (s : Sess) (p : Props) : St × List Ev → Prop
  | plain : p.id = none → Announced st s p (st.put (upd s p s.cid s.reconnected), [])
  | renamed {c r} : p.id = some (c, r) → (∀ x ∈ st.sess, x.cid ≠ c) → Announced st s p (st.put (upd s p c r), [])
  | taken {c o} : p.id = some (c, false) → o ∈ st.sess → o.cid = c → Announced st s p (st.put (upd s p s.cid false), [])
  | over {c o t} : p.id = some (c, true) → o ∈ st.sess → o.cid = c → o.sid ≠ s.sid → Released st t o →
      Announced st s p (t.put (upd s p c true), [.closed o.sid])
  | self {t} : p.id = some (s.cid, true) → Released st t s → Announced st s p (t, [.closed s.sid, .threw])

theorem announced {st : St} (h : Inv st) (hb : st.next < 2 ^ 64) {s : Sess} (hs : s ∈ st.sess) (p : Props) :
    Announced st s p (st.announce s.sid p) := by
  unfold St.announce
  rw [(get_iff h.sids).2 ⟨hs, rfl⟩]
  simp only
  cases ep : p.id with
  | none =>
    exact .plain ep
  | some q =>
    obtain ⟨c, r⟩ := q
    simp only
    unfold St.rename
    cases ec : st.byId c with
    | none =>
      simp only [if_true]
      rw [(byId_iff h.cids).2 ⟨hs, rfl⟩]
      exact .renamed ep (byId_none.1 ec)
    | some o =>
      obtain ⟨ho, hoc⟩ := (byId_iff h.cids).1 ec
      cases r with
      | false =>
        simp only [Bool.false_eq_true, if_false]
        exact .taken ep ho hoc
      | true =>
        simp only [if_true]
        obtain ⟨t, et, hr⟩ := release_some h hb ho
        rw [et]
        by_cases e : o.sid = s.sid
        · have : o = s := inj_of h.sids ho hs e
          subst this
          have hn : t.byId o.cid = none := by
            rw [byId_none]
            intro x hx hxc
            rw [hr.sess] at hx
            obtain ⟨hx, hxs⟩ := List.mem_filter.1 hx
            have := inj_of h.cids hx hs hxc
            rw [this] at hxs
            simp at hxs
          simp only [hn]
          subst hoc
          exact .self ep hr
        · have hm : s ∈ t.sess := by
            rw [hr.sess]
            exact List.mem_filter.2 ⟨hs, by simpa using (Ne.symm e)⟩
          simp only [(byId_iff hr.inv.cids).2 ⟨hm, rfl⟩]
          exact .over ep ho hoc e hr

theorem announce_none {st : St} {sid : Nat} (p : Props) (h : st.get sid = none) : st.announce sid p = (st, []) := by
  unfold St.announce
  rw [h]

theorem get_none {st : St} {sid : Nat} (h : ∀ s ∈ st.sess, s.sid ≠ sid) : st.get sid = none := by
  unfold St.get
  rw [List.find?_eq_none]
  simpa using h

theorem Announced.inv {st : St} {s : Sess} {p : Props} (h : Inv st) (hs : s ∈ st.sess) {r : St × List Ev}
    (ha : Announced st s p r) : Inv r.1 := by
  cases ha with
  | plain _ =>
    exact h.put hs rfl (fun x hx e => by rw [inj_of h.cids hx hs e]; rfl) (h.srv s hs) rfl
  | renamed _ hf => exact h.put hs rfl (fun x hx e => absurd e (hf x hx)) (h.srv s hs) rfl
  | taken _ _ _ =>
    exact h.put hs rfl (fun x hx e => by rw [inj_of h.cids hx hs e]; rfl) (h.srv s hs) rfl
  | @over c o t _ ho hoc hne hr =>
    have hm : s ∈ t.sess := by
      rw [hr.sess]
      exact List.mem_filter.2 ⟨hs, by simpa using (Ne.symm hne)⟩
    refine hr.inv.put hm rfl ?_ (h.srv s hs) rfl
    intro x hx e
    rw [hr.sess] at hx
    obtain ⟨hx, hxs⟩ := List.mem_filter.1 hx
    have : x = o := inj_of h.cids hx ho (by rw [e]; exact hoc.symm)
    rw [this] at hxs
    simp at hxs
  | self _ hr => exact hr.inv

theorem Announced.next {st : St} {s : Sess} {p : Props} {r : St × List Ev} (ha : Announced st s p r) :
    r.1.next = st.next := by
  cases ha with
  | plain _ => rfl
  | renamed _ _ => rfl
  | taken _ _ _ => rfl
  | over _ _ _ _ hr => exact hr.next
  | self _ hr => exact hr.next

/-- What holds and is kept when sessions are released holds after several were. -/
theorem releaseAll_ind {P : St → Prop} (hP : ∀ st t s, Inv st → st.next < 2 ^ 64 → s ∈ st.sess → P st → Released st t s → P t)
    {st : St} (h : Inv st) (hb : st.next < 2 ^ 64) (h0 : P st) (l : List Nat) :
    P (st.releaseAll l).1 ∧ Inv (st.releaseAll l).1 ∧ (st.releaseAll l).1.next = st.next ∧
      (st.releaseAll l).1.max = st.max := by
  induction l generalizing st with
  | nil => exact ⟨h0, h, rfl, rfl⟩
  | cons n l ih =>
    unfold St.releaseAll
    simp only
    cases e : st.get n with
    | none =>
      rw [release_none e]
      exact ih h hb h0
    | some s =>
      obtain ⟨hs, rfl⟩ := (get_iff h.sids).1 e
      obtain ⟨t, et, hr⟩ := release_some h hb hs
      rw [et]
      have := ih hr.inv (by rw [hr.next]; exact hb) (hP st t s h hb hs h0 hr)
      rw [hr.next, hr.max] at this
      exact this

theorem releaseAll_ok {st : St} (h : Inv st) (hb : st.next < 2 ^ 64) (l : List Nat) (hn : l.Nodup)
    (hl : ∀ n ∈ l, ∃ s ∈ st.sess, s.sid = n) :
    (st.releaseAll l).2 = l.map .closed ∧ (st.releaseAll l).1.sess = st.sess.filter (fun x => decide (x.sid ∉ l)) := by
  induction l generalizing st with
  | nil => exact ⟨rfl, by simp [St.releaseAll]⟩
  | cons n l ih =>
    unfold St.releaseAll
    simp only
    obtain ⟨s, hs, rfl⟩ := hl n List.mem_cons_self
    obtain ⟨t, et, hr⟩ := release_some h hb hs
    rw [et]
    rw [List.nodup_cons] at hn
    have hl' : ∀ m ∈ l, ∃ x ∈ t.sess, x.sid = m := by
      intro m hm
      obtain ⟨x, hx, rfl⟩ := hl m (List.mem_cons_of_mem _ hm)
      refine ⟨x, ?_, rfl⟩
      rw [hr.sess]
      refine List.mem_filter.2 ⟨hx, ?_⟩
      have : x.sid ≠ s.sid := fun e => hn.1 (e ▸ hm)
      simpa using this
    obtain ⟨h1, h2⟩ := ih hr.inv (by rw [hr.next]; exact hb) hn.2 hl'
    refine ⟨by rw [h1]; rfl, ?_⟩
    rw [h2, hr.sess, List.filter_filter]
    refine List.filter_congr ?_
    intro x _
    by_cases e : x.sid = s.sid <;> simp [e]

theorem others_nodup {st : St} (h : Inv st) (sid : Nat) : (st.others sid).Nodup :=
  h.sids.sublist (List.filter_sublist.map _)

theorem mem_others {st : St} {sid n : Nat} (h : n ∈ st.others sid) :
    ∃ s ∈ st.sess, s.sid = n ∧ n ≠ sid ∧ s.config = true ∧ s.kind ≠ .viewOnly := by
  obtain ⟨s, hs, rfl⟩ := List.mem_map.1 h
  obtain ⟨hs, hp⟩ := List.mem_filter.1 hs
  simp only [Bool.and_eq_true, bne_iff_ne, ne_eq, Bool.or_eq_true, beq_iff_eq] at hp
  refine ⟨s, hs, rfl, hp.1.1, hp.1.2, ?_⟩
  rcases hp.2 with e | e <;> rw [e] <;> decide

/-- What a configuration packet does. -/
inductive Configured (st : St) (s : Sess) : St × List Ev → Prop
  | served {k} : s.serves = some k → Configured st s (st, [.passed s.sid k])
  | full : s.serves = none → st.max ≠ 0 → st.cfg = st.max → Configured st s (st, [.rejected s.sid .limit])
  | refused : s.serves = none → (s.kind = .control ∧ 0 < st.exc) ∨
      (s.kind = .exclusive ∧ (0 < st.exc ∨ 0 < st.ctl) ∧ ¬ (s.drop = true ∧ s.reconnected = false)) →
      ¬ (st.max ≠ 0 ∧ st.cfg = st.max) → Configured st s (st, [.rejected s.sid .control])
  | granted {t} : s.serves = none → ¬ (st.max ≠ 0 ∧ st.cfg = st.max) → ¬ (s.kind = .control ∧ 0 < st.exc) →
      ¬ (s.kind = .exclusive ∧ (0 < st.exc ∨ 0 < st.ctl)) →
      Granted st t s → Configured st s (t, [.passed s.sid s.kind])
  | dropped {t} : s.serves = none → ¬ (st.max ≠ 0 ∧ st.cfg = st.max) → s.kind = .exclusive → (0 < st.exc ∨ 0 < st.ctl) →
      s.drop = true → s.reconnected = false → Granted (st.releaseAll (st.others s.sid)).1 t s →
      Configured st s (t, (st.others s.sid).map .closed ++ [.passed s.sid s.kind])

theorem configured {st : St} (h : Inv st) (hb : st.next < 2 ^ 64) {s : Sess} (hs : s ∈ st.sess) :
    Configured st s (st.config s.sid) := by
  unfold St.config
  rw [(get_iff h.sids).2 ⟨hs, rfl⟩]
  simp only
  have hsc := h.srv s hs
  cases e : s.serves with
  | some k => exact .served e
  | none =>
    rw [e] at hsc
    have hcf : s.config = false := hsc.symm
    simp only
    by_cases e1 : st.max ≠ 0 ∧ st.cfg = st.max
    · rw [if_pos e1]
      exact .full e e1.1 e1.2
    · have hlim : st.max ≠ 0 → st.cfg < st.max := fun h0 =>
        Nat.lt_of_le_of_ne (h.lim h0) (fun e2 => e1 ⟨h0, e2⟩)
      rw [if_neg e1]
      by_cases e2 : s.kind = .control ∧ 0 < st.exc
      · rw [if_pos e2]
        exact .refused e (Or.inl e2) e1
      · rw [if_neg e2]
        by_cases e3 : s.kind = .exclusive ∧ (0 < st.exc ∨ 0 < st.ctl)
        · rw [if_pos e3]
          by_cases e4 : s.drop = true ∧ ¬ s.reconnected = true
          · rw [if_pos e4]
            have hoth : ∀ n ∈ st.others s.sid, ∃ x ∈ st.sess, x.sid = n := fun n hn => by
              obtain ⟨x, hx, hxn, _⟩ := mem_others hn
              exact ⟨x, hx, hxn⟩
            obtain ⟨h1, h2⟩ := releaseAll_ok h hb _ (others_nodup h s.sid) hoth
            obtain ⟨h5, h6, h7, h8⟩ := releaseAll_ind (P := fun t => t.max ≠ 0 → t.cfg < t.max) (by
              intro a b x ha hba hx hp hr h0
              have hp' := hp (hr.max ▸ h0)
              have hle : b.cfg ≤ a.cfg := by
                rw [hr.inv.cfg, ha.cfg, hr.sess]
                exact (List.filter_sublist).countP_le
              rw [hr.max]
              omega) h hb hlim (st.others s.sid)
            have hm : s ∈ (st.releaseAll (st.others s.sid)).1.sess := by
              rw [h2]
              refine List.mem_filter.2 ⟨hs, ?_⟩
              simp only [decide_eq_true_eq]
              intro hn
              obtain ⟨_, _, _, hne, _⟩ := mem_others hn
              exact hne rfl
            obtain ⟨t, et, hg⟩ := grant_ok h6 (by rw [h7]; exact hb) hm hcf h5
            rw [et, h1]
            exact .dropped e e1 e3.1 e3.2 e4.1 (by simpa using e4.2) hg
          · rw [if_neg e4]
            exact .refused e (Or.inr ⟨e3.1, e3.2, fun hh => e4 ⟨hh.1, by simp [hh.2]⟩⟩) e1
        · rw [if_neg e3]
          obtain ⟨t, et, hg⟩ := grant_ok h hb hs hcf hlim
          rw [et]
          exact .granted e e1 e2 e3 hg

theorem config_none {st : St} {sid : Nat} (h : st.get sid = none) : st.config sid = (st, []) := by
  unfold St.config
  rw [h]

theorem Configured.inv {st : St} {s : Sess} (h : Inv st) {r : St × List Ev} (hc : Configured st s r) : Inv r.1 := by
  cases hc with
  | served _ => exact h
  | full _ _ _ => exact h
  | refused _ _ _ => exact h
  | granted _ _ _ _ hg => exact hg.inv
  | dropped _ _ _ _ _ _ hg => exact hg.inv

theorem Configured.next {st : St} {s : Sess} (h : Inv st) (hb : st.next < 2 ^ 64) {r : St × List Ev} (hc : Configured st s r) :
    r.1.next = st.next := by
  cases hc with
  | served _ => rfl
  | full _ _ _ => rfl
  | refused _ _ _ => rfl
  | granted _ _ _ _ hg => exact hg.next
  | dropped _ _ _ _ _ _ hg =>
    have := releaseAll_ind (P := fun _ => True) (fun _ _ _ _ _ _ _ _ => trivial) h hb trivial (st.others s.sid)
    rw [hg.next]
    exact this.2.2.1

/-- The state after session `s` was registered for streaming. -/
structure Streams (st t : St) (s : Sess) : Prop where
  max : t.max = st.max
  payloadMax : t.payloadMax = st.payloadMax
  threshold : t.threshold = st.threshold
  next : t.next = st.next
  sess : t.sess = st.sess
  ctl : t.ctl = st.ctl
  exc : t.exc = st.exc
  streams : t.streams = st.streams ++ [⟨s.cid, st.threshold, st.payloadMax⟩]
  fresh : st.number s.cid ∉ st.info.map (·.1)
  info : t.info = st.info ++ [(st.number s.cid, ⟨none, s.host, (st.gone.lookup s.cid).isSome⟩)]
  reg : t.reg = if s.cid ∈ st.reg.map (·.1) then st.reg else st.reg ++ [(s.cid, st.number s.cid)]
  inv : Inv t

/-- What a request for streaming does. -/
inductive Inited (st : St) (s : Sess) : St × List Ev → Prop
  | again : s.cid ∈ st.streams.map (·.cid) → Inited st s (st, [.threw])
  | done {t} : s.cid ∉ st.streams.map (·.cid) → Streams st t s → Inited st s (t, [.initDone s.sid])

theorem inited {st : St} (h : Inv st) {s : Sess} (hs : s ∈ st.sess) : Inited st s (st.init s.sid) := by
  unfold St.init
  rw [(get_iff h.sids).2 ⟨hs, rfl⟩]
  simp only
  by_cases e : st.streaming s.cid = true
  · rw [if_pos e]
    exact .again (streaming_iff.1 e)
  · rw [if_neg e]
    have hr : Reg (st.register s.cid st.payloadMax st.threshold).reg (st.register s.cid st.payloadMax st.threshold).gone
      (st.register s.cid st.payloadMax st.threshold).total (st.register s.cid st.payloadMax st.threshold).info := h.reg
    obtain ⟨hok, hj⟩ := join_ok hr s.cid none s.host
    rw [hok]
    refine .done (fun hm => e (streaming_iff.2 hm)) ?_
    generalize ((st.register s.cid st.payloadMax st.threshold).join s.cid none s.host).1 = u at hj
    refine ⟨hj.max, hj.payloadMax, hj.threshold, hj.next, hj.sess, hj.ctl, hj.exc, hj.streams, hj.fresh, hj.info, hj.reg, ?_⟩
    have hse : u.sess = st.sess := hj.sess
    have hnx : u.next = st.next := hj.next
    have hcf : u.cfg = st.cfg := hj.cfg
    have hmx : u.max = st.max := hj.max
    exact ⟨hse ▸ h.sids, by rw [hse, hnx]; exact h.lt, by rw [hse, hnx]; exact h.len, hse ▸ h.cids, hse ▸ h.srv, hj.ok,
      by rw [hcf, hse]; exact h.cfg, by rw [hcf, hmx]; exact h.lim⟩

theorem init_none {st : St} {sid : Nat} (h : st.get sid = none) : st.init sid = (st, []) := by
  unfold St.init
  rw [h]

theorem Inited.inv {st : St} {s : Sess} (h : Inv st) {r : St × List Ev} (hi : Inited st s r) : Inv r.1 := by
  cases hi with
  | again _ => exact h
  | done _ hs => exact hs.inv

theorem Inited.next {st : St} {s : Sess} {r : St × List Ev} (hi : Inited st s r) : r.1.next = st.next := by
  cases hi with
  | again _ => rfl
  | done _ hs => exact hs.next

/-- The session of a new connection. -/
def newSess (st : St) (user : Nat) : Sess := { sid := st.next, user := user, cid := .assigned st.next }

theorem accept_cases (st : St) (user : Nat) :
    ((∃ s ∈ st.sess, s.cid = .assigned st.next) ∧ st.accept user = ({ st with next := st.next + 1 }, [])) ∨
    ((∀ s ∈ st.sess, s.cid ≠ .assigned st.next) ∧
      st.accept user = ({ st with next := st.next + 1, sess := st.sess ++ [newSess st user] }, [])) := by
  unfold St.accept
  simp only
  cases e : st.byId (.assigned st.next) with
  | none =>
    refine Or.inr ⟨byId_none.1 e, ?_⟩
    rfl
  | some s =>
    refine Or.inl ⟨⟨s, List.mem_of_find?_eq_some e, ?_⟩, rfl⟩
    simpa using List.find?_some e

theorem accept_inv {st : St} (h : Inv st) (user : Nat) : Inv (st.accept user).1 := by
  rcases accept_cases st user with ⟨_, e⟩ | ⟨hf, e⟩
  · rw [e]
    exact ⟨h.sids, fun s hs => Nat.lt_succ_of_lt (h.lt s hs), Nat.le_succ_of_le h.len, h.cids, h.srv, h.reg, h.cfg, h.lim⟩
  · rw [e]
    have hcnt : cnt (·.config) (st.sess ++ [newSess st user]) = cnt (·.config) st.sess := by
      unfold cnt
      rw [List.countP_append]
      rfl
    refine ⟨?_, ?_, ?_, ?_, ?_, h.reg, by rw [hcnt]; exact h.cfg, h.lim⟩
    · rw [List.map_append]
      refine List.nodup_append.2 ⟨h.sids, by simp, ?_⟩
      rintro a ha b hb rfl
      simp [newSess] at hb
      subst hb
      obtain ⟨x, hx, hxe⟩ := List.mem_map.1 ha
      have := h.lt x hx
      omega
    · intro s hs
      rcases List.mem_append.1 hs with hs | hs
      · exact Nat.lt_succ_of_lt (h.lt s hs)
      · simp at hs
        subst hs
        exact Nat.lt_succ_self _
    · simp only [List.length_append, List.length_singleton]
      have := h.len
      omega
    · rw [List.map_append]
      refine List.nodup_append.2 ⟨h.cids, by simp, ?_⟩
      rintro a ha b hb rfl
      simp [newSess] at hb
      subst hb
      obtain ⟨x, hx, hxe⟩ := List.mem_map.1 ha
      exact hf x hx hxe
    · intro s hs
      rcases List.mem_append.1 hs with hs | hs
      · exact h.srv s hs
      · simp at hs
        subst hs
        rfl

/-- Either a message is for no session, or it is for one. -/
theorem get_cases {st : St} (h : Inv st) (sid : Nat) : st.get sid = none ∨ ∃ s ∈ st.sess, s.sid = sid := by
  cases e : st.get sid with
  | none => exact Or.inl rfl
  | some s => exact Or.inr ⟨s, ((get_iff h.sids).1 e).1, ((get_iff h.sids).1 e).2⟩

theorem step_inv {st : St} (h : Inv st) (hb : st.next + 1 < 2 ^ 64) (op : Op) :
    Inv (st.step op).1 ∧ (st.step op).1.next ≤ st.next + 1 := by
  have hb' : st.next < 2 ^ 64 := by omega
  cases op with
  | accept u =>
    refine ⟨accept_inv h u, ?_⟩
    change (st.accept u).1.next ≤ _
    rcases accept_cases st u with ⟨_, e⟩ | ⟨_, e⟩ <;> rw [e] <;> exact Nat.le_refl _
  | announce sid p =>
    change Inv (st.announce sid p).1 ∧ (st.announce sid p).1.next ≤ st.next + 1
    rcases get_cases h sid with e | ⟨s, hs, rfl⟩
    · rw [announce_none p e]
      exact ⟨h, Nat.le_succ _⟩
    · have := announced h hb' hs p
      exact ⟨this.inv h hs, by rw [this.next]; exact Nat.le_succ _⟩
  | config sid =>
    change Inv (st.config sid).1 ∧ (st.config sid).1.next ≤ st.next + 1
    rcases get_cases h sid with e | ⟨s, hs, rfl⟩
    · rw [config_none e]
      exact ⟨h, Nat.le_succ _⟩
    · have := configured h hb' hs
      exact ⟨this.inv h, by rw [this.next h hb']; exact Nat.le_succ _⟩
  | init sid =>
    change Inv (st.init sid).1 ∧ (st.init sid).1.next ≤ st.next + 1
    rcases get_cases h sid with e | ⟨s, hs, rfl⟩
    · rw [init_none e]
      exact ⟨h, Nat.le_succ _⟩
    · have := inited h hs
      exact ⟨this.inv h, by rw [this.next]; exact Nat.le_succ _⟩
  | lost sid =>
    change Inv (st.release sid).1 ∧ (st.release sid).1.next ≤ st.next + 1
    rcases get_cases h sid with e | ⟨s, hs, rfl⟩
    · rw [release_none e]
      exact ⟨h, Nat.le_succ _⟩
    · obtain ⟨t, et, hr⟩ := release_some h hb' hs
      rw [et]
      exact ⟨hr.inv, by rw [hr.next]; exact Nat.le_succ _⟩
  | addSignal =>
    change Inv (st.addSignal).1 ∧ (st.addSignal).1.next ≤ st.next + 1
    unfold St.addSignal
    split
    · exact ⟨h, Nat.le_succ _⟩
    · exact ⟨h, Nat.le_succ _⟩

theorem start_inv (m p t : Nat) : Inv (start m p t) :=
  ⟨by simp [start], by simp [start], by simp [start], by simp [start], by simp [start], Reg.nil, by simp [start], by simp [start]⟩

theorem run_inv {st : St} (h : Inv st) (ops : List Op) (hb : st.next + ops.length < 2 ^ 64) :
    Inv (st.run ops).1 ∧ (st.run ops).1.next ≤ st.next + ops.length := by
  induction ops generalizing st with
  | nil => exact ⟨h, Nat.le_refl _⟩
  | cons op l ih =>
    rw [List.length_cons] at hb ⊢
    have h1 := step_inv h (by omega) op
    have h2 := ih h1.1 (by omega)
    exact ⟨h2.1, Nat.le_trans h2.2 (by omega)⟩

end Verif.Sessions
