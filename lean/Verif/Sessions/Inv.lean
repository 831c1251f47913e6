import Verif.Sessions.Reg

/-!
# What holds after every history, and what each message does
-/

namespace Verif.Sessions

theorem inc_exact {n : Nat} (h : n + 1 < 2 ^ 64) : inc n = n + 1 := Nat.mod_eq_of_lt h

theorem dec_exact {n : Nat} (h0 : 0 < n) (h : n < 2 ^ 64) : dec n = n - 1 := by
  unfold dec
  have e : n + (2 ^ 64 - 1) = (n - 1) + 2 ^ 64 := by omega
  rw [e, Nat.add_mod_right]
  exact Nat.mod_eq_of_lt (by omega)

/-- Counts sessions. -/
abbrev cnt (p : Sess → Bool) (l : List Sess) : Nat := l.countP p

theorem filter_self {l : List Sess} {n : Nat} (h : n ∉ l.map (·.sid)) : l.filter (fun x => x.sid != n) = l := by
  refine List.filter_eq_self.2 ?_
  intro x hx
  have : x.sid ≠ n := fun e => h (e ▸ List.mem_map.2 ⟨x, hx, rfl⟩)
  simpa using this

theorem cnt_filter (p : Sess → Bool) {l : List Sess} (hn : (l.map (·.sid)).Nodup) {s : Sess} (hs : s ∈ l) :
    cnt p (l.filter (fun x => x.sid != s.sid)) + (if p s then 1 else 0) = cnt p l := by
  induction l with
  | nil => simp at hs
  | cons a t ih =>
    simp only [List.map_cons, List.nodup_cons] at hn
    rcases List.mem_cons.1 hs with hs' | hs'
    · subst hs'
      have : (s :: t).filter (fun x => x.sid != s.sid) = t := by
        rw [List.filter_cons]
        simp only [bne_self_eq_false, Bool.false_eq_true, if_false]
        exact filter_self hn.1
      rw [this]
      unfold cnt
      rw [List.countP_cons]
    · have e : a.sid ≠ s.sid := fun e => hn.1 (e ▸ List.mem_map.2 ⟨s, hs', rfl⟩)
      have e' : (a.sid != s.sid) = true := by simpa using e
      rw [List.filter_cons, if_pos e']
      unfold cnt at *
      rw [List.countP_cons, List.countP_cons]
      have := ih hn.2 hs'
      omega

theorem map_self {l : List Sess} {s : Sess} (h : s.sid ∉ l.map (·.sid)) :
    l.map (fun x => if x.sid == s.sid then s else x) = l := by
  refine (List.map_congr_left ?_).trans (List.map_id _)
  intro x hx
  have : x.sid ≠ s.sid := fun e => h (e ▸ List.mem_map.2 ⟨x, hx, rfl⟩)
  simp [this]

theorem cnt_map (p : Sess → Bool) {l : List Sess} (hn : (l.map (·.sid)).Nodup) {s s0 : Sess} (hs : s0 ∈ l)
    (hid : s.sid = s0.sid) :
    cnt p (l.map (fun x => if x.sid == s.sid then s else x)) + (if p s0 then 1 else 0) =
      cnt p l + (if p s then 1 else 0) := by
  induction l with
  | nil => simp at hs
  | cons a t ih =>
    simp only [List.map_cons, List.nodup_cons] at hn
    rcases List.mem_cons.1 hs with hs' | hs'
    · subst hs'
      have e1 : (s0.sid == s.sid) = true := by simp [hid]
      simp only [List.map_cons, e1, if_true]
      rw [map_self (by rw [hid]; exact hn.1)]
      unfold cnt
      rw [List.countP_cons, List.countP_cons]
      omega
    · have e : a.sid ≠ s.sid := fun e => hn.1 (by rw [e, hid]; exact List.mem_map.2 ⟨s0, hs', rfl⟩)
      have e' : (a.sid == s.sid) = false := by simpa using e
      simp only [List.map_cons, e', Bool.false_eq_true, if_false]
      unfold cnt at *
      rw [List.countP_cons, List.countP_cons]
      have := ih hn.2 hs'
      omega

/-- The list after a session was replaced. -/
def putL (l : List Sess) (s : Sess) : List Sess := l.map (fun x => if x.sid == s.sid then s else x)

theorem mem_putL {l : List Sess} {s x : Sess} (h : x ∈ putL l s) : x = s ∨ (x ∈ l ∧ x.sid ≠ s.sid) := by
  obtain ⟨y, hy, e⟩ := List.mem_map.1 h
  by_cases hyx : y.sid = s.sid
  · simp [hyx] at e
    exact Or.inl e.symm
  · simp [hyx] at e
    exact Or.inr ⟨e ▸ hy, e ▸ hyx⟩

theorem putL_mem {l : List Sess} {s x : Sess} (h : x ∈ l) (hx : x.sid ≠ s.sid) : x ∈ putL l s :=
  List.mem_map.2 ⟨x, h, by simp [hx]⟩

theorem putL_self {l : List Sess} {s s0 : Sess} (h : s0 ∈ l) (e : s.sid = s0.sid) : s ∈ putL l s :=
  List.mem_map.2 ⟨s0, h, by simp [e]⟩

theorem putL_sids (l : List Sess) (s : Sess) : (putL l s).map (·.sid) = l.map (·.sid) := by
  unfold putL
  rw [List.map_map]
  refine List.map_congr_left ?_
  intro x _
  by_cases e : x.sid = s.sid <;> simp [e]

theorem putL_putL (l : List Sess) {s s' : Sess} (e : s'.sid = s.sid) : putL (putL l s) s' = putL l s' := by
  unfold putL
  rw [List.map_map]
  refine List.map_congr_left ?_
  intro x _
  by_cases h : x.sid = s.sid
  · simp [h, e]
  · simp [h, e]

theorem putL_cids {l : List Sess} {s s0 : Sess} (hn : (l.map (·.sid)).Nodup) (hc : (l.map (·.cid)).Nodup) (hs : s0 ∈ l)
    (hid : s.sid = s0.sid) (hfree : ∀ x ∈ l, x.cid = s.cid → x.sid = s.sid) : ((putL l s).map (·.cid)).Nodup := by
  have key : ∀ (l' : List Sess), (l'.map (·.sid)).Nodup → (l'.map (·.cid)).Nodup →
      (∀ x ∈ l', x.cid = s.cid → x.sid = s.sid) → ((putL l' s).map (·.cid)).Nodup := by
    intro l' h1 h2 h3
    induction l' with
    | nil => simp [putL]
    | cons a t ih =>
      simp only [List.map_cons, List.nodup_cons] at h1 h2
      have ih' := ih h1.2 h2.2 (fun x hx => h3 x (List.mem_cons_of_mem _ hx))
      unfold putL at *
      simp only [List.map_cons, List.nodup_cons]
      refine ⟨?_, ih'⟩
      intro hm
      obtain ⟨y, hy, hye⟩ := List.mem_map.1 hm
      rcases mem_putL hy with rfl | ⟨hy, hys⟩
      · by_cases e : a.sid = y.sid
        · obtain ⟨z, hz, hze⟩ := List.mem_map.1 hm
          obtain ⟨w, hw, hwe⟩ := List.mem_map.1 hy
          have hwa : w.sid ≠ y.sid := fun e2 => h1.1 (by rw [e, ← e2]; exact List.mem_map.2 ⟨w, hw, rfl⟩)
          simp [hwa] at hwe
          exact hwa (by rw [hwe])
        · simp [e] at hye
          exact e (h3 a List.mem_cons_self hye.symm)
      · by_cases e : a.sid = s.sid
        · simp [e] at hye
          exact hys (h3 y (List.mem_cons_of_mem _ hy) hye)
        · simp [e] at hye
          exact h2.1 (hye ▸ List.mem_map.2 ⟨y, hy, rfl⟩)
  exact key l hn hc hfree

/-- What holds after every history. -/
structure Inv (st : St) : Prop where
  sids : (st.sess.map (·.sid)).Nodup
  lt : ∀ s ∈ st.sess, s.sid < st.next
  len : st.sess.length ≤ st.next
  cids : (st.sess.map (·.cid)).Nodup
  srv : ∀ s ∈ st.sess, s.serves.isSome = s.config
  reg : Reg st.reg st.gone st.total st.info
  cfg : st.cfg = cnt (·.config) st.sess
  lim : st.max ≠ 0 → st.cfg ≤ st.max

theorem get_iff {st : St} (h : (st.sess.map (·.sid)).Nodup) {sid : Nat} {s : Sess} :
    st.get sid = some s ↔ s ∈ st.sess ∧ s.sid = sid := by
  unfold St.get
  constructor
  · intro e
    exact ⟨List.mem_of_find?_eq_some e, by simpa using List.find?_some e⟩
  · rintro ⟨hs, rfl⟩
    cases e : st.sess.find? (fun x => x.sid == s.sid) with
    | none => exact absurd (List.find?_eq_none.1 e s hs) (by simp)
    | some y =>
      have h1 := List.mem_of_find?_eq_some e
      have h2 : y.sid = s.sid := by simpa using List.find?_some e
      rw [inj_of h h1 hs h2]

theorem byId_iff {st : St} (h : (st.sess.map (·.cid)).Nodup) {c : Cid} {s : Sess} :
    st.byId c = some s ↔ s ∈ st.sess ∧ s.cid = c := by
  unfold St.byId
  constructor
  · intro e
    exact ⟨List.mem_of_find?_eq_some e, by simpa using List.find?_some e⟩
  · rintro ⟨hs, rfl⟩
    cases e : st.sess.find? (fun x => x.cid == s.cid) with
    | none => exact absurd (List.find?_eq_none.1 e s hs) (by simp)
    | some y =>
      have h1 := List.mem_of_find?_eq_some e
      have h2 : y.cid = s.cid := by simpa using List.find?_some e
      rw [inj_of h h1 hs h2]

theorem byId_none {st : St} {c : Cid} : st.byId c = none ↔ ∀ s ∈ st.sess, s.cid ≠ c := by
  unfold St.byId
  rw [List.find?_eq_none]
  simp

theorem streaming_iff {st : St} {c : Cid} : st.streaming c = true ↔ c ∈ st.streams.map (·.cid) := by
  unfold St.streaming
  simp [List.any_eq_true]

/-- The state after session `s` was released. -/
structure Released (st t : St) (s : Sess) : Prop where
  max : t.max = st.max
  payloadMax : t.payloadMax = st.payloadMax
  threshold : t.threshold = st.threshold
  next : t.next = st.next
  sess : t.sess = st.sess.filter (fun x => x.sid != s.sid)
  ctl : t.ctl = if s.config = true ∧ s.kind = .control then dec st.ctl else st.ctl
  exc : t.exc = if s.config = true ∧ s.kind = .exclusive then dec st.exc else st.exc
  streams : t.streams = st.streams.filter (fun x => x.cid != s.cid)
  reg : t.reg = if s.cid ∈ st.streams.map (·.cid) ∨ s.config = true then st.reg.filter (fun x => x.1 != s.cid) else st.reg
  info : t.info =
    if s.cid ∈ st.streams.map (·.cid) ∨ s.config = true then st.info.filter (fun x => decide ((s.cid, x.1) ∉ st.reg))
    else st.info
  inv : Inv t

theorem release_none {st : St} {sid : Nat} (h : st.get sid = none) : st.release sid = (st, []) := by
  unfold St.release
  rw [h]

theorem Inv.filter {st t : St} (h : Inv st) {s : Sess} (hs : s ∈ st.sess) (hb : st.next < 2 ^ 64) (hmax : t.max = st.max)
    (hnext : t.next = st.next) (hsess : t.sess = st.sess.filter (fun x => x.sid != s.sid))
    (hcfg : t.cfg = if s.config then dec st.cfg else st.cfg) (hreg : Reg t.reg t.gone t.total t.info) : Inv t := by
  have hsub : t.sess.Sublist st.sess := by rw [hsess]; exact List.filter_sublist
  have hm : ∀ x ∈ t.sess, x ∈ st.sess := fun x hx => hsub.subset hx
  have hc := cnt_filter (·.config) h.sids hs
  have hle : cnt (·.config) st.sess ≤ st.sess.length := List.countP_le_length
  have hl := h.len
  have e : t.cfg = cnt (·.config) t.sess := by
    rw [hcfg, hsess, h.cfg]
    by_cases e : s.config = true
    · rw [if_pos e] at hc ⊢
      rw [dec_exact (by omega) (by omega)]
      omega
    · rw [if_neg e] at hc ⊢
      omega
  refine ⟨h.sids.sublist (hsub.map _), ?_, ?_, h.cids.sublist (hsub.map _), fun x hx => h.srv x (hm x hx), hreg, e, ?_⟩
  · intro x hx
    rw [hnext]
    exact h.lt x (hm x hx)
  · rw [hnext]
    exact Nat.le_trans hsub.length_le h.len
  · intro h0
    have := h.lim (hmax ▸ h0)
    rw [h.cfg] at this
    rw [e, hmax, hsess]
    omega

theorem release_some {st : St} (h : Inv st) (hb : st.next < 2 ^ 64) {s : Sess} (hs : s ∈ st.sess) :
    ∃ t, st.release s.sid = (t, [.closed s.sid]) ∧ Released st t s := by
  unfold St.release
  rw [(get_iff h.sids).2 ⟨hs, rfl⟩]
  simp only
  by_cases e : st.streaming s.cid = true ∨ s.config = true
  · obtain ⟨hok, hl⟩ := leave_ok h.reg s.cid
    rw [if_pos e, hok]
    simp only [if_true]
    have e' : s.cid ∈ st.streams.map (·.cid) ∨ s.config = true := by rwa [streaming_iff] at e
    refine ⟨_, rfl, ?_⟩
    generalize (st.leave s.cid).1 = u at hl
    unfold St.uncount
    by_cases ec : s.config = true
    · simp only [ec, if_true]
      exact ⟨hl.max, hl.payloadMax, hl.threshold, hl.next, by simp [hl.sess], by simp [hl.ctl, ec], by simp [hl.exc, ec],
        by simp [hl.streams], (if_pos e').symm ▸ hl.reg, (if_pos e').symm ▸ hl.info,
        h.filter hs hb hl.max hl.next (by simp [hl.sess]) (by simp [ec, hl.cfg]) hl.ok⟩
    · rw [if_neg ec]
      exact ⟨hl.max, hl.payloadMax, hl.threshold, hl.next, by simp [hl.sess], by simp [hl.ctl, ec], by simp [hl.exc, ec],
        by simp [hl.streams], (if_pos e').symm ▸ hl.reg, (if_pos e').symm ▸ hl.info,
        h.filter hs hb hl.max hl.next (by simp [hl.sess]) (by simp [ec, hl.cfg]) hl.ok⟩
  · rw [if_neg e]
    have e' : ¬ (s.cid ∈ st.streams.map (·.cid) ∨ s.config = true) := by rwa [streaming_iff] at e
    have ec : s.config = false := by
      cases e2 : s.config
      · rfl
      · exact absurd (Or.inr e2) e'
    simp only [if_true]
    refine ⟨_, rfl, ?_⟩
    unfold St.uncount
    rw [if_neg (by rw [ec]; exact Bool.false_ne_true)]
    exact ⟨rfl, rfl, rfl, rfl, rfl, by simp [ec], by simp [ec], rfl, (if_neg e').symm, (if_neg e').symm,
      h.filter hs hb rfl rfl rfl (by simp [ec]) h.reg⟩

theorem Inv.put {st : St} (h : Inv st) {s s0 : Sess} (hs : s0 ∈ st.sess) (hid : s.sid = s0.sid)
    (hfree : ∀ x ∈ st.sess, x.cid = s.cid → x.sid = s.sid) (hsrv : s.serves.isSome = s.config)
    (hcfg : s.config = s0.config) : Inv (st.put s) := by
  have e : (st.put s).sess = putL st.sess s := rfl
  have hc : cnt (·.config) (putL st.sess s) = cnt (·.config) st.sess := by
    have := cnt_map (·.config) h.sids hs hid
    simp only [hcfg] at this
    unfold putL
    omega
  refine ⟨?_, ?_, ?_, ?_, ?_, h.reg, ?_, ?_⟩
  · rw [e, putL_sids]
    exact h.sids
  · intro x hx
    rcases mem_putL hx with rfl | ⟨hx, _⟩
    · rw [hid]
      exact h.lt s0 hs
    · exact h.lt x hx
  · rw [e]
    unfold putL
    rw [List.length_map]
    exact h.len
  · rw [e]
    exact putL_cids h.sids h.cids hs hid hfree
  · intro x hx
    rcases mem_putL hx with rfl | ⟨hx, _⟩
    · exact hsrv
    · exact h.srv x hx
  · rw [e, hc]
    exact h.cfg
  · exact h.lim

/-- The state after session `s` was granted a configuration connection. -/
structure Granted (st t : St) (s : Sess) : Prop where
  max : t.max = st.max
  payloadMax : t.payloadMax = st.payloadMax
  threshold : t.threshold = st.threshold
  next : t.next = st.next
  sess : t.sess = putL st.sess { s with config := true, serves := some s.kind }
  ctl : t.ctl = if s.kind = .control then inc st.ctl else st.ctl
  exc : t.exc = if s.kind = .exclusive then inc st.exc else st.exc
  streams : t.streams = st.streams
  fresh : st.number s.cid ∉ st.info.map (·.1)
  info : t.info = st.info ++ [(st.number s.cid, ⟨some s.kind, s.host, (st.gone.lookup s.cid).isSome⟩)]
  reg : t.reg = if s.cid ∈ st.reg.map (·.1) then st.reg else st.reg ++ [(s.cid, st.number s.cid)]
  inv : Inv t

theorem grant_ok {st : St} (h : Inv st) (hb : st.next < 2 ^ 64) {s : Sess} (hs : s ∈ st.sess) (hc : s.config = false)
    (hlim : st.max ≠ 0 → st.cfg < st.max) :
    ∃ t, st.grant s = (t, [.passed s.sid s.kind]) ∧ Granted st t s := by
  unfold St.grant
  simp only
  have hr : Reg ((st.put { s with config := true }).count s.kind).reg ((st.put { s with config := true }).count s.kind).gone
      ((st.put { s with config := true }).count s.kind).total ((st.put { s with config := true }).count s.kind).info := h.reg
  obtain ⟨hok, hj⟩ := join_ok hr s.cid (some s.kind) s.host
  rw [hok]
  simp only [if_true]
  refine ⟨_, rfl, ?_⟩
  generalize (((st.put { s with config := true }).count s.kind).join s.cid (some s.kind) s.host).1 = u at hj
  have hse : (u.put { s with config := true, serves := some s.kind }).sess =
      putL st.sess { s with config := true, serves := some s.kind } := by
    change putL u.sess _ = _
    rw [hj.sess]
    change putL (putL st.sess { s with config := true }) _ = _
    exact putL_putL _ rfl
  have hcnt : cnt (·.config) (putL st.sess { s with config := true, serves := some s.kind }) = cnt (·.config) st.sess + 1 := by
    have := cnt_map (·.config) h.sids (s := { s with config := true, serves := some s.kind }) hs rfl
    rw [if_neg (by rw [hc]; exact Bool.false_ne_true), if_pos rfl] at this
    exact this
  have hle : cnt (·.config) (putL st.sess { s with config := true, serves := some s.kind }) ≤ st.sess.length := by
    have := List.countP_le_length (p := fun x : Sess => x.config) (l := putL st.sess { s with config := true, serves := some s.kind })
    unfold putL at this ⊢
    rwa [List.length_map] at this
  have hl := h.len
  have hcfg : u.cfg = cnt (·.config) (putL st.sess { s with config := true, serves := some s.kind }) := by
    rw [hj.cfg]
    change inc st.cfg = _
    rw [inc_exact (by rw [h.cfg]; omega), h.cfg]
    omega
  refine ⟨hj.max, hj.payloadMax, hj.threshold, hj.next, hse, hj.ctl, hj.exc, hj.streams, hj.fresh, hj.info, hj.reg, ?_⟩
  refine ⟨?_, ?_, ?_, ?_, ?_, hj.ok, ?_, ?_⟩
  · rw [hse, putL_sids]
    exact h.sids
  · rw [hse]
    intro x hx
    have : (u.put { s with config := true, serves := some s.kind }).next = st.next := hj.next
    rw [this]
    rcases mem_putL hx with rfl | ⟨hx, _⟩
    · exact h.lt s hs
    · exact h.lt x hx
  · rw [hse]
    unfold putL
    rw [List.length_map]
    have : (u.put { s with config := true, serves := some s.kind }).next = st.next := hj.next
    rw [this]
    exact h.len
  · rw [hse]
    exact putL_cids h.sids h.cids hs rfl (fun x hx e => by rw [inj_of h.cids hx hs e])
  · rw [hse]
    intro x hx
    rcases mem_putL hx with rfl | ⟨hx, _⟩
    · rfl
    · exact h.srv x hx
  · rw [hse]
    exact hcfg
  · intro h0
    change u.cfg ≤ u.max
    change u.max ≠ 0 at h0
    rw [hj.max] at h0 ⊢
    have := hlim h0
    rw [hj.cfg]
    change inc st.cfg ≤ st.max
    have hle : st.cfg < 2 ^ 64 := by
      rw [h.cfg]
      omega
    by_cases e : st.cfg + 1 < 2 ^ 64
    · rw [inc_exact e]
      omega
    · have : st.cfg + 1 = 2 ^ 64 := by omega
      unfold inc
      rw [this, Nat.mod_self]
      omega

end Verif.Sessions
