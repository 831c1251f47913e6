import Verif.Sessions.Ord

/-!
# The list of connected clients
-/

namespace Verif.Sessions

theorem mem_users {st : St} {s : Sess} :
    s ∈ Spec.users st ↔ s ∈ st.sess ∧ (s.config = true ∨ s.cid ∈ st.streams.map (·.cid)) := by
  unfold Spec.users
  rw [List.mem_filter, Bool.or_eq_true, decide_eq_true_eq]

/-- What holds after every history in which sessions announce themselves first and use one service. -/
structure Lst (cfgl stml : List Nat) (st : St) : Prop where
  cfgs : ∀ s ∈ st.sess, s.config = true → s.sid ∈ cfgl
  stms : ∀ s ∈ st.sess, s.cid ∈ st.streams.map (·.cid) → s.sid ∈ stml
  regs : ∀ c, c ∈ st.reg.map (·.1) ↔ ∃ s ∈ Spec.users st, s.cid = c
  ent : ∀ s ∈ Spec.users st, ∀ n, (s.cid, n) ∈ st.reg → ∃ a, (n, ⟨(Spec.entry s).1, (Spec.entry s).2, a⟩) ∈ st.info
  cover : ∀ n ∈ st.info.map (·.1), ∃ c, (c, n) ∈ st.reg

theorem Lst.mono {a a' b b' : List Nat} {st : St} (h : Lst a b st) (ha : ∀ n ∈ a, n ∈ a') (hb : ∀ n ∈ b, n ∈ b') :
    Lst a' b' st :=
  ⟨fun s hs hc => ha _ (h.cfgs s hs hc), fun s hs hc => hb _ (h.stms s hs hc), h.regs, h.ent, h.cover⟩

/-- The same users with the same list. -/
theorem Lst.same {a b : List Nat} {st t : St} (h : Lst a b st) (hu : ∀ s, s ∈ Spec.users t ↔ s ∈ Spec.users st)
    (hr : t.reg = st.reg) (hi : t.info = st.info) (hc : ∀ s ∈ t.sess, s.config = true → s.sid ∈ a)
    (hs : ∀ s ∈ t.sess, s.cid ∈ t.streams.map (·.cid) → s.sid ∈ b) : Lst a b t := by
  refine ⟨hc, hs, ?_, ?_, ?_⟩
  · intro c
    rw [hr, h.regs c]
    constructor
    · rintro ⟨s, hm, e⟩
      exact ⟨s, (hu s).2 hm, e⟩
    · rintro ⟨s, hm, e⟩
      exact ⟨s, (hu s).1 hm, e⟩
  · intro s hm n hn
    rw [hr] at hn
    rw [hi]
    exact h.ent s ((hu s).1 hm) n hn
  · rw [hr, hi]
    exact h.cover

theorem Lst.released {a b : List Nat} {st t : St} {s : Sess} (h : Inv st) (hs : s ∈ st.sess) (hl : Lst a b st)
    (hr : Released st t s) : Lst a b t := by
  have hm : ∀ x, x ∈ t.sess ↔ x ∈ st.sess ∧ x.sid ≠ s.sid := by
    intro x
    rw [hr.sess, List.mem_filter]
    simp
  have hst : ∀ c, c ∈ t.streams.map (·.cid) ↔ c ∈ st.streams.map (·.cid) ∧ c ≠ s.cid := by
    intro c
    rw [hr.streams]
    simp only [List.mem_map, List.mem_filter, bne_iff_ne, ne_eq]
    constructor
    · rintro ⟨x, ⟨h1, h2⟩, rfl⟩
      exact ⟨⟨x, h1, rfl⟩, h2⟩
    · rintro ⟨⟨x, h1, rfl⟩, h2⟩
      exact ⟨x, ⟨h1, h2⟩, rfl⟩
  have hus : ∀ x, x ∈ Spec.users t ↔ x ∈ Spec.users st ∧ x.sid ≠ s.sid := by
    intro x
    rw [mem_users, mem_users, hm, hst]
    constructor
    · rintro ⟨⟨h1, h2⟩, h3⟩
      exact ⟨⟨h1, h3.imp (fun y => y) (fun y => y.1)⟩, h2⟩
    · rintro ⟨⟨h1, h3⟩, h2⟩
      exact ⟨⟨h1, h2⟩, h3.imp (fun y => y) (fun y => ⟨y, fun e => h2 (by rw [inj_of h.cids h1 hs e])⟩)⟩
  have hc : ∀ x ∈ t.sess, x.config = true → x.sid ∈ a := fun x hx => hl.cfgs x ((hm x).1 hx).1
  have hsm : ∀ x ∈ t.sess, x.cid ∈ t.streams.map (·.cid) → x.sid ∈ b := fun x hx hxc =>
    hl.stms x ((hm x).1 hx).1 ((hst _).1 hxc).1
  by_cases e : s.cid ∈ st.streams.map (·.cid) ∨ s.config = true
  · have hreg := hr.reg
    have hinf := hr.info
    rw [if_pos e] at hreg hinf
    have hmr : ∀ x, x ∈ t.reg ↔ x ∈ st.reg ∧ x.1 ≠ s.cid := by
      intro x
      rw [hreg, List.mem_filter]
      simp
    refine ⟨hc, hsm, ?_, ?_, ?_⟩
    · intro c
      constructor
      · intro hcm
        obtain ⟨x, hx, rfl⟩ := List.mem_map.1 hcm
        obtain ⟨hx1, hx2⟩ := (hmr x).1 hx
        obtain ⟨y, hy, hyc⟩ := (hl.regs x.1).1 (List.mem_map.2 ⟨x, hx1, rfl⟩)
        refine ⟨y, (hus y).2 ⟨hy, fun e2 => hx2 ?_⟩, hyc⟩
        rw [← hyc, inj_of h.sids (mem_users.1 hy).1 hs e2]
      · rintro ⟨y, hy, rfl⟩
        obtain ⟨hy1, hy2⟩ := (hus y).1 hy
        obtain ⟨x, hx, hxc⟩ := List.mem_map.1 ((hl.regs y.cid).2 ⟨y, hy1, rfl⟩)
        refine List.mem_map.2 ⟨x, (hmr x).2 ⟨hx, fun e2 => hy2 ?_⟩, hxc⟩
        rw [inj_of h.cids (mem_users.1 hy1).1 hs (hxc.symm.trans e2)]
    · intro y hy n hn
      obtain ⟨hy1, hy2⟩ := (hus y).1 hy
      obtain ⟨hn1, hn2⟩ := (hmr _).1 hn
      obtain ⟨w, hw⟩ := hl.ent y hy1 n hn1
      refine ⟨w, ?_⟩
      rw [hinf]
      refine List.mem_filter.2 ⟨hw, ?_⟩
      simp only [decide_eq_true_eq]
      intro hsn
      have := inj_of h.reg.nums hn1 hsn rfl
      exact hn2 (Prod.mk.inj this).1
    · intro n hn
      rw [hinf] at hn
      obtain ⟨x, hx, rfl⟩ := List.mem_map.1 hn
      obtain ⟨hx1, hx2⟩ := List.mem_filter.1 hx
      simp only [decide_eq_true_eq] at hx2
      obtain ⟨c, hcn⟩ := hl.cover x.1 (List.mem_map.2 ⟨x, hx1, rfl⟩)
      refine ⟨c, (hmr _).2 ⟨hcn, ?_⟩⟩
      rintro rfl
      exact hx2 hcn
  · have hreg := hr.reg
    have hinf := hr.info
    rw [if_neg e] at hreg hinf
    refine hl.same ?_ hreg hinf hc hsm
    intro x
    rw [hus]
    refine ⟨fun y => y.1, fun y => ⟨y, ?_⟩⟩
    intro e2
    have : x = s := inj_of h.sids (mem_users.1 y).1 hs e2
    subst this
    exact e ((mem_users.1 y).2.symm)

theorem Lst.put {a b : List Nat} {st : St} {s s0 : Sess} (h : Inv st) (hs : s0 ∈ st.sess) (hl : Lst a b st)
    (hn : s0 ∉ Spec.users st) (hid : s.sid = s0.sid) (hc : s.config = false) (hcid : s.cid ∉ st.streams.map (·.cid)) :
    Lst a b (st.put s) := by
  have e : (st.put s).sess = putL st.sess s := rfl
  refine hl.same ?_ rfl rfl ?_ ?_
  · intro x
    rw [mem_users, mem_users, e]
    change (x ∈ putL st.sess s ∧ (x.config = true ∨ x.cid ∈ st.streams.map (·.cid))) ↔ _
    constructor
    · rintro ⟨h1, h2⟩
      rcases mem_putL h1 with rfl | ⟨h1, _⟩
      · rcases h2 with h2 | h2
        · rw [hc] at h2
          cases h2
        · exact absurd h2 hcid
      · exact ⟨h1, h2⟩
    · rintro ⟨h1, h2⟩
      refine ⟨putL_mem h1 ?_, h2⟩
      intro e2
      have : x = s0 := inj_of h.sids h1 hs (e2.trans hid)
      subst this
      exact hn (mem_users.2 ⟨h1, h2⟩)
  · rw [e]
    intro x hx hxc
    rcases mem_putL hx with rfl | ⟨hx, _⟩
    · rw [hc] at hxc
      cases hxc
    · exact hl.cfgs x hx hxc
  · rw [e]
    intro x hx hxc
    rcases mem_putL hx with rfl | ⟨hx, _⟩
    · exact absurd hxc hcid
    · exact hl.stms x hx hxc

theorem Lst.announced {used a b : List Nat} {st : St} {s : Sess} {p : Props} (h : Inv st)
    (hs : s ∈ st.sess) (ho : Ord used st) (hu : s.sid ∉ used) (hl : Lst a b st) {r : St × List Ev} (ha : Announced st s p r) :
    Lst a b r.1 := by
  have hns : s.cid ∉ st.streams.map (·.cid) := fun hm => hu (ho.useds s hs hm)
  have hnc : s.config = false := by
    cases e : s.config
    · rfl
    · exact absurd (ho.usedc s hs e) hu
  have hnu : s ∉ Spec.users st := by
    intro hm
    rcases (mem_users.1 hm).2 with e | e
    · rw [hnc] at e
      cases e
    · exact hns e
  cases ha with
  | plain _ => exact hl.put h hs hnu rfl hnc hns
  | renamed _ hf =>
    refine hl.put h hs hnu rfl hnc ?_
    intro hm
    obtain ⟨x, hx, hxc⟩ := List.mem_map.1 hm
    obtain ⟨y, hy, hyc⟩ := ho.strm x hx
    exact hf y hy (by rw [hyc]; exact hxc)
  | taken _ _ _ => exact hl.put h hs hnu rfl hnc hns
  | @over c o t _ hom hoc hne hr =>
    have hlt := hl.released h hom hr
    have hm : s ∈ t.sess := by
      rw [hr.sess]
      exact List.mem_filter.2 ⟨hs, by simpa using (Ne.symm hne)⟩
    have hsub : ∀ x ∈ t.streams, x ∈ st.streams ∧ x.cid ≠ o.cid := by
      intro x hx
      rw [hr.streams] at hx
      obtain ⟨h1, h2⟩ := List.mem_filter.1 hx
      exact ⟨h1, by simpa using h2⟩
    refine hlt.put hr.inv hm ?_ rfl hnc ?_
    · intro hm2
      rcases (mem_users.1 hm2).2 with e | e
      · rw [hnc] at e
        cases e
      · obtain ⟨x, hx, hxc⟩ := List.mem_map.1 e
        exact hns (List.mem_map.2 ⟨x, (hsub x hx).1, hxc⟩)
    · intro hmm
      obtain ⟨x, hx, hxc⟩ := List.mem_map.1 hmm
      exact (hsub x hx).2 (by rw [hoc]; exact hxc)
  | self _ hr => exact hl.released h hs hr

/-- A session that did not use the server starts to do so. -/
theorem Lst.add {a b : List Nat} {st t : St} {s s' : Sess} (h : Inv st) (hs : s ∈ st.sess) (hl : Lst a b st)
    (hn : s ∉ Spec.users st) (hcid : s'.cid = s.cid) (hse : t.sess = putL st.sess s') (hid : s'.sid = s.sid)
    (hu : ∀ x, x ∈ Spec.users t ↔ x = s' ∨ (x ∈ Spec.users st ∧ x.sid ≠ s.sid)) {a' b' : List Nat}
    (hc : ∀ x ∈ t.sess, x.config = true → x.sid ∈ a')
    (hst : ∀ x ∈ t.sess, x.cid ∈ t.streams.map (·.cid) → x.sid ∈ b') {n : Nat} {w : Bool}
    (hf : n ∉ st.info.map (·.1))
    (hi : t.info = st.info ++ [(n, ⟨(Spec.entry s').1, (Spec.entry s').2, w⟩)])
    (hr : t.reg = if s.cid ∈ st.reg.map (·.1) then st.reg else st.reg ++ [(s.cid, n)]) : Lst a' b' t := by
  have hnr : s.cid ∉ st.reg.map (·.1) := by
    intro hm
    obtain ⟨x, hx, hxc⟩ := (hl.regs _).1 hm
    have : x = s := inj_of h.cids (mem_users.1 hx).1 hs hxc
    exact hn (this ▸ hx)
  rw [if_neg hnr] at hr
  refine ⟨hc, hst, ?_, ?_, ?_⟩
  · intro c
    rw [hr, List.map_append, List.mem_append, hl.regs c]
    constructor
    · rintro (⟨x, hx, rfl⟩ | hx)
      · refine ⟨x, (hu x).2 (Or.inr ⟨hx, fun e => hn ?_⟩), rfl⟩
        rwa [inj_of h.sids (mem_users.1 hx).1 hs e] at hx
      · simp at hx
        subst hx
        exact ⟨s', (hu s').2 (Or.inl rfl), hcid⟩
    · rintro ⟨x, hx, rfl⟩
      rcases (hu x).1 hx with rfl | ⟨hx, _⟩
      · right
        simp [hcid]
      · exact Or.inl ⟨x, hx, rfl⟩
  · intro x hx m hm
    rw [hr] at hm
    rw [hi]
    rcases (hu x).1 hx with rfl | ⟨hx, hxs⟩
    · rcases List.mem_append.1 hm with hm | hm
      · exact absurd (List.mem_map.2 ⟨_, hm, hcid⟩) hnr
      · simp at hm
        rw [hm.2]
        exact ⟨w, List.mem_append_right _ (by simp)⟩
    · rcases List.mem_append.1 hm with hm | hm
      · obtain ⟨v, hv⟩ := hl.ent x hx m hm
        exact ⟨v, List.mem_append_left _ hv⟩
      · simp at hm
        exact absurd (by rw [inj_of h.cids (mem_users.1 hx).1 hs hm.1]) hxs
  · intro m hm
    rw [hi, List.map_append] at hm
    rw [hr]
    rcases List.mem_append.1 hm with hm | hm
    · obtain ⟨c, hcn⟩ := hl.cover m hm
      exact ⟨c, List.mem_append_left _ hcn⟩
    · simp at hm
      rw [hm]
      exact ⟨s.cid, by simp⟩

theorem Lst.granted {a b : List Nat} {st t : St} {s : Sess} (h : Inv st) (hs : s ∈ st.sess) (hc : s.config = false)
    (hb : s.sid ∉ b) (hl : Lst a b st) (hg : Granted st t s) : Lst (s.sid :: a) b t := by
  have hns : s.cid ∉ st.streams.map (·.cid) := fun hm => hb (hl.stms s hs hm)
  have hn : s ∉ Spec.users st := by
    intro hm
    rcases (mem_users.1 hm).2 with e | e
    · rw [hc] at e
      cases e
    · exact hns e
  refine hl.add h hs hn (s' := { s with config := true, serves := some s.kind }) rfl hg.sess rfl ?_ ?_ ?_ hg.fresh
    hg.info hg.reg
  · intro x
    rw [mem_users, hg.sess, hg.streams]
    constructor
    · rintro ⟨h1, h2⟩
      rcases mem_putL h1 with rfl | ⟨h1, h3⟩
      · exact Or.inl rfl
      · exact Or.inr ⟨mem_users.2 ⟨h1, h2⟩, h3⟩
    · rintro (rfl | ⟨h1, h3⟩)
      · exact ⟨putL_self hs rfl, Or.inl rfl⟩
      · exact ⟨putL_mem (mem_users.1 h1).1 h3, (mem_users.1 h1).2⟩
  · rw [hg.sess]
    intro x hx hxc
    rcases mem_putL hx with rfl | ⟨hx, _⟩
    · exact List.mem_cons_self
    · exact List.mem_cons_of_mem _ (hl.cfgs x hx hxc)
  · rw [hg.sess, hg.streams]
    intro x hx hxc
    rcases mem_putL hx with rfl | ⟨hx, _⟩
    · exact absurd hxc hns
    · exact hl.stms x hx hxc

theorem Lst.configured {a b : List Nat} {st : St} {s : Sess} (h : Inv st) (hb : st.next < 2 ^ 64) (hs : s ∈ st.sess)
    (hsb : s.sid ∉ b) (hl : Lst a b st) {r : St × List Ev} (hc : Configured st s r) : Lst (s.sid :: a) b r.1 := by
  have hw : Lst (s.sid :: a) b st := hl.mono (fun n hn => List.mem_cons_of_mem _ hn) (fun _ hn => hn)
  cases hc with
  | served _ => exact hw
  | full _ _ _ => exact hw
  | refused _ _ _ => exact hw
  | granted e _ h1 h2 hg => exact hl.granted h hs (serves_none h hs e) hsb hg
  | dropped e _ hk _ _ _ hg =>
    have hcf := serves_none h hs e
    obtain ⟨h5, h6, h7, h8⟩ := releaseAll_ind (P := Lst a b) (fun a b x ha hba hx hp hr => hp.released ha hx hr)
      h hb hl (st.others s.sid)
    have hoth : ∀ n ∈ st.others s.sid, ∃ x ∈ st.sess, x.sid = n := fun n hn => by
      obtain ⟨x, hx, hxn, _⟩ := mem_others hn
      exact ⟨x, hx, hxn⟩
    have hm : s ∈ (st.releaseAll (st.others s.sid)).1.sess := by
      rw [(releaseAll_ok h hb _ (others_nodup h s.sid) hoth).2]
      refine List.mem_filter.2 ⟨hs, ?_⟩
      simp only [decide_eq_true_eq]
      intro hn
      obtain ⟨_, _, _, hne, _⟩ := mem_others hn
      exact hne rfl
    exact h5.granted h6 hm hcf hsb hg

theorem putL_id {l : List Sess} {s : Sess} (hn : (l.map (·.sid)).Nodup) (hs : s ∈ l) : putL l s = l := by
  unfold putL
  refine (List.map_congr_left ?_).trans (List.map_id _)
  intro x hx
  by_cases e : x.sid = s.sid
  · rw [inj_of hn hx hs e]
    simp
  · simp [e]

theorem Lst.inited {a b : List Nat} {st : St} {s : Sess} (h : Inv st) (hs : s ∈ st.sess) (hsa : s.sid ∉ a) (hl : Lst a b st)
    {r : St × List Ev} (hi : Inited st s r) : Lst a (s.sid :: b) r.1 := by
  have hw : Lst a (s.sid :: b) st := hl.mono (fun _ hn => hn) (fun n hn => List.mem_cons_of_mem _ hn)
  cases hi with
  | again _ => exact hw
  | @done t hns hd =>
    have hnc : s.config = false := by
      cases e : s.config
      · rfl
      · exact absurd (hl.cfgs s hs e) hsa
    have hn : s ∉ Spec.users st := by
      intro hm
      rcases (mem_users.1 hm).2 with e | e
      · rw [hnc] at e
        cases e
      · exact hns e
    have hent : Spec.entry s = (none, s.host) := by
      unfold Spec.entry
      rw [hnc]
      rfl
    have hst : ∀ c, c ∈ t.streams.map (·.cid) ↔ c ∈ st.streams.map (·.cid) ∨ c = s.cid := by
      intro c
      rw [hd.streams, List.map_append, List.mem_append]
      simp
    refine hl.add h hs hn (s' := s) rfl (by rw [putL_id h.sids hs]; exact hd.sess) rfl ?_ (by rw [hd.sess]; exact hl.cfgs) ?_
      hd.fresh (by rw [hent]; exact hd.info) hd.reg
    · intro x
      rw [mem_users, hd.sess, hst]
      constructor
      · rintro ⟨h1, h2⟩
        by_cases e : x.sid = s.sid
        · exact Or.inl (inj_of h.sids h1 hs e)
        · refine Or.inr ⟨mem_users.2 ⟨h1, h2.imp (fun y => y) ?_⟩, e⟩
          rintro (h3 | h3)
          · exact h3
          · exact absurd (by rw [inj_of h.cids h1 hs h3]) e
      · rintro (rfl | ⟨h1, h3⟩)
        · exact ⟨hs, Or.inr (Or.inr rfl)⟩
        · exact ⟨(mem_users.1 h1).1, (mem_users.1 h1).2.imp (fun y => y) Or.inl⟩
    · rw [hd.sess]
      intro x hx hxc
      rcases (hst _).1 hxc with h1 | h1
      · exact List.mem_cons_of_mem _ (hl.stms x hx h1)
      · rw [inj_of h.cids hx hs h1]
        exact List.mem_cons_self

theorem Lst.accept {used a b : List Nat} {st : St} (ho : Ord used st) (hl : Lst a b st) (user : Nat) :
    Lst a b (st.accept user).1 := by
  rcases accept_cases st user with ⟨_, e⟩ | ⟨hf, e⟩
  · rw [e]
    exact ⟨hl.cfgs, hl.stms, hl.regs, hl.ent, hl.cover⟩
  · rw [e]
    have hns : Cid.assigned st.next ∉ st.streams.map (·.cid) := by
      intro hm
      obtain ⟨x, hx, hxc⟩ := List.mem_map.1 hm
      obtain ⟨y, hy, hyc⟩ := ho.strm x hx
      exact hf y hy (hyc.trans hxc)
    refine hl.same ?_ rfl rfl ?_ ?_
    · intro x
      rw [mem_users, mem_users]
      change (x ∈ st.sess ++ [newSess st user] ∧ (x.config = true ∨ x.cid ∈ st.streams.map (·.cid))) ↔ _
      constructor
      · rintro ⟨h1, h2⟩
        rcases List.mem_append.1 h1 with h1 | h1
        · exact ⟨h1, h2⟩
        · simp at h1
          subst h1
          rcases h2 with h2 | h2
          · cases h2
          · exact absurd h2 hns
      · rintro ⟨h1, h2⟩
        exact ⟨List.mem_append_left _ h1, h2⟩
    · intro x hx hxc
      rcases List.mem_append.1 hx with hx | hx
      · exact hl.cfgs x hx hxc
      · simp at hx
        subst hx
        cases hxc
    · intro x hx hxc
      rcases List.mem_append.1 hx with hx | hx
      · exact hl.stms x hx hxc
      · simp at hx
        subst hx
        exact absurd hxc hns

theorem Lst.step {used a b : List Nat} {st : St} (h : Inv st) (hb : st.next < 2 ^ 64) (ho : Ord used st) (hl : Lst a b st)
    (op : Op) (l : List Op) (hor : Spec.orderly used (op :: l) = true) (hsi : Spec.single a b (op :: l) = true) :
    ∃ a' b', Lst a' b' (st.step op).1 ∧ Spec.single a' b' l = true := by
  cases op with
  | accept u => exact ⟨a, b, hl.accept ho u, hsi⟩
  | announce sid p =>
    simp only [Spec.orderly, Bool.and_eq_true, decide_eq_true_eq] at hor
    refine ⟨a, b, ?_, hsi⟩
    change Lst a b (st.announce sid p).1
    rcases get_cases h sid with e | ⟨s, hs, rfl⟩
    · rw [announce_none p e]
      exact hl
    · exact hl.announced h hs ho hor.1 (Verif.Sessions.announced h hb hs p)
  | config sid =>
    simp only [Spec.single, Bool.and_eq_true, decide_eq_true_eq] at hsi
    refine ⟨sid :: a, b, ?_, hsi.2⟩
    change Lst _ _ (st.config sid).1
    rcases get_cases h sid with e | ⟨s, hs, rfl⟩
    · rw [config_none e]
      exact hl.mono (fun n hn => List.mem_cons_of_mem _ hn) (fun _ hn => hn)
    · exact hl.configured h hb hs hsi.1 (Verif.Sessions.configured h hb hs)
  | init sid =>
    simp only [Spec.single, Bool.and_eq_true, decide_eq_true_eq] at hsi
    refine ⟨a, sid :: b, ?_, hsi.2⟩
    change Lst _ _ (st.init sid).1
    rcases get_cases h sid with e | ⟨s, hs, rfl⟩
    · rw [init_none e]
      exact hl.mono (fun _ hn => hn) (fun n hn => List.mem_cons_of_mem _ hn)
    · exact hl.inited h hs hsi.1 (Verif.Sessions.inited h hs)
  | lost sid =>
    refine ⟨a, b, ?_, hsi⟩
    change Lst a b (st.release sid).1
    rcases get_cases h sid with e | ⟨s, hs, rfl⟩
    · rw [release_none e]
      exact hl
    · obtain ⟨t, et, hr⟩ := release_some h hb hs
      rw [et]
      exact hl.released h hs hr
  | addSignal =>
    refine ⟨a, b, ?_, hsi⟩
    change Lst a b (st.addSignal).1
    unfold St.addSignal
    split <;> exact hl

theorem Lst.start (m p t : Nat) : Lst [] [] (start m p t) :=
  ⟨by simp [Verif.Sessions.start], by simp [Verif.Sessions.start], by simp [Verif.Sessions.start, Spec.users],
    by simp [Verif.Sessions.start], by simp [Verif.Sessions.start]⟩

theorem Lst.run {used a b : List Nat} {st : St} (h : Inv st) (ho : Ord used st) (hl : Lst a b st) (ops : List Op)
    (hb : st.next + ops.length < 2 ^ 64) (hor : Spec.orderly used ops = true) (hsi : Spec.single a b ops = true) :
    ∃ a' b', Lst a' b' (st.run ops).1 := by
  induction ops generalizing st used a b with
  | nil => exact ⟨a, b, hl⟩
  | cons op l ih =>
    rw [List.length_cons] at hb
    have h1 := step_inv h (by omega) op
    obtain ⟨used', h2, h3⟩ := ho.step h (by omega) op l hor
    obtain ⟨a', b', h4, h5⟩ := hl.step h (by omega) ho op l hor hsi
    exact ih h1.1 h2 h4 (by omega) h3 h5

/-- The list shows exactly the sessions that use the server. -/
theorem Lst.perm {a b : List Nat} {st : St} (h : Inv st) (hl : Lst a b st) :
    (Spec.shown st).Perm ((Spec.users st).map Spec.entry) := by
  have hnum : ∀ s ∈ Spec.users st, ∃ n, (s.cid, n) ∈ st.reg := by
    intro s hs
    obtain ⟨x, hx, hxc⟩ := List.mem_map.1 ((hl.regs s.cid).2 ⟨s, hs, rfl⟩)
    exact ⟨x.2, by rw [← hxc]; exact hx⟩
  let f : Sess → Nat × (Option Kind × Nat) := fun s => ((st.reg.lookup s.cid).getD 0, Spec.entry s)
  have hf : ∀ s n, (s.cid, n) ∈ st.reg → f s = (n, Spec.entry s) := by
    intro s n hn
    change ((st.reg.lookup s.cid).getD 0, Spec.entry s) = _
    rw [lookup_of_mem h.reg.keys hn]
    rfl
  have hA : (st.info.map (fun x => (x.1, (x.2.service, x.2.host)))).Nodup := by
    refine List.Nodup.of_map (fun x => x.1) ?_
    rw [List.map_map]
    exact h.reg.inodup
  have hus : (Spec.users st).Nodup := by
    refine List.Nodup.filter _ ?_
    exact List.Nodup.of_map _ h.sids
  have hB : ((Spec.users st).map f).Nodup := by
    refine (List.nodup_map_iff_inj_on hus).2 ?_
    intro x hx y hy e
    obtain ⟨n, hn⟩ := hnum x hx
    obtain ⟨m, hm⟩ := hnum y hy
    rw [hf x n hn, hf y m hm] at e
    have hnm : n = m := (Prod.mk.inj e).1
    subst hnm
    have := inj_of h.reg.nums hn hm rfl
    exact inj_of h.cids (mem_users.1 hx).1 (mem_users.1 hy).1 (Prod.mk.inj this).1
  have hP : (st.info.map (fun x => (x.1, (x.2.service, x.2.host)))).Perm ((Spec.users st).map f) := by
    refine (List.perm_ext_iff_of_nodup hA hB).2 ?_
    intro z
    constructor
    · intro hz
      obtain ⟨x, hx, rfl⟩ := List.mem_map.1 hz
      obtain ⟨c, hc⟩ := hl.cover x.1 (List.mem_map.2 ⟨x, hx, rfl⟩)
      obtain ⟨s, hs, rfl⟩ := (hl.regs c).1 (List.mem_map.2 ⟨_, hc, rfl⟩)
      obtain ⟨w, hw⟩ := hl.ent s hs _ hc
      have := inj_of h.reg.inodup hx hw rfl
      refine List.mem_map.2 ⟨s, hs, ?_⟩
      rw [hf s _ hc, this]
    · intro hz
      obtain ⟨s, hs, rfl⟩ := List.mem_map.1 hz
      obtain ⟨n, hn⟩ := hnum s hs
      obtain ⟨w, hw⟩ := hl.ent s hs n hn
      rw [hf s n hn]
      exact List.mem_map.2 ⟨_, hw, rfl⟩
  have := hP.map (fun z => z.2)
  rw [List.map_map, List.map_map] at this
  exact this

end Verif.Sessions
