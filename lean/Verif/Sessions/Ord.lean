import Verif.Sessions.Steps

/-!
# Histories in which every client announces itself before it uses the server
-/

namespace Verif.Sessions

/-- Sessions with a configuration connection of one kind. -/
def isKind (k : Kind) (s : Sess) : Bool := s.config && (s.kind == k)

/-- What holds after every orderly history. -/
structure Ord (used : List Nat) (st : St) : Prop where
  ctl : st.ctl = cnt (isKind .control) st.sess
  exc : st.exc = cnt (isKind .exclusive) st.sess
  kinds : ∀ s ∈ st.sess, ∀ k, s.serves = some k → s.kind = k
  usedc : ∀ s ∈ st.sess, s.config = true → s.sid ∈ used
  useds : ∀ s ∈ st.sess, s.cid ∈ st.streams.map (·.cid) → s.sid ∈ used
  strm : ∀ x ∈ st.streams, ∃ s ∈ st.sess, s.cid = x.cid
  excl : Spec.Exclusive st.sess

theorem mem_steering {l : List Sess} {s : Sess} :
    s ∈ Spec.steering l ↔ s ∈ l ∧ s.config = true ∧ s.kind ≠ .viewOnly := by
  simp [Spec.steering, Spec.on, List.mem_filter]
  exact fun _ => And.comm

theorem excl_of_subset {l l' : List Sess} (h : Spec.Exclusive l) (hs : ∀ x ∈ Spec.steering l', x ∈ Spec.steering l) :
    Spec.Exclusive l' := fun s hs' hk t ht => h s (hs s hs') hk t (hs t ht)

theorem cnt_pos {p : Sess → Bool} {l : List Sess} : 0 < cnt p l ↔ ∃ s ∈ l, p s = true := List.countP_pos_iff

theorem isKind_iff {k : Kind} {s : Sess} : isKind k s = true ↔ s.config = true ∧ s.kind = k := by
  simp [isKind]

theorem Ord.mono {used used' : List Nat} {st : St} (h : Ord used st) (hs : ∀ n ∈ used, n ∈ used') : Ord used' st :=
  ⟨h.ctl, h.exc, h.kinds, fun s hm hc => hs _ (h.usedc s hm hc), fun s hm hc => hs _ (h.useds s hm hc), h.strm, h.excl⟩

theorem released_kind {st t : St} (h : Inv st) (hb : st.next < 2 ^ 64) {s : Sess} (hs : s ∈ st.sess) (k : Kind)
    {a b : Nat} (ha : a = cnt (isKind k) st.sess) (hbb : b = if s.config = true ∧ s.kind = k then dec a else a)
    (hr : t.sess = st.sess.filter (fun x => x.sid != s.sid)) : b = cnt (isKind k) t.sess := by
  have hc := cnt_filter (isKind k) h.sids hs
  rw [← hr] at hc
  have hle : cnt (isKind k) st.sess ≤ st.sess.length := List.countP_le_length
  have hl := h.len
  by_cases e : s.config = true ∧ s.kind = k
  · rw [if_pos e] at hbb
    rw [if_pos (isKind_iff.2 e)] at hc
    rw [hbb, ha, dec_exact (by omega) (by omega)]
    omega
  · rw [if_neg e] at hbb
    rw [if_neg (fun hh => e (isKind_iff.1 hh))] at hc
    omega

theorem Ord.released {used : List Nat} {st t : St} {s : Sess} (h : Inv st) (hb : st.next < 2 ^ 64) (hs : s ∈ st.sess)
    (ho : Ord used st) (hr : Released st t s) : Ord used t := by
  have hm : ∀ x ∈ t.sess, x ∈ st.sess ∧ x.sid ≠ s.sid := by
    intro x hx
    rw [hr.sess] at hx
    obtain ⟨h1, h2⟩ := List.mem_filter.1 hx
    exact ⟨h1, by simpa using h2⟩
  have hst : ∀ x ∈ t.streams, x ∈ st.streams ∧ x.cid ≠ s.cid := by
    intro x hx
    rw [hr.streams] at hx
    obtain ⟨h1, h2⟩ := List.mem_filter.1 hx
    exact ⟨h1, by simpa using h2⟩
  refine ⟨released_kind h hb hs _ ho.ctl hr.ctl hr.sess, released_kind h hb hs _ ho.exc hr.exc hr.sess,
    fun x hx => ho.kinds x (hm x hx).1, fun x hx => ho.usedc x (hm x hx).1, ?_, ?_, ?_⟩
  · intro x hx hc
    refine ho.useds x (hm x hx).1 ?_
    obtain ⟨y, hy, hyc⟩ := List.mem_map.1 hc
    exact List.mem_map.2 ⟨y, (hst y hy).1, hyc⟩
  · intro x hx
    obtain ⟨h1, h2⟩ := hst x hx
    obtain ⟨y, hy, hyc⟩ := ho.strm x h1
    refine ⟨y, ?_, hyc⟩
    rw [hr.sess]
    refine List.mem_filter.2 ⟨hy, ?_⟩
    have : y.sid ≠ s.sid := fun e => h2 (by rw [← hyc, inj_of h.sids hy hs e])
    simpa using this
  · refine excl_of_subset ho.excl ?_
    intro x hx
    rw [mem_steering] at hx ⊢
    exact ⟨(hm x hx.1).1, hx.2⟩

/-- An announcement of a session that does not use the server yet. -/
theorem Ord.put {used : List Nat} {st : St} {s s0 : Sess} (h : Inv st) (hs : s0 ∈ st.sess) (ho : Ord used st)
    (hu : s0.sid ∉ used) (hid : s.sid = s0.sid) (hc : s.config = s0.config) (hsv : s.serves = s0.serves)
    (hcid : s.cid ∉ st.streams.map (·.cid)) : Ord used (st.put s) := by
  have h0 : s0.config = false := by
    cases e : s0.config
    · rfl
    · exact absurd (ho.usedc s0 hs e) hu
  have hsv0 : s.serves = none := by
    have := h.srv s0 hs
    rw [h0] at this
    rw [hsv]
    cases e : s0.serves
    · rfl
    · rw [e] at this
      exact absurd this (by simp)
  have hcs : s.config = false := by rw [hc, h0]
  have hk : ∀ k, cnt (isKind k) (st.put s).sess = cnt (isKind k) st.sess := by
    intro k
    have := cnt_map (isKind k) h.sids hs hid
    rw [if_neg (by simp [isKind, h0]), if_neg (by simp [isKind, hcs])] at this
    exact this
  have e : (st.put s).sess = putL st.sess s := rfl
  refine ⟨by rw [hk]; exact ho.ctl, by rw [hk]; exact ho.exc, ?_, ?_, ?_, ?_, ?_⟩
  · rw [e]
    intro x hx k hxk
    rcases mem_putL hx with rfl | ⟨hx, _⟩
    · rw [hsv0] at hxk
      cases hxk
    · exact ho.kinds x hx k hxk
  · rw [e]
    intro x hx hxc
    rcases mem_putL hx with rfl | ⟨hx, _⟩
    · rw [hcs] at hxc
      cases hxc
    · exact ho.usedc x hx hxc
  · rw [e]
    intro x hx hxc
    rcases mem_putL hx with rfl | ⟨hx, _⟩
    · exact absurd hxc hcid
    · exact ho.useds x hx hxc
  · rw [e]
    intro x hx
    obtain ⟨y, hy, hyc⟩ := ho.strm x hx
    refine ⟨y, putL_mem hy ?_, hyc⟩
    intro e2
    have : y = s0 := inj_of h.sids hy hs (by rw [e2, hid])
    rw [this] at hyc
    exact hu (ho.useds s0 hs (hyc ▸ List.mem_map.2 ⟨x, hx, rfl⟩))
  · rw [e]
    refine excl_of_subset ho.excl ?_
    intro x hx
    rw [mem_steering] at hx ⊢
    rcases mem_putL hx.1 with rfl | ⟨hx', _⟩
    · rw [hcs] at hx
      exact absurd hx.2.1 Bool.false_ne_true
    · exact ⟨hx', hx.2⟩

theorem Ord.announced {used : List Nat} {st : St} {s : Sess} {p : Props} (h : Inv st) (hb : st.next < 2 ^ 64)
    (hs : s ∈ st.sess) (ho : Ord used st) (hu : s.sid ∉ used) {r : St × List Ev} (ha : Announced st s p r) : Ord used r.1 := by
  have hns : s.cid ∉ st.streams.map (·.cid) := fun hm => hu (ho.useds s hs hm)
  cases ha with
  | plain _ => exact Ord.put h hs ho hu rfl rfl rfl hns
  | renamed _ hf =>
    refine Ord.put h hs ho hu rfl rfl rfl ?_
    intro hm
    obtain ⟨x, hx, hxc⟩ := List.mem_map.1 hm
    obtain ⟨y, hy, hyc⟩ := ho.strm x hx
    exact hf y hy (by rw [hyc]; exact hxc)
  | taken _ _ _ => exact Ord.put h hs ho hu rfl rfl rfl hns
  | @over c o t _ hom hoc hne hr =>
    have hot := Ord.released h hb hom ho hr
    have hm : s ∈ t.sess := by
      rw [hr.sess]
      exact List.mem_filter.2 ⟨hs, by simpa using (Ne.symm hne)⟩
    refine Ord.put hr.inv hm hot hu rfl rfl rfl ?_
    intro hmm
    rw [hr.streams] at hmm
    obtain ⟨x, hx, hxc⟩ := List.mem_map.1 hmm
    have := (List.mem_filter.1 hx).2
    have hxo : x.cid = o.cid := by rw [hoc]; exact hxc
    rw [hxo] at this
    simp at this
  | self _ hr => exact Ord.released h hb hs ho hr

theorem granted_kind {st t : St} (h : Inv st) (hb : st.next < 2 ^ 64) {s : Sess} (hs : s ∈ st.sess) (hc : s.config = false)
    (k : Kind) {a b : Nat} (ha : a = cnt (isKind k) st.sess) (hbb : b = if s.kind = k then inc a else a)
    (hr : t.sess = putL st.sess { s with config := true, serves := some s.kind }) : b = cnt (isKind k) t.sess := by
  have hcn : cnt (isKind k) t.sess = cnt (isKind k) st.sess + (if s.kind = k then 1 else 0) := by
    have := cnt_map (isKind k) h.sids (s := { s with config := true, serves := some s.kind }) hs rfl
    rw [if_neg (by simp [isKind, hc])] at this
    rw [hr]
    refine Eq.trans this ?_
    by_cases e : s.kind = k
    · rw [if_pos (by simp [isKind, e]), if_pos e]
    · rw [if_neg (by simp [isKind, e]), if_neg e]
  have hle : cnt (isKind k) t.sess ≤ t.sess.length := List.countP_le_length
  have hl2 : t.sess.length = st.sess.length := by rw [hr]; unfold putL; rw [List.length_map]
  have hl := h.len
  by_cases e : s.kind = k
  · rw [if_pos e] at hbb hcn
    rw [hbb, ha, inc_exact (by omega)]
    omega
  · rw [if_neg e] at hbb hcn
    omega

theorem Ord.granted {used : List Nat} {st t : St} {s : Sess} (h : Inv st) (hb : st.next < 2 ^ 64) (hs : s ∈ st.sess)
    (hc : s.config = false) (ho : Ord used st) (hg : Granted st t s)
    (h1 : s.kind = .control → ∀ x ∈ st.sess, x.config = true → x.kind ≠ .exclusive)
    (h2 : s.kind = .exclusive → Spec.steering st.sess = []) : Ord (s.sid :: used) t := by
  refine ⟨granted_kind h hb hs hc _ ho.ctl hg.ctl hg.sess, granted_kind h hb hs hc _ ho.exc hg.exc hg.sess, ?_, ?_, ?_, ?_, ?_⟩
  · rw [hg.sess]
    intro x hx k hxk
    rcases mem_putL hx with rfl | ⟨hx, _⟩
    · exact Option.some.inj hxk
    · exact ho.kinds x hx k hxk
  · rw [hg.sess]
    intro x hx hxc
    rcases mem_putL hx with rfl | ⟨hx, _⟩
    · exact List.mem_cons_self
    · exact List.mem_cons_of_mem _ (ho.usedc x hx hxc)
  · rw [hg.sess, hg.streams]
    intro x hx hxc
    rcases mem_putL hx with rfl | ⟨hx, _⟩
    · exact List.mem_cons_self
    · exact List.mem_cons_of_mem _ (ho.useds x hx hxc)
  · rw [hg.sess, hg.streams]
    intro x hx
    obtain ⟨y, hy, hyc⟩ := ho.strm x hx
    by_cases e : y.sid = s.sid
    · have : y = s := inj_of h.sids hy hs e
      subst this
      exact ⟨_, putL_self hy rfl, hyc⟩
    · exact ⟨y, putL_mem hy e, hyc⟩
  · rw [hg.sess]
    intro x hx hk y hy
    rw [mem_steering] at hx hy
    rcases mem_putL hx.1 with rfl | ⟨hx1, _⟩
    · have h3 := h2 hk
      rcases mem_putL hy.1 with rfl | ⟨hy1, _⟩
      · rfl
      · have : y ∈ Spec.steering st.sess := mem_steering.2 ⟨hy1, hy.2⟩
        rw [h3] at this
        simp at this
    · rcases mem_putL hy.1 with rfl | ⟨hy1, _⟩
      · exfalso
        have h3 : x ∈ Spec.steering st.sess := mem_steering.2 ⟨hx1, hx.2⟩
        cases e : s.kind with
        | control => exact h1 e x hx1 hx.2.1 hk
        | exclusive =>
          rw [h2 e] at h3
          simp at h3
        | viewOnly => exact hy.2.2 e
      · exact ho.excl x (mem_steering.2 ⟨hx1, hx.2⟩) hk y (mem_steering.2 ⟨hy1, hy.2⟩)

theorem steering_nil {used : List Nat} {st : St} (ho : Ord used st) :
    Spec.steering st.sess = [] ↔ ¬ (0 < st.exc ∨ 0 < st.ctl) := by
  rw [ho.exc, ho.ctl, cnt_pos, cnt_pos, List.eq_nil_iff_forall_not_mem]
  constructor
  · rintro h (⟨s, hs, hk⟩ | ⟨s, hs, hk⟩)
    · rw [isKind_iff] at hk
      exact h s (mem_steering.2 ⟨hs, hk.1, by rw [hk.2]; decide⟩)
    · rw [isKind_iff] at hk
      exact h s (mem_steering.2 ⟨hs, hk.1, by rw [hk.2]; decide⟩)
  · intro h s hs
    rw [mem_steering] at hs
    cases e : s.kind with
    | control => exact h (Or.inr ⟨s, hs.1, isKind_iff.2 ⟨hs.2.1, e⟩⟩)
    | exclusive => exact h (Or.inl ⟨s, hs.1, isKind_iff.2 ⟨hs.2.1, e⟩⟩)
    | viewOnly => exact hs.2.2 e

theorem exc_pos {used : List Nat} {st : St} (ho : Ord used st) :
    0 < st.exc ↔ ∃ t ∈ Spec.on st.sess, t.kind = .exclusive := by
  rw [ho.exc, cnt_pos]
  constructor
  · rintro ⟨s, hs, hk⟩
    rw [isKind_iff] at hk
    exact ⟨s, List.mem_filter.2 ⟨hs, hk.1⟩, hk.2⟩
  · rintro ⟨s, hs, hk⟩
    obtain ⟨h1, h2⟩ := List.mem_filter.1 hs
    exact ⟨s, h1, isKind_iff.2 ⟨h2, hk⟩⟩

theorem others_steering {st : St} {s : Sess} (h : Inv st) (hs : s ∈ st.sess) (hc : s.config = false) :
    st.others s.sid = (Spec.steering st.sess).map (·.sid) := by
  unfold St.others Spec.steering Spec.on
  rw [List.filter_filter]
  refine congrArg _ (List.filter_congr ?_)
  intro x hx
  by_cases e : x.sid = s.sid
  · have : x = s := inj_of h.sids hx hs e
    rw [this, hc]
    simp
  · have e' : (x.sid != s.sid) = true := by simpa using e
    rw [e']
    cases x.kind <;> cases x.config <;> rfl

theorem dropped_steering {st : St} {s : Sess} (h : Inv st) (hb : st.next < 2 ^ 64) (hs : s ∈ st.sess) (hc : s.config = false) :
    Spec.steering (st.releaseAll (st.others s.sid)).1.sess = [] := by
  have hoth : ∀ n ∈ st.others s.sid, ∃ x ∈ st.sess, x.sid = n := fun n hn => by
    obtain ⟨x, hx, hxn, _⟩ := mem_others hn
    exact ⟨x, hx, hxn⟩
  rw [(releaseAll_ok h hb _ (others_nodup h s.sid) hoth).2, List.eq_nil_iff_forall_not_mem]
  intro x hx
  rw [mem_steering] at hx
  obtain ⟨h1, h2⟩ := List.mem_filter.1 hx.1
  simp only [decide_eq_true_eq] at h2
  refine h2 ?_
  rw [others_steering h hs hc]
  exact List.mem_map.2 ⟨x, mem_steering.2 ⟨h1, hx.2⟩, rfl⟩

theorem serves_none {st : St} (h : Inv st) {s : Sess} (hs : s ∈ st.sess) (e : s.serves = none) : s.config = false := by
  have := h.srv s hs
  rw [e] at this
  exact this.symm

theorem Ord.configured {used : List Nat} {st : St} {s : Sess} (h : Inv st) (hb : st.next < 2 ^ 64) (hs : s ∈ st.sess)
    (ho : Ord used st) {r : St × List Ev} (hc : Configured st s r) : Ord (s.sid :: used) r.1 := by
  have hw : Ord (s.sid :: used) st := ho.mono (fun n hn => List.mem_cons_of_mem _ hn)
  cases hc with
  | served _ => exact hw
  | full _ _ _ => exact hw
  | refused _ _ _ => exact hw
  | granted e _ h1 h2 hg =>
    refine ho.granted h hb hs (serves_none h hs e) hg ?_ ?_
    · intro hk x hx hxc hxk
      exact h1 ⟨hk, (exc_pos ho).2 ⟨x, List.mem_filter.2 ⟨hx, hxc⟩, hxk⟩⟩
    · intro hk
      exact (steering_nil ho).2 (fun hh => h2 ⟨hk, hh⟩)
  | dropped e _ hk _ _ _ hg =>
    have hcf := serves_none h hs e
    obtain ⟨h5, h6, h7, h8⟩ := releaseAll_ind (P := Ord used) (fun a b x ha hba hx hp hr => hp.released ha hba hx hr)
      h hb ho (st.others s.sid)
    have hoth : ∀ n ∈ st.others s.sid, ∃ x ∈ st.sess, x.sid = n := fun n hn => by
      obtain ⟨x, hx, hxn, _⟩ := mem_others hn
      exact ⟨x, hx, hxn⟩
    have hm : s ∈ (st.releaseAll (st.others s.sid)).1.sess := by
      rw [(releaseAll_ok h hb _ (others_nodup h s.sid) hoth).2]
      refine List.mem_filter.2 ⟨hs, ?_⟩
      simp only [decide_eq_true_eq]
      intro hn
      obtain ⟨_, _, _, hne, _⟩ := mem_others hn
      exact hne rfl
    refine h5.granted h6 (by rw [h7]; exact hb) hm hcf hg ?_ (fun _ => dropped_steering h hb hs hcf)
    intro hk2
    rw [hk] at hk2
    cases hk2

theorem Ord.inited {used : List Nat} {st : St} {s : Sess} (h : Inv st) (hs : s ∈ st.sess) (ho : Ord used st)
    {r : St × List Ev} (hi : Inited st s r) : Ord (s.sid :: used) r.1 := by
  have hw : Ord (s.sid :: used) st := ho.mono (fun n hn => List.mem_cons_of_mem _ hn)
  cases hi with
  | again _ => exact hw
  | done _ hd =>
    refine ⟨by rw [hd.ctl, hd.sess]; exact ho.ctl, by rw [hd.exc, hd.sess]; exact ho.exc, by rw [hd.sess]; exact hw.kinds,
      by rw [hd.sess]; exact hw.usedc, ?_, ?_, by rw [hd.sess]; exact hw.excl⟩
    · rw [hd.sess, hd.streams]
      intro x hx hxc
      rw [List.map_append] at hxc
      rcases List.mem_append.1 hxc with hxc | hxc
      · exact hw.useds x hx hxc
      · simp at hxc
        rw [inj_of h.cids hx hs hxc]
        exact List.mem_cons_self
    · rw [hd.sess, hd.streams]
      intro x hx
      rcases List.mem_append.1 hx with hx | hx
      · exact ho.strm x hx
      · simp at hx
        subst hx
        exact ⟨s, hs, rfl⟩

theorem Ord.accept {used : List Nat} {st : St} (ho : Ord used st) (user : Nat)
    (hns : .assigned st.next ∉ st.streams.map (·.cid)) : Ord used (st.accept user).1 := by
  rcases accept_cases st user with ⟨_, e⟩ | ⟨_, e⟩
  · rw [e]
    exact ⟨ho.ctl, ho.exc, ho.kinds, ho.usedc, ho.useds, ho.strm, ho.excl⟩
  · rw [e]
    have hk : ∀ k, cnt (isKind k) (st.sess ++ [newSess st user]) = cnt (isKind k) st.sess := by
      intro k
      unfold cnt
      rw [List.countP_append]
      rfl
    refine ⟨by rw [hk]; exact ho.ctl, by rw [hk]; exact ho.exc, ?_, ?_, ?_, ?_, ?_⟩
    · intro x hx k hxk
      rcases List.mem_append.1 hx with hx | hx
      · exact ho.kinds x hx k hxk
      · simp at hx
        subst hx
        cases hxk
    · intro x hx hxc
      rcases List.mem_append.1 hx with hx | hx
      · exact ho.usedc x hx hxc
      · simp at hx
        subst hx
        cases hxc
    · intro x hx hxc
      rcases List.mem_append.1 hx with hx | hx
      · exact ho.useds x hx hxc
      · simp at hx
        subst hx
        exact absurd hxc hns
    · intro x hx
      obtain ⟨y, hy, hyc⟩ := ho.strm x hx
      exact ⟨y, List.mem_append_left _ hy, hyc⟩
    · refine excl_of_subset ho.excl ?_
      intro x hx
      rw [mem_steering] at hx ⊢
      rcases List.mem_append.1 hx.1 with hx1 | hx1
      · exact ⟨hx1, hx.2⟩
      · simp at hx1
        subst hx1
        exact absurd hx.2.1 Bool.false_ne_true

theorem Ord.step {used : List Nat} {st : St} (h : Inv st) (hb : st.next < 2 ^ 64) (ho : Ord used st) (op : Op) (l : List Op)
    (hor : Spec.orderly used (op :: l) = true) :
    ∃ used', Ord used' (st.step op).1 ∧ Spec.orderly used' l = true := by
  cases op with
  | accept u =>
    refine ⟨used, ?_, hor⟩
    change Ord used (st.accept u).1
    by_cases e : Cid.assigned st.next ∈ st.streams.map (·.cid)
    · obtain ⟨x, hx, hxc⟩ := List.mem_map.1 e
      obtain ⟨y, hy, hyc⟩ := ho.strm x hx
      rcases accept_cases st u with ⟨_, e2⟩ | ⟨hf, _⟩
      · rw [e2]
        exact ⟨ho.ctl, ho.exc, ho.kinds, ho.usedc, ho.useds, ho.strm, ho.excl⟩
      · exact absurd (hyc.trans hxc) (hf y hy)
    · exact ho.accept u e
  | announce sid p =>
    simp only [Spec.orderly, Bool.and_eq_true, decide_eq_true_eq] at hor
    refine ⟨used, ?_, hor.2⟩
    change Ord used (st.announce sid p).1
    rcases get_cases h sid with e | ⟨s, hs, rfl⟩
    · rw [announce_none p e]
      exact ho
    · exact ho.announced h hb hs hor.1 (Verif.Sessions.announced h hb hs p)
  | config sid =>
    refine ⟨sid :: used, ?_, hor⟩
    change Ord _ (st.config sid).1
    rcases get_cases h sid with e | ⟨s, hs, rfl⟩
    · rw [config_none e]
      exact ho.mono (fun n hn => List.mem_cons_of_mem _ hn)
    · exact ho.configured h hb hs (Verif.Sessions.configured h hb hs)
  | init sid =>
    refine ⟨sid :: used, ?_, hor⟩
    change Ord _ (st.init sid).1
    rcases get_cases h sid with e | ⟨s, hs, rfl⟩
    · rw [init_none e]
      exact ho.mono (fun n hn => List.mem_cons_of_mem _ hn)
    · exact ho.inited h hs (Verif.Sessions.inited h hs)
  | lost sid =>
    refine ⟨used, ?_, hor⟩
    change Ord used (st.release sid).1
    rcases get_cases h sid with e | ⟨s, hs, rfl⟩
    · rw [release_none e]
      exact ho
    · obtain ⟨t, et, hr⟩ := release_some h hb hs
      rw [et]
      exact ho.released h hb hs hr
  | addSignal =>
    refine ⟨used, ?_, hor⟩
    change Ord used (st.addSignal).1
    unfold St.addSignal
    split <;> exact ho

theorem Ord.start (m p t : Nat) : Ord [] (start m p t) :=
  ⟨by simp [Verif.Sessions.start], by simp [Verif.Sessions.start], by simp [Verif.Sessions.start],
    by simp [Verif.Sessions.start], by simp [Verif.Sessions.start], by simp [Verif.Sessions.start],
    by intro s hs; simp [Spec.steering, Spec.on, Verif.Sessions.start] at hs⟩

theorem Ord.run {used : List Nat} {st : St} (h : Inv st) (ho : Ord used st) (ops : List Op)
    (hb : st.next + ops.length < 2 ^ 64) (hor : Spec.orderly used ops = true) : ∃ used', Ord used' (st.run ops).1 := by
  induction ops generalizing st used with
  | nil => exact ⟨used, ho⟩
  | cons op l ih =>
    rw [List.length_cons] at hb
    have h1 := step_inv h (by omega) op
    obtain ⟨used', h2, h3⟩ := ho.step h (by omega) op l hor
    exact ih h1.1 h2 (by omega) h3

end Verif.Sessions
