import Verif.PacketStreaming.Groups

/-! Invariants of the server over histories (helper lemmas). -/

namespace Verif.PacketStreaming

theorem checkRelease_spec {s : Srv} (h : GInv s) (hm : SizeOK s.cacheMax) (force : Bool) :
    ∃ s', s.checkRelease force = some s' ∧ GInv s' ∧ s'.cacheMax = s.cacheMax ∧
      s'.threshold = s.threshold ∧ s'.descs = s.descs ∧ s'.sent = s.sent ∧
      s'.subscribed = s.subscribed ∧
      ((s' = s ∧ s.ready.length < s.threshold ∧ (force = true → s.ready = [])) ∨
        ((s.threshold ≤ s.ready.length ∨ (force = true ∧ s.ready ≠ [])) ∧ s'.ready = [] ∧
          ∃ g, s'.queue = s.queue ++ [⟨.release s.ready, (s.ready.length * 8) % U32, g⟩] ∧
            s'.emitted = s.emitted ++ [⟨.release s.ready, (s.ready.length * 8) % U32, g⟩])) := by
  unfold Srv.checkRelease
  by_cases hc : (!(force && decide (s.ready.length > 0)) && decide (s.ready.length < s.threshold)) = true
  · rw [if_pos hc]
    simp only [Bool.and_eq_true, Bool.not_eq_true', decide_eq_true_eq] at hc
    refine ⟨s, rfl, h, rfl, rfl, rfl, rfl, rfl, .inl ⟨rfl, hc.2, ?_⟩⟩
    intro hf
    have h1 := hc.1
    rw [hf] at h1
    simpa using h1
  · rw [if_neg hc]
    have h' : GInv { s with ready := [] } := h.congr rfl rfl rfl rfl
    obtain ⟨s', g, e, i1, i2, i3, i4, i5, i6, i7, i8, i9⟩ :=
      enqueue_spec h' hm (.release s.ready) ((s.ready.length * 8) % U32)
    refine ⟨s', e, i1, i4, i5, i6, i7, i9, .inr ⟨?_, i8, g, i2, i3⟩⟩
    simp only [Bool.and_eq_true, Bool.not_eq_true', decide_eq_true_eq] at hc
    cases force with
    | false => simp at hc; exact .inl hc
    | true =>
      by_cases hr : s.ready = []
      · simp [hr] at hc; left; omega
      · exact .inr ⟨rfl, hr⟩

theorem addEvent_spec {s : Srv} (h : GInv s) (hm : SizeOK s.cacheMax) (sig : Nat) (ev : Event)
    (len : Nat) :
    ∃ s' g, s.addEvent sig ev len = some s' ∧ GInv s' ∧
      s'.queue = s.queue ++ [⟨.event sig ev, (len + 1) % U32, g⟩] ∧
      s'.emitted = s.emitted ++ [⟨.event sig ev, (len + 1) % U32, g⟩] ∧ s'.cacheMax = s.cacheMax ∧
      s'.threshold = s.threshold ∧ s'.sent = s.sent ∧ s'.ready = s.ready ∧
      s'.subscribed = s.subscribed ∧
      s'.descs = match ev with
        | .descChanged (some v) _ => s.descs.put sig v
        | _ => s.descs := by
  obtain ⟨g, s1, he, h1, h2, h3, h4, h5, h6, h7, h8, h9, h10, hc⟩ := groupFor_spec h ((len + 1) % U32)
  have key : ∀ s2 : Srv, s2.queue = s1.queue → s2.groups = s1.groups →
      s2.nonCacheable = s1.nonCacheable → s2.currentGroup = s1.currentGroup →
      GInv (s2.push ⟨.event sig ev, (len + 1) % U32, g⟩) := by
    intro s2 e1 e2 e3 e4
    refine ginv_push h hm ⟨e1.trans h1, e2.trans h2, e3.trans h3⟩ ?_
    rcases hc with hc | ⟨a, b, c⟩
    · left; rw [e4]; exact hc
    · right; rw [e4, c]; exact ⟨a, b, rfl⟩
  unfold Srv.addEvent
  rw [he]
  simp only
  refine ⟨_, g, rfl, ?_⟩
  clear he
  rcases ev with ⟨v, d⟩ | i
  · cases v with
    | none =>
      obtain ⟨p1, p2, p3, p4, p5, p6, p7, p8, p9⟩ := push_fields s1
        ⟨.event sig (.descChanged none d), (len + 1) % U32, g⟩
      simp only [p1, p2, p3, p4, p5, p6, p7, p8]
      exact ⟨key s1 rfl rfl rfl rfl, by simp [h1], by simp [h10], h4, h5, h7, h8, h9, h6⟩
    | some v =>
      obtain ⟨p1, p2, p3, p4, p5, p6, p7, p8, p9⟩ := push_fields { s1 with descs := s1.descs.put sig v }
        ⟨.event sig (.descChanged (some v) d), (len + 1) % U32, g⟩
      simp only [p1, p2, p3, p4, p5, p6, p7, p8]
      exact ⟨key _ rfl rfl rfl rfl, by simp [h1], by simp [h10], h4, h5, h7, h8, h9, by simp [h6]⟩
  · obtain ⟨p1, p2, p3, p4, p5, p6, p7, p8, p9⟩ := push_fields s1
      ⟨.event sig (.other i), (len + 1) % U32, g⟩
    simp only [p1, p2, p3, p4, p5, p6, p7, p8]
    exact ⟨key s1 rfl rfl rfl rfl, by simp [h1], by simp [h10], h4, h5, h7, h8, h9, h6⟩

theorem shouldSend_spec (s : Srv) (id : Nat) (mark : Bool) :
    (s.shouldSend id mark).2 = !s.sent.contains id ∧
    (s.shouldSend id mark).1.queue = s.queue ∧ (s.shouldSend id mark).1.groups = s.groups ∧
    (s.shouldSend id mark).1.nonCacheable = s.nonCacheable ∧
    (s.shouldSend id mark).1.currentGroup = s.currentGroup ∧
    (s.shouldSend id mark).1.cacheMax = s.cacheMax ∧ (s.shouldSend id mark).1.threshold = s.threshold ∧
    (s.shouldSend id mark).1.descs = s.descs ∧ (s.shouldSend id mark).1.ready = s.ready ∧
    (s.shouldSend id mark).1.emitted = s.emitted ∧
    (∀ i, i ∈ (s.shouldSend id mark).1.sent ↔ if i = id then mark = false else i ∈ s.sent) ∧
    (∀ i, i ∈ s.subscribed → i ∈ (s.shouldSend id mark).1.subscribed) ∧
    (id ∉ s.sent → mark = false → id ∈ (s.shouldSend id mark).1.subscribed) := by
  by_cases h : s.sent.contains id = true
  · have hm : id ∈ s.sent := by simpa using h
    cases mark with
    | true =>
      have e : s.shouldSend id true = ({ s with sent := s.sent.filter (· != id) }, false) := by
        simp [Srv.shouldSend, hm]
      rw [e]
      refine ⟨by simp [hm], rfl, rfl, rfl, rfl, rfl, rfl, rfl, rfl, rfl, ?_, fun _ hh => hh, fun hh => absurd hm hh⟩
      intro i
      by_cases hi : i = id <;> simp [hi]
    | false =>
      have e : s.shouldSend id false = (s, false) := by simp [Srv.shouldSend, hm]
      rw [e]
      refine ⟨by simp [hm], rfl, rfl, rfl, rfl, rfl, rfl, rfl, rfl, rfl, ?_, fun _ hh => hh, fun hh => absurd hm hh⟩
      intro i
      by_cases hi : i = id <;> simp [hi, hm]
  · have hm : id ∉ s.sent := by simpa using h
    cases mark with
    | true =>
      have e : s.shouldSend id true = (s, true) := by simp [Srv.shouldSend, hm]
      rw [e]
      refine ⟨by simp [hm], rfl, rfl, rfl, rfl, rfl, rfl, rfl, rfl, rfl, ?_, fun _ hh => hh, fun _ hh => by simp at hh⟩
      intro i
      by_cases hi : i = id
      · simp [hi, hm]
      · simp [hi]
    | false =>
      have e : s.shouldSend id false =
          ({ s with sent := id :: s.sent, subscribed := id :: s.subscribed }, true) := by
        simp [Srv.shouldSend, hm]
      rw [e]
      refine ⟨by simp [hm], rfl, rfl, rfl, rfl, rfl, rfl, rfl, rfl, rfl, ?_, ?_, ?_⟩
      · intro i
        by_cases hi : i = id <;> simp [hi]
      · intro i hi; simp [hi]
      · intro _ _; simp

/-- Everything the server state means in terms of the history. -/
structure SrvInv (m thr : Nat) (s : Srv) (t : SrvTrace) : Prop where
  g : GInv s
  cacheMax : s.cacheMax = m
  thr : s.threshold = thr
  noErr : ∀ x ∈ t, x.2 ≠ .linearCachingError
  sent : ∀ id, id ∈ s.sent ↔ held id t.reverse = true
  sub : ∀ id, id ∈ s.sent → id ∈ s.subscribed
  reg : ∀ sig, s.descs.has sig = registered sig t
  rel : announced (bodies s) ++ s.ready = destroyedHeld t.reverse

@[simp] theorem announced_append (a b) : announced (a ++ b) = announced a ++ announced b := by
  simp [announced]

theorem registered_snoc (sig : Nat) (t : SrvTrace) (x) :
    registered sig (t ++ [x]) = (registered sig t || registered sig [x]) := by
  simp [registered]

/-- Shape of a successful call adding a buffer followed by the release check. -/
theorem add_then_release {s1 : Srv} (h : GInv s1) (hm : SizeOK s1.cacheMax) :
    ∃ s', s1.checkRelease false = some s' ∧ GInv s' ∧ s'.cacheMax = s1.cacheMax ∧
      s'.threshold = s1.threshold ∧ s'.descs = s1.descs ∧ s'.sent = s1.sent ∧
      s'.subscribed = s1.subscribed ∧
      bodies s' = bodies s1 ++ (if s1.threshold ≤ s1.ready.length then [.release s1.ready] else []) ∧
      announced (bodies s') ++ s'.ready = announced (bodies s1) ++ s1.ready := by
  obtain ⟨s', e, i1, i2, i3, i4, i5, i6, i7⟩ := checkRelease_spec h hm false
  refine ⟨s', e, i1, i2, i3, i4, i5, i6, ?_⟩
  rcases i7 with ⟨rfl, hlt, _⟩ | ⟨hge, hr, g, _, he⟩
  · rw [if_neg (by omega)]; simp
  · have hge : s1.threshold ≤ s1.ready.length := by
      rcases hge with h | ⟨h, _⟩
      · exact h
      · cases h
    have : bodies s' = bodies s1 ++ [.release s1.ready] := by simp [bodies, he]
    rw [if_pos hge, this]
    simp [hr, announced]

theorem le_sum_of_mem {x : Nat} {l : List Nat} (h : x ∈ l) : x ≤ l.sum := by
  induction l with
  | nil => cases h
  | cons a l ih =>
    rw [List.sum_cons]
    rcases List.mem_cons.mp h with rfl | h
    · omega
    · have := ih h; omega

theorem getNext_spec {s : Srv} (h : GInv s) :
    s.getNext.2 = .buffer s.queue.head? ∧ GInv s.getNext.1 ∧
    s.getNext.1.queue = s.queue.tail ∧ s.getNext.1.emitted = s.emitted ∧
    s.getNext.1.cacheMax = s.cacheMax ∧ s.getNext.1.threshold = s.threshold ∧
    s.getNext.1.descs = s.descs ∧ s.getNext.1.sent = s.sent ∧ s.getNext.1.ready = s.ready ∧
    s.getNext.1.subscribed = s.subscribed := by
  unfold Srv.getNext
  cases hq : s.queue with
  | nil => exact ⟨rfl, h, by simp [hq], rfl, rfl, rfl, rfl, rfl, rfl, rfl⟩
  | cons b rest =>
    have hseg : Seg rest := by have := h.seg; rw [hq] at this; exact this.1
    have hle : ∀ x ∈ rest, x.group ≤ s.currentGroup := fun x hx => h.le x (by rw [hq]; simp [hx])
    have hback : ∀ x, rest.getLast? = some x → x.group ≠ 0 → x.group = s.currentGroup := by
      intro x hx
      refine h.back x ?_
      rw [hq]
      cases rest with
      | nil => simp at hx
      | cons c r => rw [List.getLast?_cons_cons]; exact hx
    have hpos : ∀ x ∈ rest, x.group ≠ 0 → 0 < x.size := fun x hx => h.pos x (by rw [hq]; simp [hx])
    by_cases hb : b.group = 0
    · have hc : b.cacheable = false := by simp [Buf.cacheable, hb]
      have hn := h.non
      rw [hq, cntG_cons, if_pos hb] at hn
      simp only [hc, Bool.false_eq_true, if_false]
      rw [if_neg (by omega)]
      refine ⟨rfl, ⟨?_, h.find0, by simp only; omega, hseg, hle, hback, hpos⟩,
        rfl, rfl, rfl, rfl, rfl, rfl, rfl, rfl⟩
      intro g hg
      have hne : b.group ≠ g := fun e => hg (by rw [← e, hb])
      have := h.find g hg
      rw [hq, cntG_cons, sizG_cons, if_neg hne, if_neg hne] at this
      simpa using this
    · have hc : b.cacheable = true := by simp [Buf.cacheable, hb]
      have hf := h.find b.group hb
      rw [hq, cntG_cons, sizG_cons, if_pos rfl, if_pos rfl] at hf
      simp only [Nat.add_one_ne_zero, if_false] at hf
      simp only [hc, if_true, hf, Nat.add_one_ne_zero, if_false]
      rw [if_neg (by omega)]
      have e1 : cntG b.group rest + 1 - 1 = cntG b.group rest := by omega
      have e2 : b.size + sizG b.group rest - b.size = sizG b.group rest := by omega
      rw [e1, e2]
      have hz : cntG b.group rest = 0 ↔ sizG b.group rest = 0 := by
        constructor
        · intro h0
          have : rest.filter (fun x => x.group == b.group) = [] := by
            rw [List.filter_eq_nil_iff]
            simpa [cntG, List.countP_eq_zero] using h0
          simp [sizG, this]
        · intro h0
          simp only [cntG, List.countP_eq_zero]
          intro x hx hxg
          have hxg' : x.group = b.group := by simpa using hxg
          have hp := hpos x hx (by rw [hxg']; exact hb)
          have : x.size ∈ (rest.filter (fun x => x.group == b.group)).map Buf.size :=
            List.mem_map.mpr ⟨x, List.mem_filter.mpr ⟨hx, hxg⟩, rfl⟩
          have := le_sum_of_mem this
          unfold sizG at h0
          omega
      have hfind : ∀ (m : AList Nat (Nat × Nat)), (m.get b.group =
            if cntG b.group rest = 0 then none else some (cntG b.group rest, sizG b.group rest)) →
          (∀ g, g ≠ b.group → m.get g = s.groups.get g) →
          ∀ g, g ≠ 0 → m.get g = if cntG g rest = 0 then none else some (cntG g rest, sizG g rest) := by
        intro m h1 h2 g hg
        by_cases hgb : g = b.group
        · rw [hgb]; exact h1
        · have hne : b.group ≠ g := fun e => hgb e.symm
          have := h.find g hg
          rw [hq, cntG_cons, sizG_cons, if_neg hne, if_neg hne] at this
          rw [h2 g hgb]; simpa using this
      have hnon : s.nonCacheable = cntG 0 rest := by
        have := h.non
        rw [hq, cntG_cons, if_neg hb] at this
        simpa using this
      by_cases h0 : cntG b.group rest = 0
      · have hs0 := hz.mp h0
        rw [if_pos (.inl h0), if_neg (by simp [h0, hs0])]
        refine ⟨rfl, ⟨?_, ?_, hnon, hseg, hle, hback, hpos⟩, rfl, rfl, rfl, rfl, rfl, rfl, rfl, rfl⟩
        · refine hfind _ ?_ ?_
          · rw [AList.get_del]; simp [h0]
          · intro g hg; rw [AList.get_del, if_neg hg]
        · rw [AList.get_del, if_neg (fun e => hb e.symm)]; exact h.find0
      · have hs0 : sizG b.group rest ≠ 0 := fun e => h0 (hz.mpr e)
        rw [if_neg (by simp [h0, hs0])]
        refine ⟨rfl, ⟨?_, ?_, hnon, hseg, hle, hback, hpos⟩, rfl, rfl, rfl, rfl, rfl, rfl, rfl, rfl⟩
        · refine hfind _ ?_ ?_
          · rw [AList.get_put]; simp [h0]
          · intro g hg; rw [AList.get_put, if_neg hg]
        · rw [AList.get_put, if_neg (fun e => hb e.symm)]; exact h.find0

/-- Effect of adding a data packet. -/
theorem addData_spec {s : Srv} (h : GInv s) (hm : SizeOK s.cacheMax) (sig : Nat) (p : DataPacket)
    (mark : Bool) :
    (s.descs.has sig = false ∧ s.step (.addData sig p mark) = (s, .noDescriptor)) ∨
    (s.descs.has sig = true ∧ (s.step (.addData sig p mark)).2 = .ok ∧
      ∃ s1, GInv s1 ∧ (s.step (.addData sig p mark)).1 = s1 ∧ s1.cacheMax = s.cacheMax ∧
        s1.threshold = s.threshold ∧ s1.descs = s.descs ∧
        bodies s1 = bodies s ++ [if p.id ∈ s.sent then .alreadySent sig mark p.id p.domain
          else .data sig (dataFlags p mark) p.id p.domain p.samples p.offset p.payload] ++
          (if s.threshold ≤ s.ready.length then [.release s.ready] else []) ∧
        announced (bodies s1) ++ s1.ready = announced (bodies s) ++ s.ready ∧
        (∀ i, i ∈ s1.sent ↔ if i = p.id then mark = false else i ∈ s.sent) ∧
        ((∀ i, i ∈ s.sent → i ∈ s.subscribed) → ∀ i, i ∈ s1.sent → i ∈ s1.subscribed)) := by
  cases hd : s.descs.has sig with
  | false =>
    left
    refine ⟨rfl, ?_⟩
    simp [Srv.step, Srv.addData, hd]
  | true =>
    right
    refine ⟨rfl, ?_⟩
    obtain ⟨q0, q1, q2, q3, q4, q5, q6, q7, q8, q9, q10, q11, q12⟩ := shouldSend_spec s p.id mark
    have hg1 : GInv (s.shouldSend p.id mark).1 := h.congr q1 q2 q3 q4
    have hm1 : SizeOK (s.shouldSend p.id mark).1.cacheMax := by rw [q5]; exact hm
    have key : ∀ body n, ∃ s2, (s.shouldSend p.id mark).1.enqueue body n = some s2 ∧ ∃ s1,
        s2.checkRelease false = some s1 ∧ GInv s1 ∧ s1.cacheMax = s.cacheMax ∧
        s1.threshold = s.threshold ∧ s1.descs = s.descs ∧
        bodies s1 = bodies s ++ [body] ++
          (if s.threshold ≤ s.ready.length then [.release s.ready] else []) ∧
        announced (bodies s1) ++ s1.ready = announced (bodies s ++ [body]) ++ s.ready ∧
        (∀ i, i ∈ s1.sent ↔ if i = p.id then mark = false else i ∈ s.sent) ∧
        ((∀ i, i ∈ s.sent → i ∈ s.subscribed) → ∀ i, i ∈ s1.sent → i ∈ s1.subscribed) := by
      intro body n
      obtain ⟨s2, g, e, i1, i2, i3, i4, i5, i6, i7, i8, i9⟩ := enqueue_spec hg1 hm1 body n
      obtain ⟨s1, e', j1, j2, j3, j4, j5, j6, j7, j8⟩ :=
        add_then_release i1 (by rw [i4, q5]; exact hm)
      have hb : bodies s2 = bodies s ++ [body] := by simp [bodies, i3, q9]
      refine ⟨s2, e, s1, e', j1, by rw [j2, i4, q5], by rw [j3, i5, q6], by rw [j4, i6, q7], ?_, ?_, ?_, ?_⟩
      · rw [j7, hb, i5, q6, i8, q8]
      · rw [j8, hb, i8, q8]
      · intro i; rw [j5, i7]; exact q10 i
      · intro hs i hi
        rw [j6, i9]
        rw [j5, i7] at hi
        by_cases hip : i = p.id
        · subst hip
          by_cases hin : p.id ∈ s.sent
          · exact q11 _ (hs _ hin)
          · exact q12 hin (by simpa using (q10 p.id).mp hi)
        · exact q11 _ (hs _ (by simpa [hip] using (q10 i).mp hi))
    have hfl : (if mark = true then 1 else 0) + offsetBits p.offset = dataFlags p mark := by
      cases hoff : p.offset <;> simp [offsetBits, dataFlags, hoff]
    unfold Srv.step Srv.addData
    simp only [hd, Bool.not_true, Bool.false_eq_true, if_false]
    rcases hss : s.shouldSend p.id mark with ⟨s0, b0⟩
    rw [hss] at key q0
    simp only at key q0
    by_cases hin : p.id ∈ s.sent
    · have hb0 : b0 = false := by rw [q0]; simp [hin]
      subst hb0
      obtain ⟨s2, e, s1, e', r1, r2, r3, r4, r5, r6, r7, r8⟩ := key (.alreadySent sig mark p.id p.domain) 0
      simp only [e, Option.map_some, e', hin, if_true]
      refine ⟨trivial, s1, r1, rfl, r2, r3, r4, r5, ?_, r7, r8⟩
      rw [r6]; simp [announced]
    · have hb0 : b0 = true := by rw [q0]; simp [hin]
      subst hb0
      cases hpl : p.payload with
      | none =>
        obtain ⟨s2, e, s1, e', r1, r2, r3, r4, r5, r6, r7, r8⟩ := key
          (.data sig (dataFlags p mark) p.id p.domain p.samples p.offset none) 0
        simp only [hfl, e, Option.map_some, e', hin, if_false]
        refine ⟨trivial, s1, r1, rfl, r2, r3, r4, r5, ?_, r7, r8⟩
        rw [r6]; simp [announced]
      | some bytes =>
        obtain ⟨s2, e, s1, e', r1, r2, r3, r4, r5, r6, r7, r8⟩ := key
          (.data sig (dataFlags p mark) p.id p.domain p.samples p.offset (some bytes)) (bytes.length % U32)
        simp only [hfl, e, Option.map_some, e', hin, if_false]
        refine ⟨trivial, s1, r1, rfl, r2, r3, r4, r5, ?_, r7, r8⟩
        rw [r6]; simp [announced]

theorem srvInv_step {m thr : Nat} (hm : SizeOK m) {s : Srv} {t : SrvTrace} (h : SrvInv m thr s t)
    (op : SrvOp) : SrvInv m thr (s.step op).1 (t ++ [(op, (s.step op).2)]) := by
  obtain ⟨hg, hcm, hthr, hne, hsent, hsub, hreg, hrel⟩ := h
  have hm' : SizeOK s.cacheMax := by rw [hcm]; exact hm
  have ne : ∀ (r : SrvRes), r ≠ .linearCachingError →
      ∀ x ∈ t ++ [(op, r)], x.2 ≠ .linearCachingError := by
    intro r hr x hx
    rcases List.mem_append.mp hx with hx | hx
    · exact hne x hx
    · simp at hx; rw [hx]; exact hr
  cases op with
  | addEvent sig ev len =>
    obtain ⟨s1, g, e, i1, i2, i3, i4, i5, i6, i7, i8, i9⟩ := addEvent_spec hg hm' sig ev len
    obtain ⟨s2, e', j1, j2, j3, j4, j5, j6, j7, j8⟩ :=
      add_then_release i1 (by rw [i4]; exact hm')
    have hst : s.step (.addEvent sig ev len) = (s2, .ok) := by
      simp [Srv.step, e, e']
    rw [hst]
    refine ⟨j1, by rw [j2, i4, hcm], by rw [j3, i5, hthr], ne _ (by simp), ?_, ?_, ?_, ?_⟩
    · intro id; rw [j5, i6, hsent]; simp [held]
    · intro id; rw [j5, i6, j6, i8]; exact hsub id
    · intro sg
      rw [j4, i9, registered_snoc, ← hreg]
      rcases ev with ⟨v, d⟩ | i
      · cases v with
        | none => simp [registered]
        | some v =>
          simp only [registered, List.any_cons, List.any_nil, Bool.or_false, AList.has, AList.get_put]
          by_cases hs : sg = sig
          · simp [hs]
          · have : (sig == sg) = false := by simpa using fun e => hs e.symm
            simp [hs, this]
      · simp [registered]
    · have hb : bodies s1 = bodies s ++ [.event sig ev] := by simp [bodies, i3]
      rw [j8, hb, i7]
      simp only [List.reverse_append, List.reverse_cons, List.reverse_nil, List.nil_append,
        List.singleton_append, destroyedHeld, ← hrel]
      simp [announced]
  | addData sig p mark =>
    rcases addData_spec hg hm' sig p mark with ⟨_, hst⟩ | ⟨_, hok, s1, k1, k2, k3, k4, k5, k6, k7, k8, k9⟩
    · rw [hst]
      refine ⟨hg, hcm, hthr, ne _ (by simp), ?_, hsub, ?_, ?_⟩
      · intro id; rw [hsent]; simp [held]
      · intro sg; rw [registered_snoc, ← hreg]; simp [registered]
      · rw [hrel]; simp [destroyedHeld]
    · rw [hok, k2]
      refine ⟨k1, by rw [k3, hcm], by rw [k4, hthr], ne _ (by simp), ?_, k9 hsub, ?_, ?_⟩
      · intro id
        rw [k8]
        simp only [List.reverse_append, List.reverse_cons, List.reverse_nil, List.nil_append,
          List.singleton_append, held]
        by_cases hid : p.id = id
        · subst hid; cases mark <;> simp
        · rw [if_neg (fun e => hid e.symm), if_neg hid, hsent]
      · intro sg; rw [k5, registered_snoc, ← hreg]; simp [registered]
      · rw [k7, hrel]; simp [destroyedHeld]
  | addOther =>
    refine ⟨hg, hcm, hthr, ne _ (by simp [Srv.step]), ?_, hsub, ?_, ?_⟩
    · intro id; simp only [Srv.step]; rw [hsent]; simp [held]
    · intro sg; rw [registered_snoc, ← hreg]; simp [registered, Srv.step]
    · simp only [Srv.step]; rw [hrel]; simp [destroyedHeld]
  | getNext =>
    obtain ⟨g0, g1, g2, g3, g4, g5, g6, g7, g8, g9⟩ := getNext_spec hg
    have hst : s.step .getNext = s.getNext := rfl
    rw [hst]
    refine ⟨g1, by rw [g4, hcm], by rw [g5, hthr], ne _ (by rw [g0]; simp), ?_, ?_, ?_, ?_⟩
    · intro id; rw [g7, hsent]; simp [held]
    · intro id; rw [g7, g9]; exact hsub id
    · intro sg; rw [g6, registered_snoc, ← hreg]; simp [registered]
    · have hb : bodies s.getNext.1 = bodies s := by simp [bodies, g3]
      rw [hb, g8, hrel]; simp [destroyedHeld]
  | destroy i =>
    have hst : s.step (.destroy i) = (s.destroy i, .ok) := rfl
    rw [hst]
    have hheld : ∀ id, held id ((t ++ [(SrvOp.destroy i, SrvRes.ok)]).reverse) =
        if i = id then false else held id t.reverse := by intro id; simp [held]
    have hrel' : destroyedHeld ((t ++ [(SrvOp.destroy i, SrvRes.ok)]).reverse) =
        destroyedHeld t.reverse ++ if held i t.reverse then [i] else [] := by
      simp [destroyedHeld]
    have hreg' : ∀ sg, registered sg (t ++ [(SrvOp.destroy i, SrvRes.ok)]) = registered sg t := by
      intro sg; rw [registered_snoc]; simp [registered]
    unfold Srv.destroy
    by_cases h1 : i ∈ s.subscribed
    · by_cases h2 : i ∈ s.sent
      · simp only [List.contains_iff_mem, h1, h2, if_true]
        refine ⟨hg.congr rfl rfl rfl rfl, hcm, hthr, ne _ (by simp), ?_, ?_, ?_, ?_⟩
        · intro id
          rw [hheld]
          by_cases hid : i = id
          · simp [hid]
          · simp only [List.mem_filter, hsent, if_neg hid]
            have : (id != i) = true := by simpa using fun e : id = i => hid e.symm
            simp [this]
        · intro id hid
          simp only [List.mem_filter] at hid ⊢
          exact ⟨hsub id hid.1, hid.2⟩
        · intro sg; rw [hreg', ← hreg]
        · rw [hrel', if_pos ((hsent i).mp h2), ← hrel]
          simp [bodies]
      · have h3 : held i t.reverse = false := by
          cases hh : held i t.reverse with
          | false => rfl
          | true => exact absurd ((hsent i).mpr hh) h2
        simp only [List.contains_iff_mem, h1, h2, if_true, if_false]
        refine ⟨hg.congr rfl rfl rfl rfl, hcm, hthr, ne _ (by simp), ?_, ?_, ?_, ?_⟩
        · intro id
          rw [hheld]
          by_cases hid : i = id
          · subst hid; simp [h2]
          · simp only [if_neg hid]; exact hsent id
        · intro id hid
          simp only [List.mem_filter]
          refine ⟨hsub id hid, ?_⟩
          have : id ≠ i := by rintro rfl; exact h2 hid
          simpa using this
        · intro sg; rw [hreg', ← hreg]
        · rw [hrel', h3, ← hrel]; simp [bodies]
    · have h2 : i ∉ s.sent := fun hh => h1 (hsub i hh)
      have h3 : held i t.reverse = false := by
        cases hh : held i t.reverse with
        | false => rfl
        | true => exact absurd ((hsent i).mpr hh) h2
      simp only [List.contains_iff_mem, h1, if_false]
      refine ⟨hg, hcm, hthr, ne _ (by simp), ?_, hsub, ?_, ?_⟩
      · intro id
        rw [hheld]
        by_cases hid : i = id
        · subst hid; simp [h2]
        · simp only [if_neg hid]; exact hsent id
      · intro sg; rw [hreg', ← hreg]
      · rw [hrel', h3, ← hrel]; simp
  | sendRelease force =>
    obtain ⟨s', e, i1, i2, i3, i4, i5, i6, i7⟩ := checkRelease_spec hg hm' force
    have hst : s.step (.sendRelease force) = (s', .ok) := by simp [Srv.step, e]
    rw [hst]
    refine ⟨i1, by rw [i2, hcm], by rw [i3, hthr], ne _ (by simp), ?_, ?_, ?_, ?_⟩
    · intro id; rw [i5, hsent]; simp [held]
    · intro id; rw [i5, i6]; exact hsub id
    · intro sg; rw [i4, registered_snoc, ← hreg]; simp [registered]
    · have : destroyedHeld ((t ++ [(SrvOp.sendRelease force, SrvRes.ok)]).reverse) =
          destroyedHeld t.reverse := by simp [destroyedHeld]
      rw [this, ← hrel]
      rcases i7 with ⟨rfl, _⟩ | ⟨_, hr, g, _, he⟩
      · rfl
      · simp [bodies, he, hr, announced]

theorem srvInv (m thr : Nat) (hm : SizeOK m) (ops : List SrvOp) :
    SrvInv m thr (srvExec m thr ops).1 (srvExec m thr ops).2 := by
  refine runTrace_inv (P := SrvInv m thr) ?_ (fun s t op h => srvInv_step hm h op) ops
  refine ⟨⟨?_, rfl, rfl, trivial, by simp [Srv.init], by simp [Srv.init], by simp [Srv.init]⟩,
    rfl, rfl, by simp, by simp [Srv.init, held], by simp [Srv.init], fun _ => rfl, rfl⟩
  intro g _; simp [Srv.init]

theorem srvExec_snoc (m thr : Nat) (ops : List SrvOp) (op : SrvOp) :
    srvExec m thr (ops ++ [op]) = (((srvExec m thr ops).1.step op).1,
      (srvExec m thr ops).2 ++ [(op, ((srvExec m thr ops).1.step op).2)]) := runTrace_snoc ..

theorem trace_ops (m thr : Nat) (ops : List SrvOp) : (srvExec m thr ops).2.map Prod.fst = ops := by
  unfold srvExec
  induction ops using list_snoc_induction with
  | nil => rfl
  | snoc ops op ih => rw [runTrace_snoc]; simp [ih]

/-- Every call other than `getNextPacketBuffer` appends to the queue what it emits. -/
theorem step_grow {s : Srv} (h : GInv s) (hm : SizeOK s.cacheMax) (op : SrvOp) (hop : op ≠ .getNext) :
    ∃ l, (s.step op).1.queue = s.queue ++ l ∧ (s.step op).1.emitted = s.emitted ++ l ∧
      ∀ b, (s.step op).2 ≠ .buffer (some b) := by
  have rel : ∀ (s1 : Srv) f, GInv s1 → SizeOK s1.cacheMax → ∃ s2 l, s1.checkRelease f = some s2 ∧
      s2.queue = s1.queue ++ l ∧ s2.emitted = s1.emitted ++ l := by
    intro s1 f h1 h2
    obtain ⟨s', e, i1, i2, i3, i4, i5, i6, i7⟩ := checkRelease_spec h1 h2 f
    rcases i7 with ⟨rfl, _⟩ | ⟨_, _, g, q1, q2⟩
    · exact ⟨s', [], e, by simp, by simp⟩
    · exact ⟨s', _, e, q1, q2⟩
  cases op with
  | addEvent sig ev len =>
    obtain ⟨s1, g, e, i1, i2, i3, i4, i5, _⟩ := addEvent_spec h hm sig ev len
    obtain ⟨s2, l, e', q1, q2⟩ := rel s1 false i1 (by rw [i4]; exact hm)
    have : s.step (.addEvent sig ev len) = (s2, .ok) := by simp [Srv.step, e, e']
    rw [this]
    exact ⟨_, by rw [q1, i2, List.append_assoc], by rw [q2, i3, List.append_assoc], by simp⟩
  | addData sig p mark =>
    cases hd : s.descs.has sig with
    | false =>
      have : s.step (.addData sig p mark) = (s, .noDescriptor) := by simp [Srv.step, Srv.addData, hd]
      rw [this]; exact ⟨[], by simp, by simp, by simp⟩
    | true =>
      obtain ⟨q0, q1, q2, q3, q4, q5, q6, q7, q8, q9, q10, q11, q12⟩ := shouldSend_spec s p.id mark
      have hg1 : GInv (s.shouldSend p.id mark).1 := h.congr q1 q2 q3 q4
      have hm1 : SizeOK (s.shouldSend p.id mark).1.cacheMax := by rw [q5]; exact hm
      have key : ∀ body n, ∃ s2 s3 l, (s.shouldSend p.id mark).1.enqueue body n = some s2 ∧
          s2.checkRelease false = some s3 ∧ s3.queue = s.queue ++ l ∧ s3.emitted = s.emitted ++ l := by
        intro body n
        obtain ⟨s2, g, e, i1, i2, i3, i4, _⟩ := enqueue_spec hg1 hm1 body n
        obtain ⟨s3, l, e', r1, r2⟩ := rel s2 false i1 (by rw [i4, q5]; exact hm)
        exact ⟨s2, s3, _, e, e', by rw [r1, i2, q1, List.append_assoc], by rw [r2, i3, q9, List.append_assoc]⟩
      unfold Srv.step Srv.addData
      simp only [hd, Bool.not_true, Bool.false_eq_true, if_false]
      rcases hss : s.shouldSend p.id mark with ⟨s0, b0⟩
      rw [hss] at key
      simp only at key
      cases b0 with
      | false =>
        obtain ⟨s2, s3, l, e, e', r1, r2⟩ := key (.alreadySent sig mark p.id p.domain) 0
        simp only [e, Option.map_some, e']
        exact ⟨l, r1, r2, by simp⟩
      | true =>
        cases hpl : p.payload with
        | none =>
          obtain ⟨s2, s3, l, e, e', r1, r2⟩ := key (.data sig
            ((if mark = true then 1 else 0) + offsetBits p.offset) p.id p.domain p.samples p.offset none) 0
          simp only [e, Option.map_some, e']
          exact ⟨l, r1, r2, by simp⟩
        | some bytes =>
          obtain ⟨s2, s3, l, e, e', r1, r2⟩ := key (.data sig
            ((if mark = true then 1 else 0) + offsetBits p.offset) p.id p.domain p.samples p.offset
            (some bytes)) (bytes.length % U32)
          simp only [e, Option.map_some, e']
          exact ⟨l, r1, r2, by simp⟩
  | addOther => exact ⟨[], by simp [Srv.step], by simp [Srv.step], by simp [Srv.step]⟩
  | getNext => exact absurd rfl hop
  | destroy i =>
    refine ⟨[], ?_, ?_, by simp [Srv.step]⟩ <;>
      (simp only [Srv.step, Srv.destroy]; split <;> (try split) <;> simp)
  | sendRelease f =>
    obtain ⟨s2, l, e', q1, q2⟩ := rel s f h hm
    have : s.step (.sendRelease f) = (s2, .ok) := by simp [Srv.step, e']
    rw [this]
    exact ⟨l, q1, q2, by simp⟩

/-- What a call with the given result queues, apart from releases. -/
def newBodies (t : SrvTrace) (op : SrvOp) (r : SrvRes) : List Body :=
  match op, r with
  | .addEvent sig ev _, _ => [.event sig ev]
  | .addData sig p mark, .ok => [expectedBody t.reverse sig p mark]
  | _, _ => []

/-- What a call appends to the sequence of bodies. -/
theorem step_bodies {m thr : Nat} (hm : SizeOK m) {s : Srv} {t : SrvTrace} (h : SrvInv m thr s t)
    (op : SrvOp) :
    ∃ rel, (rel = [] ∨ rel = [.release s.ready]) ∧
    bodies (s.step op).1 = bodies s ++ newBodies t op (s.step op).2 ++ rel ∧
    (match op with | .sendRelease _ => True | _ => rel = [] ∨ thr ≤ s.ready.length) := by
  have hm' : SizeOK s.cacheMax := by rw [h.cacheMax]; exact hm
  cases op with
  | addEvent sig ev len =>
    obtain ⟨s1, g, e, i1, i2, i3, i4, i5, i6, i7, i8, i9⟩ := addEvent_spec h.g hm' sig ev len
    obtain ⟨s2, e', j1, j2, j3, j4, j5, j6, j7, j8⟩ :=
      add_then_release i1 (by rw [i4]; exact hm')
    have hst : s.step (.addEvent sig ev len) = (s2, .ok) := by simp [Srv.step, e, e']
    rw [hst]
    have hb : bodies s1 = bodies s ++ [.event sig ev] := by simp [bodies, i3]
    rw [i7, i5, h.thr] at j7
    by_cases ht : thr ≤ s.ready.length
    · exact ⟨[.release s.ready], .inr rfl, by rw [j7, hb, if_pos ht]; rfl, .inr ht⟩
    · exact ⟨[], .inl rfl, by rw [j7, hb, if_neg ht]; rfl, .inl rfl⟩
  | addData sig p mark =>
    rcases addData_spec h.g hm' sig p mark with ⟨h1, h2⟩ | ⟨h1, h2, s1, k1, k2, k3, k4, k5, k6, _⟩
    · rw [h2]; exact ⟨[], .inl rfl, by simp [newBodies], .inl rfl⟩
    · rw [h2, k2, k6, h.thr]
      have he : (if p.id ∈ s.sent then Body.alreadySent sig mark p.id p.domain
          else .data sig (dataFlags p mark) p.id p.domain p.samples p.offset p.payload) =
          expectedBody t.reverse sig p mark := by
        unfold expectedBody
        by_cases hh : p.id ∈ s.sent
        · rw [if_pos hh, if_pos ((h.sent _).mp hh)]
        · rw [if_neg hh, if_neg (fun e => hh ((h.sent _).mpr e))]
      rw [he]
      by_cases ht : thr ≤ s.ready.length
      · exact ⟨[.release s.ready], .inr rfl, by simp [ht, newBodies], .inr ht⟩
      · exact ⟨[], .inl rfl, by simp [ht, newBodies], .inl rfl⟩
  | addOther => exact ⟨[], .inl rfl, by simp [Srv.step, newBodies], .inl rfl⟩
  | getNext =>
    obtain ⟨g0, g1, g2, g3, _⟩ := getNext_spec h.g
    have hst : s.step .getNext = s.getNext := rfl
    refine ⟨[], .inl rfl, ?_, .inl rfl⟩
    rw [hst]
    simp [bodies, g3, newBodies]
  | destroy i =>
    refine ⟨[], .inl rfl, ?_, .inl rfl⟩
    have : (s.step (.destroy i)).1.emitted = s.emitted := by
      simp only [Srv.step, Srv.destroy]; split <;> (try split) <;> rfl
    simp [bodies, this, newBodies]
  | sendRelease f =>
    obtain ⟨s', e, i1, i2, i3, i4, i5, i6, i7⟩ := checkRelease_spec h.g hm' f
    have hst : s.step (.sendRelease f) = (s', .ok) := by simp [Srv.step, e]
    rw [hst]
    rcases i7 with ⟨rfl, _⟩ | ⟨_, _, g, _, he⟩
    · exact ⟨[], .inl rfl, by simp [newBodies], trivial⟩
    · exact ⟨_, .inr rfl, by simp [bodies, he, newBodies], trivial⟩

/-- Invariant about the sequence of emitted bodies. -/
structure EmitInv (s : Srv) (t : SrvTrace) : Prop where
  heldSent : ∀ id, held id t.reverse = true → ∃ b ∈ bodies s, fullUnmarked id b = true
  before : ∀ pre post sig rel id dom, bodies s = pre ++ .alreadySent sig rel id dom :: post →
    ∃ b ∈ pre, fullUnmarked id b = true
  count : ∀ id, (bodies s).countP (fullUnmarked id) ≤
    ends id t + if held id t.reverse then 1 else 0

theorem dataFlags_mod (p : DataPacket) (mark : Bool) :
    dataFlags p mark % 2 = if mark then 1 else 0 := by
  unfold dataFlags
  cases mark <;> cases p.offset <;> simp

theorem emitInv_step {m thr : Nat} (hm : SizeOK m) {s : Srv} {t : SrvTrace} (h : SrvInv m thr s t)
    (hi : EmitInv s t) (op : SrvOp) : EmitInv (s.step op).1 (t ++ [(op, (s.step op).2)]) := by
  obtain ⟨rel, hrel, hb, _⟩ := step_bodies hm h op
  obtain ⟨new, hnew⟩ : ∃ new, new = newBodies t op (s.step op).2 := ⟨_, rfl⟩
  rw [← hnew] at hb
  have hrelf : ∀ id, ∀ b ∈ rel, fullUnmarked id b = false := by
    intro id b hbr
    rcases hrel with rfl | rfl
    · cases hbr
    · simp at hbr; rw [hbr]; rfl
  have hrela : ∀ sig r id dom, Body.alreadySent sig r id dom ∉ rel := by
    intro sig r id dom hbr
    rcases hrel with rfl | rfl
    · cases hbr
    · simp at hbr
  -- the two shapes of `new`
  have hcase : (∀ id, (∀ b ∈ new, fullUnmarked id b = false) ∧
        (∀ sig r dom, Body.alreadySent sig r id dom ∉ new) ∧
        (held id (t ++ [(op, (s.step op).2)]).reverse = true → held id t.reverse = true) ∧
        (ends id t + (if held id t.reverse then 1 else 0) ≤ ends id (t ++ [(op, (s.step op).2)]) +
          if held id (t ++ [(op, (s.step op).2)]).reverse then 1 else 0)) ∨
      ∃ sig p mark, op = .addData sig p mark ∧ (s.step op).2 = .ok ∧
        new = [expectedBody t.reverse sig p mark] := by
    cases op with
    | addData sig p mark =>
      rcases addData_spec h.g (by rw [h.cacheMax]; exact hm) sig p mark with ⟨h1, h2⟩ | ⟨h1, h2, _⟩
      · left
        rw [h2] at hnew ⊢
        simp only [newBodies] at hnew
        subst hnew
        intro id
        simp [held, ends, isEnd]
      · right
        rw [h2] at hnew
        exact ⟨sig, p, mark, rfl, h2, hnew⟩
    | destroy i =>
      left
      simp only [newBodies] at hnew
      subst hnew
      intro id
      refine ⟨by simp, by simp, ?_, ?_⟩
      · simp only [List.reverse_append, List.reverse_cons, List.reverse_nil, List.nil_append,
          List.singleton_append, held]
        split <;> simp
      · simp only [List.reverse_append, List.reverse_cons, List.reverse_nil, List.nil_append,
          List.singleton_append, held, ends, List.countP_append, List.countP_cons, List.countP_nil, isEnd]
        by_cases hid : i = id
        · simp [hid]; split <;> omega
        · simp [hid]
    | _ =>
      left
      simp only [newBodies] at hnew
      subst hnew
      intro id
      simp [held, ends, isEnd, fullUnmarked]
  rcases hcase with hc | ⟨sig, p, mark, rfl, hok, hnw⟩
  · refine ⟨?_, ?_, ?_⟩
    · intro id hh
      obtain ⟨b, hb1, hb2⟩ := hi.heldSent id ((hc id).2.2.1 hh)
      exact ⟨b, by rw [hb]; simp [hb1], hb2⟩
    · intro pre post sig r id dom he
      rw [hb, List.append_assoc] at he
      rcases List.append_eq_append_iff.mp he with ⟨a, ha1, ha2⟩ | ⟨a, ha1, ha2⟩
      · exfalso
        have : Body.alreadySent sig r id dom ∈ new ++ rel := by rw [ha2]; simp
        rcases List.mem_append.mp this with hx | hx
        · exact (hc id).2.1 _ _ _ hx
        · exact hrela _ _ _ _ hx
      · cases a with
        | nil =>
          simp at ha2
          have : Body.alreadySent sig r id dom ∈ new ++ rel := by rw [← ha2]; simp
          rcases List.mem_append.mp this with hx | hx
          · exact absurd hx ((hc id).2.1 _ _ _)
          · exact absurd hx (hrela _ _ _ _)
        | cons x a =>
          simp only [List.cons_append, List.cons.injEq] at ha2
          obtain ⟨rfl, _⟩ := ha2
          exact hi.before pre a sig r id dom ha1
    · intro id
      have h1 : new.countP (fullUnmarked id) = 0 := by
        rw [List.countP_eq_zero]; intro b hbn; simp [(hc id).1 b hbn]
      have h2 : rel.countP (fullUnmarked id) = 0 := by
        rw [List.countP_eq_zero]; intro b hbn; simp [hrelf id b hbn]
      rw [hb, List.countP_append, List.countP_append, h1, h2]
      have := hi.count id
      have := (hc id).2.2.2
      omega
  · rw [hok]
    have hheld : ∀ id, held id (t ++ [(SrvOp.addData sig p mark, SrvRes.ok)]).reverse =
        if p.id = id then !mark else held id t.reverse := by intro id; simp [held]
    have hends : ∀ id, ends id (t ++ [(SrvOp.addData sig p mark, SrvRes.ok)]) =
        ends id t + if mark = true ∧ p.id = id then 1 else 0 := by
      intro id
      cases mark <;> simp [ends, isEnd, List.countP_cons]
    subst hnw
    have hrel0 : ∀ id, rel.countP (fullUnmarked id) = 0 := by
      intro id
      rw [List.countP_eq_zero]; intro b hbn; simp [hrelf id b hbn]
    by_cases hh : held p.id t.reverse = true
    · have hbody : expectedBody t.reverse sig p mark = .alreadySent sig mark p.id p.domain := by
        simp [expectedBody, hh]
      rw [hbody] at hb
      refine ⟨?_, ?_, ?_⟩
      · intro id hid
        rw [hheld] at hid
        by_cases hp : p.id = id
        · subst hp
          obtain ⟨b, hb1, hb2⟩ := hi.heldSent _ hh
          exact ⟨b, by rw [hb]; simp [hb1], hb2⟩
        · rw [if_neg hp] at hid
          obtain ⟨b, hb1, hb2⟩ := hi.heldSent _ hid
          exact ⟨b, by rw [hb]; simp [hb1], hb2⟩
      · intro pre post sg r id dom he
        rw [hb, List.append_assoc] at he
        rcases List.append_eq_append_iff.mp he with ⟨a, ha1, ha2⟩ | ⟨a, ha1, ha2⟩
        · cases a with
          | nil =>
            simp at ha2 ha1
            obtain ⟨⟨rfl, rfl, rfl, rfl⟩, _⟩ := ha2
            rw [ha1]
            exact hi.heldSent _ hh
          | cons x a =>
            exfalso
            simp only [List.singleton_append, List.cons_append, List.nil_append, List.cons.injEq] at ha2
            exact hrela sg r id dom (by rw [ha2.2]; simp)
        · cases a with
          | nil =>
            simp at ha2 ha1
            obtain ⟨⟨rfl, rfl, rfl, rfl⟩, _⟩ := ha2
            rw [← ha1]
            exact hi.heldSent _ hh
          | cons x a =>
            simp only [List.cons_append, List.cons.injEq] at ha2
            obtain ⟨rfl, _⟩ := ha2
            exact hi.before pre a sg r id dom ha1
      · intro id
        rw [hb, List.countP_append, List.countP_append, hrel0, hheld, hends]
        have := hi.count id
        by_cases hp : p.id = id
        · subst hp
          rw [if_pos hh] at this
          cases mark <;> simp [fullUnmarked] <;> omega
        · simp [hp, fullUnmarked]; omega
    · have hbody : expectedBody t.reverse sig p mark =
          .data sig (dataFlags p mark) p.id p.domain p.samples p.offset p.payload := by
        simp [expectedBody, hh]
      rw [hbody] at hb
      have hfull : ∀ id, fullUnmarked id (.data sig (dataFlags p mark) p.id p.domain p.samples p.offset p.payload)
          = (p.id == id && !mark) := by
        intro id
        simp only [fullUnmarked, dataFlags_mod]
        cases mark <;> simp
      refine ⟨?_, ?_, ?_⟩
      · intro id hid
        rw [hheld] at hid
        by_cases hp : p.id = id
        · refine ⟨_, by rw [hb]; simp; exact .inr (.inl rfl), ?_⟩
          rw [hfull]
          rw [if_pos hp] at hid
          simp [hp, hid]
        · rw [if_neg hp] at hid
          obtain ⟨b, hb1, hb2⟩ := hi.heldSent _ hid
          exact ⟨b, by rw [hb]; simp [hb1], hb2⟩
      · intro pre post sg r id dom he
        rw [hb, List.append_assoc] at he
        rcases List.append_eq_append_iff.mp he with ⟨a, ha1, ha2⟩ | ⟨a, ha1, ha2⟩
        · exfalso
          cases a with
          | nil => simp at ha2
          | cons x a =>
            simp only [List.singleton_append, List.cons_append, List.nil_append, List.cons.injEq] at ha2
            exact hrela sg r id dom (by rw [ha2.2]; simp)
        · cases a with
          | nil => simp at ha2
          | cons x a =>
            simp only [List.cons_append, List.cons.injEq] at ha2
            obtain ⟨rfl, _⟩ := ha2
            exact hi.before pre a sg r id dom ha1
      · intro id
        rw [hb, List.countP_append, List.countP_append, hrel0, hheld, hends, List.countP_singleton, hfull]
        have := hi.count id
        by_cases hp : p.id = id
        · subst hp
          rw [if_neg hh] at this
          cases mark <;> simp <;> omega
        · simp [hp]; omega

theorem emitInv (m thr : Nat) (hm : SizeOK m) (ops : List SrvOp) :
    EmitInv (srvExec m thr ops).1 (srvExec m thr ops).2 := by
  have : SrvInv m thr (srvExec m thr ops).1 (srvExec m thr ops).2 ∧
      EmitInv (srvExec m thr ops).1 (srvExec m thr ops).2 := by
    refine runTrace_inv (P := fun s t => SrvInv m thr s t ∧ EmitInv s t) ?_
      (fun s t op h => ⟨srvInv_step hm h.1 op, emitInv_step hm h.1 h.2 op⟩) ops
    refine ⟨srvInv m thr hm [], by simp [held], ?_, by simp [bodies, Srv.init]⟩
    intro pre post sig rel id dom he
    simp [bodies, Srv.init] at he
  exact this.2

end Verif.PacketStreaming
