import Verif.PacketStreaming.Server

/-! The client fed with the buffers of the server, when domain packets come first (helper lemmas). -/

namespace Verif.PacketStreaming

/-- Payload size of a data buffer, as the server computes it. -/
def sizeOfBody : Body → Nat
  | .data _ _ _ _ _ _ (some bytes) => bytes.length % U32
  | _ => 0

def PayloadOK (b : Buf) : Prop :=
  match b.body with
  | .data _ _ _ _ _ _ _ => b.payloadSize = sizeOfBody b.body
  | _ => True

theorem groupFor_emitted {s s1 : Srv} {n g : Nat} (h : s.groupFor n = some (g, s1)) :
    s1.emitted = s.emitted := by
  unfold Srv.groupFor at h
  split at h
  · split at h
    · cases h
    · simp only [Option.some.injEq, Prod.mk.injEq] at h
      rw [← h.2]
  · simp only [Option.some.injEq, Prod.mk.injEq] at h
    rw [← h.2]

theorem enqueue_sizes {s s' : Srv} {body : Body} {n : Nat} (h : s.enqueue body n = some s')
    (hs : ∀ b ∈ s.emitted, PayloadOK b) (hn : ∀ g, PayloadOK ⟨body, n, g⟩) :
    ∀ b ∈ s'.emitted, PayloadOK b := by
  unfold Srv.enqueue at h
  cases hg : s.groupFor n with
  | none => rw [hg] at h; cases h
  | some x =>
    obtain ⟨g, s1⟩ := x
    rw [hg] at h
    simp only [Option.some.injEq] at h
    rw [← h, (push_fields s1 ⟨body, n, g⟩).2.1, groupFor_emitted hg]
    intro b hb
    rcases List.mem_append.mp hb with hb | hb
    · exact hs b hb
    · simp at hb; rw [hb]; exact hn g

theorem checkRelease_sizes {s s' : Srv} {f : Bool} (h : s.checkRelease f = some s')
    (hs : ∀ b ∈ s.emitted, PayloadOK b) : ∀ b ∈ s'.emitted, PayloadOK b := by
  unfold Srv.checkRelease at h
  split at h
  · simp only [Option.some.injEq] at h; rw [← h]; exact hs
  · exact enqueue_sizes h hs (fun _ => trivial)

theorem addEvent_sizes {s s' : Srv} {sig ev len} (h : s.addEvent sig ev len = some s')
    (hs : ∀ b ∈ s.emitted, PayloadOK b) : ∀ b ∈ s'.emitted, PayloadOK b := by
  unfold Srv.addEvent at h
  cases hg : s.groupFor ((len + 1) % U32) with
  | none => rw [hg] at h; cases h
  | some x =>
    obtain ⟨g, s1⟩ := x
    rw [hg] at h
    simp only [Option.some.injEq] at h
    rw [← h, (push_fields _ _).2.1]
    intro b hb
    rcases List.mem_append.mp hb with hb | hb
    · refine hs b ?_
      rw [← groupFor_emitted hg]
      rcases ev with ⟨v, d⟩ | i
      · cases v <;> exact hb
      · exact hb
    · simp at hb; rw [hb]; trivial

theorem addData_sizes {s s' : Srv} {sig p mark} (h : s.addData sig p mark = some (some s'))
    (hs : ∀ b ∈ s.emitted, PayloadOK b) : ∀ b ∈ s'.emitted, PayloadOK b := by
  have he := (shouldSend_spec s p.id mark).2.2.2.2.2.2.2.2.2.1
  unfold Srv.addData at h
  split at h
  · cases h
  · rcases hss : s.shouldSend p.id mark with ⟨s0, b0⟩
    rw [hss] at h he
    simp only at he
    rw [← he] at hs
    cases b0 with
    | false =>
      simp only [Option.map_eq_some_iff, Option.some.injEq] at h
      obtain ⟨a, h1, rfl⟩ := h
      exact enqueue_sizes h1 hs (fun _ => trivial)
    | true =>
      simp only [Option.map_eq_some_iff, Option.some.injEq] at h
      obtain ⟨a, h1, rfl⟩ := h
      refine enqueue_sizes h1 hs (fun _ => ?_)
      cases hp : p.payload <;> simp [PayloadOK, sizeOfBody]

theorem step_sizes {s : Srv} (hs : ∀ b ∈ s.emitted, PayloadOK b) (op : SrvOp) :
    ∀ b ∈ (s.step op).1.emitted, PayloadOK b := by
  cases op with
  | addEvent sig ev len =>
    simp only [Srv.step]
    cases h1 : s.addEvent sig ev len with
    | none => exact hs
    | some s1 =>
      simp only [Option.bind_some]
      cases h2 : s1.checkRelease false with
      | none => exact hs
      | some s2 => exact checkRelease_sizes h2 (addEvent_sizes h1 hs)
  | addData sig p mark =>
    simp only [Srv.step]
    cases h1 : s.addData sig p mark with
    | none => exact hs
    | some r =>
      cases r with
      | none => exact hs
      | some s1 =>
        simp only
        cases h2 : s1.checkRelease false with
        | none => exact hs
        | some s2 => exact checkRelease_sizes h2 (addData_sizes h1 hs)
  | addOther => exact hs
  | getNext =>
    have : (s.step .getNext).1.emitted = s.emitted := by
      simp only [Srv.step, Srv.getNext]
      (repeat' split) <;> rfl
    rw [this]; exact hs
  | destroy i =>
    have : (s.step (.destroy i)).1.emitted = s.emitted := by
      simp only [Srv.step, Srv.destroy]; split <;> (try split) <;> rfl
    rw [this]; exact hs
  | sendRelease f =>
    simp only [Srv.step]
    cases h2 : s.checkRelease f with
    | none => exact hs
    | some s2 => exact checkRelease_sizes h2 hs

theorem sizes (m thr : Nat) (ops : List SrvOp) :
    ∀ b ∈ (srvExec m thr ops).1.emitted, PayloadOK b :=
  runTrace_inv (P := fun (s : Srv) _ => ∀ b ∈ s.emitted, PayloadOK b) (by simp [Srv.init])
    (fun _ _ op h => step_sizes h op) ops

/-- Feed a body. -/
def Cli.feed (c : Cli) (b : Body) : Except CliErr Cli := c.addBuffer ⟨b, sizeOfBody b, 0⟩

theorem addBuffer_eq_feed {b : Buf} (h : PayloadOK b) (c : Cli) : c.addBuffer b = c.feed b.body := by
  obtain ⟨body, n, g⟩ := b
  cases body with
  | data sig fl id dom sm off pl =>
    simp only [PayloadOK] at h
    simp [Cli.feed, Cli.addBuffer, h]
  | _ => rfl

theorem run_eq_feed {bs : List Buf} (h : ∀ b ∈ bs, PayloadOK b) (c : Cli) :
    c.run bs = (bs.map Buf.body).foldlM Cli.feed c := by
  induction bs generalizing c with
  | nil => rfl
  | cons b bs ih =>
    simp only [Cli.run, List.foldlM_cons, List.map_cons]
    rw [addBuffer_eq_feed (h b (by simp))]
    congr 1
    funext c'
    exact ih (fun x hx => h x (by simp [hx])) c'

theorem run_server (m thr : Nat) (ops : List SrvOp) :
    Cli.init.run (srvExec m thr ops).1.emitted =
      (bodies (srvExec m thr ops).1).foldlM Cli.feed Cli.init :=
  run_eq_feed (sizes m thr ops) _

/-! ### Releases -/

theorem releaseAll {l : List Nat} {c : Cli} (hnd : l.Nodup) (h : ∀ i ∈ l, c.refPackets.has i = true) :
    ∃ c', l.foldlM Cli.releaseOne c = .ok c' ∧ c'.descs = c.descs ∧ c'.domDescs = c.domDescs ∧
      c'.refBufs = c.refBufs ∧ c'.waiting = c.waiting ∧ c'.out = c.out ∧
      ∀ i, c'.refPackets.get i = if i ∈ l then none else c.refPackets.get i := by
  induction l generalizing c with
  | nil => exact ⟨c, rfl, rfl, rfl, rfl, rfl, rfl, by simp⟩
  | cons a l ih =>
    obtain ⟨ha, hnd'⟩ := List.nodup_cons.mp hnd
    have e1 : c.releaseOne a = .ok { c with refPackets := c.refPackets.del a } := by
      simp [Cli.releaseOne, h a (by simp)]
    obtain ⟨c', h1, h2, h3, h4, h5, h6, h7⟩ := ih (c := { c with refPackets := c.refPackets.del a }) hnd' (by
      intro i hi
      have := h i (by simp [hi])
      rw [AList.has_iff] at this ⊢
      simp only [AList.get_del]
      rw [if_neg (by rintro rfl; exact ha hi)]
      exact this)
    refine ⟨c', ?_, h2, h3, h4, h5, h6, ?_⟩
    · rw [List.foldlM_cons, e1]; exact h1
    · intro i
      rw [h7]
      simp only [AList.get_del, List.mem_cons]
      by_cases hi : i = a
      · subst hi; simp
      · by_cases hl : i ∈ l <;> simp [hi, hl]

/-- The joint invariant when domain packets come first. -/
structure FirstInv (s : Srv) (t : SrvTrace) (c : Cli) : Prop where
  waiting : c.waiting = []
  refBufs : c.refBufs = []
  out : c.out = expectedOut t.reverse
  descs : ∀ sig, c.descs.get sig = descInForce sig t.reverse
  doms : ∀ sig, c.domDescs.get sig = domInForce sig t.reverse
  refs : ∀ id, c.refPackets.get id =
    if id ∈ s.sent ∨ id ∈ s.ready then objectOf id t.reverse else none
  obj : ∀ id, id ∈ s.sent ∨ id ∈ s.ready → (objectOf id t.reverse).isSome
  nodup : s.ready.Nodup
  disj : ∀ id, id ∈ s.sent → id ∉ s.ready
  readyD : ∀ id, id ∈ s.ready → ∃ x ∈ t, x.1 = .destroy id

theorem registered_iff (sig : Nat) (t : SrvTrace) :
    registered sig t = (descInForce sig t.reverse).isSome := by
  induction t using list_snoc_induction with
  | nil => rfl
  | snoc t x ih =>
    rw [registered_snoc, ih, List.reverse_append]
    obtain ⟨op, r⟩ := x
    cases op with
    | addEvent s ev len =>
      rcases ev with ⟨v, d⟩ | i
      · cases v with
        | none => simp [registered, descInForce]
        | some v =>
          by_cases hs : s = sig
          · simp [registered, descInForce, hs]
          · simp [registered, descInForce, hs]
      · simp [registered, descInForce]
    | _ => simp [registered, descInForce]

theorem readOffset_dataFlags (p : DataPacket) (mark : Bool) :
    readOffset (dataFlags p mark) p.offset = p.offset := by
  unfold dataFlags readOffset
  cases mark <;> cases p.offset <;> simp

theorem toPacket_copyOf (sig : Nat) (p : DataPacket) (mark : Bool) (desc : Option Desc) :
    WBuf.toPacket ⟨sig, dataFlags p mark, p.id, p.domain, p.samples, p.offset, p.payload,
      sizeOfBody (.data sig (dataFlags p mark) p.id p.domain p.samples p.offset p.payload), []⟩
      desc p.domain = copyOf desc p := by
  unfold WBuf.toPacket copyOf isBinary
  cases hp : p.payload with
  | none => simp [readOffset_dataFlags]
  | some b =>
    cases desc with
    | none => simp [readOffset_dataFlags, sizeOfBody]
    | some d =>
      obtain ⟨tg, bi⟩ := d
      cases bi <;> simp [readOffset_dataFlags, sizeOfBody]

/-- Events. -/
theorem addEvent_first (c : Cli) (sig : Nat) (ev : Event) (t : SrvTrace) (len : Nat)
    (hd : ∀ sig, c.descs.get sig = descInForce sig t)
    (hm : ∀ sig, c.domDescs.get sig = domInForce sig t) (ho : c.out = expectedOut t) (r : SrvRes) :
    (c.addEvent sig ev).waiting = c.waiting ∧ (c.addEvent sig ev).refBufs = c.refBufs ∧
    (c.addEvent sig ev).refPackets = c.refPackets ∧
    (c.addEvent sig ev).out = expectedOut ((.addEvent sig ev len, r) :: t) ∧
    (∀ sg, (c.addEvent sig ev).descs.get sg = descInForce sg ((.addEvent sig ev len, r) :: t)) ∧
    (∀ sg, (c.addEvent sig ev).domDescs.get sg = domInForce sg ((.addEvent sig ev len, r) :: t)) := by
  cases ev with
  | other i =>
    refine ⟨rfl, rfl, rfl, ?_, hd, hm⟩
    simp [Cli.addEvent, expectedOut, Redundant, ho]
  | descChanged v d =>
    have hv := hd sig
    have hdm := hm sig
    have e : c.addEvent sig (.descChanged v d) =
        { c with
          descs := (match v with | some nv => c.descs.put sig nv | none => c.descs)
          domDescs := (match d with | some nd => c.domDescs.put sig nd | none => c.domDescs)
          out := c.out ++ if Redundant sig (.descChanged v d) t then [] else [.event sig (.descChanged v d)] } := by
      have hred : Redundant sig (.descChanged v d) t ↔
          c.descs.get sig ≠ none ∧ c.domDescs.get sig ≠ none ∧
            (v = none ∨ v = c.descs.get sig) ∧ (d = none ∨ d = c.domDescs.get sig) := by
        rw [hv, hdm]; rfl
      clear ho hd hm hv hdm
      unfold Cli.addEvent
      generalize c.descs.get sig = vi at hred
      generalize c.domDescs.get sig = di at hred
      by_cases hr : Redundant sig (.descChanged v d) t
      · rw [if_pos hr]
        obtain ⟨h1, h2, h3, h4⟩ := hred.mp hr
        cases v <;> cases d <;> cases vi <;> cases di <;> simp_all
      · rw [if_neg hr]
        rw [hred] at hr
        cases v <;> cases d <;> cases vi <;> cases di <;> simp_all
        all_goals (try (intro h; simp_all))
        all_goals (try grind)
    rw [e]
    refine ⟨rfl, rfl, rfl, ?_, ?_, ?_⟩
    · simp [expectedOut, ho]
    · intro sg
      cases v with
      | none => simp [descInForce, hd]
      | some nv =>
        simp only [AList.get_put, descInForce, hd]
        by_cases hs : sg = sig
        · simp [hs]
        · rw [if_neg hs, if_neg (fun e => hs e.symm)]
    · intro sg
      cases d with
      | none => cases v <;> simp [domInForce, hm]
      | some nd =>
        have : domInForce sg ((.addEvent sig (.descChanged v (some nd)) len, r) :: t) =
          if sig = sg then some nd else domInForce sg t := by cases v <;> rfl
        rw [this]
        simp only [AList.get_put, hm]
        by_cases hs : sg = sig
        · simp [hs]
        · rw [if_neg hs, if_neg (fun e => hs e.symm)]

/-- Feeding the bodies of a release buffer. -/
theorem feed_release {s : Srv} {t : SrvTrace} {c : Cli} (h : FirstInv s t c) :
    ∃ c', c.feed (.release s.ready) = .ok c' ∧ FirstInv { s with ready := [] } t c' := by
  obtain ⟨c', h1, h2, h3, h4, h5, h6, h7⟩ := releaseAll (c := c) h.nodup (by
    intro i hi
    rw [AList.has_iff, h.refs, if_pos (.inr hi)]
    exact Option.isSome_iff_exists.mp (h.obj i (.inr hi)))
  refine ⟨c', h1, ⟨by rw [h5, h.waiting], by rw [h4, h.refBufs], by rw [h6, h.out],
    by rw [h2]; exact h.descs, by rw [h3]; exact h.doms, ?_, ?_, by simp, by simp, by simp⟩⟩
  · intro i
    rw [h7, h.refs]
    by_cases hr : i ∈ s.ready
    · have : i ∉ s.sent := fun hs => h.disj i hs hr
      simp [hr, this]
    · simp [hr]
  · intro i hi
    simp at hi
    exact h.obj i (.inl hi)

/-- Feeding the body queued for a data packet. -/
theorem feed_data {s : Srv} {t : SrvTrace} {c : Cli} (h : FirstInv s t c) (sig : Nat) (p : DataPacket)
    (mark : Bool) (hsent : ∀ id, id ∈ s.sent ↔ held id t.reverse = true)
    (hreg : registered sig t = true)
    (hdom : ∀ d, p.domain = some d → held d t.reverse = true)
    (hnd : ∀ x ∈ t, x.1 ≠ .destroy p.id) (sent' : List Nat)
    (hs' : ∀ i, i ∈ sent' ↔ if i = p.id then mark = false else i ∈ s.sent) :
    ∃ c', c.feed (expectedBody t.reverse sig p mark) = .ok c' ∧
      FirstInv { s with sent := sent' } (t ++ [(.addData sig p mark, .ok)]) c' := by
  rw [registered_iff] at hreg
  obtain ⟨desc, hdesc⟩ := Option.isSome_iff_exists.mp hreg
  have hnr : p.id ∉ s.ready := by
    intro hr
    obtain ⟨x, hx, he⟩ := h.readyD _ hr
    exact hnd x hx he
  have rev : (t ++ [(SrvOp.addData sig p mark, SrvRes.ok)]).reverse =
      (.addData sig p mark, .ok) :: t.reverse := by simp
  have hdescs : ∀ sg, c.descs.get sg =
      descInForce sg (t ++ [(SrvOp.addData sig p mark, SrvRes.ok)]).reverse := by
    intro sg; rw [rev]; exact h.descs sg
  have hdoms : ∀ sg, c.domDescs.get sg =
      domInForce sg (t ++ [(SrvOp.addData sig p mark, SrvRes.ok)]).reverse := by
    intro sg; rw [rev]; exact h.doms sg
  have hobj : ∀ id, objectOf id (t ++ [(SrvOp.addData sig p mark, SrvRes.ok)]).reverse =
      if p.id = id ∧ held id t.reverse = false then some (copyOf (descInForce sig t.reverse).join p)
      else objectOf id t.reverse := by intro id; rw [rev]; rfl
  have hready : ∀ id, id ∈ s.ready → ∃ x ∈ t ++ [(SrvOp.addData sig p mark, SrvRes.ok)], x.1 = .destroy id := by
    intro id hid
    obtain ⟨x, hx, he⟩ := h.readyD id hid
    exact ⟨x, by simp [hx], he⟩
  have hdisj : ∀ id, id ∈ sent' → id ∉ s.ready := by
    intro id hid
    rw [hs'] at hid
    by_cases hi : id = p.id
    · rw [hi]; exact hnr
    · rw [if_neg hi] at hid; exact h.disj id hid
  have hout : expectedOut (t ++ [(SrvOp.addData sig p mark, SrvRes.ok)]).reverse =
      expectedOut t.reverse ++
        ((objectOf p.id (t ++ [(SrvOp.addData sig p mark, SrvRes.ok)]).reverse).map (CItem.data sig)).toList := by
    rw [rev]; rfl
  by_cases hh : held p.id t.reverse = true
  · -- reference to a packet the client holds
    have hin : p.id ∈ s.sent := (hsent _).mpr hh
    obtain ⟨o, ho⟩ := Option.isSome_iff_exists.mp (h.obj p.id (.inl hin))
    have hget : c.refPackets.get p.id = some o := by rw [h.refs, if_pos (.inl hin), ho]
    have hobj' : ∀ id, objectOf id (t ++ [(SrvOp.addData sig p mark, SrvRes.ok)]).reverse =
        objectOf id t.reverse := by
      intro id
      rw [hobj, if_neg]
      rintro ⟨rfl, hf⟩
      rw [hh] at hf; cases hf
    have hhas : c.descs.has sig = true := by
      rw [AList.has_iff, h.descs, hdesc]; simp
    refine ⟨if mark then { c with out := c.out ++ [.data sig o], refPackets := c.refPackets.del p.id }
      else { c with out := c.out ++ [.data sig o] }, ?_, ?_⟩
    · simp only [expectedBody, hh, if_true, Cli.feed, Cli.addBuffer, Cli.addAlreadySent, hhas, hget]
      simp
    · have ho' : c.out ++ [CItem.data sig o] =
          expectedOut (t ++ [(SrvOp.addData sig p mark, SrvRes.ok)]).reverse := by
        rw [hout, hobj', ho, h.out]; rfl
      cases mark with
      | true =>
        simp only [if_true]
        refine ⟨h.waiting, h.refBufs, ho', hdescs, hdoms, ?_, ?_, h.nodup, hdisj, hready⟩
        · intro id
          rw [hobj']
          simp only [AList.get_del, hs']
          by_cases hi : id = p.id
          · simp [hi, hnr]
          · simp only [if_neg hi, h.refs]
        · intro id hid
          rw [hobj']
          simp only [hs'] at hid
          by_cases hi : id = p.id
          · rw [hi] at hid ⊢; simp [hnr] at hid
          · rw [if_neg hi] at hid; exact h.obj id hid
      | false =>
        simp only [Bool.false_eq_true, if_false]
        refine ⟨h.waiting, h.refBufs, ho', hdescs, hdoms, ?_, ?_, h.nodup, hdisj, hready⟩
        · intro id
          rw [hobj', h.refs]
          simp only [hs']
          by_cases hi : id = p.id
          · simp [hi, hin]
          · simp only [if_neg hi]
        · intro id hid
          rw [hobj']
          simp only [hs'] at hid
          by_cases hi : id = p.id
          · rw [hi]; exact h.obj _ (.inl hin)
          · rw [if_neg hi] at hid; exact h.obj id hid
  · -- the full packet
    have hf : held p.id t.reverse = false := by simpa using hh
    have hni : p.id ∉ s.sent := fun e => hh ((hsent _).mp e)
    have hobjp : objectOf p.id (t ++ [(SrvOp.addData sig p mark, SrvRes.ok)]).reverse =
        some (copyOf desc p) := by
      rw [hobj, if_pos ⟨rfl, hf⟩, hdesc]; rfl
    have hobjn : ∀ id, id ≠ p.id →
        objectOf id (t ++ [(SrvOp.addData sig p mark, SrvRes.ok)]).reverse = objectOf id t.reverse := by
      intro id hi
      rw [hobj, if_neg]
      rintro ⟨rfl, _⟩
      exact hi rfl
    have hproc : c.feed (expectedBody t.reverse sig p mark) = .ok
        (let c3 : Cli := { c with out := c.out ++ [.data sig (copyOf desc p)] }
         if mark then c3 else { c3 with refPackets := c3.refPackets.add p.id (copyOf desc p) }) := by
      have hd' : c.descs.get sig = some desc := by rw [h.descs, hdesc]
      have key : ∀ (b : WBuf), b.sig = sig → b.id = p.id → b.flags % 2 = (if mark then 1 else 0) →
          b.toPacket desc p.domain = copyOf desc p →
          (c.process (c.waiting.length + 1) b p.domain).map Prod.fst = .ok
            (let c3 : Cli := { c with out := c.out ++ [.data sig (copyOf desc p)] }
             if mark then c3 else { c3 with refPackets := c3.refPackets.add p.id (copyOf desc p) }) := by
        intro b e1 e2 e3 e4
        obtain ⟨cd, cm, cr, cb, cw, co⟩ := c
        obtain rfl : cw = [] := h.waiting
        simp only at hd'
        simp only [Cli.process, e1, hd', e4, List.filter_nil, List.foldlM_nil, e3, e2]
        cases mark <;> rfl
      have hb : expectedBody t.reverse sig p mark =
          .data sig (dataFlags p mark) p.id p.domain p.samples p.offset p.payload := by
        simp [expectedBody, hf]
      have hk := key ⟨sig, dataFlags p mark, p.id, p.domain, p.samples, p.offset, p.payload,
        sizeOfBody (.data sig (dataFlags p mark) p.id p.domain p.samples p.offset p.payload), []⟩ rfl rfl
        (dataFlags_mod p mark) (toPacket_copyOf sig p mark desc)
      rw [hb]
      simp only [Cli.feed, Cli.addBuffer, Cli.addData]
      cases hpd : p.domain with
      | none => rw [hpd] at hk; exact hk
      | some d =>
        have hds : d ∈ s.sent := (hsent d).mpr (hdom d hpd)
        obtain ⟨o, ho⟩ := Option.isSome_iff_exists.mp (h.obj d (.inl hds))
        have hget : c.refPackets.get d = some o := by rw [h.refs, if_pos (.inl hds), ho]
        rw [hpd] at hk
        simp only [hget]
        exact hk
    refine ⟨_, hproc, ?_⟩
    have ho' : c.out ++ [CItem.data sig (copyOf desc p)] =
        expectedOut (t ++ [(SrvOp.addData sig p mark, SrvRes.ok)]).reverse := by
      rw [hout, hobjp, h.out]; rfl
    have hobjAll : ∀ id, id ∈ sent' ∨ id ∈ s.ready →
        (objectOf id (t ++ [(SrvOp.addData sig p mark, SrvRes.ok)]).reverse).isSome := by
      intro id hid
      by_cases hi : id = p.id
      · rw [hi, hobjp]; rfl
      · rw [hobjn id hi]
        rw [hs', if_neg hi] at hid
        exact h.obj id hid
    have hnone : c.refPackets.get p.id = none := by
      rw [h.refs, if_neg]; rintro (hx | hx)
      · exact hni hx
      · exact hnr hx
    cases mark with
    | true =>
      simp only [if_true]
      refine ⟨h.waiting, h.refBufs, ho', hdescs, hdoms, ?_, hobjAll, h.nodup, hdisj, hready⟩
      intro id
      by_cases hi : id = p.id
      · subst hi; simp only [hs', hnone]; simp [hnr]
      · simp only [hs', if_neg hi, hobjn id hi, h.refs]
    | false =>
      simp only [Bool.false_eq_true, if_false]
      refine ⟨h.waiting, h.refBufs, ho', hdescs, hdoms, ?_, hobjAll, h.nodup, hdisj, hready⟩
      intro id
      simp only [AList.get_add]
      by_cases hi : id = p.id
      · subst hi
        rw [hobjp]
        simp [hs', hnone]
      · simp only [hs', if_neg hi, hobjn id hi, h.refs]

theorem foldlM_ok_append {α β ε} (f : β → α → Except ε β) (l1 l2 : List α) (c c1 : β)
    (h : l1.foldlM f c = .ok c1) : (l1 ++ l2).foldlM f c = l2.foldlM f c1 := by
  rw [List.foldlM_append, h]; rfl

theorem FirstInv.congr {s s' : Srv} {t : SrvTrace} {c : Cli} (h : FirstInv s t c)
    (h1 : ∀ id, id ∈ s'.sent ↔ id ∈ s.sent) (h2 : s'.ready = s.ready) : FirstInv s' t c := by
  obtain ⟨a1, a2, a3, a4, a5, a6, a7, a8, a9, a10⟩ := h
  refine ⟨a1, a2, a3, a4, a5, ?_, ?_, by rw [h2]; exact a8, ?_, by rw [h2]; exact a10⟩
  · intro id; rw [a6]; simp only [h1, h2]
  · intro id hid; rw [h1, h2] at hid; exact a7 id hid
  · intro id hid; rw [h1] at hid; rw [h2]; exact a9 id hid

/-- `ready` after a call, from the announcements. -/
theorem step_ready {m thr : Nat} (hm : SizeOK m) {s : Srv} {t : SrvTrace} (h : SrvInv m thr s t)
    (op : SrvOp) (hop : ∀ i, op ≠ .destroy i) :
    ∃ rel, ((rel = [] ∧ (s.step op).1.ready = s.ready) ∨
        (rel = [.release s.ready] ∧ (s.step op).1.ready = [])) ∧
    bodies (s.step op).1 = bodies s ++ newBodies t op (s.step op).2 ++ rel := by
  obtain ⟨rel, h1, h2, _⟩ := step_bodies hm h op
  refine ⟨rel, ?_, h2⟩
  have hr := (srvInv_step hm h op).rel
  have hd : destroyedHeld (t ++ [(op, (s.step op).2)]).reverse = destroyedHeld t.reverse := by
    cases op with
    | destroy i => exact absurd rfl (hop i)
    | _ => simp [destroyedHeld]
  rw [hd, ← h.rel, h2, announced_append, announced_append] at hr
  have hnew : announced (newBodies t op (s.step op).2) = [] := by
    unfold newBodies
    split
    · rfl
    · unfold expectedBody; split <;> rfl
    · rfl
  rw [hnew, List.append_nil, List.append_assoc, List.append_cancel_left_eq] at hr
  rcases h1 with rfl | rfl
  · left; exact ⟨rfl, by simpa [announced] using hr⟩
  · right; exact ⟨rfl, by simpa [announced] using hr⟩

theorem firstInv_step {m thr : Nat} (hm : SizeOK m) {s : Srv} {t : SrvTrace} (h : SrvInv m thr s t)
    {c : Cli} (hc : FirstInv s t c) (hfeed : (bodies s).foldlM Cli.feed Cli.init = .ok c)
    (op : SrvOp) (hwf : DomainFirst (t ++ [(op, (s.step op).2)]).reverse) :
    ∃ c', (bodies (s.step op).1).foldlM Cli.feed Cli.init = .ok c' ∧
      FirstInv (s.step op).1 (t ++ [(op, (s.step op).2)]) c' := by
  have hinv' := srvInv_step hm h op
  have rev : ∀ r, (t ++ [(op, r)]).reverse = (op, r) :: t.reverse := by intro r; simp
  -- finishing with an optional release buffer
  have fin : ∀ (sent' : List Nat) (t' : SrvTrace) (new : List Body) (c1 : Cli) (rel : List Body),
      (bodies s ++ new).foldlM Cli.feed Cli.init = .ok c1 →
      FirstInv { s with sent := sent' } t' c1 →
      (∀ id, id ∈ (s.step op).1.sent ↔ id ∈ sent') →
      ((rel = [] ∧ (s.step op).1.ready = s.ready) ∨
        (rel = [.release s.ready] ∧ (s.step op).1.ready = [])) →
      ∃ c', (bodies s ++ new ++ rel).foldlM Cli.feed Cli.init = .ok c' ∧ FirstInv (s.step op).1 t' c' := by
    intro sent' t' new c1 rel h1 h2 h3 h4
    rcases h4 with ⟨rfl, h5⟩ | ⟨rfl, h5⟩
    · exact ⟨c1, by simpa using h1, h2.congr h3 h5⟩
    · obtain ⟨c2, e1, e2⟩ := feed_release h2
      refine ⟨c2, ?_, e2.congr h3 h5⟩
      rw [foldlM_ok_append _ _ _ _ _ h1]
      simp only [List.foldlM_cons, List.foldlM_nil]
      simp only at e1
      rw [e1]; rfl
  by_cases hd : ∃ i, op = .destroy i
  · obtain ⟨i, rfl⟩ := hd
    refine ⟨c, ?_, ?_⟩
    · obtain ⟨rel, _, hb, _⟩ := step_bodies hm h (.destroy i)
      have : bodies (s.step (.destroy i)).1 = bodies s := by
        have : (s.step (.destroy i)).1.emitted = s.emitted := by
          simp only [Srv.step, Srv.destroy]; split <;> (try split) <;> rfl
        simp [bodies, this]
      rw [this]; exact hfeed
    · have hout : expectedOut (t ++ [(SrvOp.destroy i, (s.step (.destroy i)).2)]).reverse =
          expectedOut t.reverse := by rw [rev]; rfl
      have hob : ∀ id, objectOf id (t ++ [(SrvOp.destroy i, (s.step (.destroy i)).2)]).reverse =
          objectOf id t.reverse := by intro id; rw [rev]; rfl
      have hst : (s.step (.destroy i)).1 = s.destroy i := rfl
      have hrd : ∀ id, (∃ x ∈ t, x.1 = SrvOp.destroy id) →
          ∃ x ∈ t ++ [(SrvOp.destroy i, (s.step (.destroy i)).2)], x.1 = .destroy id := by
        rintro id ⟨x, hx, he⟩; exact ⟨x, by simp [hx], he⟩
      rw [hst]
      by_cases hin : i ∈ s.sent
      · have hsub : i ∈ s.subscribed := h.sub i hin
        have e : s.destroy i = { s with sent := s.sent.filter (· != i), ready := s.ready ++ [i], subscribed := s.subscribed.filter (· != i) } := by
          simp [Srv.destroy, hin, hsub]
        rw [e]
        refine ⟨hc.waiting, hc.refBufs, by rw [hout]; exact hc.out, by intro sg; rw [rev]; exact hc.descs sg,
          by intro sg; rw [rev]; exact hc.doms sg, ?_, ?_, ?_, ?_, ?_⟩
        · intro id
          rw [hob, hc.refs]
          by_cases hi : id = i
          · subst hi; simp [hin]
          · have h1 : (id ∈ s.sent ∨ id ∈ s.ready) ↔ (id ∈ s.sent.filter (· != i) ∨ id ∈ s.ready ++ [i]) := by
              simp [hi]
            by_cases hx : id ∈ s.sent ∨ id ∈ s.ready
            · rw [if_pos hx, if_pos (h1.mp hx)]
            · rw [if_neg hx, if_neg (fun e => hx (h1.mpr e))]
        · intro id hid
          rw [hob]
          refine hc.obj id ?_
          simp only [List.mem_filter, List.mem_append, List.mem_singleton] at hid
          rcases hid with hid | hid | rfl
          · exact .inl hid.1
          · exact .inr hid
          · exact .inl hin
        · have := hc.disj i hin
          have hn := hc.nodup
          refine List.nodup_append.mpr ⟨hn, by simp, ?_⟩
          intro a ha b hb
          simp at hb
          rintro rfl
          exact this (hb ▸ ha)
        · intro id hid
          simp only [List.mem_filter, bne_iff_ne] at hid
          simp only [List.mem_append, List.mem_singleton, not_or]
          exact ⟨hc.disj id hid.1, hid.2⟩
        · intro id hid
          simp only [List.mem_append, List.mem_singleton] at hid
          rcases hid with hid | rfl
          · exact hrd _ (hc.readyD id hid)
          · exact ⟨_, List.mem_append_right _ (List.mem_singleton.mpr rfl), rfl⟩
      · have h1 : (s.destroy i).sent = s.sent ∧ (s.destroy i).ready = s.ready := by
          unfold Srv.destroy
          by_cases hs : i ∈ s.subscribed <;> simp [hs, hin]
        refine FirstInv.congr (s := s) ?_ (by rw [h1.1]; simp) h1.2
        exact ⟨hc.waiting, hc.refBufs, by rw [hout]; exact hc.out, by intro sg; rw [rev]; exact hc.descs sg,
          by intro sg; rw [rev]; exact hc.doms sg, by intro id; rw [hob]; exact hc.refs id,
          by intro id; rw [hob]; exact hc.obj id, hc.nodup, hc.disj,
          fun id hid => hrd _ (hc.readyD id hid)⟩
  · obtain ⟨rel, hrel, hb⟩ := step_ready hm h op (fun i e => hd ⟨i, e⟩)
    rw [hb]
    -- calls that emit nothing but possibly a release buffer
    have quiet : ∀ r, (s.step op).2 = r →
        (expectedOut ((op, r) :: t.reverse) = expectedOut t.reverse) →
        (∀ sg, descInForce sg ((op, r) :: t.reverse) = descInForce sg t.reverse) →
        (∀ sg, domInForce sg ((op, r) :: t.reverse) = domInForce sg t.reverse) →
        (∀ id, objectOf id ((op, r) :: t.reverse) = objectOf id t.reverse) →
        (∀ id, held id ((op, r) :: t.reverse) = held id t.reverse) →
        FirstInv { s with sent := s.sent } (t ++ [(op, (s.step op).2)]) c ∧
        (∀ id, id ∈ (s.step op).1.sent ↔ id ∈ s.sent) := by
      intro r hr q1 q2 q3 q4 q5
      rw [hr]
      refine ⟨⟨hc.waiting, hc.refBufs, ?_, ?_, ?_, ?_, ?_, hc.nodup, hc.disj, ?_⟩, ?_⟩
      · rw [rev, q1]; exact hc.out
      · intro sg; rw [rev, q2]; exact hc.descs sg
      · intro sg; rw [rev, q3]; exact hc.doms sg
      · intro id; rw [rev, q4]; exact hc.refs id
      · intro id; rw [rev, q4]; exact hc.obj id
      · intro id hid
        obtain ⟨x, hx, he⟩ := hc.readyD id hid
        exact ⟨x, by simp [hx], he⟩
      · intro id
        rw [hinv'.sent, h.sent, hr, rev, q5]
    cases op with
    | addEvent sig ev len =>
      have hfe : c.feed (.event sig ev) = .ok (c.addEvent sig ev) := rfl
      obtain ⟨w1, w2, w3, w4, w5, w6⟩ := addEvent_first c sig ev t.reverse len hc.descs hc.doms hc.out
        (s.step (.addEvent sig ev len)).2
      refine fin s.sent _ [.event sig ev] (c.addEvent sig ev) rel ?_ ?_ ?_ hrel
      · rw [foldlM_ok_append _ _ _ _ _ hfeed]
        simp only [List.foldlM_cons, List.foldlM_nil, hfe]
        rfl
      · refine ⟨by rw [w1, hc.waiting], by rw [w2, hc.refBufs], by rw [rev]; exact w4,
          by intro sg; rw [rev]; exact w5 sg, by intro sg; rw [rev]; exact w6 sg, ?_, ?_, hc.nodup, hc.disj, ?_⟩
        · intro id; rw [w3, rev]; exact hc.refs id
        · intro id; rw [rev]; exact hc.obj id
        · intro id hid
          obtain ⟨x, hx, he⟩ := hc.readyD id hid
          exact ⟨x, by simp [hx], he⟩
      · intro id
        rw [hinv'.sent, h.sent, rev]; rfl
    | addData sig p mark =>
      rcases addData_spec h.g (by rw [h.cacheMax]; exact hm) sig p mark with ⟨h1, h2⟩ | ⟨h1, h2, s1, _, hs1, _, _, _, _, _, hsn, _⟩
      · obtain ⟨q1, q2⟩ := quiet .noDescriptor (by rw [h2]) rfl (fun _ => rfl) (fun _ => rfl)
          (fun _ => rfl) (fun _ => rfl)
        refine fin s.sent _ _ c rel ?_ q1 q2 hrel
        rw [h2]; simpa [newBodies] using hfeed
      · rw [h2, rev] at hwf
        obtain ⟨wf1, wf2, _⟩ := hwf
        obtain ⟨c1, e1, e2⟩ := feed_data hc sig p mark h.sent (by rw [← h.reg]; exact h1) wf1
          (fun x hx => wf2 x (by simp [hx])) s1.sent hsn
        rw [h2]
        refine fin s1.sent _ _ c1 rel ?_ e2 (by rw [hs1]; simp) hrel
        rw [foldlM_ok_append _ _ _ _ _ hfeed]
        simp only [newBodies, List.foldlM_cons, List.foldlM_nil, e1]
        rfl
    | addOther =>
      obtain ⟨q1, q2⟩ := quiet _ rfl rfl (fun _ => rfl) (fun _ => rfl) (fun _ => rfl) (fun _ => rfl)
      exact fin s.sent _ _ c rel (by simpa [newBodies] using hfeed) q1 q2 hrel
    | getNext =>
      obtain ⟨q1, q2⟩ := quiet _ rfl rfl (fun _ => rfl) (fun _ => rfl) (fun _ => rfl) (fun _ => rfl)
      exact fin s.sent _ _ c rel (by simpa [newBodies] using hfeed) q1 q2 hrel
    | destroy i => exact absurd ⟨i, rfl⟩ hd
    | sendRelease f =>
      obtain ⟨q1, q2⟩ := quiet _ rfl rfl (fun _ => rfl) (fun _ => rfl) (fun _ => rfl) (fun _ => rfl)
      exact fin s.sent _ _ c rel (by simpa [newBodies] using hfeed) q1 q2 hrel

theorem domainFirst_tail {x} {t : SrvTrace} (h : DomainFirst (x :: t)) : DomainFirst t := by
  obtain ⟨op, r⟩ := x
  cases op <;> cases r <;> simp only [DomainFirst] at h <;> first | exact h | exact h.2.2

theorem firstInv (m thr : Nat) (hm : SizeOK m) (ops : List SrvOp)
    (hwf : DomainFirst (srvExec m thr ops).2.reverse) :
    ∃ c, Cli.init.run (srvExec m thr ops).1.emitted = .ok c ∧
      FirstInv (srvExec m thr ops).1 (srvExec m thr ops).2 c := by
  rw [run_server]
  induction ops using list_snoc_induction with
  | nil =>
    refine ⟨Cli.init, rfl, rfl, rfl, rfl, fun _ => rfl, fun _ => rfl, ?_, ?_, ?_, ?_, ?_⟩ <;>
      simp [srvExec, runTrace, Srv.init, Cli.init]
  | snoc ops op ih =>
    rw [srvExec_snoc] at hwf ⊢
    have hwf' : DomainFirst (srvExec m thr ops).2.reverse := by
      simp only [List.reverse_append, List.reverse_cons, List.reverse_nil, List.nil_append,
        List.singleton_append] at hwf
      exact domainFirst_tail hwf
    obtain ⟨c, h1, h2⟩ := ih hwf'
    exact firstInv_step hm (srvInv m thr hm ops) h2 h1 op hwf

end Verif.PacketStreaming
