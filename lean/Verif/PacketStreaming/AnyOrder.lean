import Verif.PacketStreaming.Waiting

/-! The client fed with the buffers of the server, domain packets in any order (helper lemmas). -/

namespace Verif.PacketStreaming

@[simp] theorem given_append (a b) : given (a ++ b) = given a ++ given b := by simp [given]

theorem wasSent_snoc (id : Nat) (t : SrvTrace) (x) :
    wasSent id (t ++ [x]) ↔ wasSent id t ∨ wasSent id [x] := by
  simp only [wasSent, given_append, List.mem_append]
  constructor
  · rintro ⟨g, h | h, e⟩
    · exact .inl ⟨g, h, e⟩
    · exact .inr ⟨g, h, e⟩
  · rintro (⟨g, h, e⟩ | ⟨g, h, e⟩)
    · exact ⟨g, .inl h, e⟩
    · exact ⟨g, .inr h, e⟩

/-- A packet that was sent and is still alive is held by the client. -/
theorem held_of_alive (id : Nat) (t : SrvTrace) (h : Alive id t) (hs : wasSent id t) :
    held id t.reverse = true := by
  induction t using list_snoc_induction with
  | nil => obtain ⟨g, hg, _⟩ := hs; cases hg
  | snoc t x ih =>
    have h1 : Alive id t := fun y hy => h y (by simp [hy])
    have h2 : isEnd id x = false := h x (by simp)
    rw [wasSent_snoc] at hs
    rw [List.reverse_append]
    obtain ⟨op, r⟩ := x
    cases op with
    | addData sig p mark =>
      cases r with
      | ok =>
        simp only [List.reverse_cons, List.reverse_nil, List.nil_append, List.singleton_append, held]
        by_cases hp : p.id = id
        · rw [if_pos hp]
          cases mark with
          | false => rfl
          | true => simp [isEnd, hp] at h2
        · rw [if_neg hp]
          rcases hs with hs | ⟨g, hg, he⟩
          · exact ih h1 hs
          · simp [given] at hg
            rw [hg] at he
            exact absurd he hp
      | _ =>
        rcases hs with hs | ⟨g, hg, he⟩
        · exact ih h1 hs
        · simp [given] at hg
    | destroy i =>
      simp only [isEnd, beq_eq_false_iff_ne] at h2
      rcases hs with hs | ⟨g, hg, he⟩
      · simpa [held, h2] using ih h1 hs
      · simp [given] at hg
    | _ =>
      rcases hs with hs | ⟨g, hg, he⟩
      · simpa [held] using ih h1 hs
      · simp [given] at hg

def wlist (c : Cli) : List Item := c.waiting.flatMap witems

/-- The joint invariant for any order of packets. -/
structure AnyInv (s : Srv) (t : SrvTrace) (c : Cli) : Prop where
  descs : ∀ sig, (c.descs.get sig).isSome = registered sig t
  nd : (ids c.waiting).Nodup
  bufs : ∀ i, i ∈ c.refBufs ↔ i ∈ ids c.waiting
  dom : ∀ w ∈ c.waiting, ∃ d, w.domain = some d ∧ d < w.id ∧ (¬ wasSent d t ∨ d ∈ ids c.waiting)
  was : ∀ w ∈ c.waiting, ∃ g ∈ given t, g.id = w.id ∧ g.domain = w.domain ∧ g.payload = w.payload
  reg : ∀ w ∈ c.waiting, (c.descs.get w.sig).isSome
  flag : ∀ w ∈ c.waiting, w.id ∈ s.sent ∨ w.id ∈ s.ready → w.flags % 2 = 0
  flag' : ∀ w ∈ c.waiting, w.flags % 2 = 0 → w.id ∈ s.sent ∨ w.id ∈ s.ready ∨ handedOverAgain w.id t.reverse
  keys : ∀ i, c.refPackets.has i = true → wasSent i t ∧ i ∉ ids c.waiting
  keys' : ∀ i, c.refPackets.has i = true → i ∈ s.sent ∨ i ∈ s.ready ∨ handedOverAgain i t.reverse
  cover : ∀ i, i ∈ s.sent ∨ i ∈ s.ready → c.refPackets.has i = true ∨ i ∈ ids c.waiting
  nodup : s.ready.Nodup
  disj : ∀ id, id ∈ s.sent → id ∉ s.ready
  readyD : ∀ id, id ∈ s.ready → ∃ x ∈ t, x.1 = .destroy id
  obj : ∀ i o, c.refPackets.get i = some o → o.src = i ∧
    ∃ g ∈ given t, g.id = i ∧ g.domain = o.domain ∧ g.payload = o.payload
  items : (outItems c.out ++ wlist c).Perm (given t)

theorem AnyInv.congr {s s' : Srv} {t : SrvTrace} {c : Cli} (h : AnyInv s t c)
    (h1 : ∀ id, id ∈ s'.sent ↔ id ∈ s.sent) (h2 : s'.ready = s.ready) : AnyInv s' t c := by
  obtain ⟨a1, a2, a3, a4, a5, a6, a7, a8, a9, a10, a11, a12, a13, a14, a15, a16⟩ := h
  exact ⟨a1, a2, a3, a4, a5, a6, by simpa only [h1, h2] using a7, by simpa only [h1, h2] using a8, a9,
    by simpa only [h1, h2] using a10, by simpa only [h1, h2] using a11, by rw [h2]; exact a12,
    by simpa only [h1, h2] using a13, by simpa only [h2] using a14, a15, a16⟩

theorem flagFirst_mem {id : Nat} {l : List WBuf} (hnd : (ids l).Nodup) {w : WBuf} :
    w ∈ flagFirst id l ↔ ∃ v ∈ l, w = if v.id = id then { v with flags := (v.flags + 1) % 256 } else v := by
  induction l with
  | nil => simp [flagFirst]
  | cons a l ih =>
    obtain ⟨h1, h2⟩ := List.nodup_cons.mp hnd
    unfold flagFirst
    by_cases ha : a.id = id
    · simp only [ha, if_true, List.mem_cons]
      constructor
      · rintro (rfl | h)
        · exact ⟨a, .inl rfl, by simp [ha]⟩
        · refine ⟨w, .inr h, ?_⟩
          rw [if_neg]
          rintro rfl
          exact h1 (by rw [ha]; exact mem_ids.mpr ⟨w, h, rfl⟩)
      · rintro ⟨v, rfl | h, e⟩
        · left; rw [e, if_pos ha, ha]
        · right
          rw [if_neg] at e
          · rw [e]; exact h
          · rintro rfl
            exact h1 (by rw [ha]; exact mem_ids.mpr ⟨v, h, rfl⟩)
    · simp only [ha, if_false, List.mem_cons, ih h2]
      constructor
      · rintro (rfl | ⟨v, h, e⟩)
        · exact ⟨w, .inl rfl, by simp [ha]⟩
        · exact ⟨v, .inr h, e⟩
      · rintro ⟨v, rfl | h, e⟩
        · left; rw [e, if_neg ha]
        · exact .inr ⟨v, h, e⟩

theorem flagFirst_map {β} (g : WBuf → β) (hg : ∀ w : WBuf, g { w with flags := (w.flags + 1) % 256 } = g w)
    (id : Nat) (l : List WBuf) : (flagFirst id l).map g = l.map g := by
  induction l with
  | nil => rfl
  | cons a l ih =>
    unfold flagFirst
    split
    · simp [hg]
    · simp [ih]

theorem flagFirst_ids (id : Nat) (l : List WBuf) : ids (flagFirst id l) = ids l :=
  flagFirst_map WBuf.id (fun _ => rfl) id l

theorem flagFirst_items (id : Nat) (l : List WBuf) :
    (flagFirst id l).flatMap witems = l.flatMap witems := by
  rw [List.flatMap_def, List.flatMap_def, flagFirst_map witems (fun _ => rfl)]

/-- One released packet. -/
theorem releaseOne_any {s : Srv} {t : SrvTrace} {c : Cli} {a : Nat} {l : List Nat}
    (h : AnyInv s t c) (hr : s.ready = a :: l) :
    ∃ c', c.releaseOne a = .ok c' ∧ AnyInv { s with ready := l } t c' := by
  obtain ⟨a1, a2, a3, a4, a5, a6, a7, a8, a9, a10, a11, a12, a13, a14, a15, a16⟩ := h
  have hnd : a ∉ l ∧ l.Nodup := by rw [hr] at a12; exact List.nodup_cons.mp a12
  have hns : a ∉ s.sent := fun e => a13 a e (by rw [hr]; simp)
  have hmem : ∀ i, i ∈ s.ready ↔ i = a ∨ i ∈ l := by intro i; rw [hr]; simp
  have hd : ∀ id ∈ s.sent, id ∉ l := fun id hid hl => a13 id hid ((hmem id).mpr (.inr hl))
  have hrd : ∀ id ∈ l, ∃ x ∈ t, x.1 = SrvOp.destroy id := fun id hid => a14 id ((hmem id).mpr (.inr hid))
  by_cases hk : c.refPackets.has a = true
  · refine ⟨{ c with refPackets := c.refPackets.del a }, by simp [Cli.releaseOne, hk], ?_⟩
    have hdel : ∀ i, (c.refPackets.del a).has i = true ↔ i ≠ a ∧ c.refPackets.has i = true := by
      intro i
      rw [AList.has_iff, AList.has_iff, AList.get_del]
      by_cases hi : i = a <;> simp [hi]
    have haw : a ∉ ids c.waiting := (a9 a hk).2
    refine ⟨a1, a2, a3, a4, a5, a6, ?_, ?_, ?_, ?_, ?_, hnd.2, hd, hrd, ?_, a16⟩
    · intro w hw hx
      exact a7 w hw (hx.imp id (fun e => (hmem _).mpr (.inr e)))
    · intro w hw hx
      rcases a8 w hw hx with h | h | h
      · exact .inl h
      · rcases (hmem _).mp h with h | h
        · exact absurd (mem_ids.mpr ⟨w, hw, h⟩) haw
        · exact .inr (.inl h)
      · exact .inr (.inr h)
    · intro i hi; exact a9 i ((hdel i).mp hi).2
    · intro i hi
      obtain ⟨h1, h2⟩ := (hdel i).mp hi
      rcases a10 i h2 with h | h | h
      · exact .inl h
      · rcases (hmem _).mp h with h | h
        · exact absurd h h1
        · exact .inr (.inl h)
      · exact .inr (.inr h)
    · intro i hi
      have hia : i ≠ a := by
        rintro rfl
        rcases hi with hi | hi
        · exact hns hi
        · exact hnd.1 hi
      rcases a11 i (hi.imp id (fun e => (hmem _).mpr (.inr e))) with h | h
      · exact .inl ((hdel i).mpr ⟨hia, h⟩)
      · exact .inr h
    · intro i o ho
      have ho' : (c.refPackets.del a).get i = some o := ho
      rw [AList.get_del] at ho'
      split at ho'
      · cases ho'
      · exact a15 i o ho'
  · have haw : a ∈ ids c.waiting := by
      rcases a11 a (.inr ((hmem a).mpr (.inl rfl))) with h | h
      · exact absurd h hk
      · exact h
    have hb : c.refBufs.contains a = true := by simpa using (a3 a).mpr haw
    have hk' : c.refPackets.has a = false := by simpa using hk
    refine ⟨{ c with waiting := flagFirst a c.waiting }, by simp [Cli.releaseOne, hk', (a3 a).mpr haw], ?_⟩
    have hv : ∀ w ∈ flagFirst a c.waiting, ∃ v ∈ c.waiting,
        w = if v.id = a then { v with flags := (v.flags + 1) % 256 } else v :=
      fun w hw => (flagFirst_mem a2).mp hw
    have hv' : ∀ w ∈ flagFirst a c.waiting, ∃ v ∈ c.waiting, w.sig = v.sig ∧ w.id = v.id ∧
        w.domain = v.domain ∧ w.payload = v.payload := by
      intro w hw
      obtain ⟨v, h1, h2⟩ := hv w hw
      refine ⟨v, h1, ?_⟩
      rw [h2]; split <;> exact ⟨rfl, rfl, rfl, rfl⟩
    refine ⟨a1, ?_, ?_, ?_, ?_, ?_, ?_, ?_, ?_, ?_, ?_, hnd.2, hd, hrd, a15, ?_⟩
    · rw [flagFirst_ids]; exact a2
    · rw [flagFirst_ids]; exact a3
    · intro w hw
      obtain ⟨v, h1, e1, e2, e3, e4⟩ := hv' w hw
      rw [flagFirst_ids, e2, e3]; exact a4 v h1
    · intro w hw
      obtain ⟨v, h1, e1, e2, e3, e4⟩ := hv' w hw
      rw [e2, e3, e4]; exact a5 v h1
    · intro w hw
      obtain ⟨v, h1, e1, e2, e3, e4⟩ := hv' w hw
      rw [e1]; exact a6 v h1
    · intro w hw hx
      obtain ⟨v, h1, h2⟩ := hv w hw
      by_cases hva : v.id = a
      · rw [if_pos hva] at h2
        have : w.id = a := by rw [h2]; exact hva
        rw [this] at hx
        rcases hx with hx | hx
        · exact absurd hx hns
        · exact absurd hx hnd.1
      · rw [if_neg hva] at h2
        subst h2
        exact a7 w h1 (hx.imp id (fun e => (hmem _).mpr (.inr e)))
    · intro w hw hx
      obtain ⟨v, h1, h2⟩ := hv w hw
      by_cases hva : v.id = a
      · rw [if_pos hva] at h2
        exfalso
        have h0 := a7 v h1 (.inr (by rw [hva]; exact (hmem a).mpr (.inl rfl)))
        rw [h2] at hx
        simp only at hx
        omega
      · rw [if_neg hva] at h2
        subst h2
        rcases a8 w h1 hx with h | h | h
        · exact .inl h
        · rcases (hmem _).mp h with h | h
          · exact absurd h hva
          · exact .inr (.inl h)
        · exact .inr (.inr h)
    · intro i hi; rw [flagFirst_ids]; exact a9 i hi
    · intro i hi
      rcases a10 i hi with h | h | h
      · exact .inl h
      · rcases (hmem _).mp h with rfl | h
        · exact absurd hi hk
        · exact .inr (.inl h)
      · exact .inr (.inr h)
    · intro i hi
      rw [flagFirst_ids]
      exact a11 i (hi.imp id (fun e => (hmem _).mpr (.inr e)))
    · show (outItems c.out ++ (flagFirst a c.waiting).flatMap witems).Perm _
      rw [flagFirst_items]; exact a16

theorem feed_release_any {s : Srv} {t : SrvTrace} {c : Cli} (h : AnyInv s t c) :
    ∃ c', c.feed (.release s.ready) = .ok c' ∧ AnyInv { s with ready := [] } t c' := by
  show ∃ c', s.ready.foldlM Cli.releaseOne c = .ok c' ∧ _
  generalize hr : s.ready = l
  induction l generalizing s c with
  | nil =>
    exact ⟨c, rfl, h.congr (fun _ => Iff.rfl) (by rw [hr])⟩
  | cons a l ih =>
    obtain ⟨c1, e1, h1⟩ := releaseOne_any h hr
    obtain ⟨c2, e2, h2⟩ := ih h1 rfl
    refine ⟨c2, ?_, h2⟩
    rw [List.foldlM_cons, e1]; exact e2

theorem attachFirst_spec {d : Option Nat} {id sig : Nat} {l : List WBuf} (hnd : (ids l).Nodup) {v : WBuf}
    (hv : v ∈ l) (h1 : v.id = id) (h2 : v.domain = d) :
    ∃ l', attachFirst d id sig l = some l' ∧ ids l' = ids l ∧
      (∀ w ∈ l', ∃ u ∈ l, w.sig = u.sig ∧ w.id = u.id ∧ w.domain = u.domain ∧ w.payload = u.payload ∧
        w.flags = u.flags) ∧
      (l'.flatMap witems).Perm (⟨sig, id, d, v.payload⟩ :: l.flatMap witems) := by
  induction l with
  | nil => cases hv
  | cons a l ih =>
    obtain ⟨hn1, hn2⟩ := List.nodup_cons.mp hnd
    unfold attachFirst
    by_cases ha : a.id = id
    · have hva : v = a := eq_of_ids hnd hv (by simp) (by rw [h1, ha])
      subst hva
      rw [if_pos ⟨h2, h1⟩]
      refine ⟨_, rfl, rfl, ?_, ?_⟩
      · intro w hw
        rcases List.mem_cons.mp hw with rfl | hw
        · exact ⟨v, by simp, rfl, rfl, rfl, rfl, rfl⟩
        · exact ⟨w, by simp [hw], rfl, rfl, rfl, rfl, rfl⟩
      · simp only [List.flatMap_cons]
        have : witems { v with additional := v.additional ++ [sig] } =
            witems v ++ [⟨sig, id, d, v.payload⟩] := by simp [witems, h1, h2]
        rw [this, List.perm_iff_count]
        intro i
        simp only [List.count_append, List.count_cons, List.count_nil]
        omega
    · have hvl : v ∈ l := by
        rcases List.mem_cons.mp hv with rfl | h
        · exact absurd h1 ha
        · exact h
      obtain ⟨l', e1, e2, e3, e4⟩ := ih hn2 hvl
      rw [if_neg (fun h => ha h.2), e1]
      refine ⟨a :: l', rfl, by simp only [ids, List.map_cons] at e2 ⊢; rw [e2], ?_, ?_⟩
      · intro w hw
        rcases List.mem_cons.mp hw with rfl | hw
        · exact ⟨w, by simp, rfl, rfl, rfl, rfl, rfl⟩
        · obtain ⟨u, hu, hh⟩ := e3 w hw
          exact ⟨u, by simp [hu], hh⟩
      · simp only [List.flatMap_cons]
        rw [List.perm_iff_count] at e4 ⊢
        intro i
        have := e4 i
        simp only [List.count_append, List.count_cons] at this ⊢
        omega

theorem handedOver_mono {id : Nat} {x : SrvOp × SrvRes} {t : SrvTrace} (h : handedOverAgain id t) :
    handedOverAgain id (x :: t) := by
  obtain ⟨op, r⟩ := x
  cases op with
  | addData sig p mark =>
    cases mark with
    | false => exact h
    | true => cases r <;> first | exact .inr h | exact h
  | _ => exact h

theorem nodup_of_ids {l : List WBuf} (h : (ids l).Nodup) : l.Nodup := by
  induction l with
  | nil => exact List.nodup_nil
  | cons a l ih =>
    obtain ⟨h1, h2⟩ := List.nodup_cons.mp h
    exact List.nodup_cons.mpr ⟨fun hm => h1 (List.mem_map.mpr ⟨a, hm, rfl⟩), ih h2⟩

theorem feed_data_any {s : Srv} {t : SrvTrace} {c : Cli} (h : AnyInv s t c) (sig : Nat) (p : DataPacket)
    (mark : Bool) (hsent : ∀ id, id ∈ s.sent ↔ held id t.reverse = true)
    (hreg : registered sig t = true)
    (hdom : ∀ d, p.domain = some d → d < p.id ∧ Alive d t) (halive : Alive p.id t)
    (hsame : ∀ g ∈ given t, g.id = p.id → g.domain = p.domain ∧ g.payload = p.payload)
    (sent' : List Nat) (hs' : ∀ i, i ∈ sent' ↔ if i = p.id then mark = false else i ∈ s.sent) :
    ∃ c', c.feed (expectedBody t.reverse sig p mark) = .ok c' ∧
      AnyInv { s with sent := sent' } (t ++ [(.addData sig p mark, .ok)]) c' := by
  obtain ⟨a1, a2, a3, a4, a5, a6, a7, a8, a9, a10, a11, a12, a13, a14, a15, a16⟩ := h
  have hdescs : ∀ sg, (c.descs.get sg).isSome = registered sg (t ++ [(SrvOp.addData sig p mark, SrvRes.ok)]) := by
    intro sg; rw [a1, registered_snoc]; simp [registered]
  have hnr : p.id ∉ s.ready := by
    intro hr
    obtain ⟨x, hx, he⟩ := a14 _ hr
    have := halive x hx
    obtain ⟨op, r⟩ := x
    simp only at he
    subst he
    simp [isEnd] at this
  have hready : ∀ id, id ∈ s.ready → ∃ x ∈ t ++ [(SrvOp.addData sig p mark, SrvRes.ok)], x.1 = .destroy id := by
    intro id hid
    obtain ⟨x, hx, he⟩ := a14 id hid
    exact ⟨x, by simp [hx], he⟩
  have hdisj : ∀ id, id ∈ sent' → id ∉ s.ready := by
    intro id hid
    rw [hs'] at hid
    by_cases hi : id = p.id
    · rw [hi]; exact hnr
    · rw [if_neg hi] at hid; exact a13 id hid
  have hgiven : given (t ++ [(SrvOp.addData sig p mark, SrvRes.ok)]) =
      given t ++ [⟨sig, p.id, p.domain, p.payload⟩] := by rw [given_append]; rfl
  have hwas : ∀ i, wasSent i (t ++ [(SrvOp.addData sig p mark, SrvRes.ok)]) ↔ wasSent i t ∨ i = p.id := by
    intro i
    rw [wasSent_snoc]
    simp [wasSent, given, eq_comm]
  have hover : ∀ i, handedOverAgain i t.reverse →
      handedOverAgain i (t ++ [(SrvOp.addData sig p mark, SrvRes.ok)]).reverse := by
    intro i hi
    rw [List.reverse_append]; exact handedOver_mono hi
  have hsub : ∀ i, i ∈ sent' → i ∈ s.sent ∨ i = p.id := by
    intro i hi
    rw [hs'] at hi
    by_cases h : i = p.id
    · exact .inr h
    · rw [if_neg h] at hi; exact .inl hi
  -- a held packet stays held unless handed over
  have hkeep : ∀ i, i ∈ s.sent → i ∈ sent' ∨
      handedOverAgain i (t ++ [(SrvOp.addData sig p mark, SrvRes.ok)]).reverse := by
    intro i hi
    by_cases h : i = p.id
    · cases mark with
      | false => left; rw [hs', if_pos h]
      | true =>
        right
        rw [List.reverse_append]
        exact .inl ⟨h.symm, (hsent i).mp hi⟩
    · left; rw [hs', if_neg h]; exact hi
  by_cases hh : held p.id t.reverse = true
  · have hin : p.id ∈ s.sent := (hsent _).mpr hh
    have hws : wasSent p.id t := by
      rcases a11 p.id (.inl hin) with hk | hk
      · exact (a9 _ hk).1
      · obtain ⟨w, hw, he⟩ := mem_ids.mp hk
        obtain ⟨g, hg, e1, _⟩ := a5 w hw
        exact ⟨g, hg, e1.trans he⟩
    have hwas' : ∀ i, wasSent i (t ++ [(SrvOp.addData sig p mark, SrvRes.ok)]) ↔ wasSent i t := by
      intro i
      rw [hwas]
      exact ⟨fun h => h.elim id (fun e => e ▸ hws), .inl⟩
    have hhas : c.descs.has sig = true := by
      unfold AList.has; rw [a1]; exact hreg
    have hbody : expectedBody t.reverse sig p mark = .alreadySent sig mark p.id p.domain := by
      simp [expectedBody, hh]
    rw [hbody]
    have hsubs : ∀ i, i ∈ sent' → i ∈ s.sent := by
      intro i hi
      rcases hsub i hi with h | rfl
      · exact h
      · exact hin
    have hkeep' : ∀ i, i ∈ s.sent ∨ i ∈ s.ready ∨ handedOverAgain i t.reverse → i ∈ sent' ∨ i ∈ s.ready ∨
        handedOverAgain i (t ++ [(SrvOp.addData sig p mark, SrvRes.ok)]).reverse := by
      rintro i (h | h | h)
      · rcases hkeep i h with h | h
        · exact .inl h
        · exact .inr (.inr h)
      · exact .inr (.inl h)
      · exact .inr (.inr (hover i h))
    have hwas5 : ∀ g ∈ given t, g ∈ given (t ++ [(SrvOp.addData sig p mark, SrvRes.ok)]) := by
      intro g hg; rw [hgiven]; simp [hg]
    by_cases hk : c.refPackets.has p.id = true
    · obtain ⟨o, ho⟩ := (AList.has_iff _ _).mp hk
      have hcont : (⟨sig, o.src, o.domain, o.payload⟩ : Item) = ⟨sig, p.id, p.domain, p.payload⟩ := by
        obtain ⟨e1, g, hg, e2, e3, e4⟩ := a15 _ _ ho
        obtain ⟨e5, e6⟩ := hsame g hg e2
        rw [e1, ← e3, ← e4, e5, e6]
      have hpw : p.id ∉ ids c.waiting := (a9 _ hk).2
      have hout : outItems (c.out ++ [.data sig o]) = outItems c.out ++ [⟨sig, p.id, p.domain, p.payload⟩] := by
        rw [outItems_append, ← hcont]; rfl
      have hitems : ∀ W, W = c.waiting →
          (outItems (c.out ++ [.data sig o]) ++ W.flatMap witems).Perm
            (given (t ++ [(SrvOp.addData sig p mark, SrvRes.ok)])) := by
        rintro W rfl
        rw [hgiven, hout]
        have := a16
        unfold wlist at this
        rw [List.perm_iff_count] at this ⊢
        intro i
        have := this i
        simp only [List.count_append] at this ⊢
        omega
      refine ⟨if mark then { c with out := c.out ++ [.data sig o], refPackets := c.refPackets.del p.id }
        else { c with out := c.out ++ [.data sig o] }, ?_, ?_⟩
      · simp only [Cli.feed, Cli.addBuffer, Cli.addAlreadySent, hhas, ho]
        simp
      · have hflag : ∀ w ∈ c.waiting, w.id ∈ sent' ∨ w.id ∈ s.ready → w.flags % 2 = 0 :=
          fun w hw hx => a7 w hw (hx.imp (hsubs _) id)
        have hdomw : ∀ w ∈ c.waiting, ∃ d, w.domain = some d ∧ d < w.id ∧
            (¬ wasSent d (t ++ [(SrvOp.addData sig p mark, SrvRes.ok)]) ∨ d ∈ ids c.waiting) := by
          intro w hw; simp only [hwas']; exact a4 w hw
        cases mark with
        | true =>
          simp only [if_true]
          have hdel : ∀ i, (c.refPackets.del p.id).has i = true ↔ i ≠ p.id ∧ c.refPackets.has i = true := by
            intro i
            rw [AList.has_iff, AList.has_iff, AList.get_del]
            by_cases hi : i = p.id <;> simp [hi]
          refine ⟨hdescs, a2, a3, hdomw,
            fun w hw => (a5 w hw).imp (fun g hg => ⟨hwas5 g hg.1, hg.2⟩), a6, hflag,
            fun w hw hx => hkeep' _ (a8 w hw hx), ?_, ?_, ?_, a12, hdisj, hready, ?_, hitems _ rfl⟩
          · intro i hi
            rw [hwas']; exact a9 i ((hdel i).mp hi).2
          · intro i hi; exact hkeep' i (a10 i ((hdel i).mp hi).2)
          · intro i hi
            have hip : i ≠ p.id := by
              rintro rfl
              rcases hi with hi | hi
              · simp [hs'] at hi
              · exact hnr hi
            rcases a11 i (hi.imp (hsubs i) id) with h | h
            · exact .inl ((hdel i).mpr ⟨hip, h⟩)
            · exact .inr h
          · intro i o' ho'
            have ho' : (c.refPackets.del p.id).get i = some o' := ho'
            rw [AList.get_del] at ho'
            split at ho'
            · cases ho'
            · obtain ⟨e1, g, hg, e2⟩ := a15 i o' ho'
              exact ⟨e1, g, hwas5 g hg, e2⟩
        | false =>
          simp only [Bool.false_eq_true, if_false]
          refine ⟨hdescs, a2, a3, hdomw,
            fun w hw => (a5 w hw).imp (fun g hg => ⟨hwas5 g hg.1, hg.2⟩), a6, hflag,
            fun w hw hx => hkeep' _ (a8 w hw hx), fun i hi => by rw [hwas']; exact a9 i hi,
            fun i hi => hkeep' i (a10 i hi), fun i hi => a11 i (hi.imp (hsubs i) id), a12, hdisj, hready,
            ?_, hitems _ rfl⟩
          intro i o' ho'
          obtain ⟨e1, g, hg, e2⟩ := a15 i o' ho'
          exact ⟨e1, g, hwas5 g hg, e2⟩
    · have hwm : p.id ∈ ids c.waiting := (a11 p.id (.inl hin)).resolve_left hk
      obtain ⟨v, hv, hvid⟩ := mem_ids.mp hwm
      obtain ⟨g, hg, e1, e2, e3⟩ := a5 v hv
      obtain ⟨e4, e5⟩ := hsame g hg (e1.trans hvid)
      obtain ⟨l', f1, f2, f3, f4⟩ := attachFirst_spec (sig := sig) a2 hv hvid (e2.symm.trans e4)
      have hnone : c.refPackets.get p.id = none := by
        cases hc : c.refPackets.get p.id with
        | none => rfl
        | some o => exact absurd ((AList.has_iff _ _).mpr ⟨o, hc⟩) hk
      refine ⟨{ c with waiting := l' }, ?_, ?_⟩
      · simp only [Cli.feed, Cli.addBuffer, Cli.addAlreadySent, hhas, hnone, f1]
        simp
      · refine ⟨hdescs, by rw [f2]; exact a2, by rw [f2]; exact a3, ?_, ?_, ?_, ?_, ?_, ?_, ?_, ?_, a12, hdisj,
          hready, ?_, ?_⟩
        · intro w hw
          obtain ⟨u, hu, u1, u2, u3, u4, u5⟩ := f3 w hw
          rw [u2, u3, f2]; simp only [hwas']; exact a4 u hu
        · intro w hw
          obtain ⟨u, hu, u1, u2, u3, u4, u5⟩ := f3 w hw
          rw [u2, u3, u4]
          exact (a5 u hu).imp (fun g hg => ⟨hwas5 g hg.1, hg.2⟩)
        · intro w hw
          obtain ⟨u, hu, u1, u2, u3, u4, u5⟩ := f3 w hw
          rw [u1]; exact a6 u hu
        · intro w hw hx
          obtain ⟨u, hu, u1, u2, u3, u4, u5⟩ := f3 w hw
          rw [u5]; rw [u2] at hx
          exact a7 u hu (hx.imp (hsubs _) id)
        · intro w hw hx
          obtain ⟨u, hu, u1, u2, u3, u4, u5⟩ := f3 w hw
          rw [u2]; rw [u5] at hx
          exact hkeep' _ (a8 u hu hx)
        · intro i hi; rw [f2, hwas']; exact a9 i hi
        · intro i hi; exact hkeep' i (a10 i hi)
        · intro i hi; rw [f2]; exact a11 i (hi.imp (hsubs i) id)
        · intro i o' ho'
          obtain ⟨e1, g, hg, e2⟩ := a15 i o' ho'
          exact ⟨e1, g, hwas5 g hg, e2⟩
        · show (outItems c.out ++ l'.flatMap witems).Perm _
          rw [hgiven]
          have h16 := a16
          unfold wlist at h16
          rw [← e3, e5] at f4
          rw [List.perm_iff_count] at h16 f4 ⊢
          intro i
          have := h16 i
          have := f4 i
          simp only [List.count_append, List.count_cons, List.count_nil] at *
          omega
  · -- the full packet
    have hf : held p.id t.reverse = false := by simpa using hh
    have hnot : ¬ wasSent p.id t := fun hw => hh (held_of_alive _ _ halive hw)
    have hni : p.id ∉ s.sent := fun e => hh ((hsent _).mp e)
    have hpw : p.id ∉ ids c.waiting := by
      intro hin
      obtain ⟨w, hw, he⟩ := mem_ids.mp hin
      obtain ⟨g, hg, e1, _⟩ := a5 w hw
      exact hnot ⟨g, hg, e1.trans he⟩
    have hpk : c.refPackets.has p.id = false := by
      cases hk : c.refPackets.has p.id with
      | false => rfl
      | true => exact absurd (a9 _ hk).1 hnot
    have hwas5 : ∀ g ∈ given t, g ∈ given (t ++ [(SrvOp.addData sig p mark, SrvRes.ok)]) := by
      intro g hg; rw [hgiven]; simp [hg]
    have hsent0 : ∀ i, i ≠ p.id → (i ∈ sent' ↔ i ∈ s.sent) := by
      intro i hi; rw [hs', if_neg hi]
    have hsreg : (c.descs.get sig).isSome := by rw [a1]; exact hreg
    have hbody : expectedBody t.reverse sig p mark =
        .data sig (dataFlags p mark) p.id p.domain p.samples p.offset p.payload := by
      simp [expectedBody, hf]
    obtain ⟨b, hb⟩ : ∃ b : WBuf, b = ⟨sig, dataFlags p mark, p.id, p.domain, p.samples, p.offset, p.payload,
        sizeOfBody (.data sig (dataFlags p mark) p.id p.domain p.samples p.offset p.payload), []⟩ := ⟨_, rfl⟩
    have b1 : b.sig = sig := by rw [hb]
    have b2 : b.id = p.id := by rw [hb]
    have b3 : b.domain = p.domain := by rw [hb]
    have b4 : b.payload = p.payload := by rw [hb]
    have b5 : b.flags % 2 = if mark then 1 else 0 := by rw [hb]; exact dataFlags_mod p mark
    have b6 : b.additional = [] := by rw [hb]
    have hfeed : c.feed (expectedBody t.reverse sig p mark) = c.addData b := by
      rw [hbody, hb]; rfl
    rw [hfeed]
    -- processed at once
    have now : ∃ c', (c.process (c.waiting.length + 1) b p.domain).map Prod.fst = .ok c' ∧
        AnyInv { s with sent := sent' } (t ++ [(.addData sig p mark, .ok)]) c' := by
      obtain ⟨c', q, R, e, q1, q2, q3, hp, hdn, hrb⟩ := process_spec (c.waiting.length + 1) c b p.domain
        (Nat.lt_succ_of_le List.countP_le_length) ⟨a2, fun w hw d hd => by
          obtain ⟨d', h1, h2, _⟩ := a4 w hw
          rw [h1] at hd; simp at hd; omega, a6⟩ (by rw [b1]; exact hsreg)
      refine ⟨c', by rw [e]; rfl, ?_⟩
      rw [b1, b2, b4] at hp
      rw [b2] at hdn
      have hw' : ∀ w, w ∈ c'.waiting ↔ w ∈ c.waiting ∧ w.id ∉ ids R := by
        intro w; rw [hp.waiting, mem_without]
      have hids : ∀ i, i ∈ ids c'.waiting ↔ i ∈ ids c.waiting ∧ i ∉ ids R := by
        intro i
        simp only [mem_ids, hw']
        constructor
        · rintro ⟨w, ⟨h1, h2⟩, rfl⟩; exact ⟨⟨w, h1, rfl⟩, h2⟩
        · rintro ⟨⟨w, h1, rfl⟩, h2⟩; exact ⟨w, ⟨h1, h2⟩, rfl⟩
      have hRids : ∀ i, i ∈ ids R → i ∈ ids c.waiting := by
        intro i hi
        obtain ⟨r, hr, he⟩ := mem_ids.mp hi
        exact mem_ids.mpr ⟨r, (hp.sub r hr).1, he⟩
      refine ⟨?_, ?_, ?_, ?_, ?_, ?_, ?_, ?_, ?_, ?_, ?_, a12, hdisj, hready, ?_, ?_⟩
      · rw [hp.descs]; exact hdescs
      · rw [hp.waiting]; exact a2.sublist ((List.filter_sublist).map _)
      · intro i; rw [hrb, a3, hids]
      · intro w hw
        obtain ⟨h1, h2⟩ := (hw' w).mp hw
        obtain ⟨d, hd1, hd2, hd3⟩ := a4 w h1
        refine ⟨d, hd1, hd2, ?_⟩
        have hdp : d ≠ p.id := by rintro rfl; exact hdn w hw hd1
        rcases hd3 with hd3 | hd3
        · left; rw [hwas]; rintro (h | h)
          · exact hd3 h
          · exact hdp h
        · right; rw [hids]
          refine ⟨hd3, fun hR => ?_⟩
          obtain ⟨r, hr, he⟩ := mem_ids.mp hR
          exact hp.done w hw r hr (by rw [he]; exact hd1)
      · intro w hw
        exact (a5 w ((hw' w).mp hw).1).imp (fun g hg => ⟨hwas5 g hg.1, hg.2⟩)
      · intro w hw; rw [hp.descs]; exact a6 w ((hw' w).mp hw).1
      · intro w hw hx
        have h1 := ((hw' w).mp hw).1
        have hne : w.id ≠ p.id := fun e => hpw (mem_ids.mpr ⟨w, h1, e⟩)
        exact a7 w h1 (hx.imp (hsent0 _ hne).mp id)
      · intro w hw hx
        have h1 := ((hw' w).mp hw).1
        have hne : w.id ≠ p.id := fun e => hpw (mem_ids.mpr ⟨w, h1, e⟩)
        rcases a8 w h1 hx with h | h | h
        · exact .inl ((hsent0 _ hne).mpr h)
        · exact .inr (.inl h)
        · exact .inr (.inr (hover _ h))
      · intro i hi
        rw [hids, hwas]
        rcases (hp.keys i).mp hi with h | ⟨rfl, _⟩ | ⟨r, h1, h2, _⟩
        · exact ⟨.inl (a9 i h).1, fun hx => (a9 i h).2 hx.1⟩
        · exact ⟨.inr rfl, fun hx => hpw hx.1⟩
        · obtain ⟨g, hg, e1, _⟩ := a5 r (hp.sub r h1).1
          exact ⟨.inl ⟨g, hg, e1.trans h2⟩, fun hx => hx.2 (mem_ids.mpr ⟨r, h1, h2⟩)⟩
      · intro i hi
        rcases (hp.keys i).mp hi with h | ⟨rfl, h⟩ | ⟨r, h1, h2, h3⟩
        · have hne : i ≠ p.id := by rintro rfl; rw [hpk] at h; cases h
          rcases a10 i h with h | h | h
          · exact .inl ((hsent0 _ hne).mpr h)
          · exact .inr (.inl h)
          · exact .inr (.inr (hover _ h))
        · left; rw [hs', if_pos rfl]
          rw [b5] at h
          cases mark <;> simp at h ⊢
        · have hrw := (hp.sub r h1).1
          have hne : i ≠ p.id := by rintro rfl; exact hpw (mem_ids.mpr ⟨r, hrw, h2⟩)
          have := a8 r hrw (by omega)
          rw [h2] at this
          rcases this with h | h | h
          · exact .inl ((hsent0 _ hne).mpr h)
          · exact .inr (.inl h)
          · exact .inr (.inr (hover _ h))
      · intro i hi
        rw [hp.keys, hids]
        by_cases hip : i = p.id
        · left; right; left
          refine ⟨hip, ?_⟩
          rw [b5]
          rcases hi with hi | hi
          · rw [hs', if_pos hip] at hi; simp [hi]
          · exact absurd (hip ▸ hi) hnr
        · have hi' : i ∈ s.sent ∨ i ∈ s.ready := hi.imp (hsent0 i hip).mp id
          rcases a11 i hi' with h | h
          · exact .inl (.inl h)
          · by_cases hR : i ∈ ids R
            · left; right; right
              obtain ⟨r, hr, he⟩ := mem_ids.mp hR
              refine ⟨r, hr, he, ?_⟩
              have := a7 r (hp.sub r hr).1 (by rw [he]; exact hi')
              omega
            · exact .inr ⟨h, hR⟩
      · intro i o ho
        rcases hp.vals i o ho with h | ⟨rfl, h1, h2, h3⟩ | ⟨r, h1, h2, h3, h4, h5⟩
        · obtain ⟨e1, g, hg, e2⟩ := a15 i o h
          exact ⟨e1, g, hwas5 g hg, e2⟩
        · refine ⟨h1, ⟨sig, p.id, p.domain, p.payload⟩, by rw [hgiven]; simp, rfl, h2.symm, h3.symm⟩
        · obtain ⟨g, hg, e1, e2, e3⟩ := a5 r (hp.sub r h1).1
          exact ⟨h3.trans h2, g, hwas5 g hg, e1.trans h2, e2.trans h4.symm, e3.trans h5.symm⟩
      · rw [hgiven]
        have hpi := hp.items
        have h16 := a16
        unfold wlist at h16 ⊢
        have hsplit : (c.waiting.flatMap witems).Perm (R.flatMap witems ++ c'.waiting.flatMap witems) := by
          rw [hp.waiting, ← List.flatMap_append]
          refine List.Perm.flatMap_right _ ?_
          have hsubR : ∀ r ∈ R, r ∈ c.waiting := fun r hr => (hp.sub r hr).1
          have hndW : c.waiting.Nodup := nodup_of_ids a2
          have hndR : R.Nodup := nodup_of_ids hp.nd
          rw [List.perm_ext_iff_of_nodup hndW]
          · intro w
            rw [List.mem_append, mem_without]
            constructor
            · intro hw
              by_cases hR : w.id ∈ ids R
              · left
                obtain ⟨r, hr, he⟩ := mem_ids.mp hR
                rw [← eq_of_ids a2 (hsubR r hr) hw he]; exact hr
              · exact .inr ⟨hw, hR⟩
            · rintro (h | h)
              · exact hsubR w h
              · exact h.1
          · refine List.nodup_append.mpr ⟨hndR, hndW.sublist List.filter_sublist, ?_⟩
            intro x hx y hy hxy
            subst hxy
            exact (mem_without.mp hy).2 (mem_ids.mpr ⟨x, hx, rfl⟩)
        rw [List.perm_iff_count] at hpi h16 hsplit ⊢
        intro i
        have := hpi i
        have := h16 i
        have := hsplit i
        simp only [List.count_append] at *
        omega
    unfold Cli.addData
    cases hpd : p.domain with
    | none =>
      rw [b3, hpd]
      rw [hpd] at now
      exact now
    | some d =>
      rw [b3, hpd]
      simp only
      cases hgd : c.refPackets.get d with
      | some o =>
        rw [hpd] at now
        exact now
      | none =>
        obtain ⟨hdlt, hdal⟩ := hdom d hpd
        have hnd : ¬ wasSent d t ∨ d ∈ ids c.waiting := by
          by_cases hw : wasSent d t
          · right
            have := (hsent d).mpr (held_of_alive d t hdal hw)
            rcases a11 d (.inl this) with h | h
            · obtain ⟨o, ho⟩ := (AList.has_iff _ _).mp h
              rw [hgd] at ho; cases ho
            · exact h
          · exact .inl hw
        have hids : ids (c.waiting ++ [b]) = ids c.waiting ++ [p.id] := by simp [ids, b2]
        refine ⟨_, rfl, ?_⟩
        refine ⟨hdescs, ?_, ?_, ?_, ?_, ?_, ?_, ?_, ?_, ?_, ?_, a12, hdisj, hready, ?_, ?_⟩
        · show (ids (c.waiting ++ [b])).Nodup
          rw [hids]
          refine List.nodup_append.mpr ⟨a2, by simp, ?_⟩
          intro x hx y hy hxy
          simp at hy
          exact hpw (by rw [← hy, ← hxy]; exact hx)
        · intro i
          show i ∈ (if c.refBufs.contains b.id then c.refBufs else b.id :: c.refBufs) ↔
            i ∈ ids (c.waiting ++ [b])
          rw [hids]
          have hnb : b.id ∉ c.refBufs := by rw [b2, a3]; exact hpw
          rw [if_neg (by simpa using hnb)]
          simp only [List.mem_cons, List.mem_append, List.mem_singleton, a3, b2, List.not_mem_nil, or_false]
          exact or_comm
        · intro w hw
          show ∃ d, w.domain = some d ∧ d < w.id ∧ (_ ∨ d ∈ ids (c.waiting ++ [b]))
          rw [hids]
          rcases List.mem_append.mp hw with hw | hw
          · obtain ⟨d', h1, h2, h3⟩ := a4 w hw
            refine ⟨d', h1, h2, ?_⟩
            by_cases hdp : d' = p.id
            · right; simp [hdp]
            · rcases h3 with h3 | h3
              · left; rw [hwas]; rintro (h | h)
                · exact h3 h
                · exact hdp h
              · right; simp [h3]
          · simp at hw
            subst hw
            refine ⟨d, b3.trans hpd, by rw [b2]; exact hdlt, ?_⟩
            rcases hnd with h | h
            · left; rw [hwas]; rintro (h' | h')
              · exact h h'
              · omega
            · right; simp [h]
        · intro w hw
          rcases List.mem_append.mp hw with hw | hw
          · exact (a5 w hw).imp (fun g hg => ⟨hwas5 g hg.1, hg.2⟩)
          · simp at hw
            subst hw
            exact ⟨⟨sig, p.id, p.domain, p.payload⟩, by rw [hgiven]; simp, b2.symm, b3.symm, b4.symm⟩
        · intro w hw
          rcases List.mem_append.mp hw with hw | hw
          · exact a6 w hw
          · simp at hw
            subst hw
            rw [b1]; exact hsreg
        · intro w hw hx
          rcases List.mem_append.mp hw with hw | hw
          · have hne : w.id ≠ p.id := fun e => hpw (mem_ids.mpr ⟨w, hw, e⟩)
            exact a7 w hw (hx.imp (hsent0 _ hne).mp id)
          · simp at hw
            subst hw
            rw [b2] at hx
            rw [b5]
            rcases hx with hx | hx
            · rw [hs', if_pos rfl] at hx; simp [hx]
            · exact absurd hx hnr
        · intro w hw hx
          rcases List.mem_append.mp hw with hw | hw
          · have hne : w.id ≠ p.id := fun e => hpw (mem_ids.mpr ⟨w, hw, e⟩)
            rcases a8 w hw hx with h | h | h
            · exact .inl ((hsent0 _ hne).mpr h)
            · exact .inr (.inl h)
            · exact .inr (.inr (hover _ h))
          · simp at hw
            subst hw
            rw [b5] at hx
            left
            rw [b2, hs', if_pos rfl]
            cases mark <;> simp at hx ⊢
        · intro i hi
          show _ ∧ i ∉ ids (c.waiting ++ [b])
          rw [hids, hwas]
          have hne : i ≠ p.id := by rintro rfl; rw [hpk] at hi; cases hi
          refine ⟨.inl (a9 i hi).1, ?_⟩
          simp only [List.mem_append, List.mem_singleton, not_or]
          exact ⟨(a9 i hi).2, hne⟩
        · intro i hi
          have hne : i ≠ p.id := by rintro rfl; rw [hpk] at hi; cases hi
          rcases a10 i hi with h | h | h
          · exact .inl ((hsent0 _ hne).mpr h)
          · exact .inr (.inl h)
          · exact .inr (.inr (hover _ h))
        · intro i hi
          show _ ∨ i ∈ ids (c.waiting ++ [b])
          rw [hids]
          by_cases hip : i = p.id
          · right; simp [hip]
          · rcases a11 i (hi.imp (hsent0 i hip).mp id) with h | h
            · exact .inl h
            · right; simp [h]
        · intro i o ho
          obtain ⟨e1, g, hg, e2⟩ := a15 i o ho
          exact ⟨e1, g, hwas5 g hg, e2⟩
        · show (outItems c.out ++ (c.waiting ++ [b]).flatMap witems).Perm _
          rw [hgiven, List.flatMap_append, ← List.append_assoc]
          refine List.Perm.append a16 ?_
          simp [witems, b1, b2, b3, b4, b6]

theorem addEvent_any (c : Cli) (sig : Nat) (ev : Event) :
    (c.addEvent sig ev).waiting = c.waiting ∧ (c.addEvent sig ev).refBufs = c.refBufs ∧
    (c.addEvent sig ev).refPackets = c.refPackets ∧
    outItems (c.addEvent sig ev).out = outItems c.out ∧
    (∀ sg, (((c.addEvent sig ev).descs.get sg).isSome = true) ↔ ((c.descs.get sg).isSome = true ∨
      ∃ v d, ev = .descChanged (some v) d ∧ sg = sig)) := by
  cases ev with
  | other i => exact ⟨rfl, rfl, rfl, rfl, by intro sg; simp [Cli.addEvent]⟩
  | descChanged v d =>
    have e : ∃ o, (o = [] ∨ o = [CItem.event sig (.descChanged v d)]) ∧ c.addEvent sig (.descChanged v d) =
        { c with
          descs := (match v with | some nv => c.descs.put sig nv | none => c.descs)
          domDescs := (match d with | some nd => c.domDescs.put sig nd | none => c.domDescs)
          out := c.out ++ o } := by
      unfold Cli.addEvent
      simp only
      generalize (((_ || _) || _) || _ : Bool) = fw
      cases fw with
      | true => exact ⟨_, .inr rfl, by cases v <;> cases d <;> rfl⟩
      | false =>
        refine ⟨[], .inl rfl, ?_⟩
        cases v <;> cases d <;> simp
    obtain ⟨o, ho, e⟩ := e
    rw [e]
    refine ⟨rfl, rfl, rfl, ?_, ?_⟩
    · rcases ho with rfl | rfl
      · simp
      · rw [outItems_append]; simp [outItems]
    · intro sg
      cases v with
      | none => simp
      | some nv =>
        simp only [AList.get_put]
        by_cases hs : sg = sig
        · simp [hs]
        · simp [hs]

theorem lawful_tail {x} {t : SrvTrace} (h : Lawful (x :: t)) : Lawful t := by
  obtain ⟨op, r⟩ := x
  cases op <;> cases r <;> simp only [Lawful] at h <;> first | exact h | exact h.2.2.2

theorem given_perm (t : SrvTrace) (g : Item) : g ∈ given t.reverse ↔ g ∈ given t := by
  simp [given, List.filterMap_reverse]

theorem anyInv_step {m thr : Nat} (hm : SizeOK m) {s : Srv} {t : SrvTrace} (h : SrvInv m thr s t)
    {c : Cli} (hc : AnyInv s t c) (hfeed : (bodies s).foldlM Cli.feed Cli.init = .ok c)
    (op : SrvOp) (hwf : Lawful (t ++ [(op, (s.step op).2)]).reverse) :
    ∃ c', (bodies (s.step op).1).foldlM Cli.feed Cli.init = .ok c' ∧
      AnyInv (s.step op).1 (t ++ [(op, (s.step op).2)]) c' := by
  have hinv' := srvInv_step hm h op
  have rev : ∀ r, (t ++ [(op, r)]).reverse = (op, r) :: t.reverse := by intro r; simp
  have fin : ∀ (sent' : List Nat) (t' : SrvTrace) (new : List Body) (c1 : Cli) (rel : List Body),
      (bodies s ++ new).foldlM Cli.feed Cli.init = .ok c1 →
      AnyInv { s with sent := sent' } t' c1 →
      (∀ id, id ∈ (s.step op).1.sent ↔ id ∈ sent') →
      ((rel = [] ∧ (s.step op).1.ready = s.ready) ∨
        (rel = [.release s.ready] ∧ (s.step op).1.ready = [])) →
      ∃ c', (bodies s ++ new ++ rel).foldlM Cli.feed Cli.init = .ok c' ∧ AnyInv (s.step op).1 t' c' := by
    intro sent' t' new c1 rel h1 h2 h3 h4
    rcases h4 with ⟨rfl, h5⟩ | ⟨rfl, h5⟩
    · exact ⟨c1, by simpa using h1, h2.congr h3 h5⟩
    · obtain ⟨c2, e1, e2⟩ := feed_release_any h2
      refine ⟨c2, ?_, e2.congr h3 h5⟩
      rw [foldlM_ok_append _ _ _ _ _ h1]
      simp only [List.foldlM_cons, List.foldlM_nil]
      simp only at e1
      rw [e1]; rfl
  have hready : ∀ id, id ∈ s.ready → ∃ x ∈ t ++ [(op, (s.step op).2)], x.1 = .destroy id := by
    intro id hid
    obtain ⟨x, hx, he⟩ := hc.readyD id hid
    exact ⟨x, by simp [hx], he⟩
  have hover : ∀ i, handedOverAgain i t.reverse → handedOverAgain i (t ++ [(op, (s.step op).2)]).reverse := by
    intro i hi
    rw [List.reverse_append]; exact handedOver_mono hi
  -- everything that does not depend on the server's sets, when nothing is given
  have quiet : ∀ (s1 : Srv) (c1 : Cli), c1.waiting = c.waiting → c1.refBufs = c.refBufs →
      c1.refPackets = c.refPackets → outItems c1.out = outItems c.out →
      (∀ sig, (c1.descs.get sig).isSome = registered sig (t ++ [(op, (s.step op).2)])) →
      (∀ sig, (c.descs.get sig).isSome = true → (c1.descs.get sig).isSome = true) →
      given [(op, (s.step op).2)] = [] →
      (∀ i, i ∈ s1.sent ∨ i ∈ s1.ready ↔ i ∈ s.sent ∨ i ∈ s.ready) → s1.ready.Nodup →
      (∀ id, id ∈ s1.sent → id ∉ s1.ready) →
      (∀ id, id ∈ s1.ready → ∃ x ∈ t ++ [(op, (s.step op).2)], x.1 = .destroy id) →
      AnyInv s1 (t ++ [(op, (s.step op).2)]) c1 := by
    intro s1 c1 w1 w2 w3 w4 w5 w6 w7 w8 w9 w10 w11
    have hg : given (t ++ [(op, (s.step op).2)]) = given t := by rw [given_append, w7, List.append_nil]
    have hws : ∀ i, wasSent i (t ++ [(op, (s.step op).2)]) ↔ wasSent i t := by
      intro i; simp only [wasSent, hg]
    have hor : ∀ i, i ∈ s.sent ∨ i ∈ s.ready ∨ handedOverAgain i t.reverse → i ∈ s1.sent ∨ i ∈ s1.ready ∨
        handedOverAgain i (t ++ [(op, (s.step op).2)]).reverse := by
      rintro i (h | h | h)
      · rcases (w8 i).mpr (.inl h) with h | h
        · exact .inl h
        · exact .inr (.inl h)
      · rcases (w8 i).mpr (.inr h) with h | h
        · exact .inl h
        · exact .inr (.inl h)
      · exact .inr (.inr (hover i h))
    refine ⟨w5, by rw [w1]; exact hc.nd, by rw [w1, w2]; exact hc.bufs, ?_, ?_, ?_, ?_, ?_, ?_, ?_, ?_, w9, w10,
      w11, ?_, ?_⟩
    · rw [w1]; simp only [hws]; exact hc.dom
    · rw [w1, hg]; exact hc.was
    · rw [w1]; exact fun w hw => w6 _ (hc.reg w hw)
    · rw [w1]; exact fun w hw hx => hc.flag w hw ((w8 _).mp hx)
    · rw [w1]; exact fun w hw hx => hor _ (hc.flag' w hw hx)
    · rw [w1, w3]; simp only [hws]; exact hc.keys
    · rw [w3]; exact fun i hi => hor i (hc.keys' i hi)
    · rw [w1, w3]; exact fun i hi => hc.cover i ((w8 i).mp hi)
    · rw [w3, hg]; exact hc.obj
    · unfold wlist; rw [w1, w4, hg]; exact hc.items
  have hregq : (∀ sig, registered sig [(op, (s.step op).2)] = false) →
      ∀ sig, (c.descs.get sig).isSome = registered sig (t ++ [(op, (s.step op).2)]) := by
    intro hr sig
    rw [registered_snoc, hr, Bool.or_false]; exact hc.descs sig
  by_cases hd : ∃ i, op = .destroy i
  · obtain ⟨i, rfl⟩ := hd
    have hb : bodies (s.step (.destroy i)).1 = bodies s := by
      have : (s.step (.destroy i)).1.emitted = s.emitted := by
        simp only [Srv.step, Srv.destroy]; split <;> (try split) <;> rfl
      simp [bodies, this]
    refine ⟨c, by rw [hb]; exact hfeed, ?_⟩
    have hst : (s.step (.destroy i)).1 = s.destroy i := rfl
    have hreg0 := hregq (fun sig => rfl)
    by_cases hin : i ∈ s.sent
    · have hsub : i ∈ s.subscribed := h.sub i hin
      have e : s.destroy i = { s with sent := s.sent.filter (· != i), ready := s.ready ++ [i], subscribed := s.subscribed.filter (· != i) } := by
        simp [Srv.destroy, hin, hsub]
      rw [hst, e]
      refine quiet _ c rfl rfl rfl rfl hreg0 (fun _ => id) rfl ?_ ?_ ?_ ?_
      · intro j
        simp only [List.mem_filter, List.mem_append, List.mem_singleton, bne_iff_ne, List.mem_cons,
          List.not_mem_nil, or_false]
        by_cases hj : j = i
        · subst hj; simp [hin]
        · simp [hj]
      · refine List.nodup_append.mpr ⟨hc.nodup, by simp, ?_⟩
        intro a ha b hb
        simp at hb
        rintro rfl
        exact hc.disj i hin (hb ▸ ha)
      · intro id hid
        simp only [List.mem_filter, bne_iff_ne] at hid
        simp only [List.mem_append, List.mem_singleton, not_or]
        exact ⟨hc.disj id hid.1, hid.2⟩
      · intro id hid
        simp only [List.mem_append, List.mem_singleton] at hid
        rcases hid with hid | rfl
        · exact hready _ hid
        · exact ⟨_, List.mem_append_right _ (List.mem_singleton.mpr rfl), rfl⟩
    · have h1 : (s.destroy i).sent = s.sent ∧ (s.destroy i).ready = s.ready := by
        unfold Srv.destroy
        by_cases hs : i ∈ s.subscribed <;> simp [hs, hin]
      rw [hst]
      exact quiet _ c rfl rfl rfl rfl hreg0 (fun _ => id) rfl (by simp [h1.1, h1.2]) (by rw [h1.2]; exact hc.nodup)
        (by rw [h1.1, h1.2]; exact hc.disj) (by rw [h1.2]; exact hready)
  · obtain ⟨rel, hrel, hb⟩ := step_ready hm h op (fun i e => hd ⟨i, e⟩)
    rw [hb]
    have same : (∀ id, held id ((op, (s.step op).2) :: t.reverse) = held id t.reverse) →
        ∀ id, id ∈ (s.step op).1.sent ↔ id ∈ s.sent := by
      intro hh id
      rw [hinv'.sent, h.sent, rev, hh]
    cases op with
    | addEvent sig ev len =>
      have hfe : c.feed (.event sig ev) = .ok (c.addEvent sig ev) := rfl
      obtain ⟨w1, w2, w3, w4, w5⟩ := addEvent_any c sig ev
      refine fin s.sent _ [.event sig ev] (c.addEvent sig ev) rel ?_ ?_ (same (fun _ => rfl)) hrel
      · rw [foldlM_ok_append _ _ _ _ _ hfeed]
        simp only [List.foldlM_cons, List.foldlM_nil, hfe]
        rfl
      · refine quiet _ _ w1 w2 w3 w4 ?_ ?_ rfl (fun _ => Iff.rfl) hc.nodup hc.disj hready
        · intro sg
          rw [Bool.eq_iff_iff, w5, registered_snoc, Bool.or_eq_true, hc.descs]
          refine or_congr Iff.rfl ?_
          rcases ev with ⟨v, d⟩ | i
          · cases v with
            | none => simp [registered]
            | some v =>
              constructor
              · rintro ⟨_, _, _, rfl⟩; simp [registered]
              · intro hx
                simp [registered] at hx
                exact ⟨v, d, rfl, hx.symm⟩
          · simp [registered]
        · intro sg hs; exact (w5 sg).mpr (.inl hs)
    | addData sig p mark =>
      rcases addData_spec h.g (by rw [h.cacheMax]; exact hm) sig p mark with ⟨h1, h2⟩ | ⟨h1, h2, s1, _, hs1, _, _, _, _, _, hsn, _⟩
      · refine fin s.sent _ _ c rel ?_ (quiet _ c rfl rfl rfl rfl (hregq (fun _ => by rw [h2]; rfl))
          (fun _ => id) (by rw [h2]; rfl) (fun _ => Iff.rfl) hc.nodup hc.disj hready)
          (same (fun _ => by rw [h2]; rfl)) hrel
        rw [h2]; simpa [newBodies] using hfeed
      · rw [h2, rev] at hwf
        obtain ⟨wf1, wf2, wf3, _⟩ := hwf
        obtain ⟨c1, e1, e2⟩ := feed_data_any hc sig p mark h.sent (by rw [← h.reg]; exact h1)
          (fun d hd => ⟨(wf1 d hd).1, fun x hx => (wf1 d hd).2 x (by simp [hx])⟩)
          (fun x hx => wf2 x (by simp [hx]))
          (fun g hg => wf3 g ((given_perm t g).mpr hg)) s1.sent hsn
        rw [h2]
        refine fin s1.sent _ _ c1 rel ?_ e2 (by rw [hs1]; simp) hrel
        rw [foldlM_ok_append _ _ _ _ _ hfeed]
        simp only [newBodies, List.foldlM_cons, List.foldlM_nil, e1]
        rfl
    | addOther =>
      exact fin s.sent _ _ c rel (by simpa [newBodies] using hfeed) (quiet _ c rfl rfl rfl rfl (hregq (fun _ => rfl))
          (fun _ => id) rfl (fun _ => Iff.rfl) hc.nodup hc.disj hready) (same (fun _ => rfl)) hrel
    | getNext =>
      exact fin s.sent _ _ c rel (by simpa [newBodies] using hfeed) (quiet _ c rfl rfl rfl rfl (hregq (fun _ => rfl))
          (fun _ => id) rfl (fun _ => Iff.rfl) hc.nodup hc.disj hready) (same (fun _ => rfl)) hrel
    | destroy i => exact absurd ⟨i, rfl⟩ hd
    | sendRelease f =>
      exact fin s.sent _ _ c rel (by simpa [newBodies] using hfeed) (quiet _ c rfl rfl rfl rfl (hregq (fun _ => rfl))
          (fun _ => id) rfl (fun _ => Iff.rfl) hc.nodup hc.disj hready) (same (fun _ => rfl)) hrel

theorem anyInv (m thr : Nat) (hm : SizeOK m) (ops : List SrvOp)
    (hwf : Lawful (srvExec m thr ops).2.reverse) :
    ∃ c, Cli.init.run (srvExec m thr ops).1.emitted = .ok c ∧
      AnyInv (srvExec m thr ops).1 (srvExec m thr ops).2 c := by
  rw [run_server]
  induction ops using list_snoc_induction with
  | nil =>
    refine ⟨Cli.init, rfl, fun _ => rfl, List.nodup_nil, ?_, ?_, ?_, ?_, ?_, ?_, ?_, ?_, ?_, ?_, ?_, ?_, ?_, ?_⟩ <;>
      simp [srvExec, runTrace, Srv.init, Cli.init, ids, AList.has, outItems, wlist, given]
  | snoc ops op ih =>
    rw [srvExec_snoc] at hwf ⊢
    have hwf' : Lawful (srvExec m thr ops).2.reverse := by
      simp only [List.reverse_append, List.reverse_cons, List.reverse_nil, List.nil_append,
        List.singleton_append] at hwf
      exact lawful_tail hwf
    obtain ⟨c, h1, h2⟩ := ih hwf'
    exact anyInv_step hm (srvInv m thr hm ops) h2 h1 op hwf

end Verif.PacketStreaming
