import Verif.Connection.Counters

/-! Invariants of the port attributes, the drained flag and the remembered descriptors (helper lemmas). -/

namespace Verif.Connection

theorem activeAfter_snoc (ops : List Op) (op : Op) :
    activeAfter (ops ++ [op]) = match op with
      | .setActive b => b
      | _ => activeAfter ops := by
  cases op <;> simp [activeAfter]

theorem notifyAfter_snoc (ops : List Op) (op : Op) :
    notifyAfter (ops ++ [op]) = match op with
      | .setNotify m => m
      | _ => notifyAfter ops := by
  cases op <;> simp [notifyAfter]

structure AttrInv (s : State) (t : Trace) : Prop where
  active : s.active = activeAfter (t.map Prod.fst)
  notify : s.notify = notifyAfter (t.map Prod.fst)
  drained : s.queueEmpty = drained t.reverse
  valueDesc : s.valueDesc = (accepted t).reverse.findSome? valueChange
  domainDesc : s.domainDesc = (accepted t).reverse.findSome? domainChange

theorem onPacketEnqueued_desc (s : State) (p : Packet) :
    (onPacketEnqueued s p).valueDesc = (valueChange p).or s.valueDesc ∧
    (onPacketEnqueued s p).domainDesc = (domainChange p).or s.domainDesc := by
  cases p with
  | data => exact ⟨rfl, rfl⟩
  | none => exact ⟨rfl, rfl⟩
  | event i k =>
    cases k with
    | descChanged v d =>
      cases v <;> cases d <;> exact ⟨rfl, rfl⟩
    | gap => exact ⟨rfl, rfl⟩
    | other => exact ⟨rfl, rfl⟩

theorem foldl_pushOne_desc (ps : List Packet) (s : State) :
    (ps.foldl pushOne s).valueDesc = (ps.reverse.findSome? valueChange).or s.valueDesc ∧
    (ps.foldl pushOne s).domainDesc = (ps.reverse.findSome? domainChange).or s.domainDesc := by
  induction ps generalizing s with
  | nil => simp
  | cons p ps ih =>
    rw [List.foldl_cons, (ih _).1, (ih _).2]
    have h := onPacketEnqueued_desc s p
    have h1 : (pushOne s p).valueDesc = (valueChange p).or s.valueDesc := h.1
    have h2 : (pushOne s p).domainDesc = (domainChange p).or s.domainDesc := h.2
    rw [h1, h2]
    simp [List.findSome?_append, Option.or_assoc]

theorem attrInv_step {s : State} {t : Trace} (h : AttrInv s t) (op : Op) :
    AttrInv (step s op).1 (t ++ [(op, (step s op).2)]) := by
  obtain ⟨h1, h2, h3, h4, h5⟩ := h
  cases op with
  | enqueue m p =>
    simp only [step]
    obtain ⟨_, hf, hs⟩ := enqueue_shape s m p
    by_cases hr : (enqueue s m p).2.ret = .success
    · obtain ⟨_, s1, gp, ha, _, _, _, _, he⟩ := hs hr
      have hg := onPacketEnqueued_gapFields s1 p
      have hd := onPacketEnqueued_desc s1 p
      refine ⟨?_, ?_, ?_, ?_, ?_⟩
      · rw [he]; simp [activeAfter_snoc, hg, ha.active, h1]
      · rw [he]; simp [notifyAfter_snoc, hg, ha.notify, h2]
      · rw [he]; simp [Connection.drained, hr]
      · rw [he]
        simp only [hd.1, ha.valueDesc, h4, accepted_snoc, acceptedBy, hr, if_true,
          List.reverse_append, List.findSome?_append]
        simp
      · rw [he]
        simp only [hd.2, ha.domainDesc, h5, accepted_snoc, acceptedBy, hr, if_true,
          List.reverse_append, List.findSome?_append]
        simp
    · rw [(hf hr).1]
      refine ⟨?_, ?_, ?_, ?_, ?_⟩
      · simp [activeAfter_snoc, h1]
      · simp [notifyAfter_snoc, h2]
      · simp [Connection.drained, hr, h3]
      · simp [acceptedBy, hr, h4]
      · simp [acceptedBy, hr, h5]
  | enqueueMultiple ps =>
    simp only [step, enqueueMultiple_eq]
    split
    · refine ⟨?_, ?_, ?_, ?_, ?_⟩
      · simp [activeAfter_snoc, h1]
      · simp [notifyAfter_snoc, h2]
      · simp [Connection.drained, h3]
      · simp [acceptedBy, h4]
      · simp [acceptedBy, h5]
    · have hf := foldl_pushOne ps s
      have hd := foldl_pushOne_desc ps s
      refine ⟨?_, ?_, ?_, ?_, ?_⟩
      · simp [activeAfter_snoc, hf, h1]
      · simp [notifyAfter_snoc, hf, h2]
      · simp [Connection.drained]
      · simp [acceptedBy, hd.1, h4, List.findSome?_append]
      · simp [acceptedBy, hd.2, h5, List.findSome?_append]
  | dequeue =>
    simp only [step, dequeue]
    split
    · refine ⟨?_, ?_, ?_, ?_, ?_⟩
      · simp [activeAfter_snoc, h1]
      · simp [notifyAfter_snoc, h2]
      · simp [Connection.drained]
      · simp [acceptedBy, h4]
      · simp [acceptedBy, h5]
    · next p rest hp =>
      obtain ⟨_, _, _, _, _, _, _, e1, e2, e3, e4, e5⟩ :=
        onPacketDequeued_gapFields { s with packets := rest } p
      refine ⟨?_, ?_, ?_, ?_, ?_⟩
      · simpa [activeAfter_snoc, h1] using e1
      · simpa [notifyAfter_snoc, h2] using e2
      · simpa [Connection.drained, h3] using e3
      · simpa [acceptedBy, h4] using e4
      · simpa [acceptedBy, h5] using e5
  | dequeueAll =>
    exact ⟨by simp [activeAfter_snoc, step, dequeueAll, h1],
      by simp [notifyAfter_snoc, step, dequeueAll, h2],
      by simp [Connection.drained, step, dequeueAll, h3],
      by simp [acceptedBy, step, dequeueAll, h4], by simp [acceptedBy, step, dequeueAll, h5]⟩
  | dequeueUpTo n =>
    exact ⟨by simp [activeAfter_snoc, step, dequeueUpTo, countPackets, h1],
      by simp [notifyAfter_snoc, step, dequeueUpTo, countPackets, h2],
      by simp [Connection.drained, step, dequeueUpTo, countPackets, h3],
      by simp [acceptedBy, step, dequeueUpTo, countPackets, h4],
      by simp [acceptedBy, step, dequeueUpTo, countPackets, h5]⟩
  | enqueueLastDescriptor =>
    have hs : (step s .enqueueLastDescriptor).1.active = s.active ∧
        (step s .enqueueLastDescriptor).1.notify = s.notify ∧
        (step s .enqueueLastDescriptor).1.queueEmpty = s.queueEmpty ∧
        (step s .enqueueLastDescriptor).1.valueDesc = s.valueDesc ∧
        (step s .enqueueLastDescriptor).1.domainDesc = s.domainDesc := by
      simp only [step, enqueueLastDescriptor]; split <;> simp
    obtain ⟨e1, e2, e3, e4, e5⟩ := hs
    exact ⟨by simp [activeAfter_snoc, e1, h1], by simp [notifyAfter_snoc, e2, h2],
      by simp [Connection.drained, e3, h3], by simp [acceptedBy, e4, h4], by simp [acceptedBy, e5, h5]⟩
  | setActive b =>
    exact ⟨by simp [activeAfter_snoc, step], by simp [notifyAfter_snoc, step, h2],
      by simp [Connection.drained, step, h3], by simp [acceptedBy, step, h4],
      by simp [acceptedBy, step, h5]⟩
  | setNotify m =>
    exact ⟨by simp [activeAfter_snoc, step, h1], by simp [notifyAfter_snoc, step],
      by simp [Connection.drained, step, h3], by simp [acceptedBy, step, h4],
      by simp [acceptedBy, step, h5]⟩

theorem attrInv (g : Bool) (ops : List Op) : AttrInv (exec g ops).1 (exec g ops).2 := by
  refine runTrace_inv (P := AttrInv) ?_ (fun s t op h => attrInv_step h op) ops
  exact ⟨rfl, rfl, rfl, rfl, rfl⟩

end Verif.Connection
