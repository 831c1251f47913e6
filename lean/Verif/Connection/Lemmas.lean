import Verif.Connection.Spec

/-! Helper lemmas for connections (no claims here). -/

namespace Verif.Connection

/-! ### Traces -/

@[simp] theorem delivered_nil : delivered [] = [] := rfl
@[simp] theorem delivered_snoc (t : Trace) (x) : delivered (t ++ [x]) = delivered t ++ x.2.packets := by
  simp [delivered]
@[simp] theorem accepted_nil : accepted [] = [] := rfl
@[simp] theorem accepted_snoc (t : Trace) (x) : accepted (t ++ [x]) = accepted t ++ acceptedBy x := by
  simp [accepted]
@[simp] theorem checked_nil : checked [] = [] := rfl
@[simp] theorem checked_snoc (t : Trace) (x) : checked (t ++ [x]) = checked t ++ checkedBy x := by
  simp [checked]

theorem expectedStream_append (past : List Packet) (t u : Trace) :
    expectedStream past (t ++ u) =
      expectedStream past t ++ expectedStream ((checked t).reverse ++ past) u := by
  induction t generalizing past with
  | nil => simp [expectedStream]
  | cons x t ih =>
    obtain ⟨op, o⟩ := x
    cases op with
    | enqueue m p =>
      by_cases h : o.ret = .success
      · simp [expectedStream, h, ih, checked, checkedBy]
      · simp [expectedStream, h, ih, checked, checkedBy]
    | enqueueMultiple ps => simp [expectedStream, ih, checked, checkedBy]
    | dequeue => simp [expectedStream, ih, checked, checkedBy]
    | dequeueAll => simp [expectedStream, ih, checked, checkedBy]
    | dequeueUpTo n => simp [expectedStream, ih, checked, checkedBy]
    | enqueueLastDescriptor => simp [expectedStream, ih, checked, checkedBy]
    | setActive b => simp [expectedStream, ih, checked, checkedBy]
    | setNotify m => simp [expectedStream, ih, checked, checkedBy]

/-! ### Gap state -/

theorem domainInForce_cons (p : Packet) (past : List Packet) :
    domainInForce (p :: past) = match domainChange p with
      | some d => d
      | none => domainInForce past := by
  simp only [domainInForce, List.findSome?_cons]
  cases domainChange p <;> rfl

theorem prevDomain_cons (p : Packet) (past : List Packet) :
    prevDomain (p :: past) = match domainChange p with
      | some _ => none
      | none => match domainOf p with
        | some d => some d
        | none => prevDomain past := by
  simp only [prevDomain, List.takeWhile_cons]
  cases domainChange p with
  | some d => simp
  | none =>
    simp only [Option.isNone_none, if_true, List.findSome?_cons]
    cases domainOf p <;> rfl

@[simp] theorem noDesc_cons (p past) : noDesc (p :: past) = (!isDescB p && noDesc past) := rfl

/-- Delta and type cached in the state agree with the descriptor. -/
def Match (s : State) (dd : DomDesc) : Prop :=
  (dd.ty = .int64 ∧ s.domTy = .int64 ∧ s.deltaInt = dd.delta.toInt) ∨
    (dd.ty = .float64 ∧ s.domTy = .float64 ∧ s.deltaRat = dd.delta.toRat)

def Next (s : State) (dd : DomDesc) (prev : DomPacket) : Prop :=
  (dd.ty = .int64 ∧ s.nextInt = prev.offset.toInt + prev.count * dd.delta.toInt) ∨
    (dd.ty = .float64 ∧ s.nextRat = prev.offset.toRat + prev.count * dd.delta.toRat)

/-- What the gap check state means in terms of the packets enqueued so far (most recent first). -/
def GapInv (s : State) (past : List Packet) : Prop :=
  match s.gap with
  | .disabled => False
  | .uninitialized => noDesc past = true
  | .notAvailable => noDesc past = false ∧
      ∀ dd, domainInForce past = some dd → dd.linear = false ∨ dd.ty = .other
  | .initialized => noDesc past = false ∧
      ∃ dd, domainInForce past = some dd ∧ dd.linear = true ∧ Match s dd ∧ prevDomain past = none
  | .running => noDesc past = false ∧
      ∃ dd prev, domainInForce past = some dd ∧ dd.linear = true ∧ Match s dd ∧
        prevDomain past = some prev ∧ Next s dd prev

theorem domainInForce_of_noDesc {past} (h : noDesc past = true) : domainInForce past = none := by
  induction past with
  | nil => rfl
  | cons p past ih =>
    simp only [noDesc_cons, Bool.and_eq_true, Bool.not_eq_true'] at h
    rw [domainInForce_cons]
    cases p with
    | data => simpa [domainChange] using ih h.2
    | none => simpa [domainChange] using ih h.2
    | event i k =>
      cases k with
      | descChanged v d => simp [isDescB] at h
      | gap => simpa [domainChange] using ih h.2
      | other => simpa [domainChange] using ih h.2

theorem ratAbs_le {q d : Rat} : ¬ (ratAbs q > d) ↔ -d ≤ q ∧ q ≤ d := by
  unfold ratAbs
  split <;> grind

theorem doGapCheck_spec {s : State} {dd : DomDesc} {prev cur : DomPacket}
    (hl : dd.linear = true) (hm : Match s dd) (hn : Next s dd prev) :
    (doGapCheck s cur).1 = gapBetween dd prev cur := by
  unfold doGapCheck gapBetween
  rcases hm with ⟨h1, h2, h3⟩ | ⟨h1, h2, h3⟩
  · rcases hn with ⟨_, hn⟩ | ⟨hn, _⟩
    · simp only [hl, h1, h2, hn]
      by_cases h : cur.offset.toInt - (prev.offset.toInt + prev.count * dd.delta.toInt) = 0 <;>
        simp [h]
    · rw [h1] at hn; cases hn
  · rcases hn with ⟨hn, _⟩ | ⟨_, hn⟩
    · rw [h1] at hn; cases hn
    · simp only [hl, h1, h2, hn, h3, if_true]
      have := @ratAbs_le (cur.offset.toRat - (prev.offset.toRat + prev.count * dd.delta.toRat))
        (dd.delta.toRat / 10)
      by_cases h : ratAbs (cur.offset.toRat - (prev.offset.toRat + prev.count * dd.delta.toRat)) >
          dd.delta.toRat / 10
      · simp only [h, if_true]
        rw [if_neg (fun hc => this.mpr hc h)]
      · simp only [h, if_false]
        rw [if_pos (this.mp h)]

/-- The fields the gap check may touch. -/
structure SameButGap (s s' : State) : Prop where
  samplesCnt : s'.samplesCnt = s.samplesCnt
  eventCnt : s'.eventCnt = s.eventCnt
  valueDesc : s'.valueDesc = s.valueDesc
  domainDesc : s'.domainDesc = s.domainDesc
  active : s'.active = s.active
  notify : s'.notify = s.notify
  queueEmpty : s'.queueEmpty = s.queueEmpty

def gapPackets (past : List Packet) (p : Packet) : List Packet :=
  (gapBefore past p).toList.map (fun g => Packet.event 0 (.gap g))

theorem checkForGaps_spec {s : State} {past : List Packet} {p : Packet} (hi : GapInv s past) :
    match checkForGaps s p with
    | .error e => expectedRet true true past p = e ∧ e ≠ .success ∧ e ≠ .ignored
    | .ok s' => expectedRet true true past p = .success ∧ GapInv s' (p :: past) ∧ SameButGap s s' ∧
        s'.packets = s.packets ++ gapPackets past p ∧
        s'.gapCnt = (gapPackets past p).foldl (fun a _ => wadd a 1) s.gapCnt := by
  cases p with
  | none id =>
    have hg : gapPackets past (.none id) = [] := by
      simp [gapPackets, gapBefore, domainOf]
    refine ⟨rfl, ?_, ⟨rfl, rfl, rfl, rfl, rfl, rfl, rfl⟩, by simp [hg], by simp [hg]⟩
    unfold GapInv at *
    simpa only [noDesc_cons, isDescB, domainInForce_cons, prevDomain_cons, domainChange, domainOf,
      Bool.not_false, Bool.true_and] using hi
  | event id k =>
    have hg : gapPackets past (.event id k) = [] := by
      simp [gapPackets, gapBefore, domainOf]
    cases k with
    | gap d => simp [checkForGaps, initGapCheck, expectedRet]
    | other n =>
      refine ⟨rfl, ?_, ⟨rfl, rfl, rfl, rfl, rfl, rfl, rfl⟩, by simp [hg], by simp [hg]⟩
      unfold GapInv at *
      simpa only [noDesc_cons, isDescB, domainInForce_cons, prevDomain_cons, domainChange, domainOf,
        Bool.not_false, Bool.true_and] using hi
    | descChanged v d =>
      have hret : expectedRet true true past (.event id (.descChanged v d)) = .success := rfl
      match d with
      | none =>
        simp only [checkForGaps, initGapCheck]
        by_cases hu : s.gap = .uninitialized
        · simp only [hu, if_true]
          refine ⟨hret, ?_, ⟨rfl, rfl, rfl, rfl, rfl, rfl, rfl⟩, by simp [hg], by simp [hg]⟩
          simp only [GapInv, hu] at hi
          simp [GapInv, isDescB, domainInForce_cons, domainChange, domainInForce_of_noDesc hi]
        · simp only [hu, if_false]
          refine ⟨hret, ?_, ⟨rfl, rfl, rfl, rfl, rfl, rfl, rfl⟩, by simp [hg], by simp [hg]⟩
          unfold GapInv at *
          simp only [noDesc_cons, isDescB, domainInForce_cons, prevDomain_cons, domainChange,
            domainOf]
          revert hi
          cases hgap : s.gap <;> simp_all
      | some none =>
        refine ⟨hret, ?_, ⟨rfl, rfl, rfl, rfl, rfl, rfl, rfl⟩, by simp [hg], by simp [hg]⟩
        simp [GapInv, isDescB, domainInForce_cons, domainChange]
      | some (some dd) =>
        simp only [checkForGaps, initGapCheck]
        by_cases hl : dd.linear = true
        · simp only [hl]
          cases hty : dd.ty with
          | float64 =>
            refine ⟨hret, ?_, ⟨rfl, rfl, rfl, rfl, rfl, rfl, rfl⟩, by simp [hg], by simp [hg]⟩
            simp [GapInv, isDescB, domainInForce_cons, domainChange, prevDomain_cons, hl, Match, hty]
          | int64 =>
            refine ⟨hret, ?_, ⟨rfl, rfl, rfl, rfl, rfl, rfl, rfl⟩, by simp [hg], by simp [hg]⟩
            simp [GapInv, isDescB, domainInForce_cons, domainChange, prevDomain_cons, hl, Match, hty]
          | other =>
            refine ⟨hret, ?_, ⟨rfl, rfl, rfl, rfl, rfl, rfl, rfl⟩, by simp [hg], by simp [hg]⟩
            simp [GapInv, isDescB, domainInForce_cons, domainChange, hty]
        · have hl : dd.linear = false := by simpa using hl
          simp only [hl, Bool.not_false, if_true]
          refine ⟨hret, ?_, ⟨rfl, rfl, rfl, rfl, rfl, rfl, rfl⟩, by simp [hg], by simp [hg]⟩
          simp [GapInv, isDescB, domainInForce_cons, domainChange, hl]
  | data id n dom =>
    simp only [checkForGaps, expectedRet]
    cases hgap : s.gap with
    | disabled => simp [GapInv, hgap] at hi
    | uninitialized =>
      simp only [GapInv, hgap] at hi
      simp [hi]
    | notAvailable =>
      have hi' := hi
      simp only [GapInv, hgap] at hi
      obtain ⟨h1, h2⟩ := hi
      have hg : gapPackets past (.data id n dom) = [] := by
        simp only [gapPackets, gapBefore, domainOf]
        cases hd : domainInForce past with
        | none => simp
        | some dd =>
          cases prevDomain past <;> cases dom <;> simp [gapBetween]
          rcases h2 dd hd with h | h <;> simp [h]
      simp only [if_true, if_neg (show ¬ GapState.notAvailable = .uninitialized by simp)]
      refine ⟨?_, ?_, ⟨rfl, rfl, rfl, rfl, rfl, rfl, rfl⟩, by simp [hg], by simp [hg]⟩
      · simp only [h1]
        cases hd : domainInForce past with
        | none => simp
        | some dd => rcases h2 dd hd with h | h <;> simp [h]
      · simp only [GapInv, hgap, noDesc_cons, isDescB, domainInForce_cons, domainChange]
        simpa using ⟨h1, h2⟩
    | initialized =>
      simp only [GapInv, hgap] at hi
      obtain ⟨h1, dd, h2, h3, h4, h5⟩ := hi
      have hg : gapPackets past (.data id n dom) = [] := by
        simp [gapPackets, gapBefore, h2, h5]
      have hother : dd.ty ≠ .other := by rcases h4 with h | h <;> simp [h.1]
      cases dom with
      | none => simp [h1, h2, h3, hother]
      | some d =>
        simp only [reduceCtorEq, if_false, if_true]
        refine ⟨by simp [h1, h2], ?_, ?_, ?_, ?_⟩
        · simp only [beginGapCheck]
          rcases h4 with ⟨h, h', h''⟩ | ⟨h, h', h''⟩
          · simp [h', GapInv, isDescB, h1, domainInForce_cons, domainChange, h2, h3, Match, h,
              prevDomain_cons, domainOf, Next, h'']
          · simp [h', GapInv, isDescB, h1, domainInForce_cons, domainChange, h2, h3, Match, h,
              prevDomain_cons, domainOf, Next, h'']
        · simp only [beginGapCheck]; split <;> exact ⟨rfl, rfl, rfl, rfl, rfl, rfl, rfl⟩
        · simp only [beginGapCheck, hg]; split <;> simp
        · simp only [beginGapCheck, hg]; split <;> simp
    | running =>
      simp only [GapInv, hgap] at hi
      obtain ⟨h1, dd, prev, h2, h3, h4, h5, h6⟩ := hi
      have hother : dd.ty ≠ .other := by rcases h4 with h | h <;> simp [h.1]
      cases dom with
      | none => simp [h1, h2, h3, hother]
      | some d =>
        have hspec := doGapCheck_spec (cur := d) h3 h4 h6
        have hg : gapPackets past (.data id n (some d)) =
            (gapBetween dd prev d).toList.map (fun g => Packet.event 0 (.gap g)) := by
          simp [gapPackets, gapBefore, h2, h5, domainOf]
        have hst : SameButGap s (doGapCheck s d).2 ∧ (doGapCheck s d).2.packets = s.packets ∧
            (doGapCheck s d).2.gapCnt = s.gapCnt ∧
            GapInv (doGapCheck s d).2 (.data id n (some d) :: past) := by
          simp only [doGapCheck]
          rcases h4 with ⟨h, h', h''⟩ | ⟨h, h', h''⟩
          · simp only [h', reduceCtorEq, if_false]
            exact ⟨⟨rfl, rfl, rfl, rfl, rfl, rfl, rfl⟩, trivial, trivial, by
              simp [GapInv, hgap, isDescB, h1, domainInForce_cons, domainChange, h2, h3, Match, h,
                prevDomain_cons, domainOf, Next, h'', h']⟩
          · simp only [h', if_true]
            exact ⟨⟨rfl, rfl, rfl, rfl, rfl, rfl, rfl⟩, trivial, trivial, by
              simp [GapInv, hgap, isDescB, h1, domainInForce_cons, domainChange, h2, h3, Match, h,
                prevDomain_cons, domainOf, Next, h'', h']⟩
        obtain ⟨a1, a2, a3, a4⟩ := hst
        simp only [reduceCtorEq, if_false]
        cases hres : doGapCheck s d with
        | mk o s' =>
          rw [hres] at hspec a1 a2 a3 a4
          simp only at hspec a1 a2 a3 a4
          subst hspec
          cases ho : gapBetween dd prev d with
          | none =>
            rw [ho] at hg
            exact ⟨by simp [h1, h2], a4, a1, by simp [a2, hg], by simp [a3, hg]⟩
          | some g =>
            rw [ho] at hg
            refine ⟨by simp [h1, h2], ?_, ?_, ?_, ?_⟩
            · revert a4
              simp [enqueueGapPacket, GapInv, Match, Next]
            · exact ⟨a1.1, a1.2, a1.3, a1.4, a1.5, a1.6, a1.7⟩
            · simp [enqueueGapPacket, a2, hg]
            · simp [enqueueGapPacket, a3, hg]

/-! ### Effect of one enqueue -/

@[simp] theorem onPacketEnqueued_packets (s p) : (onPacketEnqueued s p).packets = s.packets := by
  cases p with
  | data => rfl
  | none => rfl
  | event i k => cases k <;> rfl

theorem onPacketEnqueued_gapFields (s p) :
    (onPacketEnqueued s p).gap = s.gap ∧ (onPacketEnqueued s p).nextInt = s.nextInt ∧
    (onPacketEnqueued s p).nextRat = s.nextRat ∧ (onPacketEnqueued s p).deltaInt = s.deltaInt ∧
    (onPacketEnqueued s p).deltaRat = s.deltaRat ∧ (onPacketEnqueued s p).domTy = s.domTy ∧
    (onPacketEnqueued s p).gapCnt = s.gapCnt ∧ (onPacketEnqueued s p).active = s.active ∧
    (onPacketEnqueued s p).notify = s.notify ∧ (onPacketEnqueued s p).queueEmpty = s.queueEmpty := by
  cases p with
  | data => simp [onPacketEnqueued]
  | none => simp [onPacketEnqueued]
  | event i k => cases k <;> simp [onPacketEnqueued]

theorem GapInv_congr {s s' : State} {past} (h1 : s'.gap = s.gap) (h2 : s'.nextInt = s.nextInt)
    (h3 : s'.nextRat = s.nextRat) (h4 : s'.deltaInt = s.deltaInt) (h5 : s'.deltaRat = s.deltaRat)
    (h6 : s'.domTy = s.domTy) (h : GapInv s past) : GapInv s' past := by
  simpa only [GapInv, Match, Next, h1, h2, h3, h4, h5, h6] using h

theorem onPacketDequeued_gapFields (s p) :
    (onPacketDequeued s p).gap = s.gap ∧ (onPacketDequeued s p).nextInt = s.nextInt ∧
    (onPacketDequeued s p).nextRat = s.nextRat ∧ (onPacketDequeued s p).deltaInt = s.deltaInt ∧
    (onPacketDequeued s p).deltaRat = s.deltaRat ∧ (onPacketDequeued s p).domTy = s.domTy ∧
    (onPacketDequeued s p).packets = s.packets ∧ (onPacketDequeued s p).active = s.active ∧
    (onPacketDequeued s p).notify = s.notify ∧ (onPacketDequeued s p).queueEmpty = s.queueEmpty ∧
    (onPacketDequeued s p).valueDesc = s.valueDesc ∧
    (onPacketDequeued s p).domainDesc = s.domainDesc := by
  cases p with
  | data => simp [onPacketDequeued]
  | none => simp [onPacketDequeued]
  | event i k => cases k <;> simp [onPacketDequeued]

theorem foldl_pushOne (ps : List Packet) (s : State) :
    (ps.foldl pushOne s).packets = s.packets ++ ps ∧
    (ps.foldl pushOne s).gap = s.gap ∧ (ps.foldl pushOne s).nextInt = s.nextInt ∧
    (ps.foldl pushOne s).nextRat = s.nextRat ∧ (ps.foldl pushOne s).deltaInt = s.deltaInt ∧
    (ps.foldl pushOne s).deltaRat = s.deltaRat ∧ (ps.foldl pushOne s).domTy = s.domTy ∧
    (ps.foldl pushOne s).active = s.active ∧ (ps.foldl pushOne s).notify = s.notify ∧
    (ps.foldl pushOne s).gapCnt = s.gapCnt := by
  induction ps generalizing s with
  | nil => simp
  | cons p ps ih =>
    rw [List.foldl_cons]
    obtain ⟨h1, h2, h3, h4, h5, h6, h7, h8, h9, h10⟩ := ih (pushOne s p)
    obtain ⟨f1, f2, f3, f4, f5, f6, f7, f8, f9, f10⟩ := onPacketEnqueued_gapFields s p
    have hp : (pushOne s p).packets = s.packets ++ [p] := by simp [pushOne]
    exact ⟨by rw [h1, hp]; simp, h2.trans f1, h3.trans f2, h4.trans f3, h5.trans f4, h6.trans f5,
      h7.trans f6, h8.trans f8, h9.trans f9, h10.trans f7⟩

theorem enqueueMultiple_eq (s : State) (ps : List Packet) :
    enqueueMultiple s ps = if !s.active then (s, { ret := .ignored }) else
      ({ ps.foldl pushOne s with queueEmpty := false },
        { ret := .success, notified := notification s.notify .plain s.queueEmpty }) := by
  unfold enqueueMultiple
  rfl

end Verif.Connection
