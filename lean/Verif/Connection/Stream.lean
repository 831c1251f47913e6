import Verif.Connection.Lemmas

/-! Invariants of the packet stream (helper lemmas). -/

namespace Verif.Connection

/-- Everything a single `enqueue` does, for a connection with gap checking. -/
theorem enqueue_checked {s : State} {past : List Packet} (hi : GapInv s past) (m : EnqueueMode)
    (p : Packet) :
    (enqueue s m p).2.ret = expectedRet true s.active past p ∧
    (enqueue s m p).2.packets = [] ∧
    ((enqueue s m p).2.ret ≠ .success → (enqueue s m p).1 = s ∧ (enqueue s m p).2.notified = none) ∧
    ((enqueue s m p).2.ret = .success →
      GapInv (enqueue s m p).1 (p :: past) ∧
      (enqueue s m p).1.packets = s.packets ++ gapPackets past p ++ [p] ∧
      (enqueue s m p).1.gapCnt = (gapPackets past p).foldl (fun a _ => wadd a 1) s.gapCnt) := by
  have hdis : s.gap ≠ .disabled := by
    intro h; simp [GapInv, h] at hi
  have hspec := checkForGaps_spec (p := p) hi
  by_cases hact : (!s.active && !p.isEvent) = true
  · simp only [enqueue, hact, if_true]
    simp only [Bool.and_eq_true, Bool.not_eq_true'] at hact
    refine ⟨?_, trivial, fun _ => ⟨trivial, trivial⟩, fun h => by simp at h⟩
    cases p with
    | data => simp [expectedRet, hact.1]
    | none => simp [expectedRet, hact.1]
    | event => simp [Packet.isEvent] at hact
  · have hret : expectedRet true s.active past p = expectedRet true true past p := by
      cases hs : s.active with
      | true => rfl
      | false =>
        simp only [hs] at hact
        cases p with
        | data => simp [Packet.isEvent] at hact
        | none => simp [Packet.isEvent] at hact
        | event i k => cases k <;> rfl
    simp only [enqueue, hact, if_neg hdis]
    revert hspec
    cases checkForGaps s p with
    | error e =>
      rintro ⟨h1, h2, h3⟩
      simp [hret, h1, h2]
    | ok s' =>
      rintro ⟨h1, h2, h3, h4, h5⟩
      have hf := onPacketEnqueued_gapFields s' p
      refine ⟨by simp [hret, h1], by simp, by simp, ?_⟩
      intro _
      refine ⟨GapInv_congr hf.1 hf.2.1 hf.2.2.1 hf.2.2.2.1 hf.2.2.2.2.1 hf.2.2.2.2.2.1 h2, ?_, ?_⟩
      · simp [h4]
      · simp only [Bool.false_eq_true, if_false]
        rw [hf.2.2.2.2.2.2.1, h5]

/-- The same for a connection without gap checking. -/
theorem enqueue_unchecked {s : State} (hg : s.gap = .disabled) (past : List Packet) (m : EnqueueMode)
    (p : Packet) :
    (enqueue s m p).2.ret = expectedRet false s.active past p ∧
    (enqueue s m p).2.packets = [] ∧
    ((enqueue s m p).2.ret ≠ .success → (enqueue s m p).1 = s ∧ (enqueue s m p).2.notified = none) ∧
    ((enqueue s m p).2.ret = .success →
      (enqueue s m p).1.gap = .disabled ∧
      (enqueue s m p).1.packets = s.packets ++ [p]) := by
  by_cases hact : (!s.active && !p.isEvent) = true
  · simp only [enqueue, hact, if_true]
    simp only [Bool.and_eq_true, Bool.not_eq_true'] at hact
    refine ⟨?_, trivial, fun _ => ⟨trivial, trivial⟩, fun h => by simp at h⟩
    cases p with
    | data => simp [expectedRet, hact.1]
    | none => simp [expectedRet, hact.1]
    | event => simp [Packet.isEvent] at hact
  · have hret : expectedRet false s.active past p = .success := by
      cases hs : s.active with
      | true =>
        cases p with
        | data => rfl
        | none => rfl
        | event i k => cases k <;> rfl
      | false =>
        simp only [hs] at hact
        cases p with
        | data => simp [Packet.isEvent] at hact
        | none => simp [Packet.isEvent] at hact
        | event i k => cases k <;> rfl
    have hf := onPacketEnqueued_gapFields s p
    simp only [enqueue, hact, hg, if_true, Bool.false_eq_true, if_false]
    exact ⟨hret.symm, trivial, by simp, fun _ => ⟨by rw [hf.1, hg], by simp⟩⟩

/-- Invariant: gap state, mode and (for histories without `enqueueLastDescriptor`) the stream. -/
structure StreamInv (g : Bool) (s : State) (t : Trace) : Prop where
  gap : if g then GapInv s (checked t).reverse else s.gap = .disabled
  stream : (∀ x ∈ t, x.1 ≠ .enqueueLastDescriptor) →
    delivered t ++ s.packets = if g then expectedStream [] t else accepted t

theorem streamInv_step {g s t} (h : StreamInv g s t) (op : Op) :
    StreamInv g (step s op).1 (t ++ [(op, (step s op).2)]) := by
  obtain ⟨hg, hs⟩ := h
  have mem : ∀ (x : Op × Out), (∀ y ∈ t ++ [x], y.1 ≠ .enqueueLastDescriptor) →
      (∀ y ∈ t, y.1 ≠ .enqueueLastDescriptor) := fun x h y hy => h y (by simp [hy])
  -- calls that neither accept nor lose packets
  have plain : ∀ (s' : State) (op : Op) (o : Out), acceptedBy (op, o) = [] → checkedBy (op, o) = [] →
      (∀ past, expectedStream past [(op, o)] = []) →
      o.packets ++ s'.packets = s.packets →
      s'.gap = s.gap → s'.nextInt = s.nextInt → s'.nextRat = s.nextRat → s'.deltaInt = s.deltaInt →
      s'.deltaRat = s.deltaRat → s'.domTy = s.domTy → StreamInv g s' (t ++ [(op, o)]) := by
    intro s' op o ha hc he hp g1 g2 g3 g4 g5 g6
    refine ⟨?_, ?_⟩
    · cases g with
      | true => simpa [hc] using GapInv_congr g1 g2 g3 g4 g5 g6 (by simpa using hg)
      | false => simpa [g1] using hg
    · intro hm
      have := hs (mem _ hm)
      cases g with
      | true =>
        simp only [if_true] at this ⊢
        rw [expectedStream_append, he, List.append_nil, delivered_snoc, List.append_assoc, hp, this]
      | false =>
        simp only [Bool.false_eq_true, if_false] at this ⊢
        rw [accepted_snoc, ha, List.append_nil, delivered_snoc, List.append_assoc, hp, this]
  cases op with
  | enqueue m p =>
    simp only [step]
    cases g with
    | true =>
      simp only [if_true] at hg hs
      obtain ⟨h1, h2, h3, h4⟩ := enqueue_checked hg m p
      by_cases hr : (enqueue s m p).2.ret = .success
      · obtain ⟨a, b, _⟩ := h4 hr
        refine ⟨?_, ?_⟩
        · simpa [checkedBy, hr] using a
        · intro hm
          have := hs (mem _ hm)
          simp only [if_true]
          rw [expectedStream_append, delivered_snoc, h2, List.append_nil, b, ← this]
          simp [expectedStream, hr, gapPackets]
      · obtain ⟨a, _⟩ := h3 hr
        refine ⟨?_, ?_⟩
        · simpa [checkedBy, hr, a] using hg
        · intro hm
          have := hs (mem _ hm)
          simp only [if_true]
          rw [expectedStream_append, delivered_snoc, h2, List.append_nil, a, this]
          simp [expectedStream, hr]
    | false =>
      simp only [Bool.false_eq_true, if_false] at hg hs
      obtain ⟨h1, h2, h3, h4⟩ := enqueue_unchecked hg [] m p
      by_cases hr : (enqueue s m p).2.ret = .success
      · obtain ⟨a, b⟩ := h4 hr
        refine ⟨by simpa using a, ?_⟩
        intro hm
        have := hs (mem _ hm)
        simp only [Bool.false_eq_true, if_false]
        rw [accepted_snoc, delivered_snoc, h2, List.append_nil, b, ← this]
        simp [acceptedBy, hr]
      · obtain ⟨a, _⟩ := h3 hr
        refine ⟨by simpa [a] using hg, ?_⟩
        intro hm
        have := hs (mem _ hm)
        simp only [Bool.false_eq_true, if_false]
        rw [accepted_snoc, delivered_snoc, h2, List.append_nil, a, this]
        simp [acceptedBy, hr]
  | enqueueMultiple ps =>
    simp only [step, enqueueMultiple_eq]
    by_cases hact : s.active = true
    · simp only [hact, Bool.not_true, Bool.false_eq_true, if_false]
      have hf := foldl_pushOne ps s
      refine ⟨?_, ?_⟩
      · cases g with
        | true =>
          simp only [if_true, checked_snoc, checkedBy, List.append_nil] at hg ⊢
          exact GapInv_congr hf.2.1 hf.2.2.1 hf.2.2.2.1 hf.2.2.2.2.1 hf.2.2.2.2.2.1
            hf.2.2.2.2.2.2.1 hg
        | false =>
          simp only [Bool.false_eq_true, if_false] at hg ⊢
          rw [← hg]; exact hf.2.1
      · intro hm
        have := hs (mem _ hm)
        rw [delivered_snoc]
        simp only [List.append_nil, hf.1, ← List.append_assoc, this]
        cases g with
        | true => simp [expectedStream_append, expectedStream]
        | false => simp [acceptedBy]
    · simp only [hact, Bool.not_false, if_true]
      exact plain s _ _ rfl rfl (fun _ => rfl) rfl
        rfl rfl rfl rfl rfl rfl
  | dequeue =>
    simp only [step, dequeue]
    split
    · next h =>
      exact plain _ _ _ rfl rfl (fun _ => rfl) (by simp) rfl rfl rfl rfl rfl rfl
    · next p rest h =>
      have hf := onPacketDequeued_gapFields { s with packets := rest } p
      exact plain _ _ _ rfl rfl (fun _ => rfl) (by simp [hf, h]) hf.1 hf.2.1 hf.2.2.1 hf.2.2.2.1
        hf.2.2.2.2.1 hf.2.2.2.2.2.1
  | dequeueAll =>
    exact plain _ _ _ rfl rfl (fun _ => rfl) (by simp [step, dequeueAll]) rfl rfl rfl rfl rfl rfl
  | dequeueUpTo n =>
    exact plain _ _ _ rfl rfl (fun _ => rfl) (List.take_append_drop _ _)
      rfl rfl rfl rfl rfl rfl
  | enqueueLastDescriptor =>
    refine ⟨?_, fun hm => absurd rfl (hm _ (List.mem_append_right _ (List.mem_singleton_self _)))⟩
    have hsame : (step s .enqueueLastDescriptor).1.gap = s.gap ∧
        (step s .enqueueLastDescriptor).1.nextInt = s.nextInt ∧
        (step s .enqueueLastDescriptor).1.nextRat = s.nextRat ∧
        (step s .enqueueLastDescriptor).1.deltaInt = s.deltaInt ∧
        (step s .enqueueLastDescriptor).1.deltaRat = s.deltaRat ∧
        (step s .enqueueLastDescriptor).1.domTy = s.domTy := by
      simp only [step, enqueueLastDescriptor]; split <;> simp
    obtain ⟨g1, g2, g3, g4, g5, g6⟩ := hsame
    cases g with
    | true => simpa [checkedBy] using GapInv_congr g1 g2 g3 g4 g5 g6 (by simpa using hg)
    | false => simpa [g1] using hg
  | setActive b => exact plain _ _ _ rfl rfl (fun _ => rfl) (by simp [step]) rfl rfl rfl rfl rfl rfl
  | setNotify m => exact plain _ _ _ rfl rfl (fun _ => rfl) (by simp [step]) rfl rfl rfl rfl rfl rfl

theorem streamInv (g : Bool) (ops : List Op) : StreamInv g (exec g ops).1 (exec g ops).2 := by
  refine runTrace_inv (P := StreamInv g) ?_ (fun s t op h => streamInv_step h op) ops
  cases g with
  | true => exact ⟨by simp [GapInv, init, noDesc], fun _ => rfl⟩
  | false => exact ⟨by simp [init], fun _ => rfl⟩

theorem trace_ops (g : Bool) (ops : List Op) : (exec g ops).2.map Prod.fst = ops := by
  unfold exec
  generalize init g = s
  induction ops generalizing s with
  | nil => rfl
  | cons op ops ih => simp [runTrace, ih]

end Verif.Connection
