import Verif.Streaming.Props

/-!
# Packet distribution, server settings and client signals (C19, C49, C50)
-/

namespace Verif.Streaming
open Verif.AList

/-- The packets handed to the packet streaming server of a client (`none`: there is no server). -/
def received (st : Settings) (ops : List Op) (c : Nat) : Option (List (Nat × Pk)) :=
  ((exec st ops).1.servers.get c).map Server.log

/-! ## C19 Packets reach exactly the subscribed clients -/

/-- C19: while no publishing call fails, every client taking part in streaming has been handed exactly
the packets it is to receive, in order and once each. -/
theorem C19_received (st : Settings) (ops : List Op) (c : Nat) (hf : NoFail (hist st ops))
    (hr : registered c (hist st ops) = true) :
    received st ops c = some (expects c (hist st ops)) := by
  have h1 := (inv st ops).srv c
  rw [hr] at h1
  obtain ⟨v, hv⟩ := Option.isSome_iff_exists.mp h1
  unfold received
  rw [hv, ← logInv st ops hf c v hv]; rfl

/-- C19: nothing fails when clients subscribe only while they take part in streaming and a new
subscription is answered with a value descriptor before data. -/
theorem C19_never_fails (st : Settings) (ops : List Op) (ho : Orderly (hist st ops))
    (hd : DescriptorFirst (hist st ops)) : NoFail (hist st ops) :=
  (failInv st ops ho hd).noFail

/-- C19: a client that subscribes a signal others subscribe already is handed the most recent
descriptors of the signal, before anything published later. -/
theorem C19_late_subscriber (st : Settings) (ops : List Op) (s c n v : Nat) (l : List (Nat × Pk))
    (hn : number s (hist st ops) = some n) (hs : subscribed s c (hist st ops) = false)
    (hb : ∃ c', subscribed s c' (hist st ops) = true) (hd : (descriptors s (hist st ops)).1 = some v)
    (hl : received st ops c = some l) :
    received st (ops ++ [.subscribe s c]) c =
      some (l ++ [(n, .desc (some v) (descriptors s (hist st ops)).2)]) := by
  have hi := inv st ops
  unfold received at hl ⊢
  rw [exec_snoc]
  obtain ⟨w, hw, rfl⟩ := Option.map_eq_some_iff.mp hl
  cases e : (exec st ops).1.sigs.get s with
  | none => rw [(hi.number_none e).1] at hn; cases hn
  | some g =>
    have hg := hi.ok e
    have h1 : g.num = n := by have := hg.num; rw [hn] at this; simpa using this.symm
    have h2 : g.lastV = some v := by have := hg.desc; rw [this] at hd; exact hd
    have h3 : g.lastD = (descriptors s (hist st ops)).2 := by rw [hg.desc]
    have h4 : g.subs.contains c = false := by
      cases hc : g.subs.contains c with
      | false => rfl
      | true =>
        rw [(hg.subs c).mp (List.contains_iff_mem.mp hc)] at hs; cases hs
    have h5 : g.subs.isEmpty = false := by
      have := hg.busy
      rw [(busy_iff _ _).mpr hb] at this
      simpa using this.symm
    show Option.map _ ((Mgr.subscribe _ s c).1.servers.get c) = _
    unfold Mgr.subscribe
    rw [e]
    simp only [h4, h5, h2, Bool.false_eq_true, if_false, Mgr.pushTo, hw, Server.accepts, if_true]
    rw [get_put, if_pos rfl, h1, h3]
    rfl

/-- Publishing packet by packet, stopping at the first exception. -/
def sendAll (m : Mgr) : List (Nat × Pk) → Mgr × Out
  | [] => (m, .done)
  | (s, p) :: rest =>
    match m.step (.send s p) with
    | (m', .done) => sendAll m' rest
    | (m', e) => (m', e)

/-- The packets of a batch in the order of the batch. -/
def batch (b : List (Nat × List Pk)) : List (Nat × Pk) := b.flatMap fun e => e.2.map fun p => (e.1, p)

theorem sendAll_append (m : Mgr) (a b : List (Nat × Pk)) :
    sendAll m (a ++ b) = match sendAll m a with
      | (m', .done) => sendAll m' b
      | (m', e) => (m', e) := by
  induction a generalizing m with
  | nil => rfl
  | cons e a ih =>
    obtain ⟨s, p⟩ := e
    rw [List.cons_append, sendAll, sendAll]
    obtain ⟨m', o, em⟩ : ∃ m' o, m.step (.send s p) = (m', o) := ⟨_, _, rfl⟩
    rw [em]
    cases o <;> simp only
    exact ih m'

theorem processSignal_eq (m : Mgr) (s : Nat) (ps : List Pk) :
    sendAll m (ps.map fun p => (s, p)) =
      ((m.processSignal s ps).1, ((m.processSignal s ps).2).getD .done) := by
  induction ps generalizing m with
  | nil => rfl
  | cons p ps ih =>
    rw [List.map_cons]
    unfold sendAll Mgr.processSignal
    simp only [Mgr.step]
    unfold Mgr.send
    cases e : m.sigs.get s with
    | none => rfl
    | some g =>
      simp only
      have ho := pushAll_out { m with sigs := m.sigs.put s (g.note p) } g.num p g.subs
      obtain ⟨m2, o, em⟩ : ∃ m2 o, Mgr.pushAll { m with sigs := m.sigs.put s (g.note p) } g.num p g.subs
          = (m2, o) := ⟨_, _, rfl⟩
      rw [em] at ho ⊢
      cases o with
      | none => exact ih m2
      | some x => rcases ho with ho | ho | ho <;> cases ho <;> rfl

theorem processSignal_out (m : Mgr) (s : Nat) (ps : List Pk) :
    (m.processSignal s ps).2 ≠ some .done := by
  induction ps generalizing m with
  | nil => simp [Mgr.processSignal]
  | cons p ps ih =>
    unfold Mgr.processSignal
    cases m.sigs.get s with
    | none => simp
    | some g =>
      simp only
      have ho := pushAll_out { m with sigs := m.sigs.put s (g.note p) } g.num p g.subs
      obtain ⟨m2, o, em⟩ : ∃ m2 o, Mgr.pushAll { m with sigs := m.sigs.put s (g.note p) } g.num p g.subs
          = (m2, o) := ⟨_, _, rfl⟩
      rw [em] at ho ⊢
      cases o with
      | none => exact ih m2
      | some x => rcases ho with ho | ho | ho <;> cases ho <;> simp

/-- C19: publishing a batch is publishing its packets one by one, so that what is proved about single
packets holds for batches. (An entry without packets would only be checked for registration.) -/
theorem C19_batch (m : Mgr) (b : List (Nat × List Pk)) (hb : ∀ e ∈ b, e.2 ≠ []) :
    m.process b = sendAll m (batch b) := by
  induction b generalizing m with
  | nil => rfl
  | cons e b ih =>
    obtain ⟨s, ps⟩ := e
    have hps : ps ≠ [] := hb (s, ps) (by simp)
    have e1 : batch ((s, ps) :: b) = ps.map (fun p => (s, p)) ++ batch b := rfl
    rw [e1, sendAll_append, processSignal_eq]
    unfold Mgr.process
    cases eg : m.sigs.get s with
    | none =>
      cases ps with
      | nil => exact absurd rfl hps
      | cons p ps =>
        have : m.processSignal s (p :: ps) = (m, some .notRegistered) := by
          unfold Mgr.processSignal; rw [eg]
        rw [this]; rfl
    | some g =>
      simp only
      have ho := processSignal_out m s ps
      obtain ⟨m2, o, em⟩ : ∃ m2 o, m.processSignal s ps = (m2, o) := ⟨_, _, rfl⟩
      rw [em] at ho ⊢
      cases o with
      | none => exact ih m2 fun e he => hb e (by simp [he])
      | some x => cases x <;> first | rfl | exact absurd rfl ho

/-- One for a call registering a signal. -/
def regs : Op → Nat
  | .registerSignal _ => 1
  | _ => 0

/-- Number of calls registering a signal. -/
def registrations (ops : List Op) : Nat := (ops.map regs).sum

structure NumInv (m : Mgr) (k : Nat) : Prop where
  le : m.counter ≤ k
  entry : ∀ s g, m.sigs.get s = some g → 1 ≤ g.num ∧ g.num ≤ m.counter
  inj : ∀ s s' g g', m.sigs.get s = some g → m.sigs.get s' = some g' → g.num = g'.num → s = s'

theorem NumInv.of {m m' : Mgr} {k k' : Nat} (h : NumInv m k) (hk : k ≤ k') (hc : m'.counter = m.counter)
    (hs : ∀ s g', m'.sigs.get s = some g' → ∃ g, m.sigs.get s = some g ∧ g'.num = g.num) :
    NumInv m' k' := by
  refine ⟨by rw [hc]; exact Nat.le_trans h.le hk, fun s g' hg => ?_, fun s s' g g' h1 h2 h3 => ?_⟩
  · obtain ⟨g, e, e2⟩ := hs s g' hg
    rw [e2, hc]; exact h.entry s g e
  · obtain ⟨a, e, e2⟩ := hs s g h1
    obtain ⟨b, e', e2'⟩ := hs s' g' h2
    exact h.inj s s' a b e e' (by rw [← e2, ← e2', h3])

theorem numInv_step {m : Mgr} {k : Nat} (h : NumInv m k) (op : Op) (k' : Nat)
    (hk' : k' = k + regs op) (hlt : k' < 4294967296) :
    NumInv (m.step op).1 k' := by
  cases op with
  | registerSignal s =>
    simp only [regs] at hk'
    subst hk'
    simp only [Mgr.step]
    unfold Mgr.registerSignal
    cases e : m.sigs.get s with
    | some g => exact h.of (by omega) rfl fun s g hg => ⟨g, hg, rfl⟩
    | none =>
      have hc := h.le
      have e1 : (m.counter + 1) % 4294967296 = m.counter + 1 := Nat.mod_eq_of_lt (by omega)
      simp only [e1]
      refine ⟨by simp only; omega, fun x g hg => ?_, fun x y g g' h1 h2 h3 => ?_⟩
      · simp only [get_put] at hg
        split at hg
        · cases hg; exact ⟨by simp, by simp⟩
        · have := h.entry x g hg
          exact ⟨this.1, by simp only; omega⟩
      · simp only [get_put] at h1 h2
        split at h1 <;> split at h2
        · rename_i a b; rw [a, b]
        · cases h1
          have := h.entry y g' h2
          simp only at h3; omega
        · cases h2
          have := h.entry x g h1
          simp only at h3; omega
        · exact h.inj x y g g' h1 h2 h3
  | removeSignal s =>
    simp only [Mgr.step]
    unfold Mgr.removeSignal
    split
    · refine h.of (by omega) rfl fun x g hg => ?_
      simp only [get_del] at hg
      split at hg
      · cases hg
      · exact ⟨g, hg, rfl⟩
    · exact h.of (by omega) rfl fun x g hg => ⟨g, hg, rfl⟩
  | isSubscribed s => exact h.of (by omega) rfl fun x g hg => ⟨g, hg, rfl⟩
  | numericId s => exact h.of (by omega) rfl fun x g hg => ⟨g, hg, rfl⟩
  | clientLookup s => exact h.of (by omega) rfl fun x g hg => ⟨g, hg, rfl⟩
  | clientUnavailable n s c => exact h.of (by omega) rfl fun x g hg => ⟨g, hg, rfl⟩
  | clientGone c => exact h.of (by omega) rfl fun x g hg => ⟨g, hg, rfl⟩
  | clientAvailable n s c =>
    simp only [Mgr.step]
    unfold Mgr.clientSignalAvailable
    split <;> exact h.of (by omega) rfl fun x g hg => ⟨g, hg, rfl⟩
  | init c r =>
    simp only [Mgr.step]
    unfold Mgr.streamingInit Mgr.registerClient
    split <;> exact h.of (by omega) rfl fun x g hg => ⟨g, hg, rfl⟩
  | unregisterClient c =>
    simp only [Mgr.step]
    unfold Mgr.unregisterClient
    split
    · refine h.of (by omega) rfl fun x g hg => ?_
      replace hg : AList.get (m.sigs.map fun e => (e.1, (e.2.drop c).1)) x = some g := hg
      rw [get_map_val m.sigs (fun g => (g.drop c).1)] at hg
      obtain ⟨g0, hg2, rfl⟩ := Option.map_eq_some_iff.mp hg
      exact ⟨g0, hg2, (drop_fields g0 c).1⟩
    · exact h.of (by omega) rfl fun x g hg => ⟨g, hg, rfl⟩
  | unsubscribe s c =>
    simp only [Mgr.step]
    unfold Mgr.unsubscribe
    cases e : m.sigs.get s with
    | none => exact h.of (by omega) rfl fun x g hg => ⟨g, hg, rfl⟩
    | some g =>
      refine h.of (by omega) rfl fun x g' hg => ?_
      simp only [get_put] at hg
      split at hg
      · rename_i hh; subst hh; cases hg
        exact ⟨g, e, (drop_fields g c).1⟩
      · exact ⟨g', hg, rfl⟩
  | send s p =>
    simp only [Mgr.step]
    unfold Mgr.send
    cases e : m.sigs.get s with
    | none => exact h.of (by omega) rfl fun x g hg => ⟨g, hg, rfl⟩
    | some g =>
      have hf := pushAll_fields { m with sigs := m.sigs.put s (g.note p) } g.num p g.subs
      obtain ⟨m2, o, em⟩ : ∃ m2 o, Mgr.pushAll { m with sigs := m.sigs.put s (g.note p) } g.num p g.subs
          = (m2, o) := ⟨_, _, rfl⟩
      simp only
      rw [em] at hf ⊢
      have : NumInv m2 k' := by
        refine h.of (by omega) hf.2.1 fun x g' hg => ?_
        rw [hf.2.2.1] at hg
        simp only [get_put] at hg
        split at hg
        · rename_i hh; subst hh; cases hg
          exact ⟨g, e, (note_fields g p).1⟩
        · exact ⟨g', hg, rfl⟩
      cases o <;> exact this
  | subscribe s c =>
    simp only [Mgr.step]
    unfold Mgr.subscribe
    cases e : m.sigs.get s with
    | none => exact h.of (by omega) rfl fun x g hg => ⟨g, hg, rfl⟩
    | some g =>
      have key : ∀ (m' : Mgr) (g0 : Sig), m'.counter = m.counter → m'.sigs = m.sigs.put s g0 →
          g0.num = g.num → NumInv m' k' := by
        intro m' g0 h1 h2 h3
        refine h.of (by omega) h1 fun x g' hg => ?_
        rw [h2] at hg
        simp only [get_put] at hg
        split at hg
        · rename_i hh; subst hh; cases hg
          exact ⟨g, e, h3⟩
        · exact ⟨g', hg, rfl⟩
      simp only
      split
      · exact h.of (by omega) rfl fun x g hg => ⟨g, hg, rfl⟩
      · split
        · exact key _ _ rfl rfl rfl
        · cases hv : g.lastV with
          | none => exact key _ ⟨g.num, c :: g.subs, none, g.lastD⟩ rfl rfl rfl
          | some v =>
            simp only
            have hf := pushTo_fields m c g.num (.desc (some v) g.lastD)
            obtain ⟨m2, o, em⟩ : ∃ m2 o, m.pushTo c g.num (.desc (some v) g.lastD) = (m2, o) :=
              ⟨_, _, rfl⟩
            rw [em] at hf ⊢
            cases o with
            | none =>
              refine key _ ⟨g.num, c :: g.subs, some v, g.lastD⟩ hf.2.1 ?_ rfl
              simp only; rw [hf.2.2.1]
            | some y =>
              refine h.of (by omega) hf.2.1 fun x g' hg => ⟨g', ?_, rfl⟩
              rw [hf.2.2.1] at hg; exact hg

theorem numInv (st : Settings) (ops : List Op) (hlt : registrations ops < 4294967296) :
    NumInv (exec st ops).1 (registrations ops) := by
  induction ops using list_snoc_induction with
  | nil =>
    refine ⟨Nat.le_refl _, ?_, ?_⟩
    · intro s g hg; cases hg
    · intro s s' g g' hg; cases hg
  | snoc ops op ih =>
    have e : registrations (ops ++ [op]) =
        registrations ops + regs op := by
      simp [registrations]
    rw [exec_snoc]
    exact numInv_step (ih (by omega)) op _ e hlt

/-- C19: signals registered at the same time have different numeric ids (as long as fewer than `2^32`
signals were ever registered), so the packets of different signals are told apart. -/
theorem C19_numeric_ids (st : Settings) (ops : List Op) (hlt : registrations ops < 4294967296)
    (s s' n : Nat) (h : number s (hist st ops) = some n) (h' : number s' (hist st ops) = some n) :
    s = s' := by
  have hi := inv st ops
  have entry : ∀ x, number x (hist st ops) = some n →
      ∃ g, (exec st ops).1.sigs.get x = some g ∧ g.num = n := by
    intro x hx
    cases e : (exec st ops).1.sigs.get x with
    | none => rw [(hi.number_none e).1] at hx; cases hx
    | some g =>
      refine ⟨g, rfl, ?_⟩
      have := (hi.ok e).num
      rw [hx] at this; simpa using this.symm
  obtain ⟨g, e1, e2⟩ := entry s h
  obtain ⟨g', e1', e2'⟩ := entry s' h'
  exact (numInv st ops hlt).inj s s' g g' e1 e1' (by rw [e2, e2'])

/-- A scenario: two clients; the second subscribes late. -/
def scenario : List Op :=
  [.registerSignal 7, .registerSignal 9, .init 1 false, .init 2 true, .subscribe 7 1,
   .send 7 (.desc (some 50) (some 60)), .send 7 (.data 100), .send 7 (.desc none (some 61)),
   .subscribe 7 2, .send 7 (.data 101), .subscribe 9 2, .send 9 (.desc (some 70) none),
   .unsubscribe 7 1, .send 7 (.data 102), .send 9 (.data 103), .unregisterClient 2]

def sets : Settings := ⟨10, 5⟩

example : Orderly (hist sets scenario) ∧ DescriptorFirst (hist sets scenario) := by
  refine ⟨?_, ?_⟩
  · show Orderly [_, _, _, _, _, _, _, _, _, _, _, _, _, _, _, _]
    simp only [Orderly]; decide
  · show DescriptorFirst [_, _, _, _, _, _, _, _, _, _, _, _, _, _, _, _]
    simp only [DescriptorFirst]
    exact ⟨.inr (by decide), .inr (by decide), .inr (by decide), .inr (by decide), trivial⟩

example : received sets (scenario.take 15) 1 = some
    [(1, .desc (some 50) (some 60)), (1, .data 100), (1, .desc none (some 61)), (1, .data 101)] := by
  decide

example : received sets (scenario.take 15) 2 = some
    [(1, .desc (some 50) (some 61)), (1, .data 101), (2, .desc (some 70) none), (1, .data 102),
     (2, .data 103)] := by decide

example : result sets (scenario.take 15) (.unregisterClient 2) = .signals [7, 9] ∨
    result sets (scenario.take 15) (.unregisterClient 2) = .signals [9, 7] := by decide

example : notifications 7 (exec sets scenario).2 = [true, false] ∧
    notifications 9 (exec sets scenario).2 = [true, false] := by decide

/-- C18/C19 finding: a client that subscribes without having requested streaming (as first subscriber)
is accepted; from then on publishing the signal fails, for the other subscribers as well, and neither
is undone when that client is disconnected. -/
theorem C19_violation_unregistered_subscriber :
    let ops := [Op.registerSignal 7, .init 1 false, .subscribe 7 2, .subscribe 7 1]
    result sets ops.dropLast.dropLast (.subscribe 7 2) = .bool true ∧
    result sets ops (.send 7 (.desc (some 50) none)) = .noServer ∧
    result sets (ops ++ [.unregisterClient 2]) (.isSubscribed 7) = .bool true ∧
    result sets (ops ++ [.unregisterClient 2]) (.send 7 (.desc (some 50) none)) = .noServer ∧
    ∃ order : List Nat, order = [2, 1] ∧
      ((exec sets ops).1.pushAll 1 (.desc (some 50) none) order).1.servers.get 1 =
        (exec sets ops).1.servers.get 1 := by
  refine ⟨by decide, by decide, by decide, by decide, [2, 1], rfl, by decide⟩

/-- C18 finding: the subscription of such a client survives its disconnection. -/
theorem C18_violation_stale_subscription :
    let ops := [Op.registerSignal 7, .subscribe 7 2]
    result sets ops (.unregisterClient 2) = .signals [] ∧
    result sets (ops ++ [.unregisterClient 2]) (.isSubscribed 7) = .bool true := by
  decide

/-! ## C49 Server settings -/

/-- C49: the packet streaming server of a client is created with the configured maximum cacheable
payload size and release threshold – stated for one fresh registration. -/
def SettingsApplied (st : Settings) : Prop :=
  ∀ c r, ((exec st [.init c r]).1.servers.get c).map (fun v => (v.cacheMax, v.threshold)) =
    some (st.cacheablePayloadSizeMax, st.packetReleaseThreshold)

/-- C49 finding: over any history, each client's packet streaming server has the two settings
exchanged. -/
theorem C49_violation_swapped (st : Settings) (ops : List Op) (c : Nat) (v : Server)
    (h : (exec st ops).1.servers.get c = some v) :
    v.cacheMax = st.packetReleaseThreshold ∧ v.threshold = st.cacheablePayloadSizeMax := by
  have key : ∀ ops, (exec st ops).1.settings = st ∧ ∀ c v, (exec st ops).1.servers.get c = some v →
      v.cacheMax = st.packetReleaseThreshold ∧ v.threshold = st.cacheablePayloadSizeMax := by
    intro ops
    induction ops using list_snoc_induction with
    | nil => exact ⟨rfl, fun c v hv => by cases hv⟩
    | snoc ops op ih =>
      rw [exec_snoc]
      generalize (exec st ops).1 = m at ih
      obtain ⟨i1, i2⟩ := ih
      have pt : ∀ (m : Mgr) (c n : Nat) (p : Pk),
          (∀ c v, m.servers.get c = some v →
            v.cacheMax = st.packetReleaseThreshold ∧ v.threshold = st.cacheablePayloadSizeMax) →
          ∀ c' v, (m.pushTo c n p).1.servers.get c' = some v →
            v.cacheMax = st.packetReleaseThreshold ∧ v.threshold = st.cacheablePayloadSizeMax := by
        intro m c n p hm c' v hv
        unfold Mgr.pushTo at hv
        cases e : m.servers.get c with
        | none => rw [e] at hv; exact hm c' v hv
        | some w =>
          rw [e] at hv
          simp only at hv
          split at hv
          · simp only [get_put] at hv
            split at hv
            · cases hv; exact hm c w e
            · exact hm c' v hv
          · exact hm c' v hv
      have pa : ∀ (cs : List Nat) (m : Mgr) (n : Nat) (p : Pk),
          (∀ c v, m.servers.get c = some v →
            v.cacheMax = st.packetReleaseThreshold ∧ v.threshold = st.cacheablePayloadSizeMax) →
          ∀ c' v, (m.pushAll n p cs).1.servers.get c' = some v →
            v.cacheMax = st.packetReleaseThreshold ∧ v.threshold = st.cacheablePayloadSizeMax := by
        intro cs
        induction cs with
        | nil => intro m n p hm; exact hm
        | cons d cs ihc =>
          intro m n p hm
          unfold Mgr.pushAll
          have := pt m d n p hm
          obtain ⟨m', o, em⟩ : ∃ m' o, m.pushTo d n p = (m', o) := ⟨_, _, rfl⟩
          rw [em] at this ⊢
          cases o with
          | none => exact ihc m' n p this
          | some x => exact this
      cases op with
      | registerSignal s =>
        simp only [Mgr.step]; unfold Mgr.registerSignal
        split <;> exact ⟨i1, i2⟩
      | removeSignal s =>
        simp only [Mgr.step]; unfold Mgr.removeSignal
        split <;> exact ⟨i1, i2⟩
      | isSubscribed s => exact ⟨i1, i2⟩
      | numericId s => exact ⟨i1, i2⟩
      | clientLookup s => exact ⟨i1, i2⟩
      | clientUnavailable n s c => exact ⟨i1, i2⟩
      | clientGone c => exact ⟨i1, i2⟩
      | clientAvailable n s c =>
        simp only [Mgr.step]; unfold Mgr.clientSignalAvailable
        split <;> exact ⟨i1, i2⟩
      | unsubscribe s c =>
        simp only [Mgr.step]; unfold Mgr.unsubscribe
        split <;> exact ⟨i1, i2⟩
      | unregisterClient c =>
        simp only [Mgr.step]; unfold Mgr.unregisterClient
        split
        · refine ⟨i1, fun x v hv => ?_⟩
          simp only [get_del] at hv
          split at hv
          · cases hv
          · exact i2 x v hv
        · exact ⟨i1, i2⟩
      | init c r =>
        simp only [Mgr.step]; unfold Mgr.streamingInit Mgr.registerClient
        split
        · exact ⟨i1, i2⟩
        · refine ⟨i1, fun x v hv => ?_⟩
          have sub : ∀ y w, (if r = true then m.servers else m.servers.del c).get y = some w →
              w.cacheMax = st.packetReleaseThreshold ∧ w.threshold = st.cacheablePayloadSizeMax := by
            intro y w hw
            cases r
            · simp only [Bool.false_eq_true, if_false, get_del] at hw
              split at hw
              · cases hw
              · exact i2 y w hw
            · exact i2 y w hw
          simp only [get_add] at hv
          split at hv
          · cases e : AList.get (if r = true then m.servers else m.servers.del c) c with
            | none => rw [e] at hv; cases hv; rw [i1]; exact ⟨rfl, rfl⟩
            | some w => rw [e] at hv; cases hv; exact sub c w e
          · exact sub x v hv
      | send s p =>
        simp only [Mgr.step]; unfold Mgr.send
        split
        · exact ⟨i1, i2⟩
        · rename_i g _
          have hf := pushAll_fields { m with sigs := m.sigs.put s (g.note p) } g.num p g.subs
          have hp := pa g.subs { m with sigs := m.sigs.put s (g.note p) } g.num p i2
          simp only
          obtain ⟨m2, o, em⟩ : ∃ m2 o,
              Mgr.pushAll { m with sigs := m.sigs.put s (g.note p) } g.num p g.subs = (m2, o) :=
            ⟨_, _, rfl⟩
          rw [em] at hf hp ⊢
          cases o <;> exact ⟨hf.1.trans i1, hp⟩
      | subscribe s c =>
        simp only [Mgr.step]; unfold Mgr.subscribe
        split
        · exact ⟨i1, i2⟩
        · rename_i g _
          split
          · exact ⟨i1, i2⟩
          · split
            · exact ⟨i1, i2⟩
            · cases g.lastV with
              | none => exact ⟨i1, i2⟩
              | some v =>
                simp only
                have hf := pushTo_fields m c g.num (.desc (some v) g.lastD)
                have hp := pt m c g.num (.desc (some v) g.lastD) i2
                obtain ⟨m2, o, em⟩ : ∃ m2 o, m.pushTo c g.num (.desc (some v) g.lastD) = (m2, o) :=
                  ⟨_, _, rfl⟩
                rw [em] at hf hp ⊢
                cases o <;> exact ⟨hf.1.trans i1, hp⟩
  exact (key ops).2 c v h

/-- C49: the settings are applied as named only if the two numbers happen to be equal. -/
theorem C49_applied_iff_equal_partial (st : Settings) :
    SettingsApplied st ↔ st.cacheablePayloadSizeMax = st.packetReleaseThreshold := by
  constructor
  · intro h
    have := h 0 false
    simp [exec, runTrace, Mgr.step, Mgr.streamingInit, Mgr.registerClient, Mgr.init, AList.add,
      AList.get, AList.del] at this
    exact this.2
  · intro h c r
    cases r <;> simp [exec, runTrace, Mgr.step, Mgr.streamingInit, Mgr.registerClient, Mgr.init, AList.add,
      AList.get, AList.del, h]

example : ¬ SettingsApplied ⟨10, 5⟩ := by
  rw [C49_applied_iff_equal_partial]; decide

/-! ## C50 Signals announced by clients -/

structure CsInv (m : Mgr) (h : Hist) : Prop where
  get : ∀ s, m.csigs.get s = owner s h
  keys : (m.csigs.map Prod.fst).Nodup

theorem CsInv.same {m m' : Mgr} {h : Hist} {op : Op} {o : Out} (hc : CsInv m h)
    (h1 : m'.csigs = m.csigs) (h2 : ∀ s, owner s ((op, o) :: h) = owner s h) :
    CsInv m' ((op, o) :: h) :=
  ⟨fun s => by rw [h1, h2]; exact hc.get s, by rw [h1]; exact hc.keys⟩

theorem get_filter_owner (m : AList Nat ClientSig) (hk : (m.map Prod.fst).Nodup) (c s : Nat) :
    AList.get (m.filter fun e => e.2.owner != c) s =
      (match AList.get m s with
        | some x => if x.owner = c then none else some x
        | none => none) := by
  induction m with
  | nil => rfl
  | cons e m ih =>
    obtain ⟨k, x⟩ := e
    rw [List.map_cons, List.nodup_cons] at hk
    have ih := ih hk.2
    rw [List.filter_cons]
    by_cases hx : x.owner = c
    · simp only [hx, bne_self_eq_false, Bool.false_eq_true, if_false, get_cons, ih]
      by_cases hs : s = k
      · subst hs
        have : AList.get m s = none := by
          cases e : AList.get m s with
          | none => rfl
          | some y => exact absurd (List.mem_map.mpr ⟨_, mem_of_get e, rfl⟩) hk.1
        simp [this, hx]
      · simp [hs]
    · have : (x.owner != c) = true := by simpa using hx
      simp only [this, if_true, get_cons, ih]
      by_cases hs : s = k
      · simp [hs, hx]
      · simp [hs]

theorem csInv_step {m : Mgr} {h : Hist} (hc : CsInv m h) (op : Op)
    (ho : OwnWithdrawals ((op, (m.step op).2) :: h)) : CsInv (m.step op).1 ((op, (m.step op).2) :: h) := by
  cases op with
  | registerSignal s =>
    refine hc.same ?_ fun _ => rfl
    simp only [Mgr.step]; unfold Mgr.registerSignal; split <;> rfl
  | removeSignal s =>
    refine hc.same ?_ fun _ => rfl
    simp only [Mgr.step]; unfold Mgr.removeSignal; split <;> rfl
  | isSubscribed s => exact hc.same rfl fun _ => rfl
  | numericId s => exact hc.same rfl fun _ => rfl
  | clientLookup s => exact hc.same rfl fun _ => rfl
  | init c r =>
    refine hc.same ?_ fun _ => rfl
    simp only [Mgr.step]; unfold Mgr.streamingInit Mgr.registerClient; split <;> rfl
  | unregisterClient c =>
    refine hc.same ?_ fun _ => rfl
    simp only [Mgr.step]; unfold Mgr.unregisterClient; split <;> rfl
  | unsubscribe s c =>
    refine hc.same ?_ fun _ => rfl
    simp only [Mgr.step]; unfold Mgr.unsubscribe; split <;> rfl
  | send s p =>
    refine hc.same ?_ fun _ => rfl
    simp only [Mgr.step]; unfold Mgr.send
    split
    · rfl
    · rename_i g _
      have hf := pushAll_fields { m with sigs := m.sigs.put s (g.note p) } g.num p g.subs
      simp only
      split <;> (rename_i em; rw [em] at hf; exact hf.2.2.2.2)
  | subscribe s c =>
    refine hc.same ?_ fun _ => rfl
    simp only [Mgr.step]; unfold Mgr.subscribe
    split
    · rfl
    · rename_i g _
      split
      · rfl
      · split
        · rfl
        · cases g.lastV with
          | none => rfl
          | some v =>
            simp only
            have hf := pushTo_fields m c g.num (.desc (some v) g.lastD)
            split <;> (rename_i em; rw [em] at hf; exact hf.2.2.2.2)
  | clientAvailable n s c =>
    simp only [Mgr.step]; unfold Mgr.clientSignalAvailable
    cases e : m.csigs.get s with
    | none =>
      refine ⟨fun x => ?_, keys_put _ _ _ hc.keys⟩
      simp only [get_put, owner]
      by_cases hx : x = s
      · subst hx; rw [if_pos rfl, if_pos ⟨rfl, by rw [← hc.get, e]⟩]
      · rw [if_neg hx, if_neg (fun hh => hx hh.1.symm)]; exact hc.get x
    | some y =>
      refine ⟨fun x => ?_, hc.keys⟩
      simp only [owner]
      rw [if_neg]
      · exact hc.get x
      · rintro ⟨rfl, h2⟩
        rw [← hc.get, e] at h2; cases h2
  | clientUnavailable n s c =>
    refine ⟨fun x => ?_, keys_del _ _ hc.keys⟩
    show AList.get (AList.del m.csigs s) x = _
    simp only [get_del, owner]
    simp only [OwnWithdrawals] at ho
    by_cases hx : x = s
    · subst hx
      rw [if_pos rfl]
      rcases ho.1 with h1 | h1
      · rw [if_neg (by rw [h1]; simp), h1]
      · rw [if_pos ⟨rfl, h1⟩]
    · rw [if_neg hx, if_neg (fun hh => hx hh.1.symm)]; exact hc.get x
  | clientGone c =>
    refine ⟨fun x => ?_, hc.keys.sublist (List.Sublist.map _ List.filter_sublist)⟩
    show AList.get (m.csigs.filter fun e => e.2.owner != c) x = _
    rw [get_filter_owner _ hc.keys, hc.get]
    simp only [owner]
    rfl

theorem csInv (st : Settings) (ops : List Op) (ho : OwnWithdrawals (hist st ops)) :
    CsInv (exec st ops).1 (hist st ops) := by
  induction ops using list_snoc_induction with
  | nil => exact ⟨fun s => rfl, List.nodup_nil⟩
  | snoc ops op ih =>
    rw [hist_snoc] at ho ⊢
    rw [exec_snoc]
    exact csInv_step (ih (ownWith_tail ho)) op ho

/-- C50 (partial: clients withdraw only signals they announced): the server always knows a client signal
by the numeric id and client that announced it first and did not withdraw it. -/
theorem C50_lookup_partial (st : Settings) (ops : List Op) (ho : OwnWithdrawals (hist st ops)) (s : Nat) :
    result st ops (.clientLookup s) = .found (owner s (hist st ops)) := by
  unfold result
  show Out.found ((exec st ops).1.csigs.get s) = _
  rw [(csInv st ops ho).get]

/-- C50 (partial, same restriction): when a client goes away, exactly its signals are reported, each once. -/
theorem C50_gone_partial (st : Settings) (ops : List Op) (ho : OwnWithdrawals (hist st ops)) (c : Nat) :
    ∃ l, result st ops (.clientGone c) = .signals l ∧ l.Nodup ∧
      ∀ s, s ∈ l ↔ ∃ n, owner s (hist st ops) = some ⟨n, c⟩ := by
  have hc := csInv st ops ho
  refine ⟨_, rfl, hc.keys.sublist (List.Sublist.map _ List.filter_sublist), fun s => ?_⟩
  rw [mem_keys_filter hc.keys (fun x => x.owner == c), hc.get]
  constructor
  · rintro ⟨⟨n, d⟩, h1, h2⟩
    have : d = c := by simpa using h2
    subst this; exact ⟨n, h1⟩
  · rintro ⟨n, h⟩; exact ⟨⟨n, c⟩, h, by simp⟩

example : OwnWithdrawals (hist sets [.clientAvailable 4 8 1, .clientAvailable 5 8 2,
      .clientAvailable 6 9 2, .clientUnavailable 6 9 2]) ∧
    result sets [.clientAvailable 4 8 1, .clientAvailable 5 8 2] (.clientLookup 8) =
      .found (some ⟨4, 1⟩) := by
  refine ⟨?_, by decide⟩
  show OwnWithdrawals [_, _, _, _]
  simp only [OwnWithdrawals]
  exact ⟨.inr (by decide), trivial⟩

/-- C50 finding: a client withdraws a signal announced by another client. -/
theorem C50_violation_foreign_withdrawal :
    result sets [.clientAvailable 4 8 1] (.clientLookup 8) = .found (some ⟨4, 1⟩) ∧
    result sets [.clientAvailable 4 8 1, .clientUnavailable 5 8 2] (.clientLookup 8) = .found none := by
  decide

end Verif.Streaming
