import Verif.Streaming.Inv

/-! Packets handed to each client, and client signals (helper lemmas). -/

namespace Verif.Streaming
open Verif.AList

/-! ### `busy` -/

theorem mem_of_subscribed {s c : Nat} {h : Hist} (hs : subscribed s c h = true) :
    ∃ s' o, (Op.subscribe s' c, o) ∈ h := by
  induction h with
  | nil => cases hs
  | cons e h ih =>
    have lift : (∃ s' o, (Op.subscribe s' c, o) ∈ h) → ∃ s' o, (Op.subscribe s' c, o) ∈ e :: h := by
      rintro ⟨s', o, hm⟩; exact ⟨s', o, List.mem_cons_of_mem _ hm⟩
    obtain ⟨op, o⟩ := e
    unfold subscribed at hs
    split at hs
    · cases hs
    · rename_i hh; cases hh
      split at hs
      · rename_i hh
        have h2 := hh.2
        subst h2
        exact ⟨_, _, List.mem_cons_self⟩
      · exact lift (ih hs)
    · rename_i hh; cases hh
      split at hs
      · cases hs
      · exact lift (ih hs)
    · rename_i hh; cases hh
      split at hs
      · cases hs
      · exact lift (ih hs)
    · rename_i hh; cases hh
      split at hs
      · cases hs
      · exact lift (ih hs)
    · rename_i hh; cases hh
      exact lift (ih hs)

theorem busy_iff (s : Nat) (h : Hist) : busy s h = true ↔ ∃ c, subscribed s c h = true := by
  unfold busy
  rw [List.any_eq_true]
  constructor
  · rintro ⟨⟨op, o⟩, _, hh⟩
    cases op <;> simp only [Bool.false_eq_true] at hh
    exact ⟨_, hh⟩
  · rintro ⟨c, hc⟩
    obtain ⟨s', o, hm⟩ := mem_of_subscribed hc
    exact ⟨_, hm, hc⟩

theorem busy_false_iff (s : Nat) (h : Hist) : busy s h = false ↔ Idle s h := by
  constructor
  · intro hb c
    cases hc : subscribed s c h with
    | false => rfl
    | true => rw [(busy_iff s h).mpr ⟨c, hc⟩] at hb; cases hb
  · intro hi
    cases hb : busy s h with
    | false => rfl
    | true => obtain ⟨c, hc⟩ := (busy_iff s h).mp hb; rw [hi c] at hc; cases hc

theorem SigOk.busy {s : Nat} {h : Hist} {g : Sig} (hg : SigOk s h g) :
    busy s h = !g.subs.isEmpty := by
  cases hl : g.subs with
  | nil =>
    simp only [List.isEmpty_nil, Bool.not_true]
    rw [busy_false_iff]
    intro c
    cases hc : subscribed s c h with
    | false => rfl
    | true => have := (hg.subs c).mpr hc; rw [hl] at this; cases this
  | cons c l =>
    simp only [List.isEmpty_cons, Bool.not_false]
    exact (busy_iff s h).mpr ⟨c, (hg.subs c).mp (by rw [hl]; simp)⟩

/-! ### Packet logs -/

def LogInv (m : Mgr) (h : Hist) : Prop := ∀ c v, m.servers.get c = some v → v.log = expects c h

theorem LogInv.same {m m' : Mgr} {h : Hist} {op : Op} {o : Out} (hl : LogInv m h)
    (hs : m'.servers = m.servers) (he : ∀ c, expects c ((op, o) :: h) = expects c h) :
    LogInv m' ((op, o) :: h) := by
  intro c v hv
  rw [he]; exact hl c v (by rw [← hs]; exact hv)

theorem logInv_step {m : Mgr} {h : Hist} (hi : Inv m h) (hl : LogInv m h) (op : Op)
    (hf : (m.step op).2 ≠ .noServer ∧ (m.step op).2 ≠ .noDescriptor) :
    LogInv (m.step op).1 ((op, (m.step op).2) :: h) := by
  cases op with
  | registerSignal s =>
    show LogInv (m.registerSignal s).1 ((_, (m.registerSignal s).2) :: h)
    unfold Mgr.registerSignal
    split <;> exact hl.same rfl fun _ => rfl
  | removeSignal s =>
    show LogInv (m.removeSignal s).1 ((_, (m.removeSignal s).2) :: h)
    unfold Mgr.removeSignal
    split <;> exact hl.same rfl fun _ => rfl
  | isSubscribed s => exact hl.same rfl fun _ => rfl
  | numericId s => exact hl.same rfl fun _ => rfl
  | clientLookup s => exact hl.same rfl fun _ => rfl
  | clientAvailable n s c =>
    show LogInv (m.clientSignalAvailable n s c).1 ((_, (m.clientSignalAvailable n s c).2) :: h)
    unfold Mgr.clientSignalAvailable
    split <;> exact hl.same rfl fun _ => rfl
  | clientUnavailable n s c => exact hl.same rfl fun _ => rfl
  | clientGone c => exact hl.same rfl fun _ => rfl
  | unsubscribe s c =>
    show LogInv (m.unsubscribe s c).1 ((_, (m.unsubscribe s c).2) :: h)
    unfold Mgr.unsubscribe
    split <;> exact hl.same rfl fun _ => rfl
  | unregisterClient c =>
    show LogInv (m.unregisterClient c).1 ((_, (m.unregisterClient c).2) :: h)
    unfold Mgr.unregisterClient
    split
    · intro x v hv
      simp only [get_del] at hv
      split at hv
      · cases hv
      · exact hl x v hv
    · exact hl.same rfl fun _ => rfl
  | init c r =>
    show LogInv (m.streamingInit c r).1 ((_, (m.streamingInit c r).2) :: h)
    unfold Mgr.streamingInit Mgr.registerClient
    split
    · exact hl.same rfl fun _ => rfl
    · rename_i hc
      have hn : m.servers.get c = none := by
        have := hi.srv c
        cases hr : registered c h with
        | true => exact absurd (List.contains_iff_mem.mpr ((hi.cli c).mpr hr)) hc
        | false =>
          rw [hr] at this
          cases hg : m.servers.get c with
          | none => rfl
          | some v => rw [hg] at this; cases this
      intro x v hv
      simp only [get_add] at hv
      simp only [expects]
      by_cases hx : x = c
      · subst hx
        rw [if_pos rfl] at hv ⊢
        have : ∀ (sv : AList Nat Server), sv = m.servers ∨ sv = m.servers.del x → sv.get x = none := by
          rintro sv (rfl | rfl)
          · exact hn
          · simp [get_del]
        have h1 := this (if r = true then m.servers else m.servers.del x) (by split <;> simp)
        rw [h1] at hv
        cases hv; rfl
      · rw [if_neg hx] at hv
        rw [if_neg (fun hh => hx hh.symm)]
        refine hl x v ?_
        cases r
        · simpa [get_del, hx] using hv
        · simpa using hv
  | send s p =>
    replace hf : (m.send s p).2 ≠ .noServer ∧ (m.send s p).2 ≠ .noDescriptor := hf
    show LogInv (m.send s p).1 ((_, (m.send s p).2) :: h)
    unfold Mgr.send at hf ⊢
    cases e : m.sigs.get s with
    | none => exact hl.same rfl fun _ => rfl
    | some g =>
      have hg := hi.ok e
      rw [e] at hf
      simp only at hf ⊢
      have ho := pushAll_out { m with sigs := m.sigs.put s (g.note p) } g.num p g.subs
      have hsv := pushAll_servers { m with sigs := m.sigs.put s (g.note p) } g.num p g.subs hg.nodup
      obtain ⟨m2, o, em⟩ : ∃ m2 o, Mgr.pushAll { m with sigs := m.sigs.put s (g.note p) } g.num p g.subs
          = (m2, o) := ⟨_, _, rfl⟩
      rw [em] at hf ho hsv ⊢
      cases o with
      | some x =>
        rcases ho with ho | ho | ho <;> cases ho
        · exact absurd rfl hf.1
        · exact absurd rfl hf.2
      | none =>
        intro x v hv
        simp only at hv
        rw [hsv x rfl] at hv
        obtain ⟨w, hw, rfl⟩ := Option.map_eq_some_iff.mp hv
        have hlw := hl x w hw
        simp only [expects]
        by_cases hx : x ∈ g.subs
        · rw [if_pos hx, if_pos ((hg.subs x).mp hx), hg.num]
          simp [hlw]
        · rw [if_neg hx, if_neg (fun hh => hx ((hg.subs x).mpr hh))]
          exact hlw
  | subscribe s c =>
    replace hf : (m.subscribe s c).2 ≠ .noServer ∧ (m.subscribe s c).2 ≠ .noDescriptor := hf
    show LogInv (m.subscribe s c).1 ((_, (m.subscribe s c).2) :: h)
    unfold Mgr.subscribe at hf ⊢
    cases e : m.sigs.get s with
    | none => exact hl.same rfl fun _ => rfl
    | some g =>
      have hg := hi.ok e
      rw [e] at hf
      simp only at hf ⊢
      split
      · rename_i hc
        have hc : c ∈ g.subs := by simpa using hc
        refine hl.same rfl fun x => ?_
        simp only [expects]
        rw [if_neg]
        rintro ⟨rfl, h2, _⟩
        rw [(hg.subs c).mp hc] at h2; cases h2
      · rename_i hc
        rw [if_neg hc] at hf
        split
        · rename_i hem
          refine hl.same rfl fun x => ?_
          simp only [expects]
          rw [if_neg]
          rintro ⟨_, _, h3, _⟩
          rw [hg.busy, hem] at h3; cases h3
        · rename_i hem
          rw [if_neg hem] at hf
          cases hv : g.lastV with
          | none =>
            refine hl.same rfl fun x => ?_
            simp only [expects]
            rw [if_neg]
            rintro ⟨_, _, _, h4⟩
            rw [hg.desc, hv] at h4; cases h4
          | some v =>
            rw [hv] at hf
            simp only at hf ⊢
            have ho := pushTo_out m c g.num (.desc (some v) g.lastD)
            have hsv := fun x => (pushTo_servers m c g.num (.desc (some v) g.lastD) x).2
            obtain ⟨m2, o, em⟩ : ∃ m2 o, m.pushTo c g.num (.desc (some v) g.lastD) = (m2, o) :=
              ⟨_, _, rfl⟩
            rw [em] at hf hsv ho ⊢
            cases o with
            | some x =>
              rcases ho with ho | ho | ho <;> cases ho
              · exact absurd rfl hf.1
              · exact absurd rfl hf.2
            | none =>
              intro x w hw
              simp only at hw
              rw [hsv x rfl] at hw
              obtain ⟨w0, hw0, rfl⟩ := Option.map_eq_some_iff.mp hw
              have hlw := hl x w0 hw0
              simp only [expects]
              have hb : busy s h = true := by rw [hg.busy]; simpa using hem
              have hns : subscribed s c h = false := by
                cases hh : subscribed s c h with
                | false => rfl
                | true => exact absurd (List.contains_iff_mem.mpr ((hg.subs c).mpr hh)) hc
              by_cases hx : x = c
              · subst hx
                rw [if_pos rfl, if_pos ⟨rfl, hns, hb, by rw [hg.desc, hv]; rfl⟩, hg.num, hg.desc, hv]
                simp [hlw]
              · rw [if_neg hx, if_neg (fun hh => hx hh.1.symm)]
                exact hlw

theorem logInv (st : Settings) (ops : List Op) (hf : NoFail (hist st ops)) :
    LogInv (exec st ops).1 (hist st ops) := by
  induction ops using list_snoc_induction with
  | nil => intro c v hv; cases hv
  | snoc ops op ih =>
    rw [hist_snoc] at hf ⊢
    rw [exec_snoc]
    exact logInv_step (inv st ops) (ih fun e he => hf e (List.mem_cons_of_mem _ he)) op
      (hf _ List.mem_cons_self)

/-! ### No failures in orderly histories -/

def hasDesc (n : Nat) (v : Server) : Prop := ∀ i, v.accepts n (.data i) = true

structure FailInv (m : Mgr) (h : Hist) : Prop where
  noFail : NoFail h
  reg : ∀ s g c, m.sigs.get s = some g → c ∈ g.subs → registered c h = true
  last : ∀ s g, m.sigs.get s = some g → primed s h = true → g.lastV.isSome
  ready : ∀ s g c v, m.sigs.get s = some g → primed s h = true → c ∈ g.subs →
    m.servers.get c = some v → hasDesc g.num v

theorem accepts_mono {v : Server} {n n' : Nat} {p : Pk} (h : hasDesc n v) :
    hasDesc n { v with log := v.log ++ [(n', p)] } := by
  intro i
  have := h i
  simp only [Server.accepts, List.any_append] at this ⊢
  rw [this]; rfl

theorem accepts_desc (v : Server) (n x : Nat) (d : Option Nat) :
    hasDesc n { v with log := v.log ++ [(n, .desc (some x) d)] } := by
  intro i
  simp [Server.accepts]

theorem orderly_tail {e : Op × Out} {h : Hist} (ho : Orderly (e :: h)) : Orderly h := by
  unfold Orderly at ho
  split at ho
  · rename_i hh; cases hh
  · rename_i hh; cases hh; exact ho.2
  · rename_i hh; cases hh; exact ho

theorem descFirst_tail {e : Op × Out} {h : Hist} (ho : DescriptorFirst (e :: h)) :
    DescriptorFirst h := by
  unfold DescriptorFirst at ho
  split at ho
  · rename_i hh; cases hh
  · rename_i hh; cases hh; exact ho.2
  · rename_i hh; cases hh; exact ho

theorem noFail_cons {e : Op × Out} {h : Hist} (h1 : e.2 ≠ .noServer ∧ e.2 ≠ .noDescriptor)
    (h2 : NoFail h) : NoFail (e :: h) := by
  intro x hx
  rcases List.mem_cons.mp hx with rfl | hx
  · exact h1
  · exact h2 x hx

/-- Calls that push nothing and leave the entries alone or remove subscribers. -/
theorem FailInv.mono {m m' : Mgr} {h : Hist} {op : Op} {o : Out} (hf : FailInv m h)
    (ho : o ≠ .noServer ∧ o ≠ .noDescriptor)
    (hs : ∀ s g', m'.sigs.get s = some g' → ∃ g, m.sigs.get s = some g ∧ g'.num = g.num ∧
      g'.lastV = g.lastV ∧ ∀ c ∈ g'.subs, c ∈ g.subs ∧
        (registered c h = true → registered c ((op, o) :: h) = true ∧
          m'.servers.get c = m.servers.get c))
    (hp : ∀ s, primed s ((op, o) :: h) = true → primed s h = true) : FailInv m' ((op, o) :: h) := by
  refine ⟨noFail_cons ho hf.noFail, ?_, ?_, ?_⟩
  · intro s g' c hg hc
    obtain ⟨g, h1, _, _, h4⟩ := hs s g' hg
    exact ((h4 c hc).2 (hf.reg s g c h1 (h4 c hc).1)).1
  · intro s g' hg hpr
    obtain ⟨g, h1, _, h3, _⟩ := hs s g' hg
    rw [h3]; exact hf.last s g h1 (hp s hpr)
  · intro s g' c v hg hpr hc hv
    obtain ⟨g, h1, h2, _, h4⟩ := hs s g' hg
    obtain ⟨h5, h6⟩ := h4 c hc
    rw [h2]
    refine hf.ready s g c v h1 (hp s hpr) h5 ?_
    rw [← (h6 (hf.reg s g c h1 h5)).2]; exact hv

theorem FailInv.same {m : Mgr} {h : Hist} {op : Op} {o : Out} (hf : FailInv m h)
    (ho : o ≠ .noServer ∧ o ≠ .noDescriptor)
    (hr : ∀ c, registered c h = true → registered c ((op, o) :: h) = true)
    (hp : ∀ s, primed s ((op, o) :: h) = true → primed s h = true) : FailInv m ((op, o) :: h) :=
  hf.mono ho (fun _ g' hg => ⟨g', hg, rfl, rfl, fun c hc => ⟨hc, fun hh => ⟨hr c hh, rfl⟩⟩⟩) hp

theorem FailInv.send {m : Mgr} {h : Hist} (hi : Inv m h) (hf : FailInv m h) (s : Nat) (p : Pk)
    (hd : DescriptorFirst ((.send s p, (m.send s p).2) :: h)) :
    FailInv (m.send s p).1 ((.send s p, (m.send s p).2) :: h) := by
  unfold Mgr.send at hd ⊢
  cases e : m.sigs.get s with
  | none =>
    refine hf.same (by simp) (fun _ h => h) fun x hx => ?_
    obtain ⟨e1, _⟩ := hi.number_none e
    cases p with
    | data _ => exact hx
    | other _ => exact hx
    | desc v d =>
      cases v with
      | none => exact hx
      | some v =>
        simp only [primed] at hx
        split at hx
        · rename_i hh; obtain ⟨rfl, h2⟩ := hh; exact absurd e1 h2
        · exact hx
  | some g =>
    rw [e] at hd
    have hg := hi.ok e
    simp only at hd ⊢
    have hsrv : ∀ c ∈ g.subs, ∃ v, m.servers.get c = some v := by
      intro c hc
      have h1 := hi.srv c
      rw [hf.reg s g c e hc] at h1
      exact Option.isSome_iff_exists.mp h1
    have hok : (Mgr.pushAll { m with sigs := m.sigs.put s (g.note p) } g.num p g.subs).2 = none := by
      refine pushAll_ok _ _ _ _ hg.nodup fun c hc => ?_
      obtain ⟨v, hv⟩ := hsrv c hc
      refine ⟨v, hv, ?_⟩
      cases p with
      | desc _ _ => rfl
      | other _ => rfl
      | data i =>
        simp only [DescriptorFirst] at hd
        rcases hd.1 with hidle | hpr
        · have := (hg.subs c).mp hc
          rw [hidle c] at this; cases this
        · exact hf.ready s g c v e hpr hc hv i
    have hfl := pushAll_fields { m with sigs := m.sigs.put s (g.note p) } g.num p g.subs
    have hsv := pushAll_servers { m with sigs := m.sigs.put s (g.note p) } g.num p g.subs hg.nodup
    obtain ⟨m2, o, em⟩ : ∃ m2 o, Mgr.pushAll { m with sigs := m.sigs.put s (g.note p) } g.num p g.subs
        = (m2, o) := ⟨_, _, rfl⟩
    rw [em] at hok hfl hsv ⊢
    simp only at hok
    subst hok
    simp only at hfl hsv ⊢
    have hsig : ∀ x, m2.sigs.get x = if x = s then some (g.note p) else m.sigs.get x := by
      intro x; rw [hfl.2.2.1, get_put]
    have hp : ∀ x, primed x ((.send s p, .done) :: h) = true → primed x h = true ∨
        (x = s ∧ ∃ v d, p = .desc (some v) d) := by
      intro x hx
      cases p with
      | data _ => exact .inl hx
      | other _ => exact .inl hx
      | desc v d =>
        cases v with
        | none => exact .inl hx
        | some v =>
          simp only [primed] at hx
          split at hx
          · rename_i hh; exact .inr ⟨hh.1.symm, v, d, rfl⟩
          · exact .inl hx
    obtain ⟨n1, n2⟩ := note_fields g p
    refine ⟨noFail_cons (by simp) hf.noFail, ?_, ?_, ?_⟩
    · intro x g' c hg' hc
      rw [hsig] at hg'
      by_cases hx : x = s
      · subst hx
        rw [if_pos rfl] at hg'; cases hg'
        rw [n2] at hc
        exact hf.reg x g c e hc
      · rw [if_neg hx] at hg'
        exact hf.reg x g' c hg' hc
    · intro x g' hg' hpr
      rw [hsig] at hg'
      by_cases hx : x = s
      · subst hx
        rw [if_pos rfl] at hg'; cases hg'
        rcases hp x hpr with h1 | ⟨_, v, d, rfl⟩
        · have := hf.last x g e h1
          cases p with
          | data _ => exact this
          | other _ => exact this
          | desc v d => cases v <;> simp [Sig.note, this]
        · rfl
      · rw [if_neg hx] at hg'
        rcases hp x hpr with h1 | ⟨h1, _⟩
        · exact hf.last x g' hg' h1
        · exact absurd h1 hx
    · intro x g' c v hg' hpr hc hv
      rw [hsv c trivial] at hv
      obtain ⟨w, hw, rfl⟩ := Option.map_eq_some_iff.mp hv
      rw [hsig] at hg'
      by_cases hx : x = s
      · subst hx
        rw [if_pos rfl] at hg'; cases hg'
        rw [n2] at hc
        rw [n1, if_pos hc]
        rcases hp x hpr with h1 | ⟨_, v, d, rfl⟩
        · exact accepts_mono (hf.ready x g c w e h1 hc hw)
        · exact accepts_desc w g.num v d
      · rw [if_neg hx] at hg'
        rcases hp x hpr with h1 | ⟨h1, _⟩
        · have := hf.ready x g' c w hg' h1 hc hw
          split
          · exact accepts_mono this
          · exact this
        · exact absurd h1 hx

theorem FailInv.subscribe {m : Mgr} {h : Hist} (hi : Inv m h) (hf : FailInv m h) (s c : Nat)
    (hr : registered c h = true) :
    FailInv (m.subscribe s c).1 ((.subscribe s c, (m.subscribe s c).2) :: h) := by
  unfold Mgr.subscribe
  cases e : m.sigs.get s with
  | none => exact hf.same (by simp) (fun _ h => h) fun x hx => hx
  | some g =>
    have hg := hi.ok e
    simp only
    split
    · exact hf.same (by simp) (fun _ h => h) fun x hx => hx
    · -- the entry gets a new subscriber
      have key : ∀ (m' : Mgr) (b : Bool),
          m'.sigs = m.sigs.put s { g with subs := c :: g.subs } →
          (∀ x v, m'.servers.get x = some v → ∃ w, m.servers.get x = some w ∧
            ∀ n, hasDesc n w → hasDesc n v) →
          (b = true ∨ (primed s h = true → ∀ v, m'.servers.get c = some v → hasDesc g.num v)) →
          FailInv m' ((.subscribe s c, .bool b) :: h) := by
        intro m' b h1 h2 h3
        have hp : ∀ x, primed x ((.subscribe s c, .bool b) :: h) = true →
            primed x h = true ∧ (b = true → x ≠ s) := by
          intro x hx
          cases b with
          | false => exact ⟨hx, by simp⟩
          | true =>
            simp only [primed] at hx
            split at hx
            · cases hx
            · rename_i hh; exact ⟨hx, fun _ he => hh he.symm⟩
        refine ⟨noFail_cons (by simp) hf.noFail, ?_, ?_, ?_⟩
        · intro x g' d hg' hd
          rw [h1, get_put] at hg'
          show registered d h = true
          by_cases hx : x = s
          · subst hx
            rw [if_pos rfl] at hg'; cases hg'
            rcases List.mem_cons.mp hd with rfl | hd
            · exact hr
            · exact hf.reg x g d e hd
          · rw [if_neg hx] at hg'
            exact hf.reg x g' d hg' hd
        · intro x g' hg' hpr
          rw [h1, get_put] at hg'
          by_cases hx : x = s
          · subst hx
            rw [if_pos rfl] at hg'; cases hg'
            exact hf.last x g e (hp x hpr).1
          · rw [if_neg hx] at hg'
            exact hf.last x g' hg' (hp x hpr).1
        · intro x g' d v hg' hpr hd hv
          obtain ⟨w, hw, hwv⟩ := h2 d v hv
          rw [h1, get_put] at hg'
          by_cases hx : x = s
          · subst hx
            rw [if_pos rfl] at hg'; cases hg'
            rcases List.mem_cons.mp hd with rfl | hd
            · rcases h3 with h3 | h3
              · exact absurd rfl ((hp x hpr).2 h3)
              · exact h3 (hp x hpr).1 v hv
            · exact hwv _ (hf.ready x g d w e (hp x hpr).1 hd hw)
          · rw [if_neg hx] at hg'
            exact hwv _ (hf.ready x g' d w hg' (hp x hpr).1 hd hw)
      split
      · exact key _ true rfl (fun x v hv => ⟨v, hv, fun _ h => h⟩) (.inl rfl)
      · cases hv : g.lastV with
        | none =>
          refine key _ false ?_ (fun x v hv => ⟨v, hv, fun _ h => h⟩) (.inr fun hpr => ?_)
          · rw [hv]
          · have := hf.last s g e hpr
            rw [hv] at this; cases this
        | some lv =>
          simp only
          obtain ⟨w, hw⟩ : ∃ w, m.servers.get c = some w := by
            have h1 := hi.srv c
            rw [hr] at h1
            exact Option.isSome_iff_exists.mp h1
          have em : m.pushTo c g.num (.desc (some lv) g.lastD) =
              (⟨m.settings, m.counter, m.sigs, m.clients, m.servers.put c
                ⟨w.cacheMax, w.threshold, w.log ++ [(g.num, .desc (some lv) g.lastD)]⟩, m.csigs⟩,
                none) := by
            unfold Mgr.pushTo; rw [hw]; simp [Server.accepts]
          rw [em]
          refine key _ false ?_ ?_ (.inr fun hpr v hv => ?_)
          · rw [hv]
          · intro x v hv
            simp only [get_put] at hv
            by_cases hx : x = c
            · subst hx
              rw [if_pos rfl] at hv; cases hv
              exact ⟨w, hw, fun n hn => accepts_mono hn⟩
            · rw [if_neg hx] at hv
              exact ⟨v, hv, fun _ h => h⟩
          · simp only [get_put] at hv
            rw [if_pos trivial] at hv; cases hv
            exact accepts_desc w g.num lv g.lastD

theorem failInv_step {m : Mgr} {h : Hist} (hi : Inv m h) (hf : FailInv m h) (op : Op)
    (ho : Orderly ((op, (m.step op).2) :: h)) (hd : DescriptorFirst ((op, (m.step op).2) :: h)) :
    FailInv (m.step op).1 ((op, (m.step op).2) :: h) := by
  cases op with
  | send s p => exact hf.send hi s p hd
  | subscribe s c => exact hf.subscribe hi s c ho.1
  | isSubscribed s =>
    refine hf.same ?_ (fun _ h => h) fun x hx => hx
    show m.isSubscribed s ≠ _ ∧ m.isSubscribed s ≠ _
    unfold Mgr.isSubscribed; split <;> simp
  | numericId s =>
    refine hf.same ?_ (fun _ h => h) fun x hx => hx
    show m.numericId s ≠ _ ∧ m.numericId s ≠ _
    unfold Mgr.numericId; split <;> simp
  | clientLookup s => exact hf.same (by simp [Mgr.step]) (fun _ h => h) fun x hx => hx
  | clientAvailable n s c =>
    show FailInv (m.clientSignalAvailable n s c).1 ((_, (m.clientSignalAvailable n s c).2) :: h)
    unfold Mgr.clientSignalAvailable
    split <;>
      exact hf.mono (by simp) (fun _ g' hg => ⟨g', hg, rfl, rfl, fun c hc => ⟨hc, fun hh => ⟨hh, rfl⟩⟩⟩)
        fun x hx => hx
  | clientUnavailable n s c =>
    exact hf.mono (by simp [Mgr.step, Mgr.clientSignalUnavailable])
      (fun _ g' hg => ⟨g', hg, rfl, rfl, fun c hc => ⟨hc, fun hh => ⟨hh, rfl⟩⟩⟩) fun x hx => hx
  | clientGone c =>
    exact hf.mono (by simp [Mgr.step, Mgr.clientSignalsGone])
      (fun _ g' hg => ⟨g', hg, rfl, rfl, fun c hc => ⟨hc, fun hh => ⟨hh, rfl⟩⟩⟩) fun x hx => hx
  | removeSignal s =>
    show FailInv (m.removeSignal s).1 ((_, (m.removeSignal s).2) :: h)
    unfold Mgr.removeSignal
    split
    · refine hf.mono (by simp) (fun x g' hg => ?_) fun x hx => hx
      simp only [get_del] at hg
      split at hg
      · cases hg
      · exact ⟨g', hg, rfl, rfl, fun c hc => ⟨hc, fun hh => ⟨hh, rfl⟩⟩⟩
    · exact hf.same (by simp) (fun _ h => h) fun x hx => hx
  | unsubscribe s c =>
    show FailInv (m.unsubscribe s c).1 ((_, (m.unsubscribe s c).2) :: h)
    unfold Mgr.unsubscribe
    cases e : m.sigs.get s with
    | none => exact hf.same (by simp) (fun _ h => h) fun x hx => hx
    | some g =>
      refine hf.mono (by simp) (fun x g' hg => ?_) fun x hx => hx
      simp only [get_put] at hg
      split at hg
      · rename_i hh; subst hh
        cases hg
        obtain ⟨f1, f2, _⟩ := drop_fields g c
        exact ⟨g, e, f1, f2, fun d hd => ⟨((drop_subs g c d).mp hd).1, fun hh => ⟨hh, rfl⟩⟩⟩
      · exact ⟨g', hg, rfl, rfl, fun c hc => ⟨hc, fun hh => ⟨hh, rfl⟩⟩⟩
  | registerSignal s =>
    show FailInv (m.registerSignal s).1 ((_, (m.registerSignal s).2) :: h)
    unfold Mgr.registerSignal
    cases e : m.sigs.get s with
    | some g => exact hf.same (by simp) (fun _ h => h) fun x hx => hx
    | none =>
      have hp : ∀ x n, primed x ((.registerSignal s, .num n) :: h) = true → x ≠ s ∧ primed x h = true := by
        intro x n hx
        simp only [primed] at hx
        split at hx
        · cases hx
        · rename_i hh; exact ⟨fun he => hh he.symm, hx⟩
      refine ⟨noFail_cons (by simp) hf.noFail, ?_, ?_, ?_⟩
      · intro x g' c hg hc
        simp only [get_put] at hg
        split at hg
        · cases hg; cases hc
        · exact hf.reg x g' c hg hc
      · intro x g' hg hpr
        obtain ⟨h1, h2⟩ := hp x _ hpr
        simp only [get_put, if_neg h1] at hg
        exact hf.last x g' hg h2
      · intro x g' c v hg hpr hc hv
        obtain ⟨h1, h2⟩ := hp x _ hpr
        simp only [get_put, if_neg h1] at hg
        exact hf.ready x g' c v hg h2 hc hv
  | init c r =>
    show FailInv (m.streamingInit c r).1 ((_, (m.streamingInit c r).2) :: h)
    unfold Mgr.streamingInit Mgr.registerClient
    split
    · exact hf.same (by simp) (fun _ h => h) fun x hx => hx
    · rename_i hc
      refine hf.mono (by simp) (fun x g' hg => ⟨g', hg, rfl, rfl, fun d hd => ⟨hd, fun hh => ?_⟩⟩)
        fun x hx => hx
      have hdc : d ≠ c := by
        rintro rfl
        exact hc (List.contains_iff_mem.mpr ((hi.cli d).mpr hh))
      refine ⟨?_, ?_⟩
      · simp only [registered]; split
        · rfl
        · exact hh
      · simp only [get_add, if_neg hdc]
        cases r <;> simp [get_del, hdc]
  | unregisterClient c =>
    show FailInv (m.unregisterClient c).1 ((_, (m.unregisterClient c).2) :: h)
    unfold Mgr.unregisterClient
    split
    · refine hf.mono (by simp) (fun x g' hg => ?_) fun x hx => hx
      replace hg : AList.get (m.sigs.map fun e => (e.1, (e.2.drop c).1)) x = some g' := hg
      rw [get_map_val m.sigs (fun g => (g.drop c).1)] at hg
      obtain ⟨g, hg2, rfl⟩ := Option.map_eq_some_iff.mp hg
      obtain ⟨f1, f2, _⟩ := drop_fields g c
      refine ⟨g, hg2, f1, f2, fun d hd => ?_⟩
      obtain ⟨d1, d2⟩ := (drop_subs g c d).mp hd
      refine ⟨d1, fun hh => ⟨?_, ?_⟩⟩
      · simp only [registered]; rw [if_neg (fun h => d2 h.symm)]; exact hh
      · simp only [get_del]; rw [if_neg d2]
    · rename_i hc
      refine hf.same (by simp) (fun x hx => ?_) fun x hx => hx
      simp only [registered]
      split
      · rename_i hh; subst hh
        exact absurd (List.contains_iff_mem.mpr ((hi.cli c).mpr hx)) hc
      · exact hx

theorem failInv (st : Settings) (ops : List Op) (ho : Orderly (hist st ops))
    (hd : DescriptorFirst (hist st ops)) : FailInv (exec st ops).1 (hist st ops) := by
  induction ops using list_snoc_induction with
  | nil =>
    refine ⟨?_, ?_, ?_, ?_⟩
    · intro e he; cases he
    · intro s g c hg; cases hg
    · intro s g hg; cases hg
    · intro s g c v hg; cases hg
  | snoc ops op ih =>
    rw [hist_snoc] at ho hd ⊢
    rw [exec_snoc]
    exact failInv_step (inv st ops) (ih (orderly_tail ho) (descFirst_tail hd)) op ho hd

/-! ### Client signals -/

theorem ownWith_tail {e : Op × Out} {h : Hist} (ho : OwnWithdrawals (e :: h)) :
    OwnWithdrawals h := by
  unfold OwnWithdrawals at ho
  split at ho
  · rename_i hh; cases hh
  · rename_i hh; cases hh; exact ho.2
  · rename_i hh; cases hh; exact ho

end Verif.Streaming
