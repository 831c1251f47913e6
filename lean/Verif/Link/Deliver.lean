import Verif.Link.Hook

/-! # What is delivered -/

namespace Verif.Link

open Spec

/-- The connection is one of those the signal sends to. -/
def Fed (w : W) (s c : Nat) : Prop := (w.conns c).sig = s ∧ Connected w c ∧ (w.conns c).isRemote = false

instance (w : W) (s c : Nat) : Decidable (Fed w s c) := by unfold Fed; infer_instance

theorem fed_mem {w : W} (i : Inv w) (s c : Nat) : c ∈ (w.sigs s).conns ↔ Fed w s c := by
  rw [i.agree.listed]
  unfold Fed
  exact ⟨fun ⟨a, b, d⟩ => ⟨b, a, d⟩, fun ⟨a, b, d⟩ => ⟨b, a, d⟩⟩

theorem Same.fed {w w' : W} (h : Same w w') (s c : Nat) : Fed w' s c ↔ Fed w s c := by
  unfold Fed
  rw [h.connected, (h.conn c).1, (h.conn c).2.2]

theorem log_send {w : W} (i : Inv w) (s c : Nat) (p : Pkt) (h : (w.send s p).2 ≠ .overflow) :
    (((w.send s p).1).conns c).log = (w.conns c).log ++ if (w.sigs s).active = true ∧ Fed w s c then [p] else [] := by
  rcases send_cases w s p with ⟨e, ha⟩ | ⟨ha, _, e⟩ | ⟨x, ha, hx, e⟩
  · rw [e, ha]; simp
  · rw [e] at h; exact absurd rfl h
  · rw [e]
    dsimp only
    rw [log_deliver (i.agree.once s).1]
    have : ((w.sig s fun _ => x).conns c).log = (w.conns c).log := rfl
    rw [this]
    simp only [fed_mem i, ha, true_and]

theorem log_sendMany {w : W} (i : Inv w) (s c : Nat) (ps : List Pkt) (h : (w.sendMany s ps).2 ≠ .overflow) :
    (((w.sendMany s ps).1).conns c).log = (w.conns c).log ++ if (w.sigs s).active = true ∧ Fed w s c then ps else [] := by
  rcases sendMany_cases w s ps with ⟨e, ha⟩ | ⟨p, _, ha, _, e⟩ | ⟨p, x, _, ha, hx, e⟩
  · rw [e]
    rcases ha with ha | ha
    · rw [ha]; simp
    · rw [ha]; simp
  · rw [e] at h; exact absurd rfl h
  · rw [e]
    dsimp only
    rw [log_deliver (i.agree.once s).1]
    have : ((w.sig s fun _ => x).conns c).log = (w.conns c).log := rfl
    rw [this]
    simp only [fed_mem i, ha, true_and]

theorem send_event (w : W) (v : Nat) (a b : Option Nat) : (w.send v (.event a b)).2 ≠ .overflow ∧ ∀ t, (w.send v (.event a b)).1.sigs t = w.sigs t := by
  rcases send_cases w v (.event a b) with ⟨e, _⟩ | ⟨_, hc, _⟩ | ⟨x, _, hx, e⟩
  · rw [e]; exact ⟨by simp, fun _ => rfl⟩
  · cases hc
  · rw [e]
    refine ⟨by simp, fun t => ?_⟩
    dsimp only
    rw [sigs_deliver]
    cases hx
    simp only [W.sig, upd]
    split
    · rename_i h
      rw [h]
    · rfl

theorem log_tell (d : Option Nat) (c : Nat) (vs : List Nat) : ∀ (w : W) (r : Res), Inv w → vs.Nodup →
    ((w.tell d vs r).1.conns c).log = (w.conns c).log ++
      if (w.conns c).sig ∈ vs ∧ (w.sigs (w.conns c).sig).active = true ∧ Fed w (w.conns c).sig c then [.event none (param d)] else [] := by
  induction vs with
  | nil => intro w r _ _; simp [W.tell]
  | cons v vs ih =>
    intro w r i hn
    obtain ⟨hn1, hn2⟩ := List.nodup_cons.mp hn
    obtain ⟨ho, hs⟩ := send_event w v none (param d)
    have sm := same_send w v (.event none (param d))
    have key := ih (w.send v (.event none (param d))).1 (if (w.send v (.event none (param d))).2 = .ok then r else .ignored) (sm.inv i) hn2
    have e : w.tell d (v :: vs) r = (w.send v (.event none (param d))).1.tell d vs
      (if (w.send v (.event none (param d))).2 = .ok then r else .ignored) := rfl
    rw [e, key, log_send i v c _ ho, (sm.conn c).1, hs, List.append_assoc]
    congr 1
    simp only [sm.fed]
    by_cases h1 : (w.conns c).sig = v
    · rw [h1]
      simp [hn1]
    · have h2 : ¬ Fed w v c := fun h => h1 h.1
      simp [h1, h2]

theorem log_drop (w : W) (p c : Nat) (a b k : Bool) : ((w.drop p a b k).conns c).log = (w.conns c).log := by
  rw [(drop_conns w p a b k).1]

theorem listen_conns {w : W} {d c : Nat} (h : c ≠ d) : (w.listen d).conns c = w.conns c := by
  unfold W.listen
  dsimp only
  split
  · rfl
  · simp [W.enqueue, W.sig, upd, h]

theorem offer_conns (w : W) (p s : Nat) (r : Bool) (c : Nat) (h : c ≠ w.next) : (w.offer p s r).conns c = w.conns c := by
  unfold W.offer
  simp only [W.port, upd, (drop_conns w p _ _ _).2, if_neg h, (drop_conns w p _ _ _).1]

theorem offer_new (w : W) (p s : Nat) (r : Bool) : (w.offer p s r).conns w.next = { sig := s, port := p, isRemote := r, log := [] } := by
  unfold W.offer
  simp [W.port, upd, (drop_conns w p _ _ _).2]

theorem offer_sigs (w : W) (p s : Nat) (r : Bool) (t : Nat) : ((w.offer p s r).sigs t).desc = (w.sigs t).desc ∧
    ((w.offer p s r).sigs t).domain = (w.sigs t).domain := by
  unfold W.offer
  simp only [W.port]
  rw [drop_sigs]
  split
  · exact ⟨rfl, rfl⟩
  · exact ⟨(unlisten_rest w _ t).2.2.2.2, (unlisten_rest w _ t).2.2.1⟩

theorem listen_log {w : W} {c : Nat} : ((w.listen c).conns c).log = (w.conns c).log ++
    if (w.conns c).isRemote then [] else [.event (some ((w.sigs (w.conns c).sig).desc.getD 0)) (some ((domDesc w (w.conns c).sig).getD 0))] := by
  unfold W.listen
  dsimp only
  cases h : (w.conns c).isRemote with
  | true => simp [W.sig]
  | false =>
    simp only [Bool.false_eq_true, if_false, W.enqueue, W.sig, upd, if_true, W.announce, param, domDesc]
    rfl

theorem removeSig_conns (w : W) (s : Nat) : (w.removeSig s).1.conns = w.conns ∧ (w.removeSig s).1.next = w.next := by
  cases h : (w.sigs s).removed with
  | true =>
    unfold W.removeSig
    rw [if_pos h]
    exact ⟨rfl, rfl⟩
  | false =>
    rw [removeSig_eq h]
    exact ⟨(dropAll_conns _ w).1, (dropAll_conns _ w).2.1⟩

theorem removePort_conns (w : W) (p : Nat) : (w.removePort p).1.conns = w.conns ∧ (w.removePort p).1.next = w.next := by
  unfold W.removePort
  split
  · exact ⟨rfl, rfl⟩
  · exact drop_conns _ _ _ _ _

theorem setDomain_conns (w : W) (s : Nat) (d : Option Nat) : (w.setDomain s d).1.conns = w.conns ∧ (w.setDomain s d).1.next = w.next ∧
    (w.setDomain s d).1.ports = w.ports := by
  have h : ∀ s, (w.leave s).conns = w.conns ∧ (w.leave s).next = w.next ∧ (w.leave s).ports = w.ports := by
    intro s
    unfold W.leave
    split <;> exact ⟨rfl, rfl, rfl⟩
  unfold W.setDomain
  split
  · exact ⟨rfl, rfl, rfl⟩
  · cases d with
    | none => exact h s
    | some d =>
      dsimp only
      split
      · exact h s
      · exact h s

/-- Each call adds exactly what it should to the packets of the connections there are. -/
theorem log_step {w : W} (i : Inv w) (op : Op) (h : (step w op).2 ≠ .overflow) (c : Nat) (hc : c < w.next) :
    ((step w op).1.conns c).log = (w.conns c).log ++ added w c op := by
  have hne : c ≠ w.next := by omega
  cases op with
  | setDescriptor s d =>
    unfold added
    dsimp only
    show ((w.setDescriptor s d).1.conns c).log = _
    rcases setDescriptor_cases w s d with ⟨e, h0⟩ | ⟨e, h0⟩ | ⟨h0, h1, e⟩
    · rw [e, if_pos (Or.inl h0)]; simp
    · rw [e, if_pos (Or.inr (Or.inl h0))]; simp
    · rw [e]
      have sm : Same w ((w.sig s fun x => { x with desc := d }).deliver (w.sigs s).conns [.event (param d) none]) :=
        Same.trans (same_sig ⟨rfl, rfl, rfl, rfl, rfl, rfl, rfl⟩) (same_deliver _ _ _)
      rw [log_tell d c _ _ _ (sm.inv i) (i.domains.once s), log_deliver (i.agree.once s).1, (sm.conn c).1, (sm.sig _).2.2.2.2.2.1]
      simp only [sm.fed, fed_mem i]
      have e1 : ((w.sig s fun x => { x with desc := d }).conns c).log = (w.conns c).log := rfl
      rw [e1, List.append_assoc]
      congr 1
      simp only [i.domains.refs]
      by_cases hcc : Connected w c ∧ (w.conns c).isRemote = false
      · have hno : ¬ (d = some 0 ∨ d = (w.sigs s).desc ∨ ¬ (Connected w c ∧ (w.conns c).isRemote = false)) := by
          rintro (h | h | h)
          · exact h0 h
          · exact h1 h
          · exact h hcc
        rw [if_neg hno]
        simp [Fed, hcc, param]
      · rw [if_pos (Or.inr (Or.inr hcc)), if_neg, if_neg]
        · rfl
        · rintro ⟨_, _, h⟩
          exact hcc h.2
        · exact fun h => hcc h.2
  | setDomain s d =>
    show ((w.setDomain s d).1.conns c).log = _
    rw [(setDomain_conns w s d).1]
    simp [added]
  | send s p =>
    show ((w.send s p).1.conns c).log = _
    rw [log_send i s c p h]
    simp only [added, Fed]
    congr
  | sendMany s ps =>
    show ((w.sendMany s ps).1.conns c).log = _
    rw [log_sendMany i s c ps h]
    simp only [added, Fed]
    congr
  | setActive s b =>
    unfold step added
    dsimp only
    rw [List.append_nil]
    split
    · rfl
    · split <;> rfl
  | setPublic s b => simp [step, added, W.sig]
  | keepLast s b => simp [step, added, W.sig]
  | setLast s v => simp [step, added, W.sig]
  | getLast s => simp [step, added]
  | connect p s r cy a =>
    show ((w.connect p s r cy a).1.conns c).log = _
    rcases connect_cases w p s r cy a with ⟨e, h, _⟩ | ⟨_, _, _, ⟨_, _, h⟩ | ⟨_, h⟩⟩
    · rw [h]; simp [added]
    · rw [h]
      have : (((w.offer p s r).port p fun x => { x with conn := none }).conns c) = (w.offer p s r).conns c := rfl
      rw [this, offer_conns w p s r c hne]
      simp [added]
    · rw [h]
      have : ((((w.offer p s r).listen w.next).port p fun x => { x with core := x.core ++ [.connected s] }).conns c) =
        ((w.offer p s r).listen w.next).conns c := rfl
      rw [this, listen_conns hne, offer_conns w p s r c hne]
      simp [added]
  | disconnect p =>
    show ((w.drop p true true true).conns c).log = _
    rw [log_drop]
    simp [added]
  | removeSig s =>
    show ((w.removeSig s).1.conns c).log = _
    rw [(removeSig_conns w s).1]
    simp [added]
  | removePort p =>
    show ((w.removePort p).1.conns c).log = _
    rw [(removePort_conns w p).1]
    simp [added]

/-- The first packet of a connection. -/
theorem log_connect {w : W} {p s : Nat} {r cy a : Bool} (h : (w.connect p s r cy a).2 = .ok) :
    (w.connect p s r cy a).1.conns w.next = { sig := s, port := p, isRemote := r, log :=
      if r then [] else [.event (some ((w.sigs s).desc.getD 0)) (some ((domDesc w s).getD 0))] } ∧
    ((w.connect p s r cy a).1.ports p).conn = some w.next := by
  rcases connect_cases w p s r cy a with ⟨e, h', _⟩ | ⟨_, _, _, ⟨_, _, h'⟩ | ⟨_, h'⟩⟩
  · rw [h'] at h; cases h
  · rw [h'] at h; cases h
  · rw [h']
    have hn := offer_new w p s r
    have hd : domDesc (w.offer p s r) s = domDesc w s := by
      unfold domDesc
      rw [(offer_sigs w p s r s).2]
      split
      · exact (offer_sigs w p s r _).1
      · rfl
    constructor
    · have e1 : ((((w.offer p s r).listen w.next).port p fun x => { x with core := x.core ++ [.connected s] }).conns w.next) =
        ((w.offer p s r).listen w.next).conns w.next := rfl
      have e2 := listen_log (w := w.offer p s r) (c := w.next)
      rw [hn, hd, (offer_sigs w p s r s).1] at e2
      have e3 : ∀ (x : W) (c : Nat), ((x.listen c).conns c).sig = (x.conns c).sig ∧ ((x.listen c).conns c).port = (x.conns c).port ∧
          ((x.listen c).conns c).isRemote = (x.conns c).isRemote := by
        intro x c
        unfold W.listen
        dsimp only
        split
        · exact ⟨rfl, rfl, rfl⟩
        · simp [W.enqueue, W.sig, upd]
      obtain ⟨f1, f2, f3⟩ := e3 (w.offer p s r) w.next
      rw [hn] at f1 f2 f3
      rw [e1]
      generalize ((w.offer p s r).listen w.next).conns w.next = k at *
      obtain ⟨k1, k2, k3, k4⟩ := k
      simp only at f1 f2 f3 e2
      subst f1 f2 f3
      simp only [List.nil_append] at e2
      rw [e2]
    · have : ∀ (x : W) (c : Nat), (x.listen c).ports = x.ports := by
        intro x c
        unfold W.listen
        dsimp only
        split <;> rfl
      simp only [W.port, upd, if_true, this]
      simp [W.offer, W.port, upd, (drop_conns w p _ _ _).2]

end Verif.Link
