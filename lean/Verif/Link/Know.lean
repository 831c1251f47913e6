import Verif.Link.Deliver

/-! # What listeners know -/

namespace Verif.Link

open Spec

/-! ## What calls change -/

theorem drop_conn_sub {w : W} {p q c : Nat} {a b k : Bool} (h : ((w.drop p a b k).ports q).conn = some c) : (w.ports q).conn = some c := by
  by_cases hq : q = p
  · subst hq
    rw [drop_conn] at h
    cases h
  · rw [drop_ports w p q a b k hq] at h
    exact h

theorem same_back {w w' : W} (h : Same w w') {c : Nat} (hc : Connected w' c) : Connected w c ∧ (w'.conns c).sig = (w.conns c).sig ∧
    (w'.conns c).isRemote = (w.conns c).isRemote := ⟨(h.connected c).mp hc, (h.conn c).1, (h.conn c).2.2⟩

/-- A connection was there before a call, or the call made it. -/
theorem connected_step {w : W} (i : Inv w) (op : Op) {c : Nat} (hc : Connected (step w op).1 c) :
    (Connected w c ∧ ((step w op).1.conns c).sig = (w.conns c).sig ∧ ((step w op).1.conns c).isRemote = (w.conns c).isRemote) ∨
    ∃ p s r cy a, op = .connect p s r cy a ∧ (w.connect p s r cy a).2 = .ok ∧ c = w.next := by
  have simple : ∀ w' : W, w'.conns = w.conns → (∀ q d, (w'.ports q).conn = some d → (w.ports q).conn = some d) → Connected w' c →
      Connected w c ∧ (w'.conns c).sig = (w.conns c).sig ∧ (w'.conns c).isRemote = (w.conns c).isRemote := by
    intro w' h1 h2 h3
    unfold Connected at h3 ⊢
    rw [h1] at h3
    rw [h1]
    exact ⟨h2 _ _ h3, rfl, rfl⟩
  cases op with
  | setDescriptor s d => exact Or.inl (same_back (same_setDescriptor w s d) hc)
  | setDomain s d =>
    exact Or.inl (simple _ (setDomain_conns w s d).1 (fun q d' h => by
      have e : (step w (.setDomain s d)).1.ports = w.ports := (setDomain_conns w s d).2.2
      rw [e] at h; exact h) hc)
  | send s p => exact Or.inl (same_back (same_send w s p) hc)
  | sendMany s ps => exact Or.inl (same_back (same_sendMany w s ps) hc)
  | setActive s b =>
    left
    unfold step at hc ⊢
    dsimp only at hc ⊢
    by_cases h : (w.sigs s).removed = true
    · rw [if_pos h] at hc ⊢; exact ⟨hc, rfl, rfl⟩
    · rw [if_neg h] at hc ⊢
      by_cases h2 : (w.sigs s).active = b
      · rw [if_pos h2] at hc ⊢; exact ⟨hc, rfl, rfl⟩
      · rw [if_neg h2] at hc ⊢; exact ⟨hc, rfl, rfl⟩
  | setPublic s b => exact Or.inl ⟨hc, rfl, rfl⟩
  | keepLast s b => exact Or.inl ⟨hc, rfl, rfl⟩
  | setLast s v => exact Or.inl ⟨hc, rfl, rfl⟩
  | getLast s => exact Or.inl ⟨hc, rfl, rfl⟩
  | connect p s r cy a =>
    have hc : Connected (w.connect p s r cy a).1 c := hc
    show (Connected w c ∧ ((w.connect p s r cy a).1.conns c).sig = _ ∧ ((w.connect p s r cy a).1.conns c).isRemote = _) ∨ _
    have hbound : ∀ q, (w.ports q).conn ≠ some w.next := fun q h => absurd (i.bound q _ h) (by omega)
    rcases connect_cases w p s r cy a with ⟨e, h, _⟩ | ⟨_, _, _, ⟨_, _, h⟩ | ⟨_, h⟩⟩
    · left
      rw [h] at hc ⊢
      exact ⟨hc, rfl, rfl⟩
    · left
      rw [h] at hc ⊢
      have hp : ∀ q d, (((w.offer p s r).port p fun x => { x with conn := none }).ports q).conn = some d → (w.ports q).conn = some d := by
        intro q d hq
        simp only [W.offer, W.port, upd] at hq
        by_cases e : q = p
        · simp [e] at hq
        · simp only [if_neg e] at hq
          exact drop_conn_sub hq
      have hcn : c ≠ w.next := by
        rintro rfl
        exact hbound _ (hp _ _ hc)
      have e1 : ((w.offer p s r).port p fun x => { x with conn := none }).conns c = w.conns c := offer_conns w p s r c hcn
      have hc2 := hp _ _ hc
      dsimp only
      rw [e1] at hc2 ⊢
      exact ⟨hc2, rfl, rfl⟩
    · by_cases hcn : c = w.next
      · exact Or.inr ⟨p, s, r, cy, a, rfl, by rw [h], hcn⟩
      · left
        rw [h] at hc ⊢
        have hl : ∀ (x : W) (c : Nat), (x.listen c).ports = x.ports := by
          intro x c
          unfold W.listen
          dsimp only
          split <;> rfl
        have e1 : (((w.offer p s r).listen w.next).port p fun x => { x with core := x.core ++ [.connected s] }).conns c = w.conns c := by
          show ((w.offer p s r).listen w.next).conns c = _
          rw [listen_conns hcn, offer_conns w p s r c hcn]
        have hp : ∀ q d, d ≠ w.next → ((((w.offer p s r).listen w.next).port p fun x => { x with core := x.core ++ [.connected s] }).ports q).conn = some d →
            (w.ports q).conn = some d := by
          intro q d hd hq
          simp only [W.port, upd, hl] at hq
          simp only [W.offer, W.port, upd] at hq
          by_cases e : q = p
          · simp only [e, if_true, (drop_conns w p false true false).2] at hq
            cases hq
            exact absurd rfl hd
          · simp only [if_neg e] at hq
            exact drop_conn_sub hq
        have hc2 := hp _ _ hcn hc
        dsimp only
        rw [e1] at hc2 ⊢
        exact ⟨hc2, rfl, rfl⟩
  | disconnect p =>
    exact Or.inl (simple (w.drop p true true true) (drop_conns w p _ _ _).1 (fun q d h => drop_conn_sub h) hc)
  | removeSig s =>
    refine Or.inl (simple (w.removeSig s).1 (removeSig_conns w s).1 ?_ hc)
    intro q d h
    cases hr : (w.sigs s).removed with
    | true =>
      unfold W.removeSig at h
      rw [if_pos hr] at h
      exact h
    | false =>
      rw [removeSig_eq hr] at h
      have : ∀ (cs : List Nat) (w : W), ((w.dropAll cs).ports q).conn = some d → (w.ports q).conn = some d := by
        intro cs
        induction cs with
        | nil => intro w h; exact h
        | cons c cs ih =>
          intro w h
          exact drop_conn_sub (ih _ h)
      exact this _ w h
  | removePort p =>
    refine Or.inl (simple (w.removePort p).1 (removePort_conns w p).1 ?_ hc)
    intro q d h
    unfold W.removePort at h
    split at h
    · exact h
    · have := drop_conn_sub h
      simp only [W.port, upd] at this
      split at this
      · rename_i hq
        rw [hq]
        rw [hq] at this
        exact this
      · exact this

theorem desc_tell (d : Option Nat) (vs : List Nat) : ∀ (w : W) (r : Res) (t : Nat), (w.tell d vs r).1.sigs t = w.sigs t := by
  induction vs with
  | nil => intro w r t; rfl
  | cons v vs ih =>
    intro w r t
    have := ih (w.send v (.event none (param d))).1 (if (w.send v (.event none (param d))).2 = .ok then r else .ignored) t
    exact this.trans ((send_event w v none (param d)).2 t)

theorem setDescriptor_sigs {w : W} {s : Nat} {d : Option Nat} (h0 : d ≠ some 0) (t : Nat) : (w.setDescriptor s d).1.sigs t =
    if t = s then { w.sigs t with desc := d } else w.sigs t := by
  rcases setDescriptor_cases w s d with ⟨_, e⟩ | ⟨e, h1⟩ | ⟨_, _, e⟩
  · exact absurd e h0
  · rw [e]
    split
    · rename_i ht
      rw [ht]
      generalize w.sigs s = x at h1
      cases x
      simp only at h1
      rw [h1]
    · rfl
  · rw [e, desc_tell, sigs_deliver]
    rfl

theorem setDescriptor_zero (w : W) (s : Nat) : w.setDescriptor s (some 0) = (w, .err .invalidSampleType) := by
  unfold W.setDescriptor
  simp

theorem send_desc (w : W) (s : Nat) (p : Pkt) (t : Nat) : ((w.send s p).1.sigs t).desc = (w.sigs t).desc := by
  rcases send_cases w s p with ⟨e, _⟩ | ⟨_, _, e⟩ | ⟨x, _, hx, e⟩
  · rw [e]
  · rw [e]
  · rw [e]
    dsimp only
    rw [sigs_deliver]
    simp only [W.sig, upd]
    split
    · rename_i h; rw [h]; exact (check_same hx).2.2.2.2.2.2.2.1
    · rfl

theorem sendMany_desc (w : W) (s : Nat) (ps : List Pkt) (t : Nat) : ((w.sendMany s ps).1.sigs t).desc = (w.sigs t).desc := by
  rcases sendMany_cases w s ps with ⟨e, _⟩ | ⟨_, _, _, _, e⟩ | ⟨p, x, _, _, hx, e⟩
  · rw [e]
  · rw [e]
  · rw [e]
    dsimp only
    rw [sigs_deliver]
    simp only [W.sig, upd]
    split
    · rename_i h; rw [h]; exact (check_same hx).2.2.2.2.2.2.2.1
    · rfl

theorem setKeep_rest (s : Sig) : s.setKeep.desc = s.desc ∧ s.setKeep.domain = s.domain ∧ s.setKeep.refs = s.refs := by
  unfold Sig.setKeep
  split <;> exact ⟨rfl, rfl, rfl⟩

theorem drop_rest (w : W) (p t : Nat) (a b k : Bool) : ((w.drop p a b k).sigs t).desc = (w.sigs t).desc ∧
    ((w.drop p a b k).sigs t).domain = (w.sigs t).domain := by
  cases b with
  | false => rw [drop_sigs_quiet]; exact ⟨rfl, rfl⟩
  | true =>
    rw [drop_sigs]
    split
    · exact ⟨rfl, rfl⟩
    · exact ⟨(unlisten_rest w _ t).2.2.2.2, (unlisten_rest w _ t).2.2.1⟩

theorem listen_rest (w : W) (c t : Nat) : ((w.listen c).sigs t).desc = (w.sigs t).desc ∧ ((w.listen c).sigs t).domain = (w.sigs t).domain := by
  unfold W.listen
  dsimp only
  split
  · simp only [W.sig, upd]; split <;> exact ⟨rfl, rfl⟩
  · simp only [W.sig, W.enqueue, upd]; split <;> exact ⟨rfl, rfl⟩

theorem setDomain_sigs (w : W) (s : Nat) (d : Option Nat) (t : Nat) : ((w.setDomain s d).1.sigs t).desc = (w.sigs t).desc ∧
    ((w.setDomain s d).1.sigs t).domain = if t = s then d else (w.sigs t).domain := by
  have hl : ((w.leave s).sigs t).desc = (w.sigs t).desc ∧ ((w.leave s).sigs t).domain = (w.sigs t).domain := by
    unfold W.leave
    split
    · simp only [W.sig, upd]; split <;> exact ⟨rfl, rfl⟩
    · exact ⟨rfl, rfl⟩
  have hl2 : (((w.leave s).sig s fun x => { x with domain := d }).sigs t).desc = (w.sigs t).desc ∧
      (((w.leave s).sig s fun x => { x with domain := d }).sigs t).domain = if t = s then d else (w.sigs t).domain := by
    simp only [W.sig, upd]
    split
    · exact ⟨hl.1, rfl⟩
    · exact hl
  unfold W.setDomain
  by_cases h0 : d = (w.sigs s).domain
  · rw [if_pos h0]
    refine ⟨rfl, ?_⟩
    split
    · rename_i h; rw [h, h0]
    · rfl
  · rw [if_neg h0]
    cases d with
    | none => exact hl2
    | some d =>
      dsimp only
      split
      · exact hl2
      · generalize (w.leave s).sig s (fun x => { x with domain := some d }) = v at *
        simp only [W.sig, upd]
        split
        · exact hl2
        · exact hl2

/-- Descriptors and domains after a call. -/
theorem desc_step (w : W) (op : Op) (t : Nat) : ((step w op).1.sigs t).desc = match op with
    | .setDescriptor s d => if t = s ∧ d ≠ some 0 then d else (w.sigs t).desc
    | _ => (w.sigs t).desc := by
  cases op with
  | setDescriptor s d =>
    show ((w.setDescriptor s d).1.sigs t).desc = _
    dsimp only
    by_cases h0 : d = some 0
    · subst h0
      rw [setDescriptor_zero]
      simp
    · rw [setDescriptor_sigs h0]
      by_cases ht : t = s
      · simp [ht, h0]
      · simp [ht]
  | setDomain s d => exact (setDomain_sigs w s d t).1
  | send s p => exact send_desc w s p t
  | sendMany s ps => exact sendMany_desc w s ps t
  | setActive s b =>
    unfold step
    dsimp only
    split
    · rfl
    · split
      · rfl
      · simp only [W.sig, upd]; split <;> rfl
  | setPublic s b =>
    simp only [step, W.sig, upd]
    split
    · exact (setKeep_rest _).1
    · rfl
  | keepLast s b =>
    simp only [step, W.sig, upd]
    split
    · exact (setKeep_rest _).1
    · rfl
  | setLast s v => simp only [step, W.sig, upd]; split <;> rfl
  | getLast s => rfl
  | connect p s r cy a =>
    show ((w.connect p s r cy a).1.sigs t).desc = _
    rcases connect_cases w p s r cy a with ⟨e, h, _⟩ | ⟨_, _, _, ⟨_, _, h⟩ | ⟨_, h⟩⟩
    · rw [h]
    · rw [h]; exact (offer_sigs w p s r t).1
    · rw [h]
      exact ((listen_rest (w.offer p s r) w.next t).1).trans (offer_sigs w p s r t).1
  | disconnect p => exact (drop_rest w p t _ _ _).1
  | removeSig s =>
    show ((w.removeSig s).1.sigs t).desc = _
    cases hr : (w.sigs s).removed with
    | true => unfold W.removeSig; rw [if_pos hr]
    | false =>
      rw [removeSig_eq hr]
      dsimp only
      split <;> rfl
  | removePort p =>
    show ((w.removePort p).1.sigs t).desc = _
    unfold W.removePort
    split
    · rfl
    · exact (drop_rest _ p t _ _ _).1

theorem domain_step (w : W) (op : Op) (t : Nat) : ((step w op).1.sigs t).domain = match op with
    | .setDomain s d => if t = s then d else (w.sigs t).domain
    | .removeSig s => if (w.sigs s).removed = false ∧ t ∈ (w.sigs s).refs then none else (w.sigs t).domain
    | _ => (w.sigs t).domain := by
  cases op with
  | setDescriptor s d => exact ((same_setDescriptor w s d).sig t).2.2.2.2.1
  | setDomain s d => exact (setDomain_sigs w s d t).2
  | send s p => exact ((same_send w s p).sig t).2.2.2.2.1
  | sendMany s ps => exact ((same_sendMany w s ps).sig t).2.2.2.2.1
  | setActive s b =>
    unfold step
    dsimp only
    split
    · rfl
    · split
      · rfl
      · simp only [W.sig, upd]; split <;> rfl
  | setPublic s b =>
    simp only [step, W.sig, upd]
    split
    · exact (setKeep_rest _).2.1
    · rfl
  | keepLast s b =>
    simp only [step, W.sig, upd]
    split
    · exact (setKeep_rest _).2.1
    · rfl
  | setLast s v => simp only [step, W.sig, upd]; split <;> rfl
  | getLast s => rfl
  | connect p s r cy a =>
    show ((w.connect p s r cy a).1.sigs t).domain = _
    rcases connect_cases w p s r cy a with ⟨e, h, _⟩ | ⟨_, _, _, ⟨_, _, h⟩ | ⟨_, h⟩⟩
    · rw [h]
    · rw [h]; exact (offer_sigs w p s r t).2
    · rw [h]
      exact ((listen_rest (w.offer p s r) w.next t).2).trans (offer_sigs w p s r t).2
  | disconnect p => exact (drop_rest w p t _ _ _).2
  | removeSig s =>
    show ((w.removeSig s).1.sigs t).domain = _
    dsimp only
    cases hr : (w.sigs s).removed with
    | true => unfold W.removeSig; rw [if_pos hr]; simp
    | false =>
      rw [removeSig_eq hr]
      dsimp only
      split <;> simp
  | removePort p =>
    show ((w.removePort p).1.sigs t).domain = _
    unfold W.removePort
    split
    · rfl
    · exact (drop_rest _ p t _ _ _).2

/-! ## Knowledge -/

theorem know_append (a b : List Pkt) : ∀ k, know (a ++ b) k = know b (know a k) := by
  induction a with
  | nil => intro k; rfl
  | cons p a ih =>
    intro k
    cases p with
    | event v d => exact ih _
    | data id n d b => exact ih _

theorem know_plain (ps : List Pkt) (h : ∀ p ∈ ps, Plain p) : ∀ k, know ps k = k := by
  induction ps with
  | nil => intro k; rfl
  | cons p ps ih =>
    intro k
    have h1 := h p (by simp)
    have h2 := ih fun q hq => h q (by simp [hq])
    cases p with
    | event v d =>
      obtain ⟨rfl, rfl⟩ := h1
      exact h2 _
    | data id n d b => exact h2 _

theorem know1_getD (k d : Option Nat) (h : d ≠ some 0) : know1 k (some (d.getD 0)) = d := by
  cases d with
  | none => rfl
  | some d =>
    cases d with
    | zero => exact absurd rfl h
    | succ d => rfl

/-- A call that writes past the buffer changes nothing in the model. -/
theorem overflow_step {w : W} {op : Op} (h : (step w op).2 = .overflow) : (step w op).1 = w := by
  cases op with
  | send s p =>
    have h : (w.send s p).2 = .overflow := h
    show (w.send s p).1 = w
    rcases send_cases w s p with ⟨e, _⟩ | ⟨_, _, e⟩ | ⟨x, _, hx, e⟩
    · rw [e]
    · rw [e]
    · rw [e] at h; cases h
  | sendMany s ps =>
    have h : (w.sendMany s ps).2 = .overflow := h
    show (w.sendMany s ps).1 = w
    rcases sendMany_cases w s ps with ⟨e, _⟩ | ⟨_, _, _, _, e⟩ | ⟨p, x, _, _, hx, e⟩
    · rw [e]
    · rw [e]
    · rw [e] at h; cases h
  | setDescriptor s d =>
    exfalso
    have h : (w.setDescriptor s d).2 = .overflow := h
    rcases setDescriptor_cases w s d with ⟨e, _⟩ | ⟨e, _⟩ | ⟨_, _, e⟩
    · rw [e] at h; cases h
    · rw [e] at h; cases h
    · rw [e] at h
      have : ∀ (vs : List Nat) (w : W) (r : Res), r ≠ .overflow → (w.tell d vs r).2 ≠ .overflow := by
        intro vs
        induction vs with
        | nil => intro w r hr; exact hr
        | cons v vs ih =>
          intro w r hr
          refine ih _ _ ?_
          split
          · exact hr
          · simp
      exact this _ _ _ (by simp) h
  | setDomain s d =>
    exfalso
    have h : (w.setDomain s d).2 = .overflow := h
    unfold W.setDomain at h
    split at h
    · cases h
    · cases d with
      | none => cases h
      | some d => dsimp only at h; split at h <;> cases h
  | setActive s b =>
    exfalso
    unfold step at h
    dsimp only at h
    split at h
    · cases h
    · split at h <;> cases h
  | setPublic s b => cases h
  | keepLast s b => cases h
  | setLast s v => cases h
  | getLast s =>
    exfalso
    unfold step at h
    dsimp only at h
    split at h <;> cases h
  | connect p s r cy a =>
    exfalso
    have h : (w.connect p s r cy a).2 = .overflow := h
    rcases connect_cases w p s r cy a with ⟨e, h', _⟩ | ⟨_, _, _, ⟨_, _, h'⟩ | ⟨_, h'⟩⟩ <;> rw [h'] at h <;> cases h
  | disconnect p => cases h
  | removeSig s =>
    exfalso
    have h : (w.removeSig s).2 = .overflow := h
    unfold W.removeSig at h
    split at h <;> cases h
  | removePort p =>
    exfalso
    have h : (w.removePort p).2 = .overflow := h
    unfold W.removePort at h
    split at h <;> cases h

/-- What the packets of a connection say about the descriptors of the signal. -/
def KnowsVal (w : W) : Prop := ∀ c, Connected w c → (w.conns c).isRemote = false →
  (know (w.conns c).log (none, none)).1 = (w.sigs (w.conns c).sig).desc

def KnowsDom (w : W) : Prop := ∀ c, Connected w c → (w.conns c).isRemote = false →
  (know (w.conns c).log (none, none)).2 = domDesc w (w.conns c).sig

theorem nonzero_step {w : W} (h : ∀ s, (w.sigs s).desc ≠ some 0) (op : Op) (s : Nat) : ((step w op).1.sigs s).desc ≠ some 0 := by
  rw [desc_step]
  split
  · split
    · rename_i h1; exact h1.2
    · exact h s
  · exact h s

theorem bound_connected {w : W} (i : Inv w) {c : Nat} (h : Connected w c) : c < w.next := i.bound _ _ h

theorem added_plain {w : W} {c : Nat} {op : Op} (hh : Honest op) (h : ∀ s d, op ≠ .setDescriptor s d) : ∀ p ∈ added w c op, Plain p := by
  cases op with
  | setDescriptor s d => exact absurd rfl (h s d)
  | send s p =>
    intro q hq
    unfold added at hq
    dsimp only at hq
    split at hq
    · rw [List.mem_singleton] at hq; rw [hq]; exact hh
    · cases hq
  | sendMany s ps =>
    intro q hq
    unfold added at hq
    dsimp only at hq
    split at hq
    · exact hh q hq
    · cases hq
  | _ => intro q hq; cases hq

theorem know_setDescriptor {w : W} {c s : Nat} {d : Option Nat} (hc : Connected w c) (hr : (w.conns c).isRemote = false) (h0 : d ≠ some 0)
    (h1 : d ≠ (w.sigs s).desc) (k : Option Nat × Option Nat) : know (added w c (.setDescriptor s d)) k =
    (if (w.conns c).sig = s then d else k.1,
     if (w.sigs (w.conns c).sig).domain = some s ∧ (w.sigs (w.conns c).sig).active = true then d else k.2) := by
  unfold added
  dsimp only
  have hno : ¬ (d = some 0 ∨ d = (w.sigs s).desc ∨ ¬ (Connected w c ∧ (w.conns c).isRemote = false)) := by
    rintro (h | h | h)
    · exact h0 h
    · exact h1 h
    · exact h ⟨hc, hr⟩
  rw [if_neg hno, know_append]
  have e := fun k => know1_getD k d h0
  by_cases hs : (w.conns c).sig = s <;>
    by_cases hd : (w.sigs (w.conns c).sig).domain = some s ∧ (w.sigs (w.conns c).sig).active = true <;>
    (try rw [if_pos hs]) <;> (try rw [if_pos hd]) <;> (try rw [if_neg hs]) <;> (try rw [if_neg hd]) <;>
    (try rw [if_pos hs]) <;> (try rw [if_pos hd]) <;> (try rw [if_neg hs]) <;> (try rw [if_neg hd]) <;>
    simp only [know, e] <;> rfl

theorem knowsVal_step {w : W} (i : Inv w) (hz : ∀ s, (w.sigs s).desc ≠ some 0) (k : KnowsVal w) {op : Op} (hh : Honest op) :
    KnowsVal (step w op).1 := by
  by_cases ho : (step w op).2 = .overflow
  · rw [overflow_step ho]; exact k
  · intro c hc hr
    rcases connected_step i op hc with ⟨h1, h2, h3⟩ | ⟨p, s, r, cy, a, rfl, hok, rfl⟩
    · rw [log_step i op ho c (bound_connected i h1), h2, know_append, desc_step]
      have hr' : (w.conns c).isRemote = false := h3.symm.trans hr
      have kc := k c h1 hr'
      by_cases hd : ∃ s d, op = .setDescriptor s d
      · obtain ⟨s, d, rfl⟩ := hd
        dsimp only
        by_cases h0 : d = some 0 ∨ d = (w.sigs s).desc
        · have : added w c (.setDescriptor s d) = [] := by
            unfold added
            dsimp only
            rw [if_pos (by rcases h0 with h | h; exact Or.inl h; exact Or.inr (Or.inl h))]
          rw [this]
          show (know (w.conns c).log (none, none)).1 = _
          rw [kc]
          rcases h0 with h | h
          · simp [h]
          · split
            · rename_i hx
              rw [h, ← hx.1]
            · rfl
        · have h00 : d ≠ some 0 := fun e => h0 (Or.inl e)
          have h01 : d ≠ (w.sigs s).desc := fun e => h0 (Or.inr e)
          rw [know_setDescriptor h1 hr' h00 h01, kc]
          simp only [h00, ne_eq, not_false_eq_true, and_true]
      · have hd' : ∀ s d, op ≠ .setDescriptor s d := fun s d e => hd ⟨s, d, e⟩
        rw [know_plain _ (added_plain hh hd'), kc]
        split
        · rename_i s d
          exact absurd rfl (hd' s d)
        · rfl
    · rw [desc_step]
      have e : (step w (.connect p s r cy a)).1 = (w.connect p s r cy a).1 := rfl
      rw [e] at hr ⊢
      rw [(log_connect hok).1] at hr ⊢
      have hr : r = false := hr
      subst hr
      exact know1_getD _ _ (hz s)

theorem domDesc_congr {w w' : W} {s : Nat} (h1 : (w'.sigs s).domain = (w.sigs s).domain)
    (h2 : ∀ d, (w.sigs s).domain = some d → (w'.sigs d).desc = (w.sigs d).desc) : domDesc w' s = domDesc w s := by
  unfold domDesc
  rw [h1]
  cases hd : (w.sigs s).domain with
  | none => rfl
  | some d => exact h2 d hd

theorem knowsDom_step {w : W} (i : Inv w) (hz : ∀ s, (w.sigs s).desc ≠ some 0) (k : KnowsDom w) {op : Op} (hh : Honest op)
    (hst : Steady w op) : KnowsDom (step w op).1 := by
  by_cases ho : (step w op).2 = .overflow
  · rw [overflow_step ho]; exact k
  · intro c hc hr
    rcases connected_step i op hc with ⟨h1, h2, h3⟩ | ⟨p, s, r, cy, a, rfl, hok, rfl⟩
    · rw [log_step i op ho c (bound_connected i h1), h2, know_append]
      have hr' : (w.conns c).isRemote = false := h3.symm.trans hr
      have kc := k c h1 hr'
      have hmem : c ∈ (w.sigs (w.conns c).sig).conns := (i.agree.listed _ c).mpr ⟨h1, rfl, hr'⟩
      have hne : (w.sigs (w.conns c).sig).conns ≠ [] := List.ne_nil_of_mem hmem
      by_cases hd : ∃ s d, op = .setDescriptor s d
      · obtain ⟨s, d, rfl⟩ := hd
        have hdom := domain_step w (.setDescriptor s d) (w.conns c).sig
        dsimp only at hdom
        by_cases h0 : d = some 0 ∨ d = (w.sigs s).desc
        · have : added w c (.setDescriptor s d) = [] := by
            unfold added
            dsimp only
            rw [if_pos (by rcases h0 with h | h; exact Or.inl h; exact Or.inr (Or.inl h))]
          rw [this]
          show (know (w.conns c).log (none, none)).2 = _
          rw [kc, domDesc_congr hdom]
          intro t _
          rw [desc_step]
          dsimp only
          rcases h0 with h | h
          · simp [h]
          · split
            · rename_i hx
              rw [h, ← hx.1]
            · rfl
        · have h00 : d ≠ some 0 := fun e => h0 (Or.inl e)
          have h01 : d ≠ (w.sigs s).desc := fun e => h0 (Or.inr e)
          rw [know_setDescriptor h1 hr' h00 h01, kc]
          dsimp only
          by_cases hs : (w.sigs (w.conns c).sig).domain = some s
          · have ha : (w.sigs (w.conns c).sig).active = true := by
              rcases hst _ hs with h | h
              · exact h
              · exact absurd h hne
            rw [if_pos ⟨hs, ha⟩]
            unfold domDesc
            rw [hdom, hs]
            dsimp only
            rw [desc_step]
            simp [h00]
          · rw [if_neg (fun h => hs h.1)]
            refine (domDesc_congr hdom ?_).symm
            intro t ht
            rw [desc_step]
            dsimp only
            rw [if_neg]
            rintro ⟨rfl, _⟩
            exact hs ht
      · have hd' : ∀ s d, op ≠ .setDescriptor s d := fun s d e => hd ⟨s, d, e⟩
        rw [know_plain _ (added_plain hh hd'), kc]
        refine (domDesc_congr ?_ ?_).symm
        · rw [domain_step]
          split
          · rename_i s d
            split
            · rename_i hs
              have hst : (w.sigs s).conns = [] := hst
              rw [hs] at hne
              exact absurd hst hne
            · rfl
          · rename_i s
            split
            · rename_i hs
              have hdm := (i.domains.refs s _).mp hs.2
              by_cases hself : (w.conns c).sig = s
              · -- then the connection is gone
                exfalso
                have hg := (inv_removeSig i s).agree.listed s c
                have : c ∈ (((w.removeSig s).1).sigs s).conns := by
                  rw [hg]
                  exact ⟨hc, h2.trans hself, hr⟩
                rw [removeSig_eq hs.1] at this
                simp at this
              · exact absurd (hst _ hdm hself) hne
            · rfl
          · rfl
        · intro t _
          rw [desc_step]
          split
          · rename_i s d
            exact absurd rfl (hd' s d)
          · rfl
    · have e : (step w (.connect p s r cy a)).1 = (w.connect p s r cy a).1 := rfl
      have hdd : domDesc (step w (.connect p s r cy a)).1 s = domDesc w s :=
        domDesc_congr (domain_step w (.connect p s r cy a) s) fun t _ => desc_step w (.connect p s r cy a) t
      rw [e] at hr hdd ⊢
      rw [(log_connect hok).1] at hr ⊢
      have hr : r = false := hr
      subst hr
      dsimp only
      rw [hdd]
      refine know1_getD _ _ ?_
      unfold domDesc
      split
      · exact hz _
      · simp

theorem knowsVal_run (ops : List Op) (hh : ∀ op ∈ ops, Honest op) : ∀ {w : W}, Inv w → (∀ s, (w.sigs s).desc ≠ some 0) → KnowsVal w →
    KnowsVal (run w ops).1 := by
  induction ops with
  | nil => intro w _ _ k; exact k
  | cons op ops ih =>
    intro w i hz k
    exact ih (fun o ho => hh o (by simp [ho])) (inv_step i op) (nonzero_step hz op) (knowsVal_step i hz k (hh op (by simp)))

theorem knowsDom_run (ops : List Op) (hh : ∀ op ∈ ops, Honest op) : ∀ {w : W}, Inv w → (∀ s, (w.sigs s).desc ≠ some 0) → KnowsDom w →
    Along Steady w ops → KnowsDom (run w ops).1 := by
  induction ops with
  | nil => intro w _ _ k _; exact k
  | cons op ops ih =>
    intro w i hz k hs
    exact ih (fun o ho => hh o (by simp [ho])) (inv_step i op) (nonzero_step hz op) (knowsDom_step i hz k (hh op (by simp)) hs.1) hs.2

end Verif.Link
