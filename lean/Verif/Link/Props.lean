import Verif.Link.Last

/-! # C66–C72: signals, input ports and connections -/

namespace Verif.Link.Props

open Spec

/-- Two signals with descriptors, ports 0 and 1 with listeners. -/
def world : W := start (fun s => some (s + 10)) (fun p => p < 2)

/-! ## C66: ports and signals agree about connections -/

/-- C66: whatever is done, the connections a signal has are those of the ports connected to it, each once; removed signals and ports are not
connected; a signal knows of which signals it is the domain; and it knows whether it is listened to. -/
theorem C66_agree (desc : Nat → Option Nat) (listener : Nat → Bool) (ops : List Op) :
    let w := (run (start desc listener) ops).1
    Agree w ∧ Gone w ∧ Domains w ∧ ∀ s, (w.sigs s).removed = false → ((w.sigs s).listened = true ↔ (w.sigs s).conns ≠ []) := by
  have i := inv_run ops (inv_start desc listener)
  exact ⟨i.agree, i.gone, i.domains, i.listened⟩

/-- C66: a connection that is made connects the port to the signal; one that fails changes nothing, unless the listener refused it. Other ports
are not concerned. -/
theorem C66_connect (desc : Nat → Option Nat) (listener : Nat → Bool) (ops : List Op) (p s : Nat) (r cy a : Bool) :
    let w := (run (start desc listener) ops).1
    let y := step w (.connect p s r cy a)
    (y.2 = .ok → signalOf y.1 p = some s) ∧ (y.2 ≠ .ok → y.2 ≠ .err .refused → y.1 = w) ∧
    (y.2 = .err .refused → signalOf y.1 p = none) ∧ (∀ q, q ≠ p → signalOf y.1 q = signalOf w q) ∧
    (y.2 = .ok ↔ (w.sigs s).removed = false ∧ cy = false ∧ (w.ports p).removed = false ∧ ((w.ports p).listener = true → a = true)) := by
  intro w y
  have i : Inv w := inv_run ops (inv_start desc listener)
  have ey : y = w.connect p s r cy a := rfl
  rw [ey]
  have hfail : ∀ e, (w.connect p s r cy a) = (w, .err e) → e ≠ .refused → ((w.sigs s).removed = true ∨ cy = true ∨ (w.ports p).removed = true) := by
    intro e he hr
    cases h1 : (w.sigs s).removed with
    | true => exact Or.inl rfl
    | false =>
      cases cy with
      | true => exact Or.inr (Or.inl rfl)
      | false =>
        cases h3 : (w.ports p).removed with
        | true => exact Or.inr (Or.inr rfl)
        | false =>
          exfalso
          unfold W.connect at he
          rw [if_neg (by simp [h1]), if_neg (by simp), if_neg (by simp [h3])] at he
          dsimp only at he
          split at he
          · have := congrArg Prod.snd he
            cases this
            exact hr rfl
          · have := congrArg Prod.snd he
            cases this
  rcases connect_cases w p s r cy a with ⟨e, h, hne⟩ | ⟨h1, h2, h3, ⟨h4, h5, h⟩ | ⟨h4, h⟩⟩
  · have hf := hfail e h hne
    rw [h]
    refine ⟨fun h => by (cases h), fun _ _ => rfl, fun h => by (cases h; exact absurd rfl hne), fun _ _ => rfl, fun h => by (cases h), ?_⟩
    rintro ⟨a1, a2, a3, _⟩
    rcases hf with hf | hf | hf
    · rw [a1] at hf; cases hf
    · rw [a2] at hf; cases hf
    · rw [a3] at hf; cases hf
  · rw [h]
    refine ⟨fun h => by (cases h), fun _ h => absurd rfl h, fun _ => ?_, fun q hq => ?_, fun h => by (cases h), ?_⟩
    · simp [signalOf, W.port, upd]
    · unfold signalOf
      have e1 : (((w.offer p s r).port p fun x => { x with conn := none }).ports q) = w.ports q := by
        simp only [W.offer, W.port, upd, if_neg hq]
        exact drop_ports w p q _ _ _ hq
      dsimp only
      rw [e1]
      cases hc : (w.ports q).conn with
      | none => rfl
      | some c =>
        have hn : c ≠ w.next := by have := i.bound q c hc; omega
        have e2 : ((w.offer p s r).port p fun x => { x with conn := none }).conns c = w.conns c := offer_conns w p s r c hn
        simp only [Option.map_some, e2]
    · rintro ⟨_, _, _, a4⟩
      rw [a4 h4] at h5
      cases h5
  · have hok : (w.connect p s r cy a).2 = .ok := by rw [h]
    obtain ⟨e1, e2⟩ := log_connect hok
    refine ⟨fun _ => ?_, fun h => absurd hok h, fun h => ?_, fun q hq => ?_, fun _ => ⟨h1, h2, h3, ?_⟩, fun _ => hok⟩
    · unfold signalOf
      rw [e2]
      simp only [Option.map_some, e1]
    · rw [hok] at h
      cases h
    · unfold signalOf
      rw [h]
      have e3 : ((((w.offer p s r).listen w.next).port p fun x => { x with core := x.core ++ [.connected s] }).ports q) = w.ports q := by
        simp only [W.port, upd, if_neg hq, listen_ports]
        simp only [W.offer, W.port, upd, if_neg hq]
        exact drop_ports w p q _ _ _ hq
      dsimp only
      rw [e3]
      cases hc : (w.ports q).conn with
      | none => rfl
      | some c =>
        have hn : c ≠ w.next := by have := i.bound q c hc; omega
        have e4 : (((w.offer p s r).listen w.next).port p fun x => { x with core := x.core ++ [.connected s] }).conns c = w.conns c := by
          show ((w.offer p s r).listen w.next).conns c = _
          rw [listen_conns hn, offer_conns w p s r c hn]
        simp only [Option.map_some, e4]
    · intro hl
      rcases h4 with h4 | h4
      · rw [hl] at h4; cases h4
      · exact h4

/-- C71: somebody who follows the core events of a port that is not removed, or is its listener, knows what it is connected to, if no listener
refuses connections. Missing: a listener that refuses a connection, see `C71_violation_refused`. -/
theorem C71_told_partial (desc : Nat → Option Nat) (listener : Nat → Bool) (ops : List Op) (ha : ∀ op ∈ ops, Accepting op) (p : Nat) :
    let w := (run (start desc listener) ops).1
    (w.ports p).removed = false → follow (w.ports p).core none = signalOf w p ∧
      ((w.ports p).listener = true → heard (w.ports p).notes false = (signalOf w p).isSome) := by
  intro w hr
  have v : View w := view_run ops ha (inv_start desc listener) (fun q _ => ⟨rfl, fun _ => rfl⟩)
  obtain ⟨h1, h2⟩ := v p hr
  refine ⟨h1, fun hl => ?_⟩
  rw [h2 hl]
  unfold signalOf
  cases (w.ports p).conn <;> rfl

/-- Finding: a connection that the listener refuses ends the connection that the port had, and nobody is told: the core events still say that the
port is connected to the first signal. -/
theorem C71_violation_refused : ∃ ops p, let w := (run world ops).1
    signalOf w p = none ∧ follow (w.ports p).core none = some 0 ∧ (w.sigs 0).conns = [] ∧ (w.ports p).notes = [true, true] :=
  ⟨[.connect 0 0 false false true, .connect 0 1 false false false], 0, by decide⟩

example : let w := (run world [.connect 0 0 false false true, .connect 1 0 false false true, .connect 2 1 true false true, .setDomain 0 (some 1),
      .connect 0 1 false false true, .removeSig 0, .send 0 (.event none none)]).1
    (w.sigs 1).conns = [3] ∧ (w.sigs 1).remote = [2] ∧ (w.sigs 0).conns = [] ∧ signalOf w 0 = some 1 ∧ signalOf w 1 = none ∧
    (w.ports 1).core = [.connected 0, .disconnected] ∧ (w.sigs 1).listened = true ∧ (w.ports 0).core = [.connected 0, .connected 1] := by
  decide

/-! ## C67: packets are delivered to exactly the connections there are -/

/-- C67: every call adds to the packets of each connection exactly what it should: packets that are sent, if the signal is active and the
connection is not the remote kind; a descriptor that changed; the descriptor of the domain that changed, if the signal is active. -/
theorem C67_delivered (desc : Nat → Option Nat) (listener : Nat → Bool) (ops : List Op) (op : Op) (c : Nat) :
    let w := (run (start desc listener) ops).1
    (step w op).2 ≠ .overflow → c < w.next → ((step w op).1.conns c).log = (w.conns c).log ++ added w c op := by
  intro w h hc
  exact log_step (inv_run ops (inv_start desc listener)) op h c hc

/-- C67: the first packet of a connection says which descriptors the signal and its domain have. -/
theorem C67_first (w : W) (p s : Nat) (r cy a : Bool) (h : (step w (.connect p s r cy a)).2 = .ok) :
    let w' := (step w (.connect p s r cy a)).1
    (w'.ports p).conn = some w.next ∧ (w'.conns w.next).sig = s ∧ (w'.conns w.next).port = p ∧ (w'.conns w.next).isRemote = r ∧
      (w'.conns w.next).log = if r then [] else [.event (some ((w.sigs s).desc.getD 0)) (some ((domDesc w s).getD 0))] := by
  obtain ⟨h1, h2⟩ := log_connect h
  refine ⟨h2, ?_⟩
  show ((w.connect p s r cy a).1.conns w.next).sig = s ∧ ((w.connect p s r cy a).1.conns w.next).port = p ∧
    ((w.connect p s r cy a).1.conns w.next).isRemote = r ∧ ((w.connect p s r cy a).1.conns w.next).log = _
  rw [h1]
  exact ⟨rfl, rfl, rfl, rfl⟩

theorem next_step (w : W) (op : Op) : w.next ≤ (step w op).1.next := by
  cases op with
  | setDescriptor s d => exact Nat.le_of_eq (same_setDescriptor w s d).next.symm
  | setDomain s d => exact Nat.le_of_eq (setDomain_conns w s d).2.1.symm
  | send s p => exact Nat.le_of_eq (same_send w s p).next.symm
  | sendMany s ps => exact Nat.le_of_eq (same_sendMany w s ps).next.symm
  | setActive s b =>
    unfold step
    dsimp only
    split
    · exact Nat.le_refl _
    · split <;> exact Nat.le_refl _
  | setPublic s b => exact Nat.le_refl _
  | keepLast s b => exact Nat.le_refl _
  | setLast s v => exact Nat.le_refl _
  | getLast s => exact Nat.le_refl _
  | connect p s r cy a =>
    show w.next ≤ (w.connect p s r cy a).1.next
    have ho : (w.offer p s r).next = w.next + 1 := by
      unfold W.offer
      simp only [W.port, (drop_conns w p _ _ _).2]
    rcases connect_cases w p s r cy a with ⟨e, h', _⟩ | ⟨_, _, _, ⟨_, _, h'⟩ | ⟨_, h'⟩⟩
    · rw [h']; exact Nat.le_refl _
    · rw [h']
      show w.next ≤ (w.offer p s r).next
      omega
    · rw [h']
      have : ((w.offer p s r).listen w.next).next = (w.offer p s r).next := by
        unfold W.listen
        dsimp only
        split <;> rfl
      show w.next ≤ ((w.offer p s r).listen w.next).next
      omega
  | disconnect p => exact Nat.le_of_eq (drop_conns w p _ _ _).2.symm
  | removeSig s => exact Nat.le_of_eq (removeSig_conns w s).2.symm
  | removePort p => exact Nat.le_of_eq (removePort_conns w p).2.symm

/-- C67: a connection that ended gets nothing any more. -/
theorem C67_ended (desc : Nat → Option Nat) (listener : Nat → Bool) (before after : List Op) (c : Nat)
    (hc : c < (run (start desc listener) before).1.next) (he : ¬ Connected (run (start desc listener) before).1 c) :
    ((run (run (start desc listener) before).1 after).1.conns c).log = ((run (start desc listener) before).1.conns c).log := by
  have i := inv_run before (inv_start desc listener)
  generalize (run (start desc listener) before).1 = w at *
  induction after generalizing w with
  | nil => rfl
  | cons op ops ih =>
    have key : ((step w op).1.conns c).log = (w.conns c).log := by
      by_cases ho : (step w op).2 = .overflow
      · rw [overflow_step ho]
      · rw [log_step i op ho c hc]
        have : added w c op = [] := by
          cases op with
          | send s p => exact if_neg fun h => he h.2.2.1
          | sendMany s ps => exact if_neg fun h => he h.2.2.1
          | setDescriptor s d =>
            unfold added
            dsimp only
            exact if_pos (Or.inr (Or.inr fun h => he h.1))
          | _ => rfl
        rw [this, List.append_nil]
    have := ih (step w op).1 (Nat.lt_of_lt_of_le hc (next_step w op)) (fun h => by
      rcases connected_step i op h with ⟨h1, _⟩ | ⟨p, s, r, cy, a, _, _, hx⟩
      · exact he h1
      · omega) (inv_step i op)
    rw [← key]
    exact this

example : let w := (run world [.setDomain 0 (some 1), .connect 0 0 false false true, .connect 2 0 false false true, .send 0 (.data 7 3 none 12),
      .disconnect 0, .setDescriptor 1 (some 5), .setActive 0 false, .send 0 (.data 8 3 none 12), .setDescriptor 0 none]).1
    (w.conns 0).log = [.event (some 10) (some 11), .data 7 3 none 12] ∧
    (w.conns 1).log = [.event (some 10) (some 11), .data 7 3 none 12, .event none (some 5), .event (some 0) none] := by
  decide

/-! ## C68: listeners know the descriptors -/

/-- C68: somebody who follows the packets of a connection knows which descriptor the signal has, whatever is done, as long as nobody sends
descriptors as packets. -/
theorem C68_descriptor (desc : Nat → Option Nat) (hz : ∀ s, desc s ≠ some 0) (listener : Nat → Bool) (ops : List Op)
    (hh : ∀ op ∈ ops, Honest op) (p c : Nat) :
    let w := (run (start desc listener) ops).1
    (w.ports p).conn = some c → (w.conns c).isRemote = false → (know (w.conns c).log (none, none)).1 = (w.sigs (w.conns c).sig).desc := by
  intro w hc hr
  have k : KnowsVal w := knowsVal_run ops hh (inv_start desc listener) hz (fun c hc => by cases hc)
  have i : Inv w := inv_run ops (inv_start desc listener)
  refine k c ?_ hr
  unfold Connected
  rw [i.agree.known p c hc]
  exact hc

/-- C72: somebody who follows the packets of a connection knows which descriptor the domain of the signal has, as long as the domain signal of
a signal that is listened to is not replaced or removed, and does not get a new descriptor while the signal is not active. Missing: these three, see
`C72_violation_domain`, `C72_violation_removed` and `C72_violation_inactive`. -/
theorem C72_domain_partial (desc : Nat → Option Nat) (hz : ∀ s, desc s ≠ some 0) (listener : Nat → Bool) (ops : List Op)
    (hh : ∀ op ∈ ops, Honest op) (hs : Along Steady (start desc listener) ops) (p c : Nat) :
    let w := (run (start desc listener) ops).1
    (w.ports p).conn = some c → (w.conns c).isRemote = false → (know (w.conns c).log (none, none)).2 = domDesc w (w.conns c).sig := by
  intro w hc hr
  have k : KnowsDom w := knowsDom_run ops hh (inv_start desc listener) hz (fun c hc => by cases hc) hs
  have i : Inv w := inv_run ops (inv_start desc listener)
  refine k c ?_ hr
  unfold Connected
  rw [i.agree.known p c hc]
  exact hc

/-- Finding: a signal that gets a domain signal while somebody listens does not say so. -/
theorem C72_violation_domain : ∃ ops, let w := (run world ops).1
    (w.ports 0).conn = some 0 ∧ (know (w.conns 0).log (none, none)).2 = none ∧ domDesc w 0 = some 11 :=
  ⟨[.connect 0 0 false false true, .setDomain 0 (some 1)], by decide⟩

/-- Finding: nor does one whose domain signal is removed. -/
theorem C72_violation_removed : ∃ ops, let w := (run world ops).1
    (w.ports 0).conn = some 0 ∧ (know (w.conns 0).log (none, none)).2 = some 11 ∧ domDesc w 0 = none ∧ (w.sigs 1).removed = true :=
  ⟨[.setDomain 0 (some 1), .connect 0 0 false false true, .removeSig 1], by decide⟩

/-- Finding: a change of the descriptor of the domain signal while the signal is not active is not announced, not even later, though a change of
its own descriptor is. -/
theorem C72_violation_inactive : ∃ ops, let w := (run world ops).1
    (w.ports 0).conn = some 0 ∧ know (w.conns 0).log (none, none) = (some 20, some 11) ∧ domDesc w 0 = some 21 ∧
      (w.sigs 0).desc = some 20 ∧ (w.sigs 0).active = true :=
  ⟨[.setDomain 0 (some 1), .connect 0 0 false false true, .setActive 0 false, .setDescriptor 1 (some 21), .setDescriptor 0 (some 20),
    .setActive 0 true, .send 0 (.data 7 1 none 4)], by decide⟩

/-- The conditions of `C72_domain_partial` for this run. -/
def followed : List Op := [.setDomain 0 (some 1), .connect 0 0 false false true, .setDescriptor 1 (some 21), .send 0 (.data 7 1 none 4), .setDescriptor 0 none]

example : (∀ op ∈ followed, Honest op) ∧ Along Steady world followed ∧ ((run world followed).1.ports 0).conn = some 0 ∧
    know ((run world followed).1.conns 0).log (none, none) = (none, some 21) := by
  refine ⟨by decide, ⟨rfl, trivial, ?_, trivial, ?_, trivial⟩, by decide, by decide⟩
  · intro v hv
    by_cases h : v = 0
    · subst h; exact Or.inl (by decide)
    · exact Or.inr (by by_cases h1 : v = 1 <;> simp [step, W.setDomain, W.leave, W.connect, W.drop, W.port, W.sig, W.listen, W.enqueue, upd, world, start, h, h1])
  · intro v hv
    by_cases h : v = 0
    · subst h; exact Or.inl (by decide)
    · exact Or.inr (by
        by_cases h1 : v = 1 <;>
        simp [step, W.setDomain, W.leave, W.connect, W.drop, W.port, W.sig, W.listen, W.enqueue, W.setDescriptor, W.send, W.deliver, upd, world, start, h, h1,
          Sig.check, Sig.cache, Sig.reset])

/-! ## C69: the last value -/

/-- C69: the last value of a signal that is active, public and keeps it is the last sample sent, if lists of packets that are sent end in a data packet
with samples, or have none. Missing: other lists, see `C69_violation_list`. -/
theorem C69_last_partial (desc : Nat → Option Nat) (listener : Nat → Bool) (before ops : List Op) (s : Nat) :
    let w := (run (start desc listener) before).1
    let w' := (run w ops).1
    (w.sigs s).active = true → (w.sigs s).keep = true → (w.sigs s).isPublic = true → (∀ op ∈ ops, Keeps s op) → Res.overflow ∉ (run w ops).2 →
    (step w' (.getLast s)).2 = match lastSample (ops.flatMap (sent s)) (w.sigs s).last with | some v => .value v | none => .ignored := by
  intro w w' h1 h2 h3 h4 h5
  have := last_run s ops ⟨h1, h2, h3⟩ h4 h5
  show (match (w'.sigs s).last with | some v => Res.value v | none => .ignored) = _
  rw [this]

/-- C69: a signal that is not public or was told not to keep the last value has none, unless it was set. -/
theorem C69_not_kept (desc : Nat → Option Nat) (listener : Nat → Bool) (ops : List Op) (s : Nat) (hset : ∀ op ∈ ops, ∀ v, op ≠ .setLast s v) :
    let w := (run (start desc listener) ops).1
    (w.sigs s).keep = false ∨ (w.sigs s).isPublic = false → (step w (.getLast s)).2 = .ignored := by
  have main : ∀ (ops : List Op) (w : W), (∀ op ∈ ops, ∀ v, op ≠ .setLast s v) →
      ((w.sigs s).keep = false ∨ (w.sigs s).isPublic = false → (w.sigs s).last = none) →
      (((run w ops).1.sigs s).keep = false ∨ ((run w ops).1.sigs s).isPublic = false → ((run w ops).1.sigs s).last = none) := by
    intro ops
    induction ops with
    | nil => intro w _ h; exact h
    | cons op ops ih =>
      intro w hs h
      refine ih (step w op).1 (fun o ho => hs o (by simp [ho])) ?_
      have hsend : ∀ {p x}, (w.sigs s).check p = some x → (x.keep = false ∨ x.isPublic = false → x.last = none) := by
        intro p x hx hk
        have e := check_same hx
        rcases check_cases hx with ⟨rfl, _⟩ | ⟨_, _, _, _, _, _, _, rfl⟩ | ⟨_, _, _, _, _, _, _, k1, k2, rfl, _⟩
        · exact h hk
        · rfl
        · rcases hk with hk | hk
          · have : (w.sigs s).keep = false := hk
            rw [k1] at this; cases this
          · have : (w.sigs s).isPublic = false := hk
            rw [k2] at this; cases this
      have hkeep : ∀ x : Sig, (x.setKeep.keep = false ∨ x.setKeep.isPublic = false) → x.setKeep.last = none := by
        intro x hx
        unfold Sig.setKeep at hx ⊢
        by_cases hb : (x.keep && x.isPublic) = true
        · rw [if_pos hb] at hx
          simp only [Bool.and_eq_true] at hb
          rcases hx with hx | hx
          · rw [hb.1] at hx; cases hx
          · rw [hb.2] at hx; cases hx
        · rw [if_neg hb]; rfl
      by_cases ht : Touches s op
      · cases op with
        | setActive t b =>
          have ht : t = s := ht
          subst ht
          unfold step
          dsimp only
          by_cases h1 : (w.sigs t).removed = true
          · rw [if_pos h1]; exact h
          · rw [if_neg h1]
            by_cases h2 : (w.sigs t).active = b
            · rw [if_pos h2]; exact h
            · rw [if_neg h2]
              simp only [W.sig, upd, if_true]
              exact h
        | setPublic t b =>
          have ht : t = s := ht
          subst ht
          simp only [step, W.sig, upd, if_true]
          exact hkeep _
        | keepLast t b =>
          have ht : t = s := ht
          subst ht
          simp only [step, W.sig, upd, if_true]
          exact hkeep _
        | setLast t v =>
          have ht : t = s := ht
          subst ht
          exact absurd rfl (hs _ (by simp) v)
        | removeSig t =>
          have ht : t = s := ht
          subst ht
          have e : (step w (.removeSig t)).1 = (w.removeSig t).1 := rfl
          rw [e]
          cases hr : (w.sigs t).removed with
          | true => unfold W.removeSig; rw [if_pos hr]; exact h
          | false =>
            rw [removeSig_eq hr]
            simp only [if_true]
            exact h
        | send t p =>
          have ht : t = s := ht
          subst ht
          have e : (step w (.send t p)).1 = (w.send t p).1 := rfl
          rw [e]
          rcases send_cases w t p with ⟨e, _⟩ | ⟨_, _, e⟩ | ⟨x, _, hx, e⟩
          · rw [e]; exact h
          · rw [e]; exact h
          · rw [e]
            dsimp only
            rw [sigs_deliver]
            simp only [W.sig, upd, if_true]
            exact hsend hx
        | sendMany t ps =>
          have ht : t = s := ht
          subst ht
          have e : (step w (.sendMany t ps)).1 = (w.sendMany t ps).1 := rfl
          rw [e]
          rcases sendMany_cases w t ps with ⟨e, _⟩ | ⟨_, _, _, _, e⟩ | ⟨p, x, _, _, hx, e⟩
          · rw [e]; exact h
          · rw [e]; exact h
          · rw [e]
            dsimp only
            rw [sigs_deliver]
            simp only [W.sig, upd, if_true]
            exact hsend hx
        | setDescriptor t d => exact absurd ht (fun h => h)
        | setDomain t d => exact absurd ht (fun h => h)
        | getLast t => exact absurd ht (fun h => h)
        | connect p t r cy a => exact absurd ht (fun h => h)
        | disconnect p => exact absurd ht (fun h => h)
        | removePort p => exact absurd ht (fun h => h)
      · obtain ⟨e1, _, e3, e4, _, _⟩ := rest_step w ht
        rw [e1, e3, e4]
        exact h
  intro w hk
  have := main ops (start desc listener) hset (fun h => by rfl) hk
  show (match (w.sigs s).last with | some v => Res.value v | none => .ignored) = _
  rw [this]

/-- C69: a value that is set is the last value. -/
theorem C69_set (w : W) (s : Nat) (v : Nat) : (step (step w (.setLast s (some v))).1 (.getLast s)).2 = .value (.value v) := by
  simp [step, W.sig, upd]

/-- Finding: only the last packet of a list that is sent is looked at: if it is an event or has no samples, the samples before it are delivered, but the
last value stays the old one. -/
theorem C69_violation_list : ∃ ops, let w := (run world ops).1
    (step w (.getLast 0)).2 = .value (.sample 7 1) ∧
    lastSample (ops.flatMap (sent 0)) none = some (.sample 8 2) ∧ (w.sigs 0).keep = true ∧ (w.sigs 0).isPublic = true ∧ (w.sigs 0).active = true :=
  ⟨[.send 0 (.data 7 2 (some ⟨1, 4, 4, false, false⟩) 8),
    .sendMany 0 [.data 8 3 (some ⟨1, 4, 4, false, false⟩) 12, .data 9 0 (some ⟨1, 4, 4, false, false⟩) 0]], by decide⟩

/-- The conditions of `C69_last_partial` for this run. -/
def kept : List Op := [.send 0 (.data 7 2 (some ⟨1, 4, 4, false, false⟩) 8), .connect 0 0 false false true,
  .sendMany 0 [.data 8 3 (some ⟨1, 4, 4, false, false⟩) 12, .event none none, .data 9 5 (some ⟨2, 8, 2, true, false⟩) 10], .setPublic 1 false]

example : (∀ op ∈ kept, Keeps 0 op) ∧ Res.overflow ∉ (run world kept).2 ∧ (step (run world kept).1 (.getLast 0)).2 = .value (.sample 9 4) ∧
    (step (run world (kept ++ [.keepLast 0 false])).1 (.getLast 0)).2 = .ignored := by
  refine ⟨?_, by decide, by decide, by decide⟩
  intro op hop
  simp only [kept, List.mem_cons, List.not_mem_nil, or_false] at hop
  rcases hop with rfl | rfl | rfl | rfl
  · trivial
  · trivial
  · exact fun _ => Or.inl ⟨9, 5, _, 10, rfl, by decide⟩
  · exact Nat.one_ne_zero

/-! ## C70: the buffer of the last value -/

/-- C70: keeping the last value does not write past its buffer, as long as no descriptor has a scaling from a wider type. Missing: a wider type, see
`C70_violation_scaled`. -/
theorem C70_buffer_partial (desc : Nat → Option Nat) (listener : Nat → Bool) (ops : List Op) (hn : ∀ op ∈ ops, NarrowOp op) :
    Res.overflow ∉ (run (start desc listener) ops).2 :=
  buf_run ops (fun s d hd => by cases hd) hn

/-- Finding: with a scaling from eight bytes to four, sending a packet copies eight bytes into a buffer of four. -/
theorem C70_violation_scaled : (run world [.send 0 (.data 7 2 (some ⟨1, 4, 8, true, false⟩) 16)]).2 = [.overflow] := by decide

example : (∀ op ∈ kept, NarrowOp op) ∧ (run world kept).2 = [.ok, .ok, .ok, .ok] ∧ ((run world kept).1.sigs 0).buf = 8 := by
  refine ⟨?_, by decide, by decide⟩
  intro op hop
  simp only [kept, List.mem_cons, List.not_mem_nil, or_false] at hop
  rcases hop with rfl | rfl | rfl | rfl
  · exact fun h => by cases h
  · trivial
  · intro p hp
    simp only [List.mem_cons, List.not_mem_nil, or_false] at hp
    rcases hp with rfl | rfl | rfl
    · exact fun h => by cases h
    · trivial
    · exact fun _ => by decide
  · trivial

end Verif.Link.Props
