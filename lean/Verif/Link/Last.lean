import Verif.Link.Know

/-! # Core events of ports, and the last value -/

namespace Verif.Link

open Spec

/-! ## What is told about ports -/

theorem follow_append (a b : List Core) : ∀ k, follow (a ++ b) k = follow b (follow a k) := by
  induction a with
  | nil => intro k; rfl
  | cons e a ih => intro k; cases e <;> exact ih _

theorem heard_append (a b : List Bool) : ∀ k, heard (a ++ b) k = heard b (heard a k) := by
  induction a with
  | nil => intro k; rfl
  | cons e a ih => intro k; exact ih _

def ViewAt (w : W) (p : Nat) : Prop := (w.ports p).removed = false → follow (w.ports p).core none = signalOf w p ∧
  ((w.ports p).listener = true → heard (w.ports p).notes false = (w.ports p).conn.isSome)

def View (w : W) : Prop := ∀ p, ViewAt w p

theorem viewAt_congr {w w' : W} {p : Nat} (h1 : w'.ports p = w.ports p) (h2 : ∀ c, (w.ports p).conn = some c → (w'.conns c).sig = (w.conns c).sig)
    (h : ViewAt w p) : ViewAt w' p := by
  intro hr
  rw [h1] at hr
  obtain ⟨a, b⟩ := h hr
  refine ⟨?_, ?_⟩
  · rw [h1, a]
    unfold signalOf
    rw [h1]
    cases hc : (w.ports p).conn with
    | none => rfl
    | some c =>
      simp only [Option.map_some]
      rw [h2 c hc]
  · rw [h1]; exact b

theorem Same.view {w w' : W} (h : Same w w') (v : View w) : View w' := fun p =>
  viewAt_congr (by rw [h.ports]) (fun c _ => (h.conn c).1) (v p)

theorem drop_port_eq {w : W} {p c : Nat} (h : (w.ports p).conn = some c) (a b k : Bool) : (w.drop p a b k).ports p = { w.ports p with
    conn := none,
    notes := if a && (w.ports p).listener then (w.ports p).notes ++ [false] else (w.ports p).notes,
    core := if k && !(w.ports p).removed then (w.ports p).core ++ [.disconnected] else (w.ports p).core } := by
  unfold W.drop
  rw [h]
  cases b <;> simp [W.port, W.unlisten, W.sig, upd]

theorem drop_none {w : W} {p : Nat} (h : (w.ports p).conn = none) (a b k : Bool) : w.drop p a b k = w := by
  unfold W.drop
  rw [h]

theorem view_drop {w : W} (v : View w) (p : Nat) (b : Bool) : View (w.drop p true b true) := by
  intro q
  by_cases hq : q = p
  · subst hq
    rcases Option.eq_none_or_eq_some (w.ports q).conn with hc | ⟨c, hc⟩
    · rw [drop_none hc]; exact v q
    · intro hr
      unfold signalOf
      rw [drop_port_eq hc] at hr ⊢
      dsimp only at hr ⊢
      refine ⟨?_, ?_⟩
      · rw [hr]
        simp [follow_append, follow]
      · intro hl
        rw [hl]
        simp [heard_append, heard]
  · exact viewAt_congr (drop_ports w p q _ _ _ hq) (fun c _ => by rw [(drop_conns w p _ _ _).1]) (v q)

theorem view_dropAll (cs : List Nat) : ∀ {w : W}, View w → View (w.dropAll cs) := by
  induction cs with
  | nil => intro w v; exact v
  | cons c cs ih => intro w v; exact ih (view_drop v _ false)

theorem listen_ports (x : W) (c : Nat) : (x.listen c).ports = x.ports := by
  unfold W.listen
  dsimp only
  split <;> rfl

theorem view_step {w : W} (i : Inv w) (v : View w) {op : Op} (ha : Accepting op) : View (step w op).1 := by
  cases op with
  | setDescriptor s d => exact (same_setDescriptor w s d).view v
  | setDomain s d =>
    intro p
    obtain ⟨e1, _, e3⟩ := setDomain_conns w s d
    exact viewAt_congr (w := w) (w' := (w.setDomain s d).1) (by rw [e3]) (fun c _ => by rw [e1]) (v p)
  | send s p => exact (same_send w s p).view v
  | sendMany s ps => exact (same_sendMany w s ps).view v
  | setActive s b =>
    unfold step
    dsimp only
    by_cases h : (w.sigs s).removed = true
    · rw [if_pos h]; exact v
    · rw [if_neg h]
      by_cases h2 : (w.sigs s).active = b
      · rw [if_pos h2]; exact v
      · rw [if_neg h2]; exact v
  | setPublic s b => exact v
  | keepLast s b => exact v
  | setLast s x => exact v
  | getLast s => exact v
  | connect p s r cy a =>
    have ha : a = true := ha
    subst ha
    show View (w.connect p s r cy true).1
    rcases connect_cases w p s r cy true with ⟨e, h, _⟩ | ⟨_, _, h3, ⟨_, h, _⟩ | ⟨_, h⟩⟩
    · rw [h]; exact v
    · cases h
    · intro q
      by_cases hq : q = p
      · subst hq
        intro _
        have hok : (w.connect q s r cy true).2 = .ok := by rw [h]
        obtain ⟨e1, e2⟩ := log_connect hok
        unfold signalOf
        rw [e2]
        simp only [Option.map_some, e1]
        have hcore : ((w.connect q s r cy true).1.ports q).core = (w.ports q).core ++ [.connected s] ∧
            ((w.connect q s r cy true).1.ports q).notes = (if (w.ports q).listener then (w.ports q).notes ++ [true] else (w.ports q).notes) ∧
            ((w.connect q s r cy true).1.ports q).listener = (w.ports q).listener := by
          rw [h]
          simp only [W.port, upd, if_true, listen_ports]
          simp only [W.offer, W.port, upd, if_true]
          rcases Option.eq_none_or_eq_some (w.ports q).conn with hc | ⟨c, hc⟩
          · rw [drop_none hc]; simp
          · rw [drop_port_eq hc]; simp
        rw [hcore.1, hcore.2.1, hcore.2.2]
        refine ⟨by simp [follow_append, follow], ?_⟩
        intro hl
        simp [hl, heard_append, heard]
      · refine viewAt_congr ?_ ?_ (v q)
        · rw [h]
          simp only [W.port, upd, if_neg hq, listen_ports]
          simp only [W.offer, W.port, upd, if_neg hq]
          exact drop_ports w p q _ _ _ hq
        · intro c hc
          have hn : c ≠ w.next := by have := i.bound q c hc; omega
          rw [h]
          show (((w.offer p s r).listen w.next).conns c).sig = _
          rw [listen_conns hn, offer_conns w p s r c hn]
  | disconnect p => exact view_drop v p true
  | removeSig s =>
    show View (w.removeSig s).1
    cases hr : (w.sigs s).removed with
    | true => unfold W.removeSig; rw [if_pos hr]; exact v
    | false =>
      rw [removeSig_eq hr]
      exact view_dropAll _ v
  | removePort p =>
    show View (w.removePort p).1
    unfold W.removePort
    split
    · exact v
    · intro q
      by_cases hq : q = p
      · subst hq
        intro hr
        rw [(drop_port _ q _ _ _).1] at hr
        simp [W.port, upd] at hr
      · refine viewAt_congr ?_ ?_ (v q)
        · rw [drop_ports _ p q _ _ _ hq]
          simp [W.port, upd, hq]
        · intro c _
          rw [(drop_conns _ p _ _ _).1]
          rfl

theorem view_run (ops : List Op) (ha : ∀ op ∈ ops, Accepting op) : ∀ {w : W}, Inv w → View w → View (run w ops).1 := by
  induction ops with
  | nil => intro w _ v; exact v
  | cons op ops ih =>
    intro w i v
    exact ih (fun o ho => ha o (by simp [ho])) (inv_step i op) (view_step i v (ha op (by simp)))

/-! ## The last value -/

/-- Nothing that concerns the last value differs. -/
def Rest (x y : Sig) : Prop := y.last = x.last ∧ y.active = x.active ∧ y.keep = x.keep ∧ y.isPublic = x.isPublic ∧ y.bufDesc = x.bufDesc ∧
  y.buf = x.buf

theorem Rest.refl (x : Sig) : Rest x x := ⟨rfl, rfl, rfl, rfl, rfl, rfl⟩

theorem Rest.trans {x y z : Sig} (h : Rest x y) (g : Rest y z) : Rest x z := by
  obtain ⟨a1, a2, a3, a4, a5, a6⟩ := h
  obtain ⟨b1, b2, b3, b4, b5, b6⟩ := g
  exact ⟨b1.trans a1, b2.trans a2, b3.trans a3, b4.trans a4, b5.trans a5, b6.trans a6⟩

theorem rest_upd {w : W} {s : Nat} {g : Sig → Sig} (h : ∀ x, Rest x (g x)) (t : Nat) : Rest (w.sigs t) ((w.sig s g).sigs t) := by
  simp only [W.sig, upd]
  split
  · exact h _
  · exact Rest.refl _

theorem rest_unlisten (w : W) (c t : Nat) : Rest (w.sigs t) ((w.unlisten c).sigs t) := by
  unfold W.unlisten
  refine rest_upd (fun x => ?_) t
  split <;> exact Rest.refl _

theorem rest_drop (w : W) (p t : Nat) (a b k : Bool) : Rest (w.sigs t) ((w.drop p a b k).sigs t) := by
  cases b with
  | false => rw [drop_sigs_quiet]; exact Rest.refl _
  | true =>
    rw [drop_sigs]
    split
    · exact Rest.refl _
    · exact rest_unlisten w _ t

theorem rest_listen (w : W) (c t : Nat) : Rest (w.sigs t) ((w.listen c).sigs t) := by
  unfold W.listen
  dsimp only
  split
  · refine rest_upd ?_ t; exact fun x => ⟨rfl, rfl, rfl, rfl, rfl, rfl⟩
  · exact rest_upd (w := w) (g := fun x => { x with conns := x.conns ++ [c], listened := if x.conns.isEmpty then true else x.listened })
      (fun x => Rest.refl _) t

theorem rest_setDomain (w : W) (s : Nat) (d : Option Nat) (t : Nat) : Rest (w.sigs t) ((w.setDomain s d).1.sigs t) := by
  have h1 : Rest (w.sigs t) ((w.leave s).sigs t) := by
    unfold W.leave
    split
    · refine rest_upd ?_ t; exact fun x => ⟨rfl, rfl, rfl, rfl, rfl, rfl⟩
    · exact Rest.refl _
  have h2 : Rest (w.sigs t) (((w.leave s).sig s fun x => { x with domain := d }).sigs t) := h1.trans (by refine rest_upd ?_ t; exact fun x => ⟨rfl, rfl, rfl, rfl, rfl, rfl⟩)
  unfold W.setDomain
  split
  · exact Rest.refl _
  · cases d with
    | none => exact h2
    | some d =>
      dsimp only
      split
      · exact h2
      · exact h2.trans (by refine rest_upd (w := (w.leave s).sig s fun x => { x with domain := some d }) ?_ t; exact fun x => ⟨rfl, rfl, rfl, rfl, rfl, rfl⟩)

theorem rest_send {w : W} {s : Nat} {p : Pkt} {t : Nat} (h : t ≠ s) : (w.send s p).1.sigs t = w.sigs t := by
  rcases send_cases w s p with ⟨e, _⟩ | ⟨_, _, e⟩ | ⟨x, _, hx, e⟩
  · rw [e]
  · rw [e]
  · rw [e]
    dsimp only
    rw [sigs_deliver]
    simp [W.sig, upd, h]

theorem rest_sendMany {w : W} {s : Nat} {ps : List Pkt} {t : Nat} (h : t ≠ s) : (w.sendMany s ps).1.sigs t = w.sigs t := by
  rcases sendMany_cases w s ps with ⟨e, _⟩ | ⟨_, _, _, _, e⟩ | ⟨p, x, _, _, hx, e⟩
  · rw [e]
  · rw [e]
  · rw [e]
    dsimp only
    rw [sigs_deliver]
    simp [W.sig, upd, h]

/-- The calls that can touch the last value of a signal. -/
def Touches (t : Nat) : Op → Prop
  | .setActive s _ => s = t
  | .setPublic s _ => s = t
  | .keepLast s _ => s = t
  | .setLast s _ => s = t
  | .removeSig s => s = t
  | .send s _ => s = t
  | .sendMany s _ => s = t
  | _ => False

theorem rest_step (w : W) {op : Op} {t : Nat} (h : ¬ Touches t op) : Rest (w.sigs t) ((step w op).1.sigs t) := by
  have hne : ∀ {s : Nat}, ¬ s = t → t ≠ s := fun h e => h e.symm
  cases op with
  | setDescriptor s d =>
    show Rest _ ((w.setDescriptor s d).1.sigs t)
    by_cases h0 : d = some 0
    · rw [h0, setDescriptor_zero]; exact Rest.refl _
    · rw [setDescriptor_sigs h0]
      split <;> exact Rest.refl _
  | setDomain s d => exact rest_setDomain w s d t
  | send s p =>
    show Rest _ ((w.send s p).1.sigs t)
    rw [rest_send (hne h)]
    exact Rest.refl _
  | sendMany s ps =>
    show Rest _ ((w.sendMany s ps).1.sigs t)
    rw [rest_sendMany (hne h)]
    exact Rest.refl _
  | setActive s b =>
    unfold step
    dsimp only
    split
    · exact Rest.refl _
    · split
      · exact Rest.refl _
      · simp only [W.sig, upd, if_neg (hne h)]; exact Rest.refl _
  | setPublic s b => simp only [step, W.sig, upd, if_neg (hne h)]; exact Rest.refl _
  | keepLast s b => simp only [step, W.sig, upd, if_neg (hne h)]; exact Rest.refl _
  | setLast s v => simp only [step, W.sig, upd, if_neg (hne h)]; exact Rest.refl _
  | getLast s => exact Rest.refl _
  | connect p s r cy a =>
    show Rest _ ((w.connect p s r cy a).1.sigs t)
    have ho : Rest (w.sigs t) ((w.offer p s r).sigs t) := rest_drop w p t _ _ _
    rcases connect_cases w p s r cy a with ⟨e, h', _⟩ | ⟨_, _, _, ⟨_, _, h'⟩ | ⟨_, h'⟩⟩
    · rw [h']; exact Rest.refl _
    · rw [h']; exact ho
    · rw [h']
      exact ho.trans (rest_listen (w.offer p s r) w.next t)
  | disconnect p => exact rest_drop w p t _ _ _
  | removeSig s =>
    show Rest _ ((w.removeSig s).1.sigs t)
    cases hr : (w.sigs s).removed with
    | true => unfold W.removeSig; rw [if_pos hr]; exact Rest.refl _
    | false =>
      rw [removeSig_eq hr]
      dsimp only
      rw [if_neg (hne h)]
      exact Rest.refl _
  | removePort p =>
    show Rest _ ((w.removePort p).1.sigs t)
    unfold W.removePort
    split
    · exact Rest.refl _
    · exact rest_drop _ p t _ _ _

/-- What storing the last value of a packet does. -/
theorem check_cases {s x : Sig} {p : Pkt} (h : s.check p = some x) :
    (x = s ∧ ((∃ v d, p = .event v d) ∨ ∃ id n d b, p = .data id n d b ∧ (s.keep = false ∨ s.isPublic = false ∨ n = 0))) ∨
    (∃ id n b, p = .data id n none b ∧ n ≠ 0 ∧ s.keep = true ∧ s.isPublic = true ∧ x = s.reset) ∨
    ∃ id n d b k, p = .data id n (some d) b ∧ n ≠ 0 ∧ s.keep = true ∧ s.isPublic = true ∧
      x = { s with last := some (.sample id (n - 1)), bufDesc := some d, buf := k } ∧
      k = (if s.bufDesc = some d ∧ d.var = false then s.buf else if d.var = true then b else d.size) := by
  cases p with
  | event v d =>
    cases h
    exact Or.inl ⟨rfl, Or.inl ⟨v, d, rfl⟩⟩
  | data id n d b =>
    unfold Sig.check at h
    dsimp only at h
    by_cases hc : (s.keep && s.isPublic && n != 0) = true
    · rw [if_pos hc] at h
      simp only [Bool.and_eq_true, bne_iff_ne, ne_eq] at hc
      obtain ⟨⟨c1, c2⟩, c3⟩ := hc
      cases d with
      | none =>
        cases h
        exact Or.inr (Or.inl ⟨id, n, b, rfl, c3, c1, c2, rfl⟩)
      | some d =>
        right; right
        have ek : (if (s.bufDesc != some d || d.var) = true then if d.var = true then b else d.size else s.buf) =
            if s.bufDesc = some d ∧ d.var = false then s.buf else if d.var = true then b else d.size := by
          by_cases h1 : s.bufDesc = some d <;> cases hv : d.var <;> simp [h1]
        unfold Sig.cache at h
        dsimp only at h
        rw [ek] at h
        generalize hk : (if s.bufDesc = some d ∧ d.var = false then s.buf else if d.var = true then b else d.size) = k at h
        generalize (if d.var = true then b else if d.scaled = true then d.raw else d.size) = j at h
        split at h
        · cases h
          exact ⟨id, n, d, b, k, rfl, c3, c1, c2, rfl, hk.symm⟩
        · cases h
    · rw [if_neg hc] at h
      cases h
      refine Or.inl ⟨rfl, Or.inr ⟨id, n, d, b, rfl, ?_⟩⟩
      cases h1 : s.keep with
      | false => exact Or.inl rfl
      | true =>
        cases h2 : s.isPublic with
        | false => exact Or.inr (Or.inl rfl)
        | true =>
          refine Or.inr (Or.inr ?_)
          simp only [h1, h2, Bool.true_and, bne_iff_ne, ne_eq] at hc
          exact Decidable.of_not_not hc

theorem lastSample_append (a b : List Pkt) : ∀ v, lastSample (a ++ b) v = lastSample b (lastSample a v) := by
  induction a with
  | nil => intro v; rfl
  | cons p a ih =>
    intro v
    cases p with
    | event x y => exact ih _
    | data id n d b => cases d <;> exact ih _

theorem lastSample_empty (ps : List Pkt) (h : ∀ p ∈ ps, ∀ id n d b, p = .data id n d b → n = 0) : ∀ v, lastSample ps v = v := by
  induction ps with
  | nil => intro v; rfl
  | cons p ps ih =>
    intro v
    have h2 := ih fun q hq => h q (by simp [hq])
    cases p with
    | event x y => exact h2 _
    | data id n d b =>
      have h1 := h _ (by simp) id n d b rfl
      subst h1
      cases d <;> exact h2 _

/-- The last value is kept. -/
def Kept (x : Sig) : Prop := x.active = true ∧ x.keep = true ∧ x.isPublic = true

theorem check_last {s x : Sig} {p : Pkt} (hk : Kept s) (h : s.check p = some x) : Kept x ∧ x.last = lastSample [p] s.last := by
  have k2 := hk.2.1
  have k3 := hk.2.2
  refine ⟨⟨(check_same h).2.2.2.2.2.1.trans hk.1, (check_same h).2.2.2.2.2.2.2.2.2.trans k2, (check_same h).2.2.2.2.2.2.2.2.1.trans k3⟩, ?_⟩
  rcases check_cases h with ⟨rfl, ⟨v, d, rfl⟩ | ⟨id, n, d, b, rfl, h1⟩⟩ | ⟨id, n, b, rfl, h1, _, _, rfl⟩ | ⟨id, n, d, b, k, rfl, h1, _, _, rfl, _⟩
  · rfl
  · have : n = 0 := by
      rcases h1 with h1 | h1 | h1
      · rw [k2] at h1; cases h1
      · rw [k3] at h1; cases h1
      · exact h1
    subst this
    cases d <;> rfl
  · simp [lastSample, Sig.reset, h1]
  · simp [lastSample, h1]

theorem last_step {w : W} {s : Nat} {op : Op} (hk : Kept (w.sigs s)) (h : Keeps s op) (ho : (step w op).2 ≠ .overflow) :
    Kept ((step w op).1.sigs s) ∧ ((step w op).1.sigs s).last = lastSample (sent s op) (w.sigs s).last := by
  by_cases ht : Touches s op
  · cases op with
    | setActive t b => exact absurd ht h
    | setPublic t b => exact absurd ht h
    | keepLast t b => exact absurd ht h
    | setLast t v => exact absurd ht h
    | removeSig t => exact absurd ht h
    | send t p =>
      have ht : t = s := ht
      subst ht
      have ho : (w.send t p).2 ≠ .overflow := ho
      show Kept ((w.send t p).1.sigs t) ∧ ((w.send t p).1.sigs t).last = _
      rcases send_cases w t p with ⟨_, e⟩ | ⟨_, _, e⟩ | ⟨x, _, hx, e⟩
      · rw [hk.1] at e; cases e
      · rw [e] at ho; exact absurd rfl ho
      · rw [e]
        dsimp only
        rw [sigs_deliver]
        simp only [W.sig, upd, if_true, sent]
        exact check_last hk hx
    | sendMany t ps =>
      have ht : t = s := ht
      subst ht
      have ho : (w.sendMany t ps).2 ≠ .overflow := ho
      have he : Ends ps := h rfl
      show Kept ((w.sendMany t ps).1.sigs t) ∧ ((w.sendMany t ps).1.sigs t).last = _
      rcases sendMany_cases w t ps with ⟨e, h0⟩ | ⟨_, _, _, _, e⟩ | ⟨p, x, hl, _, hx, e⟩
      · rcases h0 with h0 | h0
        · rw [hk.1] at h0; cases h0
        · rw [e, h0]
          refine ⟨hk, ?_⟩
          simp [sent, lastSample]
      · rw [e] at ho; exact absurd rfl ho
      · rw [e]
        dsimp only
        rw [sigs_deliver]
        simp only [W.sig, upd, if_true, sent]
        obtain ⟨k1, k2⟩ := check_last hk hx
        refine ⟨k1, k2.trans ?_⟩
        have hps : ps = ps.dropLast ++ [p] := by
          have hne : ps ≠ [] := by rintro rfl; cases hl
          rw [List.getLast?_eq_some_getLast hne] at hl
          have := List.dropLast_concat_getLast hne
          rw [Option.some.inj hl] at this
          exact this.symm
        rcases he with ⟨id, n, d, b, hp, hn⟩ | hall
        · rw [hl] at hp
          cases hp
          rw [hps, lastSample_append]
          simp [lastSample, hn]
        · rw [lastSample_empty ps hall]
          apply lastSample_empty
          intro q hq
          rw [List.mem_singleton] at hq
          subst hq
          exact hall q (by rw [hps]; simp)
    | setDescriptor t d => exact absurd ht (fun h => h)
    | setDomain t d => exact absurd ht (fun h => h)
    | getLast t => exact absurd ht (fun h => h)
    | connect p t r cy a => exact absurd ht (fun h => h)
    | disconnect p => exact absurd ht (fun h => h)
    | removePort p => exact absurd ht (fun h => h)
  · obtain ⟨h1, h2, h3, h4, _, _⟩ := rest_step w ht
    refine ⟨⟨h2.trans hk.1, h3.trans hk.2.1, h4.trans hk.2.2⟩, ?_⟩
    have : sent s op = [] := by
      cases op with
      | send t p => exact if_neg ht
      | sendMany t ps => exact if_neg ht
      | _ => rfl
    rw [this, h1]
    rfl

theorem last_run (s : Nat) (ops : List Op) : ∀ {w : W}, Kept (w.sigs s) → (∀ op ∈ ops, Keeps s op) → Res.overflow ∉ (run w ops).2 →
    ((run w ops).1.sigs s).last = lastSample (ops.flatMap (sent s)) (w.sigs s).last := by
  induction ops with
  | nil => intro w _ _ _; rfl
  | cons op ops ih =>
    intro w hk h ho
    have ho1 : (step w op).2 ≠ .overflow := fun e => ho (by simp [run, e])
    have ho2 : Res.overflow ∉ (run (step w op).1 ops).2 := fun e => ho (by simp [run, e])
    obtain ⟨k1, k2⟩ := last_step hk (h op (by simp)) ho1
    have := ih k1 (fun o hm => h o (by simp [hm])) ho2
    rw [List.flatMap_cons, lastSample_append, ← k2]
    exact this

/-! ## The buffer -/

/-- The buffer has the size of a sample. -/
def BufOk (x : Sig) : Prop := ∀ d, x.bufDesc = some d → d.var = false → x.buf = d.size

theorem check_ok {x : Sig} (h : BufOk x) {p : Pkt} (hn : Narrow p) : ∃ y, x.check p = some y ∧ BufOk y := by
  have key : ∀ y, x.check p = some y → BufOk y := by
    intro y hy
    rcases check_cases hy with ⟨rfl, _⟩ | ⟨_, _, _, _, _, _, _, rfl⟩ | ⟨id, n, d, b, k, _, _, _, _, rfl, hk⟩
    · exact h
    · intro d hd; cases hd
    · intro e he hv
      cases he
      show k = d.size
      rw [hk]
      by_cases h1 : x.bufDesc = some d
      · rw [if_pos ⟨h1, hv⟩]; exact h d h1 hv
      · rw [if_neg (fun h => h1 h.1), hv]; rfl
  cases hc : x.check p with
  | some y => exact ⟨y, rfl, key y hc⟩
  | none =>
    exfalso
    cases p with
    | event v d => cases hc
    | data id n d b =>
      unfold Sig.check at hc
      dsimp only at hc
      by_cases hk : (x.keep && x.isPublic && n != 0) = true
      · rw [if_pos hk] at hc
        cases d with
        | none => cases hc
        | some d =>
          unfold Sig.cache at hc
          dsimp only at hc
          cases hv : d.var with
          | true =>
            rw [hv] at hc
            simp at hc
          | false =>
            rw [hv] at hc
            have e : (if (x.bufDesc != some d || false) = true then if false = true then b else d.size else x.buf) = d.size := by
              by_cases h1 : x.bufDesc = some d
              · simp [h1, h d h1 hv]
              · simp [h1]
            rw [e] at hc
            have hle : (if false = true then b else if d.scaled = true then d.raw else d.size) ≤ d.size := by
              cases hs : d.scaled with
              | false => simp
              | true => simpa using hn hs
            rw [if_pos hle] at hc
            cases hc
      · rw [if_neg hk] at hc
        cases hc

theorem buf_step {w : W} (h : ∀ s, BufOk (w.sigs s)) {op : Op} (hn : NarrowOp op) :
    (∀ s, BufOk ((step w op).1.sigs s)) ∧ (step w op).2 ≠ .overflow := by
  have hr : ∀ {x y : Sig}, Rest x y → BufOk x → BufOk y := by
    intro x y hr hx d hd hv
    rw [hr.2.2.2.2.1] at hd
    rw [hr.2.2.2.2.2]
    exact hx d hd hv
  have hreset : ∀ x : Sig, BufOk x.reset := by intro x d hd; cases hd
  have hupd : ∀ {t : Nat} {g : Sig → Sig}, (BufOk (g (w.sigs t))) → ∀ s, BufOk ((w.sig t g).sigs s) := by
    intro t g hg s
    simp only [W.sig, upd]
    split
    · rename_i e; rw [e]; exact hg
    · exact h s
  have hset : ∀ x : Sig, BufOk x → BufOk x.setKeep := by
    intro x hx
    unfold Sig.setKeep
    split
    · exact hx
    · exact hreset x
  have hno : ∀ {op : Op}, (step w op).2 = .overflow → (∃ s p, op = .send s p) ∨ ∃ s ps, op = .sendMany s ps := by
    intro op ho
    cases op with
    | send s p => exact Or.inl ⟨s, p, rfl⟩
    | sendMany s ps => exact Or.inr ⟨s, ps, rfl⟩
    | setDescriptor s d =>
      exfalso
      have ho : (w.setDescriptor s d).2 = .overflow := ho
      rcases setDescriptor_cases w s d with ⟨e, _⟩ | ⟨e, _⟩ | ⟨_, _, e⟩
      · rw [e] at ho; cases ho
      · rw [e] at ho; cases ho
      · rw [e] at ho
        have : ∀ (vs : List Nat) (w : W) (r : Res), r ≠ .overflow → (w.tell d vs r).2 ≠ .overflow := by
          intro vs
          induction vs with
          | nil => intro w r hr; exact hr
          | cons v vs ih =>
            intro w r hr
            refine ih _ _ ?_
            split
            · exact hr
            · simp
        exact this _ _ _ (by simp) ho
    | setDomain s d =>
      exfalso
      have ho : (w.setDomain s d).2 = .overflow := ho
      unfold W.setDomain at ho
      split at ho
      · cases ho
      · cases d with
        | none => cases ho
        | some d => dsimp only at ho; split at ho <;> cases ho
    | setActive s b =>
      exfalso
      unfold step at ho
      dsimp only at ho
      split at ho
      · cases ho
      · split at ho <;> cases ho
    | setPublic s b => cases ho
    | keepLast s b => cases ho
    | setLast s v => cases ho
    | getLast s =>
      exfalso
      unfold step at ho
      dsimp only at ho
      split at ho <;> cases ho
    | connect p s r cy a =>
      exfalso
      have ho : (w.connect p s r cy a).2 = .overflow := ho
      rcases connect_cases w p s r cy a with ⟨e, h', _⟩ | ⟨_, _, _, ⟨_, _, h'⟩ | ⟨_, h'⟩⟩ <;> rw [h'] at ho <;> cases ho
    | disconnect p => cases ho
    | removeSig s =>
      exfalso
      have ho : (w.removeSig s).2 = .overflow := ho
      unfold W.removeSig at ho
      split at ho <;> cases ho
    | removePort p =>
      exfalso
      have ho : (w.removePort p).2 = .overflow := ho
      unfold W.removePort at ho
      split at ho <;> cases ho
  have quiet : (∀ t, ¬ Touches t op) → (∀ s, BufOk ((step w op).1.sigs s)) ∧ (step w op).2 ≠ .overflow := by
    intro hq
    refine ⟨fun s => hr (rest_step w (hq s)) (h s), fun ho => ?_⟩
    rcases hno ho with ⟨s, p, rfl⟩ | ⟨s, ps, rfl⟩
    · exact hq s rfl
    · exact hq s rfl
  cases op with
  | send s p =>
    obtain ⟨y, hy, hb⟩ := check_ok (h s) (p := p) hn
    show (∀ t, BufOk ((w.send s p).1.sigs t)) ∧ (w.send s p).2 ≠ .overflow
    rcases send_cases w s p with ⟨e, _⟩ | ⟨_, hc, _⟩ | ⟨x, _, hx, e⟩
    · rw [e]; exact ⟨h, by simp⟩
    · rw [hy] at hc; cases hc
    · rw [e]
      rw [hy] at hx
      cases hx
      refine ⟨?_, by simp⟩
      intro t
      dsimp only
      rw [sigs_deliver]
      exact hupd hb t
  | sendMany s ps =>
    show (∀ t, BufOk ((w.sendMany s ps).1.sigs t)) ∧ (w.sendMany s ps).2 ≠ .overflow
    rcases sendMany_cases w s ps with ⟨e, _⟩ | ⟨p, hl, _, hc, _⟩ | ⟨p, x, hl, _, hx, e⟩
    · rw [e]; exact ⟨h, by simp⟩
    · obtain ⟨y, hy, _⟩ := check_ok (h s) (p := p) (hn p (List.mem_of_getLast? hl))
      rw [hy] at hc; cases hc
    · obtain ⟨y, hy, hb⟩ := check_ok (h s) (p := p) (hn p (List.mem_of_getLast? hl))
      rw [e]
      rw [hy] at hx
      cases hx
      refine ⟨?_, by simp⟩
      intro t
      dsimp only
      rw [sigs_deliver]
      exact hupd hb t
  | setActive s b =>
    refine ⟨?_, fun ho => by rcases hno ho with ⟨_, _, e⟩ | ⟨_, _, e⟩ <;> cases e⟩
    unfold step
    dsimp only
    intro t
    split
    · exact h t
    · split
      · exact h t
      · exact hupd (g := fun x => { x with active := b }) (h s) t
  | setPublic s b =>
    refine ⟨?_, by simp [step]⟩
    refine hupd ?_
    exact hset { w.sigs s with isPublic := b } (h s)
  | keepLast s b =>
    refine ⟨?_, by simp [step]⟩
    refine hupd ?_
    exact hset { w.sigs s with keep := b } (h s)
  | setLast s v => exact ⟨hupd (g := fun x => { x.reset with last := v.map .value }) (hreset (w.sigs s)), by simp [step]⟩
  | removeSig s =>
    refine ⟨?_, fun ho => by rcases hno ho with ⟨_, _, e⟩ | ⟨_, _, e⟩ <;> cases e⟩
    intro t
    show BufOk ((w.removeSig s).1.sigs t)
    cases hrm : (w.sigs s).removed with
    | true => unfold W.removeSig; rw [if_pos hrm]; exact h t
    | false =>
      rw [removeSig_eq hrm]
      dsimp only
      split <;> exact h t
  | setDescriptor s d => exact quiet fun _ h => h
  | setDomain s d => exact quiet fun _ h => h
  | getLast s => exact quiet fun _ h => h
  | connect p s r cy a => exact quiet fun _ h => h
  | disconnect p => exact quiet fun _ h => h
  | removePort p => exact quiet fun _ h => h

theorem buf_run (ops : List Op) : ∀ {w : W}, (∀ s, BufOk (w.sigs s)) → (∀ op ∈ ops, NarrowOp op) → Res.overflow ∉ (run w ops).2 := by
  induction ops with
  | nil => intro w _ _ h; cases h
  | cons op ops ih =>
    intro w h hn
    obtain ⟨h1, h2⟩ := buf_step h (hn op (by simp))
    have := ih h1 fun o ho => hn o (by simp [ho])
    intro hm
    simp only [run, List.mem_cons] at hm
    rcases hm with hm | hm
    · exact h2 hm.symm
    · exact this hm

end Verif.Link
