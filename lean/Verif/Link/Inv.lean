import Verif.Link.Spec

/-! # Invariants -/

namespace Verif.Link

open Spec

/-- Nothing that concerns connections or domains differs. -/
structure Same (w w' : W) : Prop where
  ports : w'.ports = w.ports
  next : w'.next = w.next
  conn : ∀ c, (w'.conns c).sig = (w.conns c).sig ∧ (w'.conns c).port = (w.conns c).port ∧ (w'.conns c).isRemote = (w.conns c).isRemote
  sig : ∀ s, (w'.sigs s).conns = (w.sigs s).conns ∧ (w'.sigs s).remote = (w.sigs s).remote ∧ (w'.sigs s).removed = (w.sigs s).removed ∧
    (w'.sigs s).refs = (w.sigs s).refs ∧ (w'.sigs s).domain = (w.sigs s).domain ∧ (w'.sigs s).active = (w.sigs s).active ∧
    (w'.sigs s).listened = (w.sigs s).listened

theorem Same.refl (w : W) : Same w w := ⟨rfl, rfl, fun _ => ⟨rfl, rfl, rfl⟩, fun _ => ⟨rfl, rfl, rfl, rfl, rfl, rfl, rfl⟩⟩

theorem Same.trans {a b c : W} (h : Same a b) (g : Same b c) : Same a c := by
  refine ⟨g.ports.trans h.ports, g.next.trans h.next, fun x => ?_, fun s => ?_⟩
  · obtain ⟨h1, h2, h3⟩ := h.conn x
    obtain ⟨g1, g2, g3⟩ := g.conn x
    exact ⟨g1.trans h1, g2.trans h2, g3.trans h3⟩
  · obtain ⟨h1, h2, h3, h4, h5, h6, h7⟩ := h.sig s
    obtain ⟨g1, g2, g3, g4, g5, g6, g7⟩ := g.sig s
    exact ⟨g1.trans h1, g2.trans h2, g3.trans h3, g4.trans h4, g5.trans h5, g6.trans h6, g7.trans h7⟩

theorem Same.connected {w w' : W} (h : Same w w') (c : Nat) : Connected w' c ↔ Connected w c := by
  unfold Connected
  rw [h.ports, (h.conn c).2.1]

/-- The signal is listened to if and only if it has connections, unless it was removed. -/
def Listened (w : W) : Prop := ∀ s, (w.sigs s).removed = false → ((w.sigs s).listened = true ↔ (w.sigs s).conns ≠ [])

structure Inv (w : W) : Prop where
  agree : Agree w
  gone : Gone w
  domains : Domains w
  bound : ∀ p c, (w.ports p).conn = some c → c < w.next
  listened : Listened w

theorem Same.inv {w w' : W} (h : Same w w') (i : Inv w) : Inv w' := by
  obtain ⟨⟨a1, a2, a3, a4⟩, ⟨g1, g2⟩, ⟨d1, d2⟩, b, l⟩ := i
  refine ⟨⟨?_, ?_, ?_, ?_⟩, ⟨?_, ?_⟩, ⟨?_, ?_⟩, ?_, ?_⟩
  · intro p c hc
    rw [h.ports] at hc
    rw [(h.conn c).2.1]
    exact a1 p c hc
  · intro s c
    rw [(h.sig s).1, h.connected, (h.conn c).1, (h.conn c).2.2]
    exact a2 s c
  · intro s c
    rw [(h.sig s).2.1, h.connected, (h.conn c).1, (h.conn c).2.2]
    exact a3 s c
  · intro s
    rw [(h.sig s).1, (h.sig s).2.1]
    exact a4 s
  · intro s hs
    obtain ⟨e1, e2, e3, _, _, e6, _⟩ := h.sig s
    rw [e3] at hs
    rw [e1, e2, e6]
    exact g1 s hs
  · intro p hp
    rw [h.ports] at hp ⊢
    exact g2 p hp
  · intro d v
    rw [(h.sig d).2.2.2.1, (h.sig v).2.2.2.2.1]
    exact d1 d v
  · intro d
    rw [(h.sig d).2.2.2.1]
    exact d2 d
  · intro p c hc
    rw [h.ports] at hc
    rw [h.next]
    exact b p c hc
  · intro s hs
    obtain ⟨e1, e2, e3, _, _, e6, e7⟩ := h.sig s
    rw [e3] at hs
    rw [e1, e7]
    exact l s hs

/-- A change of a signal that does not concern connections or domains. -/
theorem same_sig {w : W} {s : Nat} {g : Sig → Sig} (h : (g (w.sigs s)).conns = (w.sigs s).conns ∧ (g (w.sigs s)).remote = (w.sigs s).remote ∧
    (g (w.sigs s)).removed = (w.sigs s).removed ∧ (g (w.sigs s)).refs = (w.sigs s).refs ∧ (g (w.sigs s)).domain = (w.sigs s).domain ∧
    (g (w.sigs s)).active = (w.sigs s).active ∧ (g (w.sigs s)).listened = (w.sigs s).listened) : Same w (w.sig s g) := by
  refine ⟨rfl, rfl, fun _ => ⟨rfl, rfl, rfl⟩, fun t => ?_⟩
  simp only [W.sig, upd]
  by_cases e : t = s
  · rw [if_pos e, e]
    exact h
  · rw [if_neg e]
    exact ⟨rfl, rfl, rfl, rfl, rfl, rfl, rfl⟩

theorem same_enqueue (w : W) (c : Nat) (ps : List Pkt) : Same w (w.enqueue c ps) := by
  refine ⟨rfl, rfl, fun d => ?_, fun _ => ⟨rfl, rfl, rfl, rfl, rfl, rfl, rfl⟩⟩
  simp only [W.enqueue, upd]
  split <;> exact ⟨rfl, rfl, rfl⟩

theorem same_deliver (cs : List Nat) (ps : List Pkt) : ∀ w : W, Same w (w.deliver cs ps) := by
  induction cs with
  | nil => intro w; exact Same.refl w
  | cons c cs ih =>
    intro w
    exact (same_enqueue w c ps).trans (ih _)

theorem sigs_deliver (cs : List Nat) (ps : List Pkt) : ∀ w : W, (w.deliver cs ps).sigs = w.sigs := by
  induction cs with
  | nil => intro w; rfl
  | cons c cs ih =>
    intro w
    exact ih (w.enqueue c ps)

theorem log_deliver {ps : List Pkt} {cs : List Nat} : ∀ {w : W}, cs.Nodup → ∀ c, ((w.deliver cs ps).conns c).log =
    (w.conns c).log ++ if c ∈ cs then ps else [] := by
  induction cs with
  | nil => intro w _ c; simp [W.deliver]
  | cons x cs ih =>
    intro w hn c
    obtain ⟨h1, h2⟩ := List.nodup_cons.mp hn
    have e : w.deliver (x :: cs) ps = (w.enqueue x ps).deliver cs ps := rfl
    rw [e, ih h2]
    simp only [W.enqueue, upd]
    by_cases hc : c = x
    · subst hc
      simp [h1]
    · simp [hc]

theorem check_same {s x : Sig} {p : Pkt} (h : s.check p = some x) : x.conns = s.conns ∧ x.remote = s.remote ∧ x.removed = s.removed ∧
    x.refs = s.refs ∧ x.domain = s.domain ∧ x.active = s.active ∧ x.listened = s.listened ∧ x.desc = s.desc ∧ x.isPublic = s.isPublic ∧
    x.keep = s.keep := by
  have key : ∀ {id n : Nat} {d : Option DescObj} {b : Nat}, s.cache id n d b = some x → x.conns = s.conns ∧ x.remote = s.remote ∧
      x.removed = s.removed ∧ x.refs = s.refs ∧ x.domain = s.domain ∧ x.active = s.active ∧ x.listened = s.listened ∧ x.desc = s.desc ∧
      x.isPublic = s.isPublic ∧ x.keep = s.keep := by
    intro id n d b h
    cases d with
    | none =>
      cases h
      exact ⟨rfl, rfl, rfl, rfl, rfl, rfl, rfl, rfl, rfl, rfl⟩
    | some d =>
      unfold Sig.cache at h
      dsimp only at h
      generalize (if (s.bufDesc != some d || d.var) = true then if d.var = true then b else d.size else s.buf) = k at h
      generalize (if d.var = true then b else if d.scaled = true then d.raw else d.size) = j at h
      split at h
      · cases h
        exact ⟨rfl, rfl, rfl, rfl, rfl, rfl, rfl, rfl, rfl, rfl⟩
      · cases h
  cases p with
  | event v d =>
    cases h
    exact ⟨rfl, rfl, rfl, rfl, rfl, rfl, rfl, rfl, rfl, rfl⟩
  | data id n d b =>
    unfold Sig.check at h
    dsimp only at h
    split at h
    · exact key h
    · cases h
      exact ⟨rfl, rfl, rfl, rfl, rfl, rfl, rfl, rfl, rfl, rfl⟩

/-- What sending does. -/
theorem send_cases (w : W) (s : Nat) (p : Pkt) : (w.send s p = (w, .ignored) ∧ (w.sigs s).active = false) ∨
    ((w.sigs s).active = true ∧ (w.sigs s).check p = none ∧ w.send s p = (w, .overflow)) ∨
    ∃ x, (w.sigs s).active = true ∧ (w.sigs s).check p = some x ∧
      w.send s p = ((w.sig s fun _ => x).deliver (w.sigs s).conns [p], .ok) := by
  unfold W.send
  cases ha : (w.sigs s).active with
  | false => exact Or.inl ⟨rfl, rfl⟩
  | true =>
    right
    cases hc : (w.sigs s).check p with
    | none => exact Or.inl ⟨rfl, rfl, rfl⟩
    | some x => exact Or.inr ⟨x, rfl, rfl, rfl⟩

theorem sendMany_cases (w : W) (s : Nat) (ps : List Pkt) : (w.sendMany s ps = (w, .ignored) ∧ ((w.sigs s).active = false ∨ ps = [])) ∨
    (∃ p, ps.getLast? = some p ∧ (w.sigs s).active = true ∧ (w.sigs s).check p = none ∧ w.sendMany s ps = (w, .overflow)) ∨
    ∃ p x, ps.getLast? = some p ∧ (w.sigs s).active = true ∧ (w.sigs s).check p = some x ∧
      w.sendMany s ps = ((w.sig s fun _ => x).deliver (w.sigs s).conns ps, .ok) := by
  unfold W.sendMany
  cases hl : ps.getLast? with
  | none => exact Or.inl ⟨rfl, Or.inr (List.getLast?_eq_none_iff.mp hl)⟩
  | some p =>
    dsimp only
    cases ha : (w.sigs s).active with
    | false => exact Or.inl ⟨rfl, Or.inl rfl⟩
    | true =>
      right
      cases hc : (w.sigs s).check p with
      | none => exact Or.inl ⟨p, rfl, rfl, hc, by simp⟩
      | some x => exact Or.inr ⟨p, x, rfl, rfl, hc, by simp⟩

theorem same_check {w : W} {s : Nat} {p : Pkt} {x : Sig} (h : (w.sigs s).check p = some x) : Same w (w.sig s fun _ => x) := by
  obtain ⟨h1, h2, h3, h4, h5, h6, h7, _⟩ := check_same h
  exact same_sig ⟨h1, h2, h3, h4, h5, h6, h7⟩

theorem same_send (w : W) (s : Nat) (p : Pkt) : Same w (w.send s p).1 := by
  rcases send_cases w s p with ⟨e, _⟩ | ⟨_, _, e⟩ | ⟨x, _, hx, e⟩
  · rw [e]; exact Same.refl w
  · rw [e]; exact Same.refl w
  · rw [e]; exact (same_check hx).trans (same_deliver _ _ _)

theorem same_sendMany (w : W) (s : Nat) (ps : List Pkt) : Same w (w.sendMany s ps).1 := by
  rcases sendMany_cases w s ps with ⟨e, _⟩ | ⟨p, _, _, _, e⟩ | ⟨p, x, _, _, hx, e⟩
  · rw [e]; exact Same.refl w
  · rw [e]; exact Same.refl w
  · rw [e]; exact (same_check hx).trans (same_deliver _ _ _)

/-- Telling the signals whose domain has changed. -/
def W.tell (w : W) (d : Option Nat) (vs : List Nat) (r : Res) : W × Res :=
  vs.foldl (fun a v => let y := a.1.send v (.event none (param d)); (y.1, if y.2 = .ok then a.2 else .ignored)) (w, r)

theorem same_tell (d : Option Nat) (vs : List Nat) : ∀ (w : W) (r : Res), Same w (w.tell d vs r).1 := by
  induction vs with
  | nil => intro w r; exact Same.refl w
  | cons v vs ih =>
    intro w r
    exact (same_send w v _).trans (ih _ _)

theorem setDescriptor_cases (w : W) (s : Nat) (d : Option Nat) :
    (w.setDescriptor s d = (w, .err .invalidSampleType) ∧ d = some 0) ∨ (w.setDescriptor s d = (w, .ignored) ∧ d = (w.sigs s).desc) ∨
    (d ≠ some 0 ∧ d ≠ (w.sigs s).desc ∧ w.setDescriptor s d =
      ((w.sig s fun x => { x with desc := d }).deliver (w.sigs s).conns [.event (param d) none]).tell d (w.sigs s).refs .ok) := by
  unfold W.setDescriptor
  by_cases h0 : d = some 0
  · rw [if_pos h0]; exact Or.inl ⟨rfl, h0⟩
  · rw [if_neg h0]
    by_cases h1 : d = (w.sigs s).desc
    · rw [if_pos h1]; exact Or.inr (Or.inl ⟨rfl, h1⟩)
    · rw [if_neg h1]
      exact Or.inr (Or.inr ⟨h0, h1, rfl⟩)

theorem same_setDescriptor (w : W) (s : Nat) (d : Option Nat) : Same w (w.setDescriptor s d).1 := by
  rcases setDescriptor_cases w s d with ⟨e, _⟩ | ⟨e, _⟩ | ⟨_, _, e⟩
  · rw [e]; exact Same.refl w
  · rw [e]; exact Same.refl w
  · rw [e]
    exact ((same_sig ⟨rfl, rfl, rfl, rfl, rfl, rfl, rfl⟩).trans (same_deliver _ _ _)).trans (same_tell _ _ _ _)

theorem same_setKeep {w : W} {s : Nat} {g : Sig → Sig} (h : ∀ x, (g x).conns = x.conns ∧ (g x).remote = x.remote ∧
    (g x).removed = x.removed ∧ (g x).refs = x.refs ∧ (g x).domain = x.domain ∧ (g x).active = x.active ∧ (g x).listened = x.listened) :
    Same w (w.sig s fun x => (g x).setKeep) := by
  refine same_sig ?_
  have := h (w.sigs s)
  unfold Sig.setKeep Sig.reset
  split <;> exact this

/-! ## Domains -/

theorem inv_setDomain {w : W} (i : Inv w) (s : Nat) (d : Option Nat) : Inv (w.setDomain s d).1 ∧ (w.setDomain s d).2 ≠ .err .duplicate := by
  unfold W.setDomain
  by_cases h0 : d = (w.sigs s).domain
  · rw [if_pos h0]
    exact ⟨i, by simp⟩
  · rw [if_neg h0]
    -- what is left of the old domain
    let f : Nat → Sig := fun t => { w.sigs t with
      refs := if (w.sigs s).domain = some t then (w.sigs t).refs.erase s else (w.sigs t).refs,
      domain := if t = s then d else (w.sigs t).domain }
    have e1 : (w.leave s).sig s (fun x => { x with domain := d }) = { w with sigs := f } := by
      unfold W.leave
      cases ho : (w.sigs s).domain with
      | none =>
        simp only [W.sig]
        congr 1
        funext t
        simp only [upd, f, ho]
        by_cases ht : t = s <;> simp [ht]
      | some o =>
        simp only [W.sig]
        congr 1
        funext t
        simp only [upd, f, ho]
        by_cases ht : t = s <;> by_cases hto : t = o <;> simp [ht, hto, eq_comm] <;> simp_all [eq_comm]
    dsimp only
    rw [e1]
    have hno : ∀ t, (w.sigs s).domain ≠ some t → s ∉ (w.sigs t).refs := fun t ht hm => ht ((i.domains.refs t s).mp hm)
    have hf : ∀ t, s ∉ (f t).refs := by
      intro t
      simp only [f]
      by_cases ht : (w.sigs s).domain = some t
      · rw [if_pos ht]
        exact fun hm => ((i.domains.once t).mem_erase_iff.mp hm).1 rfl
      · rw [if_neg ht]
        exact hno t ht
    have hf2 : ∀ t v, v ≠ s → (v ∈ (f t).refs ↔ (w.sigs v).domain = some t) := by
      intro t v hv
      simp only [f]
      split
      · rw [(i.domains.once t).mem_erase_iff]
        rw [← i.domains.refs t v]
        exact ⟨fun h => h.2, fun h => ⟨hv, h⟩⟩
      · exact i.domains.refs t v
    have hf3 : ∀ t, (f t).refs.Nodup := by
      intro t
      simp only [f]
      split
      · exact (i.domains.once t).erase s
      · exact i.domains.once t
    cases d with
    | none =>
      refine ⟨⟨⟨i.agree.known, i.agree.listed, i.agree.remote, i.agree.once⟩, ⟨i.gone.sig, i.gone.port⟩, ⟨?_, hf3⟩, i.bound, i.listened⟩,
        by simp⟩
      intro t v
      by_cases hv : v = s
      · subst hv
        simp [hf, f]
      · have := hf2 t v hv
        show v ∈ (f t).refs ↔ (f v).domain = some t
        rw [this]
        simp [f, hv]
    | some d =>
      dsimp only
      have hc : (f d).refs.contains s = false := by
        rw [Bool.eq_false_iff]
        intro hh
        exact hf d (List.contains_iff_mem.mp hh)
      rw [hc]
      have e2 : ({ w with sigs := f } : W).sig d (fun x => { x with refs := x.refs ++ [s] }) =
          { w with sigs := fun t => { f t with refs := if t = d then (f t).refs ++ [s] else (f t).refs } } := by
        simp only [W.sig]
        congr 1
        funext t
        simp only [upd]
        split <;> rfl
      rw [if_neg (by simp), e2]
      refine ⟨⟨⟨i.agree.known, i.agree.listed, i.agree.remote, i.agree.once⟩, ⟨i.gone.sig, i.gone.port⟩, ⟨?_, ?_⟩, i.bound, i.listened⟩,
        by simp⟩
      · intro t v
        show v ∈ (if t = d then (f t).refs ++ [s] else (f t).refs) ↔ (f v).domain = some t
        by_cases hv : v = s
        · subst hv
          simp only [f, if_true]
          by_cases ht : t = d
          · simp [ht]
          · rw [if_neg ht]
            constructor
            · intro h
              exact absurd h (hf t)
            · intro h
              cases h
              exact absurd rfl ht
        · have h2 := hf2 t v hv
          have h3 : (f v).domain = (w.sigs v).domain := by simp [f, hv]
          rw [h3, ← h2]
          split
          · simp [hv]
          · rfl
      · intro t
        show (if t = d then (f t).refs ++ [s] else (f t).refs).Nodup
        split
        · rw [List.nodup_append]
          exact ⟨hf3 t, by simp, fun a ha b hb => by
            rw [List.mem_singleton] at hb
            rw [hb]
            rintro rfl
            exact hf t ha⟩
        · exact hf3 t

end Verif.Link
