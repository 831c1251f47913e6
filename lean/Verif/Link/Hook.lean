import Verif.Link.Inv

/-! # Making and ending connections -/

namespace Verif.Link

open Spec

/-- Some connections end. -/
theorem inv_unhook {w w' : W} (i : Inv w) (D : Nat → Prop)
    (hc : ∀ c, (w'.conns c).sig = (w.conns c).sig ∧ (w'.conns c).port = (w.conns c).port ∧ (w'.conns c).isRemote = (w.conns c).isRemote)
    (hn : w'.next = w.next)
    (hp : ∀ q c, (w'.ports q).conn = some c ↔ (w.ports q).conn = some c ∧ ¬ D c)
    (hs : ∀ s c, c ∈ (w'.sigs s).conns ↔ c ∈ (w.sigs s).conns ∧ ¬ D c)
    (hr : ∀ s c, c ∈ (w'.sigs s).remote ↔ c ∈ (w.sigs s).remote ∧ ¬ D c)
    (ho : ∀ s, (w'.sigs s).conns.Nodup ∧ (w'.sigs s).remote.Nodup)
    (hg : Gone w') (hd : Domains w') (hl : Listened w') : Inv w' := by
  have hcon : ∀ c, Connected w' c ↔ Connected w c ∧ ¬ D c := by
    intro c
    unfold Connected
    rw [hp, (hc c).2.1]
  refine ⟨⟨?_, ?_, ?_, ho⟩, hg, hd, ?_, hl⟩
  · intro p c h
    rw [(hc c).2.1]
    exact i.agree.known p c ((hp p c).mp h).1
  · intro s c
    rw [hs, i.agree.listed, hcon, (hc c).1, (hc c).2.2]
    exact ⟨fun ⟨⟨a, b⟩, d⟩ => ⟨⟨a, d⟩, b⟩, fun ⟨⟨a, d⟩, b⟩ => ⟨⟨a, b⟩, d⟩⟩
  · intro s c
    rw [hr, i.agree.remote, hcon, (hc c).1, (hc c).2.2]
    exact ⟨fun ⟨⟨a, b⟩, d⟩ => ⟨⟨a, d⟩, b⟩, fun ⟨⟨a, d⟩, b⟩ => ⟨⟨a, b⟩, d⟩⟩
  · intro p c h
    rw [hn]
    exact i.bound p c ((hp p c).mp h).1

/-- Nothing about ports but notes and core events changes. -/
theorem inv_ports {w w' : W} (i : Inv w) (hs : w'.sigs = w.sigs) (hc : w'.conns = w.conns) (hn : w'.next = w.next)
    (hp : ∀ q, (w'.ports q).conn = (w.ports q).conn ∧ (w'.ports q).removed = (w.ports q).removed) : Inv w' := by
  obtain ⟨⟨a1, a2, a3, a4⟩, ⟨g1, g2⟩, ⟨d1, d2⟩, b, l⟩ := i
  have hcon : ∀ c, Connected w' c ↔ Connected w c := by
    intro c
    unfold Connected
    rw [(hp _).1, hc]
  refine ⟨⟨?_, ?_, ?_, ?_⟩, ⟨?_, ?_⟩, ⟨?_, ?_⟩, ?_, ?_⟩
  · intro p c h
    rw [(hp p).1] at h
    rw [hc]
    exact a1 p c h
  · intro s c
    rw [hs, hcon, hc]
    exact a2 s c
  · intro s c
    rw [hs, hcon, hc]
    exact a3 s c
  · rw [hs]; exact a4
  · rw [hs]; exact g1
  · intro p h
    rw [(hp p).2] at h
    rw [(hp p).1]
    exact g2 p h
  · rw [hs]; exact d1
  · rw [hs]; exact d2
  · intro p c h
    rw [(hp p).1] at h
    rw [hn]
    exact b p c h
  · unfold Listened
    rw [hs]
    exact l

/-- The connection of a port is in the lists of its signal only. -/
theorem mem_unlisten {w : W} (i : Inv w) {c : Nat} (hc : Connected w c) (s d : Nat) :
    (d ∈ ((w.unlisten c).sigs s).conns ↔ d ∈ (w.sigs s).conns ∧ ¬ d = c) ∧
    (d ∈ ((w.unlisten c).sigs s).remote ↔ d ∈ (w.sigs s).remote ∧ ¬ d = c) ∧
    ((w.unlisten c).sigs s).conns.Nodup ∧ ((w.unlisten c).sigs s).remote.Nodup := by
  obtain ⟨o1, o2⟩ := i.agree.once s
  have n1 : ((w.conns c).sig ≠ s ∨ (w.conns c).isRemote = true) → ∀ d, d ∈ (w.sigs s).conns → ¬ d = c := by
    rintro h d hd rfl
    obtain ⟨_, e1, e2⟩ := (i.agree.listed s d).mp hd
    rcases h with h | h
    · exact h e1
    · rw [e2] at h
      cases h
  have n2 : ((w.conns c).sig ≠ s ∨ (w.conns c).isRemote = false) → ∀ d, d ∈ (w.sigs s).remote → ¬ d = c := by
    rintro h d hd rfl
    obtain ⟨_, e1, e2⟩ := (i.agree.remote s d).mp hd
    rcases h with h | h
    · exact h e1
    · rw [e2] at h
      cases h
  unfold W.unlisten
  simp only [W.sig, upd]
  by_cases hs : s = (w.conns c).sig
  · rw [if_pos hs]
    cases hr : (w.conns c).isRemote with
    | true =>
      simp only [if_true]
      refine ⟨⟨fun h => ⟨h, n1 (Or.inr hr) d h⟩, fun h => h.1⟩, ?_, o1, o2.erase c⟩
      rw [o2.mem_erase_iff]
      exact ⟨fun ⟨a, b⟩ => ⟨b, a⟩, fun ⟨a, b⟩ => ⟨b, a⟩⟩
    | false =>
      simp only [Bool.false_eq_true, if_false]
      refine ⟨?_, ⟨fun h => ⟨h, n2 (Or.inr hr) d h⟩, fun h => h.1⟩, o1.erase c, o2⟩
      rw [o1.mem_erase_iff]
      exact ⟨fun ⟨a, b⟩ => ⟨b, a⟩, fun ⟨a, b⟩ => ⟨b, a⟩⟩
  · rw [if_neg hs]
    have hs' : (w.conns c).sig ≠ s := fun e => hs e.symm
    exact ⟨⟨fun h => ⟨h, n1 (Or.inl hs') d h⟩, fun h => h.1⟩, ⟨fun h => ⟨h, n2 (Or.inl hs') d h⟩, fun h => h.1⟩, o1, o2⟩

theorem unlisten_rest (w : W) (c s : Nat) : ((w.unlisten c).sigs s).removed = (w.sigs s).removed ∧
    ((w.unlisten c).sigs s).refs = (w.sigs s).refs ∧ ((w.unlisten c).sigs s).domain = (w.sigs s).domain ∧
    ((w.unlisten c).sigs s).active = (w.sigs s).active ∧ ((w.unlisten c).sigs s).desc = (w.sigs s).desc := by
  unfold W.unlisten
  simp only [W.sig, upd]
  split
  · split <;> exact ⟨rfl, rfl, rfl, rfl, rfl⟩
  · exact ⟨rfl, rfl, rfl, rfl, rfl⟩

theorem unlisten_listened {w : W} (c : Nat) (h : Listened w) : Listened (w.unlisten c) := by
  intro s hs
  rw [(unlisten_rest w c s).1] at hs
  have h := h s hs
  unfold W.unlisten
  simp only [W.sig, upd]
  split
  · split
    · exact h
    · dsimp only
      cases he : ((w.sigs s).conns.erase c).isEmpty with
      | true =>
        have : (w.sigs s).conns.erase c = [] := List.isEmpty_iff.mp he
        simp [this]
      | false =>
        have h1 : (w.sigs s).conns.erase c ≠ [] := fun e => by simp [e] at he
        have h2 : (w.sigs s).conns ≠ [] := fun e => by simp [e] at h1
        simp only [Bool.false_eq_true, if_false]
        exact ⟨fun _ => h1, fun _ => h.mpr h2⟩
  · exact h

/-- The world after a port dropped its connection; `rm`: the port was removed. -/
theorem inv_drop_aux {w : W} (i : Inv w) {p c : Nat} (hc : (w.ports p).conn = some c) (P : Nat → Port)
    (h1 : (P p).conn = none) (h2 : ∀ q, q ≠ p → (P q).conn = (w.ports q).conn ∧ (P q).removed = (w.ports q).removed) :
    Inv { w.unlisten c with ports := P } := by
  have hcc : Connected w c := by
    unfold Connected
    rw [i.agree.known p c hc]
    exact hc
  refine inv_unhook i (fun d => d = c) (fun _ => ⟨rfl, rfl, rfl⟩) rfl ?_ ?_ ?_ ?_ ⟨?_, ?_⟩ ⟨?_, ?_⟩ ?_
  · intro q d
    show (P q).conn = some d ↔ _
    by_cases hq : q = p
    · subst hq
      rw [h1, hc]
      constructor
      · intro h
        cases h
      · rintro ⟨h, hn⟩
        cases h
        exact absurd rfl hn
    · rw [(h2 q hq).1]
      constructor
      · intro h
        refine ⟨h, ?_⟩
        rintro rfl
        have e1 := i.agree.known q d h
        have e2 := i.agree.known p d hc
        exact hq (e1.symm.trans e2)
      · exact fun h => h.1
  · exact fun s d => (mem_unlisten i hcc s d).1
  · exact fun s d => (mem_unlisten i hcc s d).2.1
  · exact fun s => (mem_unlisten i hcc s 0).2.2
  · intro s hs
    have hs : ((w.unlisten c).sigs s).removed = true := hs
    obtain ⟨e1, _, _, e4, _⟩ := unlisten_rest w c s
    rw [e1] at hs
    obtain ⟨g1, g2, g3⟩ := i.gone.sig s hs
    refine ⟨?_, ?_, e4.trans g3⟩
    · rw [List.eq_nil_iff_forall_not_mem]
      intro d hd
      have := ((mem_unlisten i hcc s d).1.mp hd).1
      rw [g1] at this
      cases this
    · rw [List.eq_nil_iff_forall_not_mem]
      intro d hd
      have := ((mem_unlisten i hcc s d).2.1.mp hd).1
      rw [g2] at this
      cases this
  · intro q hq
    by_cases e : q = p
    · subst e
      exact h1
    · obtain ⟨e1, e2⟩ := h2 q e
      have hq : (P q).removed = true := hq
      rw [e2] at hq
      exact e1.trans (i.gone.port q hq)
  · intro d v
    show v ∈ ((w.unlisten c).sigs d).refs ↔ ((w.unlisten c).sigs v).domain = some d
    rw [(unlisten_rest w c d).2.1, (unlisten_rest w c v).2.2.1]
    exact i.domains.refs d v
  · intro d
    show ((w.unlisten c).sigs d).refs.Nodup
    rw [(unlisten_rest w c d).2.1]
    exact i.domains.once d
  · exact unlisten_listened c i.listened

theorem drop_conn (w : W) (p : Nat) (a b k : Bool) : ((w.drop p a b k).ports p).conn = none := by
  unfold W.drop
  cases h : (w.ports p).conn with
  | none => exact h
  | some c => cases b <;> simp [W.port, W.unlisten, W.sig, upd]

theorem drop_ports (w : W) (p q : Nat) (a b k : Bool) (h : q ≠ p) : (w.drop p a b k).ports q = w.ports q := by
  unfold W.drop
  cases (w.ports p).conn with
  | none => rfl
  | some c => cases b <;> simp [W.port, W.unlisten, W.sig, upd, h]

theorem drop_port (w : W) (p : Nat) (a b k : Bool) : ((w.drop p a b k).ports p).removed = (w.ports p).removed ∧
    ((w.drop p a b k).ports p).listener = (w.ports p).listener := by
  unfold W.drop
  cases (w.ports p).conn with
  | none => exact ⟨rfl, rfl⟩
  | some c => cases b <;> simp [W.port, W.unlisten, W.sig, upd]

theorem drop_conns (w : W) (p : Nat) (a b k : Bool) : (w.drop p a b k).conns = w.conns ∧ (w.drop p a b k).next = w.next := by
  unfold W.drop
  cases (w.ports p).conn with
  | none => exact ⟨rfl, rfl⟩
  | some c => cases b <;> exact ⟨rfl, rfl⟩

theorem drop_sigs_quiet (w : W) (p : Nat) (a k : Bool) : (w.drop p a false k).sigs = w.sigs := by
  unfold W.drop
  cases (w.ports p).conn with
  | none => rfl
  | some c => rfl

theorem drop_sigs (w : W) (p : Nat) (a k : Bool) : (w.drop p a true k).sigs = match (w.ports p).conn with
    | none => w.sigs
    | some c => (w.unlisten c).sigs := by
  unfold W.drop
  cases (w.ports p).conn with
  | none => rfl
  | some c => rfl

theorem drop_eq {w : W} {p c : Nat} (h : (w.ports p).conn = some c) (a k : Bool) :
    w.drop p a true k = { w.unlisten c with ports := (w.drop p a true k).ports } := by
  unfold W.drop
  simp only [h]
  rfl

theorem inv_drop {w : W} (i : Inv w) (p : Nat) (a k : Bool) : Inv (w.drop p a true k) := by
  rcases Option.eq_none_or_eq_some (w.ports p).conn with h | ⟨c, h⟩
  · have : w.drop p a true k = w := by unfold W.drop; simp [h]
    rw [this]
    exact i
  · rw [drop_eq h]
    refine inv_drop_aux i h _ (drop_conn w p a true k) fun q hq => ?_
    rw [drop_ports w p q a true k hq]
    exact ⟨rfl, rfl⟩

theorem inv_removePort {w : W} (i : Inv w) (p : Nat) : Inv (w.removePort p).1 := by
  unfold W.removePort
  cases hr : (w.ports p).removed with
  | true => exact i
  | false =>
    simp only [Bool.false_eq_true, if_false]
    have e0 : ((w.port p fun x => { x with removed := true }).ports p).conn = (w.ports p).conn := by simp [W.port, upd]
    rcases Option.eq_none_or_eq_some (w.ports p).conn with h | ⟨c, h⟩
    · have : (w.port p fun x => { x with removed := true }).drop p false true false = (w.port p fun x => { x with removed := true }) := by
        unfold W.drop
        rw [e0, h]
      rw [this]
      obtain ⟨a, ⟨g1, g2⟩, d, b, l⟩ := i
      have hp : ∀ q, ((w.port p fun x => { x with removed := true }).ports q).conn = (w.ports q).conn := by
        intro q
        simp only [W.port, upd]
        split <;> rfl
      have hcon : ∀ c, Connected (w.port p fun x => { x with removed := true }) c ↔ Connected w c := by
        intro c
        unfold Connected
        rw [hp]
        rfl
      refine ⟨⟨?_, ?_, ?_, a.once⟩, ⟨g1, ?_⟩, ⟨d.refs, d.once⟩, ?_, l⟩
      · intro q c hq
        rw [hp] at hq
        exact a.known q c hq
      · intro s c
        rw [hcon]
        exact a.listed s c
      · intro s c
        rw [hcon]
        exact a.remote s c
      · intro q hq
        rw [hp]
        by_cases e : q = p
        · rw [e]; exact h
        · apply g2
          simp only [W.port, upd, if_neg e] at hq
          exact hq
      · intro q c hq
        rw [hp] at hq
        exact b q c hq
    · rw [drop_eq (e0.trans h)]
      have key := inv_drop_aux i h ((w.port p fun x => { x with removed := true }).drop p false true false).ports
        (drop_conn _ p false true false) fun q hq => by
          rw [drop_ports _ p q false true false hq]
          simp [W.port, upd, hq]
      exact key

/-! ## Removing a signal -/

/-- Dropping the connections of ports without telling the signal. -/
def W.dropAll (w : W) (cs : List Nat) : W := cs.foldl (fun w c => w.drop (w.conns c).port true false true) w

theorem dropAll_conns (cs : List Nat) : ∀ w : W, (w.dropAll cs).conns = w.conns ∧ (w.dropAll cs).next = w.next ∧
    (w.dropAll cs).sigs = w.sigs := by
  induction cs with
  | nil => intro w; exact ⟨rfl, rfl, rfl⟩
  | cons c cs ih =>
    intro w
    obtain ⟨e1, e2, e3⟩ := ih (w.drop (w.conns c).port true false true)
    have e : w.dropAll (c :: cs) = (w.drop (w.conns c).port true false true).dropAll cs := rfl
    rw [e, e1, e2, e3, drop_sigs_quiet]
    exact ⟨(drop_conns w _ _ _ _).1, (drop_conns w _ _ _ _).2, rfl⟩

/-- Each port whose connection is among them has none afterwards; others keep theirs. -/
theorem dropAll_ports (cs : List Nat) : ∀ w : W, (∀ c ∈ cs, Connected w c) → cs.Nodup → ∀ q,
    ((w.dropAll cs).ports q).conn = (if ∃ c, c ∈ cs ∧ (w.conns c).port = q then none else (w.ports q).conn) ∧
    ((w.dropAll cs).ports q).removed = (w.ports q).removed := by
  induction cs with
  | nil =>
    intro w _ _ q
    simp [W.dropAll]
  | cons c cs ih =>
    intro w h hn q
    obtain ⟨hn1, hn2⟩ := List.nodup_cons.mp hn
    have e : w.dropAll (c :: cs) = (w.drop (w.conns c).port true false true).dropAll cs := rfl
    have ec := (drop_conns w (w.conns c).port true false true).1
    have hport : ∀ d ∈ cs, (w.conns d).port ≠ (w.conns c).port := by
      intro d hd hp
      have h1 : Connected w d := h d (by simp [hd])
      have h2 : Connected w c := h c (by simp)
      unfold Connected at h1 h2
      rw [hp, h2] at h1
      cases h1
      exact hn1 hd
    have key := ih (w.drop (w.conns c).port true false true) (fun d hd => by
      unfold Connected
      rw [ec, drop_ports _ _ _ _ _ _ (hport d hd)]
      exact h d (by simp [hd])) hn2 q
    rw [e, key.1, key.2, ec]
    by_cases hq : q = (w.conns c).port
    · subst hq
      have h1 : ¬ ∃ d, d ∈ cs ∧ (w.conns d).port = (w.conns c).port := fun ⟨d, hd, hp⟩ => hport d hd hp
      rw [if_neg h1, if_pos ⟨c, by simp, rfl⟩, drop_conn, (drop_port w _ _ _ _).1]
      simp
    · rw [drop_ports _ _ _ _ _ _ hq]
      refine ⟨?_, rfl⟩
      by_cases hex : ∃ d, d ∈ cs ∧ (w.conns d).port = q
      · obtain ⟨d, hd, hp⟩ := hex
        rw [if_pos ⟨d, hd, hp⟩, if_pos ⟨d, by simp [hd], hp⟩]
      · rw [if_neg hex, if_neg]
        rintro ⟨d, hd, hp⟩
        rcases List.mem_cons.mp hd with rfl | hd
        · exact hq hp.symm
        · exact hex ⟨d, hd, hp⟩

theorem forget_domain (vs : List Nat) : ∀ w : W,
    (vs.foldl (fun w v => w.sig v fun y => { y with domain := none }) w) =
      { w with sigs := fun t => { w.sigs t with domain := if t ∈ vs then none else (w.sigs t).domain } } := by
  induction vs with
  | nil => intro w; simp
  | cons v vs ih =>
    intro w
    rw [List.foldl_cons, ih]
    simp only [W.sig]
    congr 1
    funext t
    simp only [upd]
    by_cases ht : t = v
    · subst ht
      simp
    · simp [ht]

theorem removeSig_eq {w : W} {s : Nat} (h : (w.sigs s).removed = false) : (w.removeSig s) =
    ({ w.dropAll ((w.sigs s).conns ++ (w.sigs s).remote) with
       sigs := fun t => if t = s
        then { w.sigs t with domain := if t ∈ (w.sigs s).refs then none else (w.sigs t).domain, removed := true, active := false, conns := [], remote := [], refs := [] }
        else { w.sigs t with domain := if t ∈ (w.sigs s).refs then none else (w.sigs t).domain } }, .ok) := by
  unfold W.removeSig
  rw [if_neg (by simp [h])]
  dsimp only
  have e : ((w.sigs s).conns ++ (w.sigs s).remote).foldl (fun w c => w.drop (w.conns c).port true false true) w =
    w.dropAll ((w.sigs s).conns ++ (w.sigs s).remote) := rfl
  rw [e, forget_domain]
  simp only [W.sig, (dropAll_conns _ w).2.2]
  rfl

theorem inv_removeSig {w : W} (i : Inv w) (s : Nat) : Inv (w.removeSig s).1 := by
  cases h : (w.sigs s).removed with
  | true =>
    unfold W.removeSig
    rw [if_pos h]
    exact i
  | false =>
    rw [removeSig_eq h]
    have hall : ∀ c ∈ (w.sigs s).conns ++ (w.sigs s).remote, Connected w c ∧ (w.conns c).sig = s := by
      intro c hc
      rcases List.mem_append.mp hc with hc | hc
      · obtain ⟨a, b, _⟩ := (i.agree.listed s c).mp hc
        exact ⟨a, b⟩
      · obtain ⟨a, b, _⟩ := (i.agree.remote s c).mp hc
        exact ⟨a, b⟩
    have hnd : ((w.sigs s).conns ++ (w.sigs s).remote).Nodup := by
      rw [List.nodup_append]
      refine ⟨(i.agree.once s).1, (i.agree.once s).2, ?_⟩
      rintro a ha b hb rfl
      have h1 := ((i.agree.listed s a).mp ha).2.2
      rw [((i.agree.remote s a).mp hb).2.2] at h1
      cases h1
    have hports := dropAll_ports _ w (fun c hc => (hall c hc).1) hnd
    have hcs := dropAll_conns ((w.sigs s).conns ++ (w.sigs s).remote) w
    have hmem : ∀ c, Connected w c → (w.conns c).sig = s → c ∈ (w.sigs s).conns ++ (w.sigs s).remote := by
      intro c hc hs
      rw [List.mem_append]
      cases hr : (w.conns c).isRemote with
      | false => exact Or.inl ((i.agree.listed s c).mpr ⟨hc, hs, hr⟩)
      | true => exact Or.inr ((i.agree.remote s c).mpr ⟨hc, hs, hr⟩)
    refine inv_unhook i (fun c => (w.conns c).sig = s) ?_ hcs.2.1 ?_ ?_ ?_ ?_ ⟨?_, ?_⟩ ⟨?_, ?_⟩ ?_
    · intro c
      show ((w.dropAll _).conns c).sig = _ ∧ _
      rw [hcs.1]
      exact ⟨rfl, rfl, rfl⟩
    · intro q c
      show ((w.dropAll _).ports q).conn = some c ↔ _
      rw [(hports q).1]
      constructor
      · intro hc
        split at hc
        · cases hc
        · rename_i hne
          refine ⟨hc, fun hs => hne ⟨c, hmem c ?_ hs, i.agree.known q c hc⟩⟩
          unfold Connected
          rw [i.agree.known q c hc]
          exact hc
      · rintro ⟨hc, hs⟩
        rw [if_neg]
        · exact hc
        · rintro ⟨d, hd, hq⟩
          obtain ⟨h1, h2⟩ := hall d hd
          unfold Connected at h1
          rw [hq, hc] at h1
          cases h1
          exact hs h2
    · intro t c
      dsimp only
      by_cases ht : t = s
      · subst ht
        simp only [if_true, List.not_mem_nil, false_iff]
        rintro ⟨hc, hn⟩
        exact hn ((i.agree.listed t c).mp hc).2.1
      · rw [if_neg ht]
        constructor
        · intro hc
          exact ⟨hc, fun e => ht (((i.agree.listed t c).mp hc).2.1.symm.trans e)⟩
        · exact fun hc => hc.1
    · intro t c
      dsimp only
      by_cases ht : t = s
      · subst ht
        simp only [if_true, List.not_mem_nil, false_iff]
        rintro ⟨hc, hn⟩
        exact hn ((i.agree.remote t c).mp hc).2.1
      · rw [if_neg ht]
        constructor
        · intro hc
          exact ⟨hc, fun e => ht (((i.agree.remote t c).mp hc).2.1.symm.trans e)⟩
        · exact fun hc => hc.1
    · intro t
      dsimp only
      by_cases ht : t = s
      · rw [if_pos ht]; exact ⟨List.nodup_nil, List.nodup_nil⟩
      · rw [if_neg ht]; exact i.agree.once t
    · intro t ht
      dsimp only at ht ⊢
      by_cases e : t = s
      · rw [if_pos e]; exact ⟨rfl, rfl, rfl⟩
      · rw [if_neg e] at ht ⊢
        exact i.gone.sig t ht
    · intro q hq
      have hq : ((w.dropAll _).ports q).removed = true := hq
      show ((w.dropAll _).ports q).conn = none
      rw [(hports q).2] at hq
      rw [(hports q).1]
      split
      · rfl
      · exact i.gone.port q hq
    · intro d v
      dsimp only
      have hd := i.domains.refs d v
      have hv := i.domains.refs s v
      have edom : (if v = s then
          { w.sigs v with domain := if v ∈ (w.sigs s).refs then none else (w.sigs v).domain, removed := true, active := false, conns := [], remote := [], refs := [] }
        else { w.sigs v with domain := if v ∈ (w.sigs s).refs then none else (w.sigs v).domain } : Sig).domain =
          if v ∈ (w.sigs s).refs then none else (w.sigs v).domain := by split <;> rfl
      rw [edom]
      by_cases e : d = s
      · subst e
        rw [if_pos rfl]
        simp only [List.not_mem_nil, false_iff]
        by_cases hm : v ∈ (w.sigs d).refs
        · rw [if_pos hm]; simp
        · rw [if_neg hm]
          exact fun he => hm (hv.mpr he)
      · rw [if_neg e]
        by_cases hm : v ∈ (w.sigs s).refs
        · rw [if_pos hm]
          have := hv.mp hm
          constructor
          · intro hx
            have := hd.mp hx
            simp_all
          · intro hx
            cases hx
        · rw [if_neg hm]
          exact hd
    · intro d
      dsimp only
      split
      · exact List.nodup_nil
      · exact i.domains.once d
    · intro t ht
      dsimp only at ht ⊢
      by_cases e : t = s
      · rw [if_pos e] at ht
        cases ht
      · rw [if_neg e] at ht ⊢
        exact i.listened t ht

/-! ## Connecting -/

/-- A new connection that nobody knows of yet. -/
theorem inv_alloc {w : W} (i : Inv w) (k : Conn) : Inv { w with conns := upd w.conns w.next fun _ => k, next := w.next + 1 } := by
  have hne : ∀ q, (w.ports q).conn ≠ some w.next := fun q h => absurd (i.bound q _ h) (by omega)
  have hcon : ∀ c, Connected { w with conns := upd w.conns w.next fun _ => k, next := w.next + 1 } c ↔ Connected w c := by
    intro c
    unfold Connected
    by_cases hc : c = w.next
    · subst hc
      simp [hne]
    · simp [upd, hc]
  have hlist : ∀ (b : Bool) s c, (Connected w c ∧ ((upd w.conns w.next fun _ => k) c).sig = s ∧ ((upd w.conns w.next fun _ => k) c).isRemote = b ↔
      Connected w c ∧ (w.conns c).sig = s ∧ (w.conns c).isRemote = b) := by
    intro b s c
    by_cases hc : c = w.next
    · subst hc
      simp [Connected, hne]
    · simp [upd, hc]
  refine ⟨⟨?_, ?_, ?_, i.agree.once⟩, ⟨i.gone.sig, i.gone.port⟩, ⟨i.domains.refs, i.domains.once⟩, ?_, i.listened⟩
  · intro p c hc
    have hc : (w.ports p).conn = some c := hc
    have : c ≠ w.next := by rintro rfl; exact hne p hc
    show ((upd w.conns w.next fun _ => k) c).port = p
    simp only [upd, if_neg this]
    exact i.agree.known p c hc
  · intro s c
    rw [hcon]
    exact (i.agree.listed s c).trans (hlist false s c).symm
  · intro s c
    rw [hcon]
    exact (i.agree.remote s c).trans (hlist true s c).symm
  · intro p c hc
    have := i.bound p c hc
    show c < w.next + 1
    omega

/-- A port that has no connection gets one. -/
theorem inv_hook {w : W} (i : Inv w) {p c : Nat} {P : Nat → Port} (hp : (w.ports p).conn = none) (hc : c < w.next) (hk : (w.conns c).port = p)
    (hrem : (w.sigs (w.conns c).sig).removed = false) (hprem : (w.ports p).removed = false)
    (P1 : (P p).conn = some c ∧ (P p).removed = false) (P2 : ∀ q, q ≠ p → (P q).conn = (w.ports q).conn ∧ (P q).removed = (w.ports q).removed) :
    Inv (({ w with ports := P } : W).listen c) := by
  have hnc : ¬ Connected w c := by
    unfold Connected
    rw [hk, hp]
    simp
  have n1 : ∀ s, c ∉ (w.sigs s).conns := fun s h => hnc ((i.agree.listed s c).mp h).1
  have n2 : ∀ s, c ∉ (w.sigs s).remote := fun s h => hnc ((i.agree.remote s c).mp h).1
  let w0 : W := { w with ports := P }
  let S : Nat → Sig := fun t => if t = (w.conns c).sig then
      (if (w.conns c).isRemote then { w.sigs t with remote := (w.sigs t).remote ++ [c] }
       else { w.sigs t with conns := (w.sigs t).conns ++ [c], listened := if (w.sigs t).conns.isEmpty then true else (w.sigs t).listened })
      else w.sigs t
  have es : Same { w with ports := P, sigs := S } (w0.listen c) := by
    unfold W.listen
    dsimp only
    cases hr : (w.conns c).isRemote with
    | true =>
      rw [if_pos rfl]
      refine ⟨rfl, rfl, fun _ => ⟨rfl, rfl, rfl⟩, fun t => ?_⟩
      simp only [W.sig, upd, S, w0, hr]
      split <;> exact ⟨rfl, rfl, rfl, rfl, rfl, rfl, rfl⟩
    | false =>
      rw [if_neg Bool.false_ne_true]
      refine Same.trans (b := (w0.sig (w0.conns c).sig fun x => { x with conns := x.conns ++ [c], listened := if x.conns.isEmpty then true else x.listened })) ?_ (same_enqueue _ _ _)
      refine ⟨rfl, rfl, fun _ => ⟨rfl, rfl, rfl⟩, fun t => ?_⟩
      simp only [W.sig, upd, S, w0, hr]
      split <;> exact ⟨rfl, rfl, rfl, rfl, rfl, rfl, rfl⟩
  apply es.inv
  have hcon : ∀ d, Connected { w with ports := P, sigs := S } d ↔ Connected w d ∨ d = c := by
    intro d
    show (P (w.conns d).port).conn = some d ↔ _
    by_cases hq : (w.conns d).port = p
    · rw [hq, P1.1]
      constructor
      · intro h
        cases h
        exact Or.inr rfl
      · rintro (h | h)
        · unfold Connected at h
          rw [hq, hp] at h
          cases h
        · rw [h]
    · rw [(P2 _ hq).1]
      constructor
      · exact fun h => Or.inl h
      · rintro (h | h)
        · exact h
        · subst h
          exact absurd hk hq
  have hS : ∀ t, (S t).removed = (w.sigs t).removed ∧ (S t).refs = (w.sigs t).refs ∧ (S t).domain = (w.sigs t).domain ∧
      (S t).active = (w.sigs t).active := by
    intro t
    simp only [S]
    split
    · split <;> exact ⟨rfl, rfl, rfl, rfl⟩
    · exact ⟨rfl, rfl, rfl, rfl⟩
  have hS1 : ∀ t d, d ∈ (S t).conns ↔ d ∈ (w.sigs t).conns ∨ (d = c ∧ (w.conns c).sig = t ∧ (w.conns c).isRemote = false) := by
    intro t d
    simp only [S]
    by_cases ht : t = (w.conns c).sig
    · rw [if_pos ht]
      cases hr : (w.conns c).isRemote <;> simp [ht]
    · rw [if_neg ht]
      have : ¬ (w.conns c).sig = t := fun e => ht e.symm
      simp [this]
  have hS2 : ∀ t d, d ∈ (S t).remote ↔ d ∈ (w.sigs t).remote ∨ (d = c ∧ (w.conns c).sig = t ∧ (w.conns c).isRemote = true) := by
    intro t d
    simp only [S]
    by_cases ht : t = (w.conns c).sig
    · rw [if_pos ht]
      cases hr : (w.conns c).isRemote <;> simp [ht]
    · rw [if_neg ht]
      have : ¬ (w.conns c).sig = t := fun e => ht e.symm
      simp [this]
  refine ⟨⟨?_, ?_, ?_, ?_⟩, ⟨?_, ?_⟩, ⟨?_, ?_⟩, ?_, ?_⟩
  · intro q d hd
    have hd : (P q).conn = some d := hd
    by_cases hq : q = p
    · subst hq
      rw [P1.1] at hd
      cases hd
      exact hk
    · rw [(P2 q hq).1] at hd
      exact i.agree.known q d hd
  · intro t d
    rw [hcon]
    show d ∈ (S t).conns ↔ _
    rw [hS1, i.agree.listed]
    constructor
    · rintro (⟨a, b, e⟩ | ⟨rfl, b, e⟩)
      · exact ⟨Or.inl a, b, e⟩
      · exact ⟨Or.inr rfl, b, e⟩
    · rintro ⟨a | rfl, b, e⟩
      · exact Or.inl ⟨a, b, e⟩
      · exact Or.inr ⟨rfl, b, e⟩
  · intro t d
    rw [hcon]
    show d ∈ (S t).remote ↔ _
    rw [hS2, i.agree.remote]
    constructor
    · rintro (⟨a, b, e⟩ | ⟨rfl, b, e⟩)
      · exact ⟨Or.inl a, b, e⟩
      · exact ⟨Or.inr rfl, b, e⟩
    · rintro ⟨a | rfl, b, e⟩
      · exact Or.inl ⟨a, b, e⟩
      · exact Or.inr ⟨rfl, b, e⟩
  · intro t
    show (S t).conns.Nodup ∧ (S t).remote.Nodup
    obtain ⟨o1, o2⟩ := i.agree.once t
    have ap : ∀ l : List Nat, l.Nodup → c ∉ l → (l ++ [c]).Nodup := by
      intro l hl hc
      rw [List.nodup_append]
      refine ⟨hl, by simp, ?_⟩
      rintro a ha b hb rfl
      rw [List.mem_singleton] at hb
      subst hb
      exact hc ha
    simp only [S]
    split
    · split
      · exact ⟨o1, ap _ o2 (n2 t)⟩
      · exact ⟨ap _ o1 (n1 t), o2⟩
    · exact ⟨o1, o2⟩
  · intro t ht
    have ht : (S t).removed = true := ht
    rw [(hS t).1] at ht
    have hts : t ≠ (w.conns c).sig := by
      rintro rfl
      rw [hrem] at ht
      cases ht
    show (S t).conns = [] ∧ (S t).remote = [] ∧ (S t).active = false
    simp only [S, if_neg hts]
    exact i.gone.sig t ht
  · intro q hq
    have hq : (P q).removed = true := hq
    show (P q).conn = none
    by_cases e : q = p
    · rw [e, P1.2] at hq
      cases hq
    · rw [(P2 q e).2] at hq
      rw [(P2 q e).1]
      exact i.gone.port q hq
  · intro d v
    show v ∈ (S d).refs ↔ (S v).domain = some d
    rw [(hS d).2.1, (hS v).2.2.1]
    exact i.domains.refs d v
  · intro d
    show (S d).refs.Nodup
    rw [(hS d).2.1]
    exact i.domains.once d
  · intro q d hd
    have hd : (P q).conn = some d := hd
    show d < w.next
    by_cases hq : q = p
    · subst hq
      rw [P1.1] at hd
      cases hd
      exact hc
    · rw [(P2 q hq).1] at hd
      exact i.bound q d hd
  · intro t ht
    have ht : (S t).removed = false := ht
    rw [(hS t).1] at ht
    have hl := i.listened t ht
    show (S t).listened = true ↔ (S t).conns ≠ []
    simp only [S]
    split
    · split
      · exact hl
      · dsimp only
        cases he : (w.sigs t).conns.isEmpty with
        | true => simp
        | false =>
          have : (w.sigs t).conns ≠ [] := fun e => by simp [e] at he
          simp [hl.mpr this]
    · exact hl

/-- The world in which the listener of the port is asked. -/
def W.offer (w : W) (p s : Nat) (remote : Bool) : W :=
  let w := w.drop p false true false
  let c := w.next
  let w := { w with conns := upd w.conns c fun _ => { sig := s, port := p, isRemote := remote, log := [] }, next := c + 1 }
  w.port p fun x => { x with conn := some c, notes := if x.listener then x.notes ++ [true] else x.notes }

theorem connect_cases (w : W) (p s : Nat) (r cy a : Bool) :
    (∃ e, w.connect p s r cy a = (w, .err e) ∧ e ≠ .refused) ∨
    ((w.sigs s).removed = false ∧ cy = false ∧ (w.ports p).removed = false ∧
      ((w.ports p).listener = true ∧ a = false ∧ w.connect p s r cy a = ((w.offer p s r).port p fun x => { x with conn := none }, .err .refused) ∨
       ((w.ports p).listener = false ∨ a = true) ∧
        w.connect p s r cy a = (((w.offer p s r).listen w.next).port p fun x => { x with core := x.core ++ [.connected s] }, .ok))) := by
  cases h1 : (w.sigs s).removed with
  | true => exact Or.inl ⟨.invalidState, by unfold W.connect; rw [if_pos h1], by simp⟩
  | false =>
    cases cy with
    | true => exact Or.inl ⟨.cyclic, by unfold W.connect; simp [h1], by simp⟩
    | false =>
      cases h3 : (w.ports p).removed with
      | true => exact Or.inl ⟨.invalidState, by unfold W.connect; simp [h1, h3], by simp⟩
      | false =>
        refine Or.inr ⟨rfl, rfl, rfl, ?_⟩
        have hl : ((w.offer p s r).ports p).listener = (w.ports p).listener := by
          unfold W.offer
          simp only [W.port, upd, if_true]
          exact (drop_port w p _ _ _).2
        have e : w.connect p s r false a = if ((w.offer p s r).ports p).listener && !a
            then ((w.offer p s r).port p fun x => { x with conn := none }, .err .refused)
            else (((w.offer p s r).listen (w.drop p false true false).next).port p fun x => { x with core := x.core ++ [.connected s] }, .ok) := by
          unfold W.connect
          rw [if_neg (by simp [h1]), if_neg (by simp), if_neg (by simp [h3])]
          rfl
        rw [e, hl, (drop_conns w p _ _ _).2]
        cases (w.ports p).listener <;> cases a <;> simp

theorem inv_connect {w : W} (i : Inv w) (p s : Nat) (r cy a : Bool) : Inv (w.connect p s r cy a).1 := by
  rcases connect_cases w p s r cy a with ⟨e, h, _⟩ | ⟨h1, _, h3, h⟩
  · rw [h]; exact i
  · have i1 := inv_drop i p false false
    have hd := drop_conns w p false true false
    have i2 := inv_alloc i1 { sig := s, port := p, isRemote := r, log := [] }
    rcases h with ⟨_, _, h⟩ | ⟨_, h⟩
    · rw [h]
      refine inv_ports i2 rfl rfl rfl fun q => ?_
      simp only [W.offer, W.port, upd]
      by_cases hq : q = p
      · subst hq
        simp [drop_conn]
      · simp [hq]
    · rw [h]
      have key := inv_hook i2 (p := p) (c := w.next) (P := (w.offer p s r).ports) (drop_conn w p _ _ _)
        (by show w.next < (w.drop p false true false).next + 1; rw [hd.2]; omega)
        (by simp [upd, hd.2])
        (by
          have : ((upd (w.drop p false true false).conns (w.drop p false true false).next fun _ =>
            ({ sig := s, port := p, isRemote := r, log := [] } : Conn)) w.next).sig = s := by simp [upd, hd.2]
          rw [this]
          show ((w.drop p false true false).sigs s).removed = false
          rw [drop_sigs]
          split
          · exact h1
          · rw [(unlisten_rest w _ s).1]; exact h1)
        ((drop_port w p _ _ _).1.trans h3)
        (by
          refine ⟨?_, ?_⟩
          · simp [W.offer, W.port, upd, hd.2]
          · simp only [W.offer, W.port, upd, if_true]
            exact (drop_port w p _ _ _).1.trans h3)
        (by
          intro q hq
          simp [W.offer, W.port, upd, hq])
      refine inv_ports (w := (w.offer p s r).listen w.next) key rfl rfl rfl fun q => ?_
      simp only [W.port, upd]
      split <;> exact ⟨rfl, rfl⟩

theorem inv_step {w : W} (i : Inv w) (op : Op) : Inv (step w op).1 := by
  cases op with
  | setDescriptor s d => exact (same_setDescriptor w s d).inv i
  | setDomain s d => exact (inv_setDomain i s d).1
  | send s p => exact (same_send w s p).inv i
  | sendMany s ps => exact (same_sendMany w s ps).inv i
  | setActive s b =>
    unfold step
    dsimp only
    by_cases h : (w.sigs s).removed = true
    · rw [if_pos h]; exact i
    · rw [if_neg h]
      by_cases h2 : (w.sigs s).active = b
      · rw [if_pos h2]; exact i
      · rw [if_neg h2]
        have e : ∀ t, ((w.sig s fun x => { x with active := b }).sigs t).conns = (w.sigs t).conns ∧
            ((w.sig s fun x => { x with active := b }).sigs t).remote = (w.sigs t).remote ∧
            ((w.sig s fun x => { x with active := b }).sigs t).removed = (w.sigs t).removed ∧
            ((w.sig s fun x => { x with active := b }).sigs t).refs = (w.sigs t).refs ∧
            ((w.sig s fun x => { x with active := b }).sigs t).domain = (w.sigs t).domain ∧
            ((w.sig s fun x => { x with active := b }).sigs t).listened = (w.sigs t).listened := by
          intro t
          simp only [W.sig, upd]
          split <;> exact ⟨rfl, rfl, rfl, rfl, rfl, rfl⟩
        refine inv_unhook i (fun _ => False) (fun _ => ⟨rfl, rfl, rfl⟩) rfl (fun q c => by simp [W.sig]) (fun t c => by rw [(e t).1]; simp)
          (fun t c => by rw [(e t).2.1]; simp) (fun t => by rw [(e t).1, (e t).2.1]; exact i.agree.once t) ⟨?_, i.gone.port⟩ ⟨?_, ?_⟩ ?_
        · intro t ht
          rw [(e t).2.2.1] at ht
          have hts : t ≠ s := by rintro rfl; exact h ht
          simp only [W.sig, upd, if_neg hts]
          exact i.gone.sig t ht
        · intro d v
          rw [(e d).2.2.2.1, (e v).2.2.2.2.1]
          exact i.domains.refs d v
        · intro d
          rw [(e d).2.2.2.1]
          exact i.domains.once d
        · intro t ht
          rw [(e t).2.2.1] at ht
          rw [(e t).1, (e t).2.2.2.2.2]
          exact i.listened t ht
  | setPublic s b =>
    refine Same.inv (same_sig ?_) i
    unfold Sig.setKeep
    split <;> exact ⟨rfl, rfl, rfl, rfl, rfl, rfl, rfl⟩
  | keepLast s b =>
    refine Same.inv (same_sig ?_) i
    unfold Sig.setKeep
    split <;> exact ⟨rfl, rfl, rfl, rfl, rfl, rfl, rfl⟩
  | setLast s v => exact Same.inv (same_sig ⟨rfl, rfl, rfl, rfl, rfl, rfl, rfl⟩) i
  | getLast s => exact i
  | connect p s r c a => exact inv_connect i p s r c a
  | disconnect p => exact inv_drop i p true true
  | removeSig s => exact inv_removeSig i s
  | removePort p => exact inv_removePort i p

theorem inv_start (desc : Nat → Option Nat) (l : Nat → Bool) : Inv (start desc l) := by
  refine ⟨⟨?_, ?_, ?_, ?_⟩, ⟨?_, ?_⟩, ⟨?_, ?_⟩, ?_, ?_⟩ <;> simp [start, Connected, Listened]

theorem inv_run (ops : List Op) : ∀ {w : W}, Inv w → Inv (run w ops).1 := by
  induction ops with
  | nil => intro w i; exact i
  | cons op ops ih => intro w i; exact ih (inv_step i op)

end Verif.Link
