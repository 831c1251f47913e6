import Verif.Ext.Inv

/-!
# Tidy acts
-/

namespace Verif.Ext
open Verif

/-- What holds between tidy acts. -/
structure Inv (w : World) (en : Bool) (m : Table) (c : Client) : Prop where
  ports : ∀ p, c.ports.get p = (m p).map w.sig
  own : ∀ p g, m p = some g → w.inside g = true → c.conn.get p = some (.own g)
  ext : ∀ p g, m p = some g → w.inside g = false →
    ∃ e, c.prod.entries.get g = some e ∧ c.conn.get p = some (.ext e.num)
  free : ∀ p, m p = none → c.conn.get p = none
  quiet : c.pending = []
  fits : ∀ x, Fits w en (Trig w m x) x (c.prod.entries.get x)
  mirr : ∀ n, n ∈ c.mirrored ↔ ∃ x e, c.prod.entries.get x = some e ∧ e.num = n ∧ e.triggers ≠ []
  good : Good c.prod
  enabled : c.prod.enabled = en
  names : ∀ p g, m p = some g → w.dom p = none

theorem inv_fresh (w : World) (cfg : Cfg) : Inv w (decide (cfg.version < 18)) (fun _ => none) (fresh cfg) := by
  refine ⟨fun _ => rfl, fun _ _ h => (nomatch h), fun _ _ h => (nomatch h), fun _ _ => rfl, rfl, fun x => ?_,
    fun n => ?_, good_fresh cfg, rfl, fun _ _ h => (nomatch h)⟩
  · rintro t (⟨a, _⟩ | ⟨_, _, q, a⟩) <;> exact nomatch a
  · constructor
    · intro h
      exact nomatch h
    · rintro ⟨x, e, h, _⟩
      exact nomatch h

theorem removeFar_calm (c : Client) (ns : List Nat)
    (h : ∀ p n, c.conn.get p = some (.ext n) → n ∉ ns) :
    c.removeFar ns = { c with mirrored := c.mirrored.filter (fun n => !decide (n ∈ ns)) } := by
  have e : c.holders ns = [] := by
    unfold Client.holders
    rw [List.filter_eq_nil_iff]
    intro p _
    cases hp : c.conn.get p with
    | none => simp
    | some f =>
      cases f with
      | own g => simp
      | ext n => simpa using h p n hp
  unfold Client.removeFar
  simp only [e]
  have f : c.conn.filter (fun e => !decide (e.1 ∈ ([] : List Gid))) = c.conn := by
    rw [List.filter_eq_self]
    intro a _
    simp
  rw [f, List.append_nil]

/-- Removing an external signal from a port whose counterpart on the device is free. -/
theorem drop_effect {w : World} {en : Bool} (pw : w.Plain) (cfg : Cfg) {m : Table} {c : Client} {p g : Gid} (I : Inv w en m c)
    (hm : m p = some g) (hi : w.inside g = false) :
    ∃ P ms, (Client.drop cfg { c with conn := c.conn.del p, pending := [] } (w.sig g) p) =
        ({ c with prod := P, mirrored := ms, conn := c.conn.del p, pending := [] }, false) ∧
      (∀ x, Fits w en (Trig w (cutAt m p) x) x (P.entries.get x)) ∧ P.enabled = en ∧ Later c.prod P ∧
      ∀ n, n ∈ ms ↔ ∃ x e, P.entries.get x = some e ∧ e.num = n ∧ e.triggers ≠ [] := by
  have R := remove_effect pw I.fits I.enabled I.good hm hi I.names
  have L := later_removeTrigger ((w.sig g).node :: (w.sig g).doms) c.prod [] p
  generalize hr : c.prod.removeTrigger [] ((w.sig g).node :: (w.sig g).doms) p = r at R L
  obtain ⟨P, u, b⟩ := r
  have hb : b = false := R.calm
  subst hb
  have gP : Good P := L.good I.good
  -- a signal of `P` with triggers had triggers before
  have back : ∀ x e', P.entries.get x = some e' → e'.triggers ≠ [] →
      ∃ e, c.prod.entries.get x = some e ∧ e.num = e'.num ∧ e.triggers ≠ [] := by
    intro x e' h1 h2
    have f1 := R.fits x
    simp only at f1
    rw [h1] at f1
    obtain ⟨t, ht⟩ := List.exists_mem_of_ne_nil _ h2
    have tt := (f1.1 t).mp ht
    have tm : Trig w m x t := by
      rcases tt with ⟨a, b⟩ | ⟨a, b, q, cc⟩
      · unfold cutAt at a
        by_cases hq : t = p
        · rw [if_pos hq] at a; cases a
        · rw [if_neg hq] at a; exact .inl ⟨a, b⟩
      · unfold cutAt at cc
        by_cases hq : q = p
        · rw [if_pos hq] at cc; cases cc
        · rw [if_neg hq] at cc; exact .inr ⟨a, b, q, cc⟩
    have f0 := I.fits x
    cases h0 : c.prod.entries.get x with
    | none => rw [h0] at f0; exact absurd tm (f0 t)
    | some e =>
      rw [h0] at f0
      obtain ⟨f, hf, nf⟩ := L.keep x e h0
      simp only at hf
      rw [h1] at hf
      cases hf
      refine ⟨e, rfl, nf.symm, fun a => ?_⟩
      have := (f0.1 t).mpr tm
      rw [a] at this
      exact nomatch this
  have msOk : ∀ n, n ∈ c.mirrored.filter (fun n => !decide (n ∈ u.map (·.1))) ↔
      ∃ x e, P.entries.get x = some e ∧ e.num = n ∧ e.triggers ≠ [] := by
    intro n
    rw [List.mem_filter]
    constructor
    · rintro ⟨a, b⟩
      have nb : n ∉ u.map (·.1) := by simpa using b
      obtain ⟨x, e, h1, h2, h3⟩ := (I.mirr n).mp a
      obtain ⟨e', h4, h5⟩ := L.keep x e h1
      refine ⟨x, e', h4, h5.trans h2, fun a => nb ?_⟩
      exact (R.nums n).mpr ⟨x, e, e', h1, h2, h3, h4, a⟩
    · rintro ⟨x, e', h1, h2, h3⟩
      obtain ⟨e, h4, h5, h6⟩ := back x e' h1 h3
      refine ⟨(I.mirr n).mpr ⟨x, e, h4, h5.trans h2, h6⟩, ?_⟩
      have : n ∉ u.map (·.1) := by
        intro hn
        obtain ⟨y, f, f', k1, k2, k3, k4, k5⟩ := (R.nums n).mp hn
        simp only at k4
        have : y = x := I.good.inj y x f e k1 h4 (by rw [k2, h5, h2])
        rw [this, h1] at k4
        cases k4
        exact h3 k5
      simpa using this
  have calm : ∀ q n, (c.conn.del p).get q = some (.ext n) → n ∉ u.map (·.1) := by
    intro q n hq hn
    rw [AList.get_del] at hq
    by_cases hqp : q = p
    · rw [if_pos hqp] at hq; cases hq
    · rw [if_neg hqp] at hq
      cases hmq : m q with
      | none => rw [I.free q hmq] at hq; cases hq
      | some y =>
        cases hy : w.inside y with
        | true => rw [I.own q y hmq hy] at hq; cases hq
        | false =>
          obtain ⟨e, h1, h2⟩ := I.ext q y hmq hy
          rw [h2] at hq
          cases hq
          obtain ⟨x, f, f', k1, k2, k3, k4, k5⟩ := (R.nums _).mp hn
          have : x = y := I.good.inj x y f e k1 h1 k2
          subst this
          have f1 := R.fits x
          rw [k4] at f1
          have : q ∈ f'.triggers := (f1.1 q).mpr (.inl ⟨by unfold cutAt; rw [if_neg hqp]; exact hmq, hy⟩)
          rw [k5] at this
          exact nomatch this
  refine ⟨P, _, ?_, R.fits, R.enabled, L, msOk⟩
  unfold Client.drop
  simp only [hr, Bool.false_eq_true, if_false]
  cases u with
  | nil =>
    simp only [List.isEmpty_nil, if_true]
    have : c.mirrored.filter (fun n => !decide (n ∈ ([] : List (Nat × Option Nat)).map (·.1))) = c.mirrored := by
      rw [List.filter_eq_self]
      intro a _
      simp
    rw [this]
  | cons a u =>
    simp only [List.isEmpty_cons, Bool.false_eq_true, if_false]
    have : ¬ (18 ≤ cfg.version ∧ cfg.sources = true ∧ (a :: u).any (fun e => e.2.isNone) = true) := by
      rintro ⟨_, _, h⟩
      have := R.objs
      simp only at this
      rw [this] at h
      cases h
    rw [if_neg this, removeFar_calm _ _ calm]

/-- Disconnecting a port. -/
theorem cut_step {w : World} {en : Bool} (pw : w.Plain) (cfg : Cfg) {m : Table} {c : Client} (I : Inv w en m c) (p : Gid) :
    (c.disconnect cfg p .yes 1).2 = .ok ∧ Inv w en (cutAt m p) (c.disconnect cfg p .yes 1).1 := by
  unfold Client.disconnect
  rw [if_pos rfl]
  refine ⟨rfl, ?_⟩
  simp only [Client.deliverN]
  cases hm : m p with
  | none =>
    have e : cutAt m p = m := by
      funext x
      unfold cutAt
      split
      · rename_i h; rw [h, hm]
      · rfl
    rw [e]
    rw [I.free p hm]
    simp only [Option.isSome_none, Bool.false_eq_true, if_false]
    unfold Client.deliver
    rw [I.quiet]
    refine ⟨fun q => ?_, I.own, I.ext, I.free, I.quiet, I.fits, I.mirr, I.good, I.enabled, I.names⟩
    show (c.ports.del p).get q = _
    rw [AList.get_del]
    split
    · rename_i h; rw [h, hm]; rfl
    · exact I.ports q
  | some g =>
    have hc : (c.conn.get p).isSome = true := by
      cases hi : w.inside g with
      | true => rw [I.own p g hm hi]; rfl
      | false => obtain ⟨e, _, h⟩ := I.ext p g hm hi; rw [h]; rfl
    rw [if_pos hc]
    unfold Client.deliver
    simp only [I.quiet, List.nil_append]
    unfold Client.release
    simp only
    have hp : c.ports.get p = some (w.sig g) := by rw [I.ports p, hm]; rfl
    rw [hp]
    simp only
    have namesOk : ∀ q s, cutAt m p q = some s → w.dom q = none := by
      intro q s h
      unfold cutAt at h
      by_cases hq : q = p
      · rw [if_pos hq] at h; cases h
      · rw [if_neg hq] at h; exact I.names q s h
    have portsOk : ∀ q, ((c.ports.del p).del p).get q = (cutAt m p q).map w.sig := by
      intro q
      rw [AList.get_del, AList.get_del]
      unfold cutAt
      by_cases hq : q = p
      · rw [if_pos hq, if_pos hq]; rfl
      · rw [if_neg hq, if_neg hq, if_neg hq]; exact I.ports q
    have freeOk : ∀ q, cutAt m p q = none → (c.conn.del p).get q = none := by
      intro q h
      rw [AList.get_del]
      unfold cutAt at h
      by_cases hq : q = p
      · rw [if_pos hq]
      · rw [if_neg hq] at h ⊢; exact I.free q h
    have ownOk : ∀ q s, cutAt m p q = some s → w.inside s = true → (c.conn.del p).get q = some (.own s) := by
      intro q s h hs
      rw [AList.get_del]
      unfold cutAt at h
      by_cases hq : q = p
      · rw [if_pos hq] at h; cases h
      · rw [if_neg hq] at h ⊢; exact I.own q s h hs
    have extOk : ∀ (P : Producer), Later c.prod P → ∀ q s, cutAt m p q = some s → w.inside s = false →
        ∃ e, P.entries.get s = some e ∧ (c.conn.del p).get q = some (.ext e.num) := by
      intro P L q s h hs
      rw [AList.get_del]
      unfold cutAt at h
      by_cases hq : q = p
      · rw [if_pos hq] at h; cases h
      · rw [if_neg hq] at h ⊢
        obtain ⟨e, h1, h2⟩ := I.ext q s h hs
        obtain ⟨f, h3, h4⟩ := L.keep s e h1
        exact ⟨f, h3, by rw [h2, h4]⟩
    cases hi : w.inside g with
    | true =>
      have : (w.sig g).inside = true := hi
      rw [this]
      simp only [if_true]
      refine ⟨portsOk, ownOk, extOk c.prod (Later.refl _), freeOk, rfl, fun x => ?_, I.mirr, I.good, I.enabled, namesOk⟩
      refine (I.fits x).congr fun t => ?_
      unfold Trig cutAt
      constructor
      · rintro (⟨a, b⟩ | ⟨a, b, q, h⟩)
        · refine .inl ⟨?_, b⟩
          rw [if_neg]
          · exact a
          · intro e
            rw [e, hm] at a
            cases a
            rw [hi] at b
            cases b
        · refine .inr ⟨a, b, q, ?_⟩
          rw [if_neg]
          · exact h
          · intro e
            rw [e, hm] at h
            cases h
            rw [hi] at b
            cases b
      · rintro (⟨a, b⟩ | ⟨a, b, q, h⟩)
        · by_cases ht : t = p
          · rw [if_pos ht] at a; cases a
          · rw [if_neg ht] at a; exact .inl ⟨a, b⟩
        · by_cases hq : q = p
          · rw [if_pos hq] at h; cases h
          · rw [if_neg hq] at h; exact .inr ⟨a, b, q, h⟩
    | false =>
      have : (w.sig g).inside = false := hi
      rw [this]
      simp only [Bool.false_eq_true, if_false]
      obtain ⟨P, ms, hd, h1, h2, h3, h4⟩ := drop_effect pw cfg I hm hi
      rw [hd]
      simp only [Bool.false_eq_true, if_false]
      exact ⟨portsOk, ownOk, extOk P h3, freeOk, rfl, h1, h4, h3.good I.good, h2, namesOk⟩

/-- The table with a port given a signal. -/
def putAt (m : Table) (p g : Gid) : Table := fun x => if x = p then some g else m x

theorem trig_put {w : World} (pw : w.Plain) {m : Table} {p g : Gid}
    (hm : ∀ o, m p = some o → w.inside o = true) (x t : Gid) :
    Trig w (putAt m p g) x t ↔
      Trig w m x t ∨ (w.inside g = false ∧ ((x = g ∧ t = p) ∨ (w.dom g = some x ∧ t = g))) := by
  unfold Trig putAt
  constructor
  · rintro (⟨a, b⟩ | ⟨a, b, q, h⟩)
    · by_cases ht : t = p
      · rw [if_pos ht] at a
        cases a
        exact .inr ⟨b, .inl ⟨rfl, ht⟩⟩
      · rw [if_neg ht] at a
        exact .inl (.inl ⟨a, b⟩)
    · by_cases hq : q = p
      · rw [if_pos hq] at h
        cases h
        exact .inr ⟨b, .inr ⟨a, rfl⟩⟩
      · rw [if_neg hq] at h
        exact .inl (.inr ⟨a, b, q, h⟩)
  · rintro ((⟨a, b⟩ | ⟨a, b, q, h⟩) | ⟨b, ⟨rfl, rfl⟩ | ⟨a, rfl⟩⟩)
    · refine .inl ⟨?_, b⟩
      rw [if_neg]
      · exact a
      · intro e
        rw [e] at a
        rw [hm x a] at b
        cases b
    · refine .inr ⟨a, b, q, ?_⟩
      rw [if_neg]
      · exact h
      · intro e
        rw [e] at h
        rw [hm t h] at b
        cases b
    · exact .inl ⟨if_pos rfl, b⟩
    · exact .inr ⟨a, b, p, if_pos rfl⟩

theorem mem_getOrAdd (ns : List Nat) (k n : Nat) : n ∈ getOrAdd ns k ↔ n ∈ ns ∨ n = k := by
  unfold getOrAdd
  split
  · rename_i h
    constructor
    · exact fun a => .inl a
    · rintro (a | a)
      · exact a
      · rw [a]; exact h
  · rw [List.mem_cons]
    exact Or.comm

/-- The producer and the mirrored signals after the connection of an external signal. -/
theorem connectExt_effect {w : World} {en : Bool} (pw : w.Plain) {m : Table} {c : Client} {p g : Gid} (I : Inv w en m c)
    (hm : ∀ o, m p = some o → w.inside o = true) (hi : w.inside g = false) :
    ∃ P ms e, c.connectExt (w.sig g) p .yes =
        ({ c with prod := P, mirrored := ms, conn := c.conn.put p (.ext e.num) }, .ok) ∧
      P.entries.get g = some e ∧ P.enabled = en ∧ Later c.prod P ∧
      (∀ x, Fits w en (Trig w (putAt m p g) x) x (P.entries.get x)) ∧
      ∀ n, n ∈ ms ↔ ∃ x e, P.entries.get x = some e ∧ e.num = n ∧ e.triggers ≠ [] := by
  have L := later_connectExt c (w.sig g) p .yes
  cases hd : w.dom g with
  | none =>
    have hs : w.sig g = ⟨⟨w.obj g, g⟩, [], w.inside g⟩ := by unfold World.sig; rw [hd]
    rw [hs] at L ⊢
    have hget : (c.prod.register ⟨w.obj g, g⟩).1.entries.get g = some (regE c.prod ⟨w.obj g, g⟩) :=
      (get_register _ _ _).trans (if_pos rfl)
    have hadd := addTrigger_eq (c.prod.register ⟨w.obj g, g⟩).1 ⟨w.obj g, g⟩ p _ hget
      ((enabled_register _ _).trans I.enabled)
    have hx : c.connectExt ⟨⟨w.obj g, g⟩, [], w.inside g⟩ p .yes =
        ({ c with
           prod := { (c.prod.register ⟨w.obj g, g⟩).1 with
             entries := (c.prod.register ⟨w.obj g, g⟩).1.entries.put g (trigE en (regE c.prod ⟨w.obj g, g⟩) p) }
           mirrored := getOrAdd c.mirrored (regE c.prod ⟨w.obj g, g⟩).num
           conn := c.conn.put p (.ext (regE c.prod ⟨w.obj g, g⟩).num) }, .ok) := by
      unfold Client.connectExt Client.registerDomain Producer.addConnection Client.mirror
      simp only [hadd, num_register, if_true, Bool.false_eq_true, if_false]
    rw [hx] at L
    simp only at L
    have getf : ∀ x, ((c.prod.register ⟨w.obj g, g⟩).1.entries.put g (trigE en (regE c.prod ⟨w.obj g, g⟩) p)).get x =
        if x = g then some (trigE en (regE c.prod ⟨w.obj g, g⟩) p) else c.prod.entries.get x := by
      intro x
      rw [AList.get_put]
      by_cases h : x = g
      · rw [if_pos h, if_pos h]
      · rw [if_neg h, if_neg h, get_register, if_neg h]
    refine ⟨_, _, trigE en (regE c.prod ⟨w.obj g, g⟩) p, hx, ?_, (enabled_register _ _).trans I.enabled, L,
      fun x => ?_, fun n => ?_⟩
    · exact (getf g).trans (if_pos rfl)
    · refine (congrArg (Fits w en (Trig w (putAt m p g) x) x) (getf x)).mpr ?_
      by_cases h : x = g
      · rw [if_pos h, h]
        refine (enrol w en c.prod g p _ (I.fits g)).congr fun t => ?_
        rw [trig_put pw hm]
        constructor
        · rintro (a | a)
          · exact .inl a
          · exact .inr ⟨hi, .inl ⟨rfl, a⟩⟩
        · rintro (a | ⟨_, ⟨_, a⟩ | ⟨a, _⟩⟩)
          · exact .inl a
          · exact .inr a
          · rw [hd] at a; cases a
      · rw [if_neg h]
        refine (I.fits x).congr fun t => ?_
        rw [trig_put pw hm]
        constructor
        · exact fun a => .inl a
        · rintro (a | ⟨_, ⟨a, _⟩ | ⟨a, _⟩⟩)
          · exact a
          · exact absurd a h
          · rw [hd] at a; cases a
    · rw [mem_getOrAdd, I.mirr]
      constructor
      · rintro (⟨x, e, h1, h2, h3⟩ | h)
        · by_cases hx : x = g
          · obtain ⟨f, hf, nf⟩ := L.keep x e h1
            refine ⟨x, f, hf, nf.trans h2, ?_⟩
            have := (getf x).symm.trans hf
            rw [if_pos hx] at this
            cases this
            exact trigE_ne _ _ _
          · exact ⟨x, e, (getf x).trans (by rw [if_neg hx]; exact h1), h2, h3⟩
        · exact ⟨g, _, (getf g).trans (if_pos rfl), h.symm, trigE_ne _ _ _⟩
      · rintro ⟨x, e, h1, h2, h3⟩
        have h1 := (getf x).symm.trans h1
        by_cases hx : x = g
        · rw [if_pos hx] at h1
          cases h1
          exact .inr h2.symm
        · rw [if_neg hx] at h1
          exact .inl ⟨x, e, h1, h2, h3⟩
  | some d =>
    have dg : d ≠ g := by
      intro a
      have := pw.flat _ _ hd
      rw [a, hd] at this
      cases this
    have hs : w.sig g = ⟨⟨w.obj g, g⟩, [⟨w.obj d, d⟩], w.inside g⟩ := by unfold World.sig; rw [hd]
    rw [hs] at L ⊢
    generalize hP1 : (c.prod.register ⟨w.obj d, d⟩).1 = P1
    generalize hP2 : (P1.register ⟨w.obj g, g⟩).1 = P2
    have e1 : P1.enabled = en := by rw [← hP1, enabled_register]; exact I.enabled
    have e2 : P2.enabled = en := by rw [← hP2, enabled_register]; exact e1
    have g1 : ∀ x, P1.entries.get x = if x = d then some (regE c.prod ⟨w.obj d, d⟩) else c.prod.entries.get x := by
      intro x
      rw [← hP1, get_register]
    have fitg : Fits w en (Trig w m g) g (P1.entries.get g) := by
      rw [g1 g, if_neg (Ne.symm dg)]
      exact I.fits g
    have g2 : ∀ x, P2.entries.get x = if x = g then some (regE P1 ⟨w.obj g, g⟩) else P1.entries.get x := by
      intro x
      rw [← hP2, get_register]
    have a1 := addTrigger_eq P2 ⟨w.obj d, d⟩ g (regE c.prod ⟨w.obj d, d⟩)
      ((g2 d).trans (by rw [if_neg dg]; exact (g1 d).trans (if_pos rfl))) e2
    generalize hP3 : ({ P2 with entries := P2.entries.put d (trigE en (regE c.prod ⟨w.obj d, d⟩) g) } : Producer) = P3
    have a1' : P2.addTrigger ⟨w.obj d, d⟩ g = (P3, false) := by rw [← hP3]; exact a1
    have e3 : P3.enabled = en := by rw [← hP3]; exact e2
    have g3 : ∀ x, P3.entries.get x = if x = d then some (trigE en (regE c.prod ⟨w.obj d, d⟩) g)
        else P2.entries.get x := by
      intro x
      rw [← hP3]
      exact AList.get_put _ _ _ _
    have a2 := addTrigger_eq P3 ⟨w.obj g, g⟩ p (regE P1 ⟨w.obj g, g⟩)
      ((g3 g).trans (by rw [if_neg (Ne.symm dg)]; exact (g2 g).trans (if_pos rfl))) e3
    have n1 : (c.prod.register ⟨w.obj d, d⟩).2 = (regE c.prod ⟨w.obj d, d⟩).num := num_register _ _
    have n2 : (P1.register ⟨w.obj g, g⟩).2 = (regE P1 ⟨w.obj g, g⟩).num := num_register _ _
    have n0 : ¬ (regE c.prod ⟨w.obj d, d⟩).num = 0 := by
      have G1 : Good P1 := by rw [← hP1]; exact (later_register _ _).good I.good
      have := (G1.low d _ ((g1 d).trans (if_pos rfl))).1
      omega
    have hx : c.connectExt ⟨⟨w.obj g, g⟩, [⟨w.obj d, d⟩], w.inside g⟩ p .yes =
        ({ c with
           prod := { P3 with entries := P3.entries.put g (trigE en (regE P1 ⟨w.obj g, g⟩) p) }
           mirrored := getOrAdd (getOrAdd c.mirrored (regE c.prod ⟨w.obj d, d⟩).num) (regE P1 ⟨w.obj g, g⟩).num
           conn := c.conn.put p (.ext (regE P1 ⟨w.obj g, g⟩).num) }, .ok) := by
      unfold Client.connectExt Client.registerDomain Producer.addConnection Client.mirror
      simp only [hP1, hP2, a1', a2, n1, n2, if_neg n0, Bool.false_eq_true, if_false]
    rw [hx] at L
    simp only at L
    have getf : ∀ x, (P3.entries.put g (trigE en (regE P1 ⟨w.obj g, g⟩) p)).get x =
        if x = g then some (trigE en (regE P1 ⟨w.obj g, g⟩) p)
        else if x = d then some (trigE en (regE c.prod ⟨w.obj d, d⟩) g) else c.prod.entries.get x := by
      intro x
      rw [AList.get_put]
      by_cases h : x = g
      · rw [if_pos h, if_pos h]
      · rw [if_neg h, if_neg h, g3]
        by_cases h' : x = d
        · rw [if_pos h', if_pos h']
        · rw [if_neg h', if_neg h', g2, if_neg h, g1, if_neg h']
    refine ⟨_, _, trigE en (regE P1 ⟨w.obj g, g⟩) p, hx, (getf g).trans (if_pos rfl), e3, L, fun x => ?_, fun n => ?_⟩
    · refine (congrArg (Fits w en (Trig w (putAt m p g) x) x) (getf x)).mpr ?_
      by_cases h : x = g
      · rw [if_pos h, h]
        refine (enrol w en P1 g p _ fitg).congr fun t => ?_
        rw [trig_put pw hm]
        constructor
        · rintro (a | a)
          · exact .inl a
          · exact .inr ⟨hi, .inl ⟨rfl, a⟩⟩
        · rintro (a | ⟨_, ⟨_, a⟩ | ⟨a, _⟩⟩)
          · exact .inl a
          · exact .inr a
          · rw [hd] at a; cases a; exact absurd rfl dg
      · rw [if_neg h]
        by_cases h' : x = d
        · rw [if_pos h', h']
          refine (enrol w en c.prod d g _ (I.fits d)).congr fun t => ?_
          rw [trig_put pw hm]
          constructor
          · rintro (a | a)
            · exact .inl a
            · exact .inr ⟨hi, .inr ⟨hd, a⟩⟩
          · rintro (a | ⟨_, ⟨a, _⟩ | ⟨_, a⟩⟩)
            · exact .inl a
            · exact absurd a dg
            · exact .inr a
        · rw [if_neg h']
          refine (I.fits x).congr fun t => ?_
          rw [trig_put pw hm]
          constructor
          · exact fun a => .inl a
          · rintro (a | ⟨_, ⟨a, _⟩ | ⟨a, _⟩⟩)
            · exact a
            · exact absurd a h
            · rw [hd] at a; cases a; exact absurd rfl h'
    · rw [mem_getOrAdd, mem_getOrAdd, I.mirr]
      constructor
      · rintro ((⟨x, e, h1, h2, h3⟩ | h) | h)
        · obtain ⟨f, hf, nf⟩ := L.keep x e h1
          refine ⟨x, f, hf, nf.trans h2, ?_⟩
          have hk := (getf x).symm.trans hf
          by_cases hx : x = g
          · rw [if_pos hx] at hk
            cases hk
            exact trigE_ne _ _ _
          · rw [if_neg hx] at hk
            by_cases hy : x = d
            · rw [if_pos hy] at hk
              cases hk
              exact trigE_ne _ _ _
            · rw [if_neg hy, h1] at hk
              cases hk
              exact h3
        · exact ⟨d, trigE en (regE c.prod ⟨w.obj d, d⟩) g, (getf d).trans (by rw [if_neg dg, if_pos rfl]), h.symm,
            trigE_ne _ _ _⟩
        · exact ⟨g, _, (getf g).trans (if_pos rfl), h.symm, trigE_ne _ _ _⟩
      · rintro ⟨x, e, h1, h2, h3⟩
        have h1 := (getf x).symm.trans h1
        by_cases hx : x = g
        · rw [if_pos hx] at h1
          cases h1
          exact .inr h2.symm
        · rw [if_neg hx] at h1
          by_cases hy : x = d
          · rw [if_pos hy] at h1
            cases h1
            exact .inl (.inr h2.symm)
          · rw [if_neg hy] at h1
            exact .inl (.inl ⟨x, e, h1, h2, h3⟩)

/-- Connecting a port. -/
theorem link_step {w : World} {en : Bool} (pw : w.Plain) (cfg : Cfg) (hv : 2 ≤ cfg.version) {m : Table} {c : Client}
    (I : Inv w en m c) (p g : Gid) (hp : w.dom p = none) (hm : ∀ o, m p = some o → o = g ∨ w.inside o = true) :
    ((c.connect cfg p (w.sig g) .yes 0).2 = .ok ∨ (m p = some g ∧ (c.connect cfg p (w.sig g) .yes 0).2 = .ignored)) ∧
      Inv w en (putAt m p g) (c.connect cfg p (w.sig g) .yes 0).1 := by
  have hget := I.ports p
  by_cases same : m p = some g
  · have e : putAt m p g = m := by
      funext x
      unfold putAt
      split
      · rename_i h; rw [h, same]
      · rfl
    unfold Client.connect
    rw [hget, same]
    rw [if_pos (show Option.map (fun x => x.node.obj) (Option.map w.sig (some g)) = some (w.sig g).node.obj from rfl)]
    rw [e]
    exact ⟨.inr ⟨rfl, rfl⟩, I⟩
  · have hm' : ∀ o, m p = some o → w.inside o = true := by
      intro o ho
      rcases hm o ho with h | h
      · exact absurd (h ▸ ho) same
      · exact h
    have ne : ¬ ((c.ports.get p).map (·.node.obj) = some (w.sig g).node.obj) := by
      rw [hget]
      cases ho : m p with
      | none => exact fun h => nomatch h
      | some o =>
        intro h
        have h' : some (w.obj o) = some (w.obj g) := h
        have : w.obj o = w.obj g := Option.some.inj h'
        exact same (by rw [ho, pw.objs _ _ this])
    have hl : c.leave cfg p = (c, false) := by
      unfold Client.leave
      rw [hget]
      cases ho : m p with
      | none => rfl
      | some o =>
        have : (w.sig o).inside = true := hm' o ho
        simp only [Option.map_some, this, if_true]
    have portsOk : ∀ q, (c.ports.put p (w.sig g)).get q = (putAt m p g q).map w.sig := by
      intro q
      rw [AList.get_put]
      unfold putAt
      by_cases hq : q = p
      · rw [if_pos hq, if_pos hq]; rfl
      · rw [if_neg hq, if_neg hq]; exact I.ports q
    have namesOk : ∀ q s, putAt m p g q = some s → w.dom q = none := by
      intro q s h
      unfold putAt at h
      by_cases hq : q = p
      · rw [hq]; exact hp
      · rw [if_neg hq] at h; exact I.names q s h
    have freeOk : ∀ f q, putAt m p g q = none → (c.conn.put p f).get q = none := by
      intro f q h
      rw [AList.get_put]
      unfold putAt at h
      by_cases hq : q = p
      · rw [if_pos hq] at h; cases h
      · rw [if_neg hq] at h ⊢; exact I.free q h
    unfold Client.connect
    rw [if_neg ne, hl]
    simp only [Bool.false_eq_true, if_false, Client.deliverN]
    cases hi : w.inside g with
    | true =>
      have : (w.sig g).inside = true := hi
      rw [this]
      simp only [if_true]
      refine ⟨.inl trivial, portsOk, fun q s h hs => ?_, fun q s h hs => ?_, freeOk _, I.quiet, fun x => ?_, I.mirr,
        I.good, I.enabled, namesOk⟩
      · show (c.conn.put p _).get q = _
        rw [AList.get_put]
        unfold putAt at h
        by_cases hq : q = p
        · rw [if_pos hq] at h ⊢
          cases h
          rfl
        · rw [if_neg hq] at h ⊢
          exact I.own q s h hs
      · show ∃ e, _ ∧ (c.conn.put p _).get q = _
        rw [AList.get_put]
        unfold putAt at h
        by_cases hq : q = p
        · rw [if_pos hq] at h
          cases h
          rw [hi] at hs
          cases hs
        · rw [if_neg hq] at h ⊢
          exact I.ext q s h hs
      · refine (I.fits x).congr fun t => ?_
        rw [trig_put pw hm']
        constructor
        · exact fun a => .inl a
        · rintro (a | ⟨a, _⟩)
          · exact a
          · rw [hi] at a; cases a
    | false =>
      have : (w.sig g).inside = false := hi
      rw [this]
      simp only [Bool.false_eq_true, if_false]
      rw [if_pos hv]
      obtain ⟨P, ms, e, h0, h1, h2, h3, h4, h5⟩ := connectExt_effect pw I hm' hi
      rw [h0]
      simp only [if_true]
      refine ⟨.inl trivial, portsOk, fun q s h hs => ?_, fun q s h hs => ?_, freeOk _, I.quiet, h4, h5,
        h3.good I.good, h2, namesOk⟩
      · show (c.conn.put p _).get q = _
        rw [AList.get_put]
        unfold putAt at h
        by_cases hq : q = p
        · rw [if_pos hq] at h
          cases h
          rw [hi] at hs
          cases hs
        · rw [if_neg hq] at h ⊢
          exact I.own q s h hs
      · show ∃ e, _ ∧ (c.conn.put p _).get q = _
        rw [AList.get_put]
        unfold putAt at h
        by_cases hq : q = p
        · rw [if_pos hq] at h ⊢
          cases h
          exact ⟨e, h1, rfl⟩
        · rw [if_neg hq] at h ⊢
          obtain ⟨f, k1, k2⟩ := I.ext q s h hs
          obtain ⟨f', k3, k4⟩ := h3.keep s f k1
          exact ⟨f', k3, by rw [k2, k4]⟩

theorem tidy_inv {w : World} {en : Bool} (pw : w.Plain) (cfg : Cfg) (hv : 2 ≤ cfg.version) : ∀ (as : List Act) (m : Table)
    (c : Client), Inv w en m c → Tidy w m as → Inv w en (applyAll m as) (c.run cfg (as.map (Act.op w))) := by
  intro as
  induction as with
  | nil => intro m c I _; exact I
  | cons a as ih =>
    intro m c I T
    cases a with
    | link p g => exact ih _ _ (link_step pw cfg hv I p g T.1 T.2.1).2 T.2.2
    | cut p => exact ih _ _ (cut_step pw cfg I p).2 T

/-- A signal is needed when there is a trigger. -/
theorem needed_iff (w : World) (m : Table) (g : Gid) : Needed w m g ↔ ∃ t, Trig w m g t := by
  constructor
  · rintro ⟨p, s, h1, h2, rfl | h3⟩
    · exact ⟨p, .inl ⟨h1, h2⟩⟩
    · exact ⟨s, .inr ⟨h3, h2, p, h1⟩⟩
  · rintro ⟨t, ⟨a, b⟩ | ⟨a, b, q, h⟩⟩
    · exact ⟨t, g, a, b, .inl rfl⟩
    · exact ⟨q, t, h, b, .inr a⟩

theorem live_iff {w : World} {en : Bool} {m : Table} {c : Client} (I : Inv w en m c) (g : Gid) :
    Needed w m g ↔ ∃ e, c.prod.entries.get g = some e ∧ e.triggers ≠ [] := by
  rw [needed_iff]
  have f := I.fits g
  constructor
  · rintro ⟨t, ht⟩
    cases h : c.prod.entries.get g with
    | none => rw [h] at f; exact absurd ht (f t)
    | some e =>
      rw [h] at f
      refine ⟨e, rfl, fun a => ?_⟩
      have := (f.1 t).mpr ht
      rw [a] at this
      exact nomatch this
  · rintro ⟨e, h, ne⟩
    rw [h] at f
    obtain ⟨t, ht⟩ := List.exists_mem_of_ne_nil _ ne
    exact ⟨t, (f.1 t).mp ht⟩

end Verif.Ext
