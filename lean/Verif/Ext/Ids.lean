import Verif.Ext.Spec
import Mathlib.Data.List.Forall2

/-!
# Numbers of signals, and answers of many
-/

namespace Verif.Ext
open Verif

/-- Numbers are given once. -/
structure Good (P : Producer) : Prop where
  low : ∀ g e, P.entries.get g = some e → 1 ≤ e.num ∧ e.num ≤ P.counter
  inj : ∀ g h e f, P.entries.get g = some e → P.entries.get h = some f → e.num = f.num → g = h

/-- Numbers stay. -/
structure Later (P Q : Producer) : Prop where
  keep : ∀ g e, P.entries.get g = some e → ∃ f, Q.entries.get g = some f ∧ f.num = e.num
  good : Good P → Good Q

theorem Later.refl (P : Producer) : Later P P := ⟨fun _ e h => ⟨e, h, rfl⟩, fun h => h⟩

theorem Later.trans {P Q R : Producer} (a : Later P Q) (b : Later Q R) : Later P R := by
  refine ⟨fun g e h => ?_, fun h => b.good (a.good h)⟩
  obtain ⟨f, hf, nf⟩ := a.keep g e h
  obtain ⟨k, hk, nk⟩ := b.keep g f hf
  exact ⟨k, hk, nk.trans nf⟩

/-- An entry is replaced by one with the same number. -/
theorem later_put (P : Producer) (g : Gid) (e e' : Entry) (h : P.entries.get g = some e) (n : e'.num = e.num) :
    Later P { P with entries := P.entries.put g e' } := by
  have look : ∀ x f, (P.entries.put g e').get x = some f → ∃ f0, P.entries.get x = some f0 ∧ f0.num = f.num := by
    intro x f hf
    rw [AList.get_put] at hf
    by_cases hx : x = g
    · rw [if_pos hx] at hf
      cases hf
      exact ⟨e, hx ▸ h, n.symm⟩
    · rw [if_neg hx] at hf
      exact ⟨f, hf, rfl⟩
  refine ⟨fun x f hf => ?_, fun G => ⟨fun x f hf => ?_, fun x y f k hf hk he => ?_⟩⟩
  · show ∃ f', (P.entries.put g e').get x = some f' ∧ _
    rw [AList.get_put]
    by_cases hx : x = g
    · rw [if_pos hx]
      rw [hx, h] at hf
      cases hf
      exact ⟨e', rfl, n⟩
    · rw [if_neg hx]
      exact ⟨f, hf, rfl⟩
  · obtain ⟨f0, h0, n0⟩ := look x f hf
    have := G.low x f0 h0
    rw [n0] at this
    exact this
  · obtain ⟨f0, h0, n0⟩ := look x f hf
    obtain ⟨k0, h1, n1⟩ := look y k hk
    exact G.inj x y f0 k0 h0 h1 (by rw [n0, n1, he])

theorem later_register (P : Producer) (s : Node) : Later P (P.register s).1 := by
  unfold Producer.register
  cases h : P.entries.get s.gid with
  | some e =>
    simp only
    exact later_put P s.gid e _ h (by split <;> rfl)
  | none =>
    simp only
    refine ⟨fun x f hf => ?_, fun G => ⟨fun x f hf => ?_, fun x y f k hf hk he => ?_⟩⟩
    · refine ⟨f, ?_, rfl⟩
      show (P.entries.put _ _).get x = some f
      rw [AList.get_put, if_neg]
      · exact hf
      · intro hx
        rw [hx, h] at hf
        cases hf
    · simp only at hf ⊢
      rw [AList.get_put] at hf
      by_cases hx : x = s.gid
      · rw [if_pos hx] at hf
        cases hf
        simp only
        omega
      · rw [if_neg hx] at hf
        have := G.low x f hf
        omega
    · simp only at hf hk
      rw [AList.get_put] at hf hk
      by_cases hx : x = s.gid
      · by_cases hy : y = s.gid
        · rw [hx, hy]
        · rw [if_pos hx] at hf
          rw [if_neg hy] at hk
          cases hf
          have := G.low y k hk
          simp only at he
          omega
      · by_cases hy : y = s.gid
        · rw [if_neg hx] at hf
          rw [if_pos hy] at hk
          cases hk
          have := G.low x f hf
          simp only at he
          omega
        · rw [if_neg hx] at hf
          rw [if_neg hy] at hk
          exact G.inj x y f k hf hk he

theorem registered (P : Producer) (s : Node) :
    ∃ e, (P.register s).1.entries.get s.gid = some e ∧ e.num = (P.register s).2 := by
  unfold Producer.register
  cases h : P.entries.get s.gid with
  | some e =>
    simp only
    rw [AList.get_put, if_pos rfl]
    refine ⟨_, rfl, ?_⟩
    split <;> rfl
  | none =>
    simp only
    rw [AList.get_put, if_pos rfl]
    exact ⟨_, rfl, rfl⟩

theorem later_addTrigger (P : Producer) (s : Node) (t : Gid) : Later P (P.addTrigger s t).1 := by
  unfold Producer.addTrigger
  cases h : P.entries.get s.gid with
  | none => exact Later.refl P
  | some e => exact later_put P s.gid e _ h rfl

theorem later_addConnection (P : Producer) (s : Sig) (p : Gid) : Later P (P.addConnection s p).1 := by
  unfold Producer.addConnection
  cases s.doms with
  | nil => exact later_addTrigger _ _ _
  | cons d ds =>
    simp only
    split
    · exact later_addTrigger _ _ _
    · exact (later_addTrigger _ _ _).trans (later_addTrigger _ _ _)

theorem later_finish (P : Producer) (u : Unused) (g : Gid) : Later P (P.finish u g).1 := by
  unfold Producer.finish
  cases h : P.entries.get g with
  | none => exact Later.refl P
  | some e => exact later_put P g e _ h rfl

theorem later_removeTrigger (ch : List Node) : ∀ (P : Producer) (u : Unused) (t : Gid),
    Later P (P.removeTrigger u ch t).1 := by
  induction ch with
  | nil => intro P u t; exact Later.refl P
  | cons s ds ih =>
    intro P u t
    unfold Producer.removeTrigger
    cases h : P.entries.get s.gid with
    | none => exact Later.refl P
    | some e =>
      simp only
      have a := later_put P s.gid e { e with triggers := e.triggers.filter (fun x => !decide (x = t)) } h rfl
      split
      · split
        · exact a.trans (ih _ _ _)
        · exact (a.trans (ih _ _ _)).trans (later_finish _ _ _)
      · exact a

theorem later_drop (cfg : Cfg) (c : Client) (s : Sig) (p : Gid) : Later c.prod (c.drop cfg s p).1.prod := by
  unfold Client.drop
  simp only
  split
  · exact later_removeTrigger _ _ _ _
  · split
    · exact later_removeTrigger _ _ _ _
    · split <;> exact later_removeTrigger _ _ _ _

theorem later_release (cfg : Cfg) (c : Client) (p : Gid) : Later c.prod (c.release cfg p).1.prod := by
  unfold Client.release
  cases c.ports.get p with
  | none => exact Later.refl _
  | some o =>
    simp only
    split
    · exact Later.refl _
    · split <;> exact later_drop _ _ _ _

theorem later_deliver (cfg : Cfg) (c : Client) : Later c.prod (c.deliver cfg).prod := by
  unfold Client.deliver
  cases c.pending with
  | nil => exact Later.refl _
  | cons p ps => exact later_release cfg { c with pending := ps } p

theorem later_deliverN (cfg : Cfg) (k : Nat) : ∀ c : Client, Later c.prod (c.deliverN cfg k).prod := by
  induction k with
  | zero => intro c; exact Later.refl _
  | succ k ih => intro c; exact (later_deliver cfg c).trans (ih _)

theorem later_deliverN_of (cfg : Cfg) (k : Nat) {P : Producer} (d : Client) (h : d.prod = P) :
    Later P (d.deliverN cfg k).prod := h ▸ later_deliverN cfg k d

theorem later_leave (cfg : Cfg) (c : Client) (p : Gid) : Later c.prod (c.leave cfg p).1.prod := by
  unfold Client.leave
  cases c.ports.get p with
  | none => exact Later.refl _
  | some o =>
    simp only
    split
    · exact Later.refl _
    · exact later_drop _ _ _ _

theorem later_registerDomain (c : Client) (s : Sig) : Later c.prod (c.registerDomain s).1.prod := by
  unfold Client.registerDomain
  cases s.doms with
  | nil => exact Later.refl _
  | cons d ds => exact later_register _ _

theorem later_connectExt (c : Client) (s : Sig) (p : Gid) (r : Reply) :
    Later c.prod (c.connectExt s p r).1.prod := by
  have a := (later_registerDomain c s).trans (later_register (c.registerDomain s).1.prod s.node)
  unfold Client.connectExt
  cases r with
  | no => exact a
  | late => exact a
  | yes => exact a.trans (later_addConnection ((c.registerDomain s).1.prod.register s.node).1 s p)

theorem later_step (cfg : Cfg) (c : Client) (o : Op) : Later c.prod (c.step cfg o).1.prod := by
  cases o with
  | deliver => exact later_deliver cfg c
  | setDomain o ds => exact Later.refl _
  | disconnect p r k =>
    show Later c.prod (c.disconnect cfg p r k).1.prod
    unfold Client.disconnect
    split
    · simp only
      split
      · exact later_deliverN_of cfg k _ rfl
      · exact later_deliverN_of cfg k _ rfl
    · exact Later.refl _
  | connect p s r k =>
    show Later c.prod (c.connect cfg p s r k).1.prod
    have a := later_leave cfg c p
    unfold Client.connect
    split
    · exact Later.refl _
    · simp only
      split
      · exact a
      · split
        · split
          · exact a.trans (later_deliverN_of cfg k _ rfl)
          · exact a
        · split
          · have b := a.trans (later_connectExt (c.leave cfg p).1 s p r)
            split
            · exact b.trans (later_deliverN cfg k _)
            · exact b
          · exact a

theorem later_run (cfg : Cfg) (os : List Op) : ∀ c : Client, Later c.prod (c.run cfg os).prod := by
  induction os with
  | nil => intro c; exact Later.refl _
  | cons o os ih => intro c; exact (later_step cfg c o).trans (ih _)

theorem good_fresh (cfg : Cfg) : Good (fresh cfg).prod := by
  constructor
  · intro g e h
    exact nomatch h
  · intro g h e f a
    exact nomatch a

/-! ## Answers of many -/

theorem far_ok (srv : Gid → Except Code Bool) : ∀ (gs : List Gid) (bs : List Bool),
    farMany srv gs = .ok bs ↔ List.Forall₂ (fun g b => srv g = .ok b) gs bs := by
  intro gs
  induction gs with
  | nil =>
    intro bs
    constructor
    · intro h
      cases h
      exact .nil
    · intro h
      cases h
      rfl
  | cons g gs ih =>
    intro bs
    unfold farMany
    cases hg : srv g with
    | error e =>
      constructor
      · intro h
        cases h
      · intro h
        cases h with
        | cons a _ => rw [hg] at a; cases a
    | ok b =>
      simp only
      cases hs : farMany srv gs with
      | error e =>
        constructor
        · intro h
          cases h
        · intro h
          cases h with
          | cons a r => rw [(ih _).mpr r] at hs; cases hs
      | ok cs =>
        constructor
        · intro h
          cases h
          exact .cons hg ((ih _).mp hs)
        · intro h
          cases h with
          | cons a r =>
            rw [hg] at a
            cases a
            rw [(ih _).mpr r] at hs
            cases hs
            rfl

theorem far_error (srv : Gid → Except Code Bool) : ∀ (gs : List Gid) (e : Code),
    farMany srv gs = .error e → ∃ g ∈ gs, srv g = .error e := by
  intro gs
  induction gs with
  | nil => intro e h; cases h
  | cons g gs ih =>
    intro e
    unfold farMany
    cases hg : srv g with
    | error e' =>
      intro h
      cases h
      exact ⟨g, List.mem_cons_self, hg⟩
    | ok b =>
      simp only
      cases hs : farMany srv gs with
      | error e' =>
        intro h
        cases h
        obtain ⟨x, hx, h2⟩ := ih _ hs
        exact ⟨x, List.mem_cons_of_mem _ hx, h2⟩
      | ok cs =>
        intro h
        cases h

/-- Flags and answers together are the answers one by one. -/
theorem fill_ok (srv : Gid → Except Code Bool) (v : Nat) (hv : 23 ≤ v) : ∀ (ss : List Sig) (as : List Bool),
    List.Forall₂ (fun g b => srv g = .ok b) ((ss.filter (fun s => s.inside)).map (·.node.gid)) as →
    as.length + (ss.map (fun s => !s.inside)).count true = ss.length ∧
    ∃ bs, fill (ss.map (fun s => !s.inside)) as = some bs ∧
      List.Forall₂ (fun s b => acceptsOne v srv s = .ok b) ss bs := by
  intro ss
  induction ss with
  | nil =>
    intro as h
    cases h
    exact ⟨rfl, [], rfl, .nil⟩
  | cons s ss ih =>
    intro as h
    cases hi : s.inside with
    | true =>
      rw [List.filter_cons_of_pos hi, List.map_cons] at h
      cases h with
      | cons a r =>
        rename_i b bs
        obtain ⟨c1, cs, c2, c3⟩ := ih _ r
        refine ⟨?_, b :: cs, ?_, .cons ?_ c3⟩
        · simp only [List.map_cons, hi, Bool.not_true, List.length_cons]
          rw [List.count_cons_of_ne (by decide)]
          omega
        · simp only [List.map_cons, hi, Bool.not_true, fill, c2, Option.map_some]
        · unfold acceptsOne
          rw [if_neg (by omega), if_pos hi]
          exact a
    | false =>
      rw [List.filter_cons_of_neg (by rw [hi]; decide)] at h
      obtain ⟨c1, cs, c2, c3⟩ := ih _ h
      refine ⟨?_, true :: cs, ?_, .cons ?_ c3⟩
      · simp only [List.map_cons, hi, Bool.not_false, List.length_cons]
        rw [List.count_cons_self]
        omega
      · simp only [List.map_cons, hi, Bool.not_false, fill, c2, Option.map_some]
      · unfold acceptsOne
        rw [if_neg (by omega), if_neg (by rw [hi]; decide)]

theorem forall2_unique {α β : Type} {R : α → Option β} : ∀ (xs : List α) (ys zs : List β),
    List.Forall₂ (fun x y => R x = some y) xs ys → List.Forall₂ (fun x y => R x = some y) xs zs → ys = zs := by
  intro xs
  induction xs with
  | nil => intro ys zs a b; cases a; cases b; rfl
  | cons x xs ih =>
    intro ys zs a b
    cases a with
    | cons a1 a2 =>
      cases b with
      | cons b1 b2 =>
        rw [a1] at b1
        cases b1
        rw [ih _ _ a2 b2]

end Verif.Ext
