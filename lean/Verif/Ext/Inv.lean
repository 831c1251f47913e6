import Verif.Ext.Ids

/-!
# What the producer and the device have after tidy acts
-/

namespace Verif.Ext
open Verif

/-- Because of what a signal is streamed. -/
def Trig (w : World) (m : Table) (g t : Gid) : Prop :=
  (m t = some g ∧ w.inside g = false) ∨ (w.dom t = some g ∧ w.inside t = false ∧ ∃ p, m p = some t)

/-- The entry of a signal with these triggers. -/
def Fits (w : World) (en : Bool) (T : Gid → Prop) (x : Gid) : Option Entry → Prop
  | none => ∀ t, ¬ T t
  | some e => (∀ t, t ∈ e.triggers ↔ T t) ∧
      (e.triggers ≠ [] → e.sig = some (w.obj x) ∧ e.reading = if en then some (w.obj x) else none) ∧
      (e.triggers = [] → e.sig = none ∧ e.reading = none)

theorem Fits.congr {w : World} {en : Bool} {T U : Gid → Prop} {x : Gid} {o : Option Entry} (h : Fits w en T x o)
    (i : ∀ t, T t ↔ U t) : Fits w en U x o := by
  cases o with
  | none => exact fun t ht => h t ((i t).mpr ht)
  | some e => exact ⟨fun t => (h.1 t).trans (i t), h.2⟩

/-- The entry after a registration. -/
def regE (P : Producer) (s : Node) : Entry :=
  match P.entries.get s.gid with
  | some e => if e.sig.isSome then e else { e with sig := some s.obj }
  | none => ⟨some s.obj, P.counter + 1, none, []⟩

theorem get_register (P : Producer) (s : Node) (x : Gid) :
    (P.register s).1.entries.get x = if x = s.gid then some (regE P s) else P.entries.get x := by
  unfold Producer.register regE
  cases h : P.entries.get s.gid with
  | some e => simp only; rw [AList.get_put]
  | none => simp only; rw [AList.get_put]

theorem num_register (P : Producer) (s : Node) : (P.register s).2 = (regE P s).num := by
  unfold Producer.register regE
  cases h : P.entries.get s.gid with
  | some e => simp only; split <;> rfl
  | none => rfl

theorem enabled_register (P : Producer) (s : Node) : (P.register s).1.enabled = P.enabled := by
  unfold Producer.register
  cases h : P.entries.get s.gid <;> rfl

/-- The entry after a trigger has been added. -/
def trigE (en : Bool) (e : Entry) (t : Gid) : Entry :=
  ⟨e.sig, e.num, if e.triggers.isEmpty && en then e.sig else e.reading,
   if t ∈ e.triggers then e.triggers else t :: e.triggers⟩

theorem addTrigger_eq (P : Producer) (s : Node) (t : Gid) (e : Entry) (h : P.entries.get s.gid = some e)
    {en : Bool} (hen : P.enabled = en) :
    P.addTrigger s t = ({ P with entries := P.entries.put s.gid (trigE en e t) }, false) := by
  subst hen
  unfold Producer.addTrigger trigE
  rw [h]

theorem trigE_ne (en : Bool) (e : Entry) (t : Gid) : (trigE en e t).triggers ≠ [] := by
  unfold trigE
  simp only
  split
  · intro h
    rename_i a
    rw [h] at a
    exact nomatch a
  · exact List.cons_ne_nil _ _

theorem enrol (w : World) (en : Bool) (P : Producer) (x t0 : Gid) (T : Gid → Prop) (h : Fits w en T x (P.entries.get x)) :
    Fits w en (fun t => T t ∨ t = t0) x (some (trigE en (regE P ⟨w.obj x, x⟩) t0)) := by
  have mem : ∀ (l : List Gid) (t : Gid), t ∈ (if t0 ∈ l then l else t0 :: l) ↔ t ∈ l ∨ t = t0 := by
    intro l t
    split
    · rename_i a
      constructor
      · exact fun b => .inl b
      · rintro (b | b)
        · exact b
        · rw [b]; exact a
    · rw [List.mem_cons]
      exact Or.comm
  refine ⟨fun t => ?_, fun _ => ?_, fun a => absurd a (trigE_ne _ _ _)⟩
  · show t ∈ (if t0 ∈ (regE P ⟨w.obj x, x⟩).triggers then _ else _) ↔ _
    rw [mem]
    unfold regE
    simp only
    cases hx : P.entries.get x with
    | none =>
      rw [hx] at h
      simp only
      constructor
      · rintro (b | b)
        · exact nomatch b
        · exact .inr b
      · rintro (b | b)
        · exact absurd b (h t)
        · exact .inr b
    | some e =>
      rw [hx] at h
      simp only
      rw [← h.1 t]
      split <;> exact Iff.rfl
  · unfold trigE regE
    simp only
    cases hx : P.entries.get x with
    | none => exact ⟨rfl, by cases en <;> rfl⟩
    | some e =>
      rw [hx] at h
      simp only
      by_cases ne : e.triggers = []
      · obtain ⟨a, b⟩ := h.2.2 ne
        cases en <;> simp [a, b, ne]
      · obtain ⟨a, b⟩ := h.2.1 ne
        have : e.triggers.isEmpty = false := by
          cases ht : e.triggers with
          | nil => exact absurd ht ne
          | cons _ _ => rfl
        simp [a, b, this]

/-- Removing triggers, as list. -/
theorem mem_filter_ne (l : List Gid) (t x : Gid) :
    x ∈ l.filter (fun y => !decide (y = t)) ↔ x ∈ l ∧ x ≠ t := by
  simp

/-- The table without a port. -/
def cutAt (m : Table) (p : Gid) : Table := fun x => if x = p then none else m x

/-- The triggers of the signal itself, of its domain signal and of others once the port is free. -/
theorem trig_self {w : World} (pw : w.Plain) {m : Table} {p g : Gid} (hm : m p = some g) (hp : w.dom p = none)
    (t : Gid) : Trig w (cutAt m p) g t ↔ Trig w m g t ∧ t ≠ p := by
  unfold Trig cutAt
  constructor
  · rintro (⟨a, b⟩ | ⟨a, b, q, c⟩)
    · by_cases ht : t = p
      · rw [if_pos ht] at a; cases a
      · rw [if_neg ht] at a
        exact ⟨.inl ⟨a, b⟩, ht⟩
    · by_cases hq : q = p
      · rw [if_pos hq] at c; cases c
      · rw [if_neg hq] at c
        refine ⟨.inr ⟨a, b, q, c⟩, fun e => ?_⟩
        rw [e, hp] at a
        cases a
  · rintro ⟨⟨a, b⟩ | ⟨a, b, q, c⟩, n⟩
    · exact .inl ⟨by rw [if_neg n]; exact a, b⟩
    · refine .inr ⟨a, b, q, ?_⟩
      rw [if_neg]
      · exact c
      · intro e
        rw [e, hm] at c
        cases c
        have := pw.flat _ _ a
        rw [a] at this
        cases this

theorem trig_other {w : World} {m : Table} {p g x : Gid} (hm : m p = some g) (hx : x ≠ g)
    (hd : w.dom g ≠ some x) (t : Gid) : Trig w (cutAt m p) x t ↔ Trig w m x t := by
  unfold Trig cutAt
  constructor
  · rintro (⟨a, b⟩ | ⟨a, b, q, c⟩)
    · by_cases ht : t = p
      · rw [if_pos ht] at a; cases a
      · rw [if_neg ht] at a
        exact .inl ⟨a, b⟩
    · by_cases hq : q = p
      · rw [if_pos hq] at c; cases c
      · rw [if_neg hq] at c
        exact .inr ⟨a, b, q, c⟩
  · rintro (⟨a, b⟩ | ⟨a, b, q, c⟩)
    · refine .inl ⟨?_, b⟩
      rw [if_neg]
      · exact a
      · intro e
        rw [e, hm] at a
        cases a
        exact hx rfl
    · refine .inr ⟨a, b, q, ?_⟩
      rw [if_neg]
      · exact c
      · intro e
        rw [e, hm] at c
        cases c
        exact hd a

/-- The domain signal when other ports still have the signal. -/
theorem trig_dom_kept {w : World} {m : Table} {p g d : Gid} (hm : m p = some g)
    (hd : w.dom g = some d) (dg : d ≠ g) (keep : ∃ q, q ≠ p ∧ m q = some g) (t : Gid) :
    Trig w (cutAt m p) d t ↔ Trig w m d t := by
  unfold Trig cutAt
  constructor
  · rintro (⟨a, b⟩ | ⟨a, b, q, c⟩)
    · by_cases ht : t = p
      · rw [if_pos ht] at a; cases a
      · rw [if_neg ht] at a
        exact .inl ⟨a, b⟩
    · by_cases hq : q = p
      · rw [if_pos hq] at c; cases c
      · rw [if_neg hq] at c
        exact .inr ⟨a, b, q, c⟩
  · rintro (⟨a, b⟩ | ⟨a, b, q, c⟩)
    · refine .inl ⟨?_, b⟩
      rw [if_neg]
      · exact a
      · intro e
        rw [e, hm] at a
        cases a
        exact dg rfl
    · by_cases hq : q = p
      · rw [hq, hm] at c
        cases c
        obtain ⟨q', n, h⟩ := keep
        exact .inr ⟨a, b, q', by rw [if_neg n]; exact h⟩
      · exact .inr ⟨a, b, q, by rw [if_neg hq]; exact c⟩

/-- The domain signal when no other port has the signal. -/
theorem trig_dom_gone {w : World} {m : Table} {p g d : Gid} (hm : m p = some g)
    (hd : w.dom g = some d) (dg : d ≠ g) (mg : m g = none) (gone : ∀ q, m q = some g → q = p) (t : Gid) :
    Trig w (cutAt m p) d t ↔ Trig w m d t ∧ t ≠ g := by
  unfold Trig cutAt
  constructor
  · rintro (⟨a, b⟩ | ⟨a, b, q, c⟩)
    · by_cases ht : t = p
      · rw [if_pos ht] at a; cases a
      · rw [if_neg ht] at a
        refine ⟨.inl ⟨a, b⟩, fun e => ?_⟩
        rw [e, mg] at a
        cases a
    · by_cases hq : q = p
      · rw [if_pos hq] at c; cases c
      · rw [if_neg hq] at c
        refine ⟨.inr ⟨a, b, q, c⟩, fun e => ?_⟩
        rw [e] at c
        exact hq (gone q c)
  · rintro ⟨⟨a, b⟩ | ⟨a, b, q, c⟩, n⟩
    · refine .inl ⟨?_, b⟩
      rw [if_neg]
      · exact a
      · intro e
        rw [e, hm] at a
        cases a
        exact dg rfl
    · refine .inr ⟨a, b, q, ?_⟩
      rw [if_neg]
      · exact c
      · intro e
        rw [e, hm] at c
        cases c
        exact n rfl

/-- What removing the connection of a port with an external signal does to the producer. -/
structure Removed (w : World) (en : Bool) (m : Table) (p : Gid) (P : Producer) (r : Producer × Unused × Bool) : Prop where
  calm : r.2.2 = false
  fits : ∀ x, Fits w en (Trig w (cutAt m p) x) x (r.1.entries.get x)
  enabled : r.1.enabled = en
  nums : ∀ n, n ∈ r.2.1.map (·.1) ↔ ∃ x e e', P.entries.get x = some e ∧ e.num = n ∧ e.triggers ≠ [] ∧
    r.1.entries.get x = some e' ∧ e'.triggers = []
  objs : r.2.1.any (fun e => e.2.isNone) = false

theorem fits_filter {w : World} {en : Bool} {T U : Gid → Prop} {x t0 : Gid} {e : Entry} (h : Fits w en T x (some e))
    (i : ∀ t, U t ↔ T t ∧ t ≠ t0) (ne : e.triggers.filter (fun y => !decide (y = t0)) ≠ []) :
    Fits w en U x (some { e with triggers := e.triggers.filter (fun y => !decide (y = t0)) }) := by
  refine ⟨fun t => ?_, fun _ => h.2.1 ?_, fun a => absurd a ne⟩
  · show t ∈ e.triggers.filter _ ↔ _
    rw [mem_filter_ne, h.1 t, i t]
  · intro a
    rw [a] at ne
    exact ne rfl

theorem fits_empty {w : World} {en : Bool} {T U : Gid → Prop} {x t0 : Gid} {e : Entry} (h : Fits w en T x (some e))
    (i : ∀ t, U t ↔ T t ∧ t ≠ t0) (ne : e.triggers.filter (fun y => !decide (y = t0)) = []) (n : Nat) :
    Fits w en U x (some ⟨none, n, none, e.triggers.filter (fun y => !decide (y = t0))⟩) := by
  refine ⟨fun t => ?_, fun a => absurd ne a, fun _ => ⟨rfl, rfl⟩⟩
  show t ∈ e.triggers.filter _ ↔ _
  rw [mem_filter_ne, h.1 t, i t]

theorem not_isEmpty {l : List Gid} (h : l ≠ []) : l.isEmpty = false := by
  cases l with
  | nil => exact absurd rfl h
  | cons _ _ => rfl

theorem remove_effect {w : World} (pw : w.Plain) {m : Table} {p g : Gid} {P : Producer}
    {en : Bool} (fits : ∀ x, Fits w en (Trig w m x) x (P.entries.get x)) (hen : P.enabled = en) (good : Good P)
    (hm : m p = some g) (hi : w.inside g = false) (dp : ∀ q s, m q = some s → w.dom q = none) :
    Removed w en m p P (P.removeTrigger [] ((w.sig g).node :: (w.sig g).doms) p) := by
  have hp : w.dom p = none := dp p g hm
  have tp : Trig w m g p := .inl ⟨hm, hi⟩
  have fg := fits g
  cases hg : P.entries.get g with
  | none => rw [hg] at fg; exact absurd tp (fg p)
  | some e =>
    rw [hg] at fg
    have ene : e.triggers ≠ [] := by
      intro a
      have := (fg.1 p).mpr tp
      rw [a] at this
      exact nomatch this
    have eo := fg.2.1 ene
    have er : (if P.enabled = true then none else e.reading) = none := by
      rw [hen, eo.2]
      cases en <;> rfl
    have others : ∀ (x : Gid) (Q : Option Entry), x ≠ g → w.dom g ≠ some x → Q = P.entries.get x →
        Fits w en (Trig w (cutAt m p) x) x Q := by
      intro x Q h1 h2 h3
      rw [h3]
      exact (fits x).congr fun t => (trig_other hm h1 h2 t).symm
    have selfT := trig_self pw hm hp
    unfold Producer.removeTrigger
    show Removed w en m p P (match P.entries.get g with
      | none => (P, [], true)
      | some e => _)
    rw [hg]
    simp only
    by_cases emp : e.triggers.filter (fun y => !decide (y = p)) = []
    · -- nobody else has the signal
      have gone : ∀ q, m q = some g → q = p := by
        intro q hq
        apply Classical.byContradiction
        intro n
        have : q ∈ e.triggers.filter (fun y => !decide (y = p)) :=
          (mem_filter_ne _ _ _).mpr ⟨(fg.1 q).mpr (.inl ⟨hq, hi⟩), n⟩
        rw [emp] at this
        exact nomatch this
      cases hd : w.dom g with
      | none =>
        have hdoms : (w.sig g).doms = [] := by unfold World.sig; rw [hd]
        rw [hdoms]
        rw [emp]
        simp only [List.isEmpty_nil, if_true, Producer.removeTrigger, Bool.false_eq_true, if_false]
        unfold Producer.finish
        show Removed w en m p P (_, _, _)
        have look : (P.entries.put (w.sig g).node.gid { e with triggers := [] }).get (w.sig g).node.gid
            = some { e with triggers := [] } := by rw [AList.get_put, if_pos rfl]
        simp only [look, er]
        refine ⟨rfl, fun x => ?_, hen, fun n => ?_, ?_⟩
        · show Fits w en _ x (AList.get (AList.put _ g _) x)
          rw [AList.get_put]
          by_cases hx : x = g
          · rw [if_pos hx, hx]
            have := fits_empty fg selfT emp e.num
            rw [emp] at this
            exact this
          · rw [if_neg hx]
            refine others x _ hx (by rw [hd]; simp) ?_
            show AList.get (AList.put _ g _) x = _
            rw [AList.get_put, if_neg hx]
        · show n ∈ [e.num] ↔ _
          rw [List.mem_singleton]
          constructor
          · intro hn
            refine ⟨g, e, ⟨none, e.num, none, []⟩, hg, hn.symm, ene, ?_, rfl⟩
            show AList.get (AList.put _ g _) g = _
            rw [AList.get_put, if_pos rfl]
          · rintro ⟨x, f, f', a, b, c, d, e'⟩
            by_cases hx : x = g
            · rw [hx, hg] at a
              cases a
              exact b.symm
            · simp only at d
              have d2 : AList.get (AList.put (AList.put P.entries g { e with triggers := [] }) g
                ⟨none, e.num, none, []⟩) x = some f' := d
              rw [AList.get_put, if_neg hx, AList.get_put, if_neg hx, a] at d2
              cases d2
              exact absurd e' c
        · show ([(e.num, e.sig)] : List (Nat × Option Nat)).any _ = false
          rw [eo.1]
          rfl
      | some d =>
        have dg : d ≠ g := by
          intro a
          have := pw.flat _ _ hd
          rw [a, hd] at this
          cases this
        have mg : m g = none := by
          cases hmg : m g with
          | none => rfl
          | some z =>
            have := dp g z hmg
            rw [hd] at this
            cases this
        have td : Trig w m d g := .inr ⟨hd, hi, p, hm⟩
        have fd := fits d
        cases hgd : P.entries.get d with
        | none => rw [hgd] at fd; exact absurd td (fd g)
        | some ed =>
          rw [hgd] at fd
          have edne : ed.triggers ≠ [] := by
            intro a
            have := (fd.1 g).mpr td
            rw [a] at this
            exact nomatch this
          have edo := fd.2.1 edne
          have edr : (if P.enabled = true then none else ed.reading) = none := by
            rw [hen, edo.2]
            cases en <;> rfl
          have goneT := trig_dom_gone hm hd dg mg gone
          have hdoms : (w.sig g).doms = [⟨w.obj d, d⟩] := by unfold World.sig; rw [hd]
          rw [hdoms, emp]
          simp only [List.isEmpty_nil, if_true]
          have lookd : (P.entries.put (w.sig g).node.gid { e with triggers := [] }).get d = some ed := by
            rw [AList.get_put, if_neg (show ¬ d = (w.sig g).node.gid from dg)]
            exact hgd
          simp only [Producer.removeTrigger, lookd]
          by_cases empd : ed.triggers.filter (fun y => !decide (y = g)) = []
          · -- nobody else needs the domain signal
            have empd' : ed.triggers.filter (fun y => !decide (y = (w.sig g).node.gid)) = [] := empd
            rw [empd']
            simp only [List.isEmpty_nil, if_true, Bool.false_eq_true, if_false, Producer.finish]
            rw [AList.get_put, if_pos rfl]
            simp only [edr]
            rw [AList.get_put, if_neg (show ¬ (w.sig g).node.gid = d from fun a => dg a.symm),
              AList.get_put, if_neg (show ¬ (w.sig g).node.gid = d from fun a => dg a.symm),
              AList.get_put, if_pos rfl]
            simp only [er]
            have getf : ∀ x, AList.get (AList.put (AList.put (AList.put (AList.put P.entries g
                { e with triggers := [] }) d { ed with triggers := [] }) d ⟨none, ed.num, none, []⟩) g
                ⟨none, e.num, none, []⟩) x = if x = g then some ⟨none, e.num, none, []⟩
                  else if x = d then some ⟨none, ed.num, none, []⟩ else P.entries.get x := by
              intro x
              rw [AList.get_put, AList.get_put, AList.get_put, AList.get_put]
              by_cases hx : x = g
              · rw [if_pos hx, if_pos hx]
              · by_cases hy : x = d <;> simp [hx, hy, dg]
            have nne : e.num ≠ ed.num := fun a => dg (good.inj g d e ed hg hgd a).symm
            refine ⟨rfl, fun x => ?_, hen, fun n => ?_, ?_⟩
            · show Fits w en _ x (AList.get (AList.put (AList.put (AList.put (AList.put P.entries g
                { e with triggers := [] }) d { ed with triggers := [] }) d ⟨none, ed.num, none, []⟩) g
                ⟨none, e.num, none, []⟩) x)
              rw [getf]
              by_cases hx : x = g
              · rw [if_pos hx, hx]
                have := fits_empty fg selfT emp e.num
                rw [emp] at this
                exact this
              · rw [if_neg hx]
                by_cases hy : x = d
                · rw [if_pos hy, hy]
                  have := fits_empty fd goneT empd ed.num
                  rw [empd] at this
                  exact this
                · rw [if_neg hy]
                  exact others x _ hx (by rw [hd]; intro a; cases a; exact hy rfl) rfl
            · show n ∈ (AList.put (AList.put [] ed.num ed.sig) e.num e.sig).map (·.1) ↔ _
              have hk : (AList.put (AList.put [] ed.num ed.sig) e.num e.sig).map (·.1) = [e.num, ed.num] := by
                unfold AList.put AList.del
                simp [Ne.symm nne]
              rw [hk]
              constructor
              · intro hn
                rcases List.mem_cons.mp hn with h | h
                · refine ⟨g, e, ⟨none, e.num, none, []⟩, hg, h.symm, ene, ?_, rfl⟩
                  exact (getf g).trans (if_pos rfl)
                · rw [List.mem_singleton] at h
                  refine ⟨d, ed, ⟨none, ed.num, none, []⟩, hgd, h.symm, edne, ?_, rfl⟩
                  exact (getf d).trans (by rw [if_neg dg, if_pos rfl])
              · rintro ⟨x, f, f', a, b, c, d', e'⟩
                have d2 := (getf x).symm.trans d'
                by_cases hx : x = g
                · rw [hx, hg] at a
                  cases a
                  rw [← b]
                  exact List.mem_cons_self
                · by_cases hy : x = d
                  · rw [hy, hgd] at a
                    cases a
                    rw [← b]
                    exact List.mem_cons_of_mem _ List.mem_cons_self
                  · rw [if_neg hx, if_neg hy, a] at d2
                    cases d2
                    exact absurd e' c
            · show (AList.put (AList.put [] ed.num ed.sig) e.num e.sig).any _ = false
              rw [eo.1, edo.1]
              unfold AList.put AList.del
              simp [Ne.symm nne]
          · -- the domain signal stays
            have ie : (ed.triggers.filter (fun y => !decide (y = (w.sig g).node.gid))).isEmpty = false :=
              not_isEmpty empd
            rw [ie]
            simp only [Bool.false_eq_true, if_false, Producer.finish]
            rw [AList.get_put, if_neg (show ¬ (w.sig g).node.gid = d from fun a => dg a.symm),
              AList.get_put, if_pos rfl]
            simp only [er]
            have getf : ∀ x, AList.get (AList.put (AList.put (AList.put P.entries g
                { e with triggers := [] }) d { ed with triggers := ed.triggers.filter (fun y => !decide (y = g)) }) g
                ⟨none, e.num, none, []⟩) x = if x = g then some ⟨none, e.num, none, []⟩
                  else if x = d then some { ed with triggers := ed.triggers.filter (fun y => !decide (y = g)) }
                  else P.entries.get x := by
              intro x
              rw [AList.get_put, AList.get_put, AList.get_put]
              by_cases hx : x = g
              · rw [if_pos hx, if_pos hx]
              · rw [if_neg hx, if_neg hx, if_neg hx]
            refine ⟨rfl, fun x => ?_, hen, fun n => ?_, ?_⟩
            · refine (congrArg (Fits w en (Trig w (cutAt m p) x) x) (getf x)).mpr ?_
              by_cases hx : x = g
              · rw [if_pos hx, hx]
                have := fits_empty fg selfT emp e.num
                rw [emp] at this
                exact this
              · rw [if_neg hx]
                by_cases hy : x = d
                · rw [if_pos hy, hy]
                  exact fits_filter fd goneT empd
                · rw [if_neg hy]
                  exact others x _ hx (by rw [hd]; intro a; cases a; exact hy rfl) rfl
            · show n ∈ [e.num] ↔ _
              rw [List.mem_singleton]
              constructor
              · intro h
                refine ⟨g, e, ⟨none, e.num, none, []⟩, hg, h.symm, ene, ?_, rfl⟩
                exact (getf g).trans (if_pos rfl)
              · rintro ⟨x, f, f', a, b, c, d', e'⟩
                have d2 := (getf x).symm.trans d'
                by_cases hx : x = g
                · rw [hx, hg] at a
                  cases a
                  exact b.symm
                · by_cases hy : x = d
                  · rw [if_neg hx, if_pos hy] at d2
                    cases d2
                    exact absurd e' empd
                  · rw [if_neg hx, if_neg hy, a] at d2
                    cases d2
                    exact absurd e' c
            · show ([(e.num, e.sig)] : List (Nat × Option Nat)).any _ = false
              rw [eo.1]
              rfl
    · -- other ports have the signal
      rw [not_isEmpty emp]
      simp only [Bool.false_eq_true, if_false]
      have getf : ∀ x, AList.get (AList.put P.entries g
          { e with triggers := e.triggers.filter (fun y => !decide (y = p)) }) x =
          if x = g then some { e with triggers := e.triggers.filter (fun y => !decide (y = p)) }
          else P.entries.get x := fun x => AList.get_put _ _ _ _
      refine ⟨rfl, fun x => ?_, hen, fun n => ?_, rfl⟩
      · refine (congrArg (Fits w en (Trig w (cutAt m p) x) x) (getf x)).mpr ?_
        by_cases hx : x = g
        · rw [if_pos hx, hx]
          exact fits_filter fg selfT emp
        · rw [if_neg hx]
          by_cases hy : w.dom g = some x
          · refine (fits x).congr fun t => (trig_dom_kept hm hy hx ?_ t).symm
            obtain ⟨t0, ht0⟩ := List.exists_mem_of_ne_nil _ emp
            obtain ⟨h1, h2⟩ := (mem_filter_ne _ _ _).mp ht0
            rcases (fg.1 t0).mp h1 with ⟨a, b⟩ | ⟨a, _⟩
            · exact ⟨t0, h2, a⟩
            · have := pw.flat _ _ a
              rw [hy] at this
              cases this
          · exact others x _ hx hy rfl
      · constructor
        · intro h
          exact nomatch h
        · rintro ⟨x, f, f', a, b, c, d', e'⟩
          have d2 := (getf x).symm.trans d'
          by_cases hx : x = g
          · rw [if_pos hx] at d2
            cases d2
            exact absurd e' emp
          · rw [if_neg hx, a] at d2
            cases d2
            exact absurd e' c

end Verif.Ext
