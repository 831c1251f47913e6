import Verif.PropObj.Model

/-! # Lemmas about property objects: what a call can change -/

namespace Verif.PropObj

variable {V : Type} [DecidableEq V]

/-- What no set and no clear changes. -/
structure Fixed (o o' : Obj V) : Prop where
  locals : o'.locals = o.locals
  order : o'.order = o.order
  frozen : o'.frozen = o.frozen
  count : o'.count = o.count

theorem Fixed.refl (o : Obj V) : Fixed o o := ⟨rfl, rfl, rfl, rfl⟩

theorem Fixed.trans {a b c : Obj V} (h : Fixed a b) (h' : Fixed b c) : Fixed a c :=
  ⟨h'.locals.trans h.locals, h'.order.trans h.order, h'.frozen.trans h.frozen, h'.count.trans h.count⟩

theorem lookup_congr (env : Env V) {o o' : Obj V} (h : o'.locals = o.locals) (n : Name) : lookup env o' n = lookup env o n := by
  unfold lookup; rw [h]

/-- A relation between objects that follows from what sets and clears do to the values. `A` holds for the names that may
be written. -/
structure Closed (env : Env V) (L : AList Name (PropDef V)) (A : Name → Prop) (R : Obj V → Obj V → Prop) : Prop where
  refl : ∀ o, R o o
  trans : ∀ a b c, R a b → R b c → R a c
  stack : ∀ o s n, A n → (∀ m, m ≠ n → AList.get s m = AList.get o.stack m) → R o { o with stack := s }
  pend : ∀ o a, o.frozen = false → o.locals = L → o.count > 0 → (a.prot = true → A a.name) → R o { o with pending := o.pending ++ [a] }
  put : ∀ o n p v w, o.locals = L → o.frozen = false → A n → lookup env o n = some p → process env p v = .ok w →
    R o { o with values := AList.put o.values n w }
  del : ∀ o n, o.locals = L → o.frozen = false → A n → R o { o with values := AList.del o.values n }
  pub : ∀ o n p, o.locals = L → lookup env o n = some p → p.readOnly = false → A n

variable {env : Env V} {L : AList Name (PropDef V)} {A : Name → Prop} {R : Obj V → Obj V → Prop}

/-- A call as far as `Closed` needs it. -/
def Good (L : AList Name (PropDef V)) (A : Name → Prop) (R : Obj V → Obj V → Prop) (rec : Obj V → Call V → Ret V) : Prop :=
  ∀ o c o' r ev, o.locals = L → (c.batch = true → o.count > 0) → (c.prot = true → A c.name) → rec o c = some (o', r, ev) →
    R o o' ∧ Fixed o o'

theorem register_other {s t : AList Name (Item V)} {n : Name} {v : Option V} (h : register s n v = some t) (m : Name)
    (hm : m ≠ n) : AList.get t m = AList.get s m := by
  unfold register at h
  split at h
  · cases h; rw [AList.get_put, if_neg hm]
  · split at h
    · cases h
    · cases h; rw [AList.get_put, if_neg hm]

theorem unregister_other (s : AList Name (Item V)) (n m : Name) (hm : m ≠ n) :
    AList.get (unregister s n).1 m = AList.get s m := by
  unfold unregister
  split
  · rfl
  · split
    · rw [AList.get_del, if_neg hm]
    · rw [AList.get_put, if_neg hm]

theorem good_publicCall {rec : Obj V → Call V → Ret V} (hg : Good L A R rec) {o o' : Obj V} {n : Name} {v : Option V} {r ev}
    (hL : o.locals = L) (h : rec o (publicCall o n v) = some (o', r, ev)) : R o o' ∧ Fixed o o' :=
  hg o _ o' r ev hL (fun h => of_decide_eq_true h) (fun h => by cases h) h

theorem rel_runActs (hc : Closed env L A R) {rec : Obj V → Call V → Ret V} (hg : Good L A R rec) :
    ∀ (l : List (Act V)) (o : Obj V) (a : V) o' a' f ev, o.locals = L → runActs rec o a l = some (o', a', f, ev) →
      R o o' ∧ Fixed o o' := by
  intro l
  induction l with
  | nil =>
    intro o a o' a' f ev hL h
    simp only [runActs, Option.some.injEq, Prod.mk.injEq] at h
    rw [← h.1]; exact ⟨hc.refl o, .refl o⟩
  | cons x l ih =>
    intro o a o' a' f ev hL h
    have go : ∀ (o1 : Obj V) (r1 : Res) (ev1 : List (Core V)) (n : Name) (v : Option V), rec o (publicCall o n v) = some (o1, r1, ev1) →
        ((runActs rec o1 a l).map fun r => (r.1, r.2.1, r.2.2.1, ev1 ++ r.2.2.2)) = some (o', a', f, ev) →
        R o o' ∧ Fixed o o' := by
      intro o1 r1 ev1 n v h1 h2
      obtain ⟨hr, hf⟩ := good_publicCall hg hL h1
      obtain ⟨⟨o2, a2, f2, ev2⟩, h3, h4⟩ := Option.map_eq_some_iff.mp h2
      simp only [Prod.mk.injEq] at h4
      obtain ⟨rfl, -⟩ := h4
      obtain ⟨hr2, hf2⟩ := ih o1 a o2 a2 f2 ev2 (hf.locals.trans hL) h3
      exact ⟨hc.trans _ _ _ hr hr2, hf.trans hf2⟩
    have stop : ∀ (o1 : Obj V) (r1 : Res) (ev1 : List (Core V)) (n : Name) (v : Option V), rec o (publicCall o n v) = some (o1, r1, ev1) →
        some (o1, a, true, ev1) = some (o', a', f, ev) → R o o' ∧ Fixed o o' := by
      intro o1 r1 ev1 n v h1 h2
      simp only [Option.some.injEq, Prod.mk.injEq] at h2
      rw [← h2.1]
      exact good_publicCall hg hL h1
    cases x with
    | setArgs v => exact ih o v o' a' f ev hL h
    | fail =>
      simp only [runActs, Option.some.injEq, Prod.mk.injEq] at h
      rw [← h.1]; exact ⟨hc.refl o, .refl o⟩
    | write n v strict =>
      rw [runActs] at h
      split at h
      · cases h
      · rename_i o1 e ev1 h1
        split at h
        · exact stop _ _ _ _ _ h1 h
        · exact go _ _ _ _ _ h1 h
      · rename_i o1 r1 ev1 _ h1
        exact go _ _ _ _ _ h1 h
    | clear n strict =>
      rw [runActs] at h
      split at h
      · cases h
      · rename_i o1 e ev1 h1
        split at h
        · exact stop _ _ _ _ _ h1 h
        · exact go _ _ _ _ _ h1 h
      · rename_i o1 r1 ev1 _ h1
        exact go _ _ _ _ _ h1 h

theorem rel_runHandlers (hc : Closed env L A R) {rec : Obj V → Call V → Ret V} (hg : Good L A R rec) {o : Obj V} {n : Name} {a old : V}
    {isClear upd : Bool} {o' a' t f ev} (hL : o.locals = L)
    (h : runHandlers env rec o n a old isClear upd = some (o', a', t, f, ev)) : R o o' ∧ Fixed o o' := by
  unfold runHandlers at h
  split at h
  · cases h
  · rename_i o1 a1 ev1 h1
    simp only [Option.some.injEq, Prod.mk.injEq] at h
    rw [← h.1]
    exact rel_runActs hc hg _ _ _ _ _ _ _ hL h1
  · rename_i o1 a1 ev1 h1
    obtain ⟨r1, f1⟩ := rel_runActs hc hg _ _ _ _ _ _ _ hL h1
    split at h
    · cases h
    · rename_i o2 a2 f2 ev2 h2
      obtain ⟨r2, f2⟩ := rel_runActs hc hg _ _ _ _ _ _ _ (f1.locals.trans hL) h2
      split at h
      · cases h
      · rename_i o3 a3 f3 ev3 h3
        obtain ⟨r3, f3⟩ := rel_runActs hc hg _ _ _ _ _ _ _ ((f1.trans f2).locals.trans hL) h3
        simp only [Option.some.injEq, Prod.mk.injEq] at h
        rw [← h.1]
        exact ⟨hc.trans _ _ _ r1 (hc.trans _ _ _ r2 r3), f1.trans (f2.trans f3)⟩

theorem rel_writeLocal (hc : Closed env L A R) {o : Obj V} {n : Name} {p : PropDef V} {v w : V} (hL : o.locals = L)
    (hf : o.frozen = false) (hA : A n) (hp : lookup env o n = some p) (hw : process env p v = .ok w) (q : PropDef V) :
    R o (writeLocal o n q w) ∧ Fixed o (writeLocal o n q w) := by
  unfold writeLocal
  split
  · exact ⟨hc.put o n p v w hL hf hA hp hw, ⟨rfl, rfl, rfl, rfl⟩⟩
  · exact ⟨hc.refl o, .refl o⟩

theorem rel_setPlain (hc : Closed env L A R) {o : Obj V} {n : Name} {v : V} (hL : o.locals = L) (hA : A n) :
    R o (setPlain env o n v).1 ∧ Fixed o (setPlain env o n v).1 := by
  unfold setPlain
  split
  · exact ⟨hc.refl o, .refl o⟩
  · rename_i hf
    split
    · exact ⟨hc.refl o, .refl o⟩
    · rename_i p hp
      split
      · exact ⟨hc.refl o, .refl o⟩
      · rename_i w hw
        split
        · exact rel_writeLocal hc hL (by simpa using hf) hA hp hw p
        · exact ⟨hc.refl o, .refl o⟩

theorem fixed_stack (o : Obj V) (s : AList Name (Item V)) : Fixed o { o with stack := s } := ⟨rfl, rfl, rfl, rfl⟩

theorem rel_finish (hc : Closed env L A R) {o : Obj V} {n : Name} {p : PropDef V} {nv : Option V} {a : V} {failed : Bool}
    (hL : o.locals = L) (hA : A n) : R o (finish env o n p nv a failed).1 ∧ Fixed o (finish env o n p nv a failed).1 := by
  unfold finish
  dsimp only
  have hs := hc.stack o (unregister o.stack n).1 n hA (unregister_other _ n)
  have hf := fixed_stack o (unregister o.stack n).1
  split
  · exact ⟨hs, hf⟩
  · split
    · split
      · exact ⟨hs, hf⟩
      · split
        · exact ⟨hs, hf⟩
        · have hp := rel_setPlain (o := { o with stack := (unregister o.stack n).1 }) (v := a) hc hL hA
          split <;> rename_i h <;> rw [h] at hp <;> exact ⟨hc.trans _ _ _ hs hp.1, hf.trans hp.2⟩
    · exact ⟨hs, hf⟩

/-- The new value in a success is the given one or one set without events. -/
theorem finish_done {o : Obj V} {n : Name} {p : PropDef V} {nv : Option V} {a : V} {failed : Bool} {w : Option V}
    (h : (finish env o n p nv a failed).2 = .done w) :
    w = nv ∨ (w = some a ∧ nv ≠ some a) := by
  unfold finish at h
  dsimp only at h
  split at h
  · cases h
  · split at h
    · split at h
      · cases h; exact .inl rfl
      · split at h
        · cases h; exact .inl rfl
        · rename_i hne
          split at h
          · cases h
          · cases h
          · cases h; exact .inr ⟨rfl, hne⟩
    · cases h

theorem rel_callWrite (hc : Closed env L A R) {rec : Obj V → Call V → Ret V} (hg : Good L A R rec) {o : Obj V} {n : Name}
    {p : PropDef V} {nv : Option V} {upd : Bool} {o' w ev} (hL : o.locals = L) (hA : A n)
    (h : callWrite env rec o n p nv upd = some (o', w, ev)) : R o o' ∧ Fixed o o' := by
  unfold callWrite at h
  split at h
  · simp only [Option.some.injEq, Prod.mk.injEq] at h
    rw [← h.1]; exact ⟨hc.refl o, .refl o⟩
  · rename_i s hs
    split at h
    · simp only [Option.some.injEq, Prod.mk.injEq] at h
      rw [← h.1]
      exact ⟨hc.stack o _ n hA (fun m hm => (unregister_other _ n m hm).trans (register_other hs m hm)), fixed_stack o _⟩
    · have hr := hc.stack o s n hA (register_other hs)
      have hf := fixed_stack o s
      split at h
      · cases h
      · rename_i o1 a1 f1 ev1 h1
        simp only [Option.some.injEq, Prod.mk.injEq] at h
        rw [← h.1]
        obtain ⟨r1, f1⟩ := rel_runHandlers hc hg (o := { o with stack := s }) hL h1
        exact ⟨hc.trans _ _ _ hr r1, hf.trans f1⟩
      · rename_i o1 a1 f1 ev1 h1
        simp only [Option.some.injEq, Prod.mk.injEq] at h
        rw [← h.1]
        obtain ⟨r1, f1'⟩ := rel_runHandlers hc hg (o := { o with stack := s }) hL h1
        obtain ⟨r2, f2⟩ := rel_finish (p := p) (nv := nv) (a := a1) (failed := f1) hc (f1'.locals.trans hL) hA
        exact ⟨hc.trans _ _ _ hr (hc.trans _ _ _ r1 r2), hf.trans (f1'.trans f2)⟩

theorem callWrite_done {rec : Obj V → Call V → Ret V} {o : Obj V} {n : Name} {p : PropDef V} {nv : Option V} {upd : Bool} {o' w ev}
    (h : callWrite env rec o n p nv upd = some (o', .done w, ev)) : w = nv ∨ ∃ a, w = some a ∧ nv ≠ some a := by
  unfold callWrite at h
  split at h
  · simp at h
  · split at h
    · simp at h
    · split at h
      · cases h
      · simp at h
      · simp only [Option.some.injEq, Prod.mk.injEq] at h
        rcases finish_done h.2.1 with e | ⟨e, e'⟩
        · exact .inl e
        · exact .inr ⟨_, e, e'⟩

theorem rel_writeWith (hc : Closed env L A R) {rec : Obj V → Call V → Ret V} (hg : Good L A R rec) {o : Obj V} {n : Name}
    {p : PropDef V} {nv : Option V} {upd : Bool} {o' r ev} (hL : o.locals = L) (hfr : o.frozen = false) (hA : A n)
    (hp : lookup env o n = some p) (hnv : ∀ w, nv = some w → ∃ v, process env p v = .ok w)
    (h : writeWith env rec o n p nv upd = some (o', r, ev)) : R o o' ∧ Fixed o o' := by
  unfold writeWith at h
  split at h
  · cases h
  · rename_i o1 w ev1 h1
    obtain ⟨r1, f1⟩ := rel_callWrite hc hg hL hA h1
    cases w with
    | err e =>
      simp only [applyWrite, Option.some.injEq, Prod.mk.injEq] at h
      rw [← h.1]; exact ⟨r1, f1⟩
    | ignored =>
      simp only [applyWrite, Option.some.injEq, Prod.mk.injEq] at h
      rw [← h.1]; exact ⟨r1, f1⟩
    | done w =>
      cases w with
      | none =>
        simp only [applyWrite] at h
        split at h
        · cases h
        · simp only [Option.some.injEq, Prod.mk.injEq] at h
          rw [← h.1]
          exact ⟨hc.trans _ _ _ r1 (hc.del o1 n (f1.locals.trans hL) (f1.frozen.trans hfr) hA), f1.trans ⟨rfl, rfl, rfl, rfl⟩⟩
      | some w =>
        simp only [applyWrite, Option.some.injEq, Prod.mk.injEq] at h
        rw [← h.1]
        split
        · rename_i e
          obtain ⟨v, hv⟩ := hnv w e
          obtain ⟨r2, f2⟩ := rel_writeLocal (o := o1) hc (f1.locals.trans hL) (f1.frozen.trans hfr) hA
            ((lookup_congr env f1.locals n).trans hp) hv p
          exact ⟨hc.trans _ _ _ r1 r2, f1.trans f2⟩
        · exact ⟨r1, f1⟩

theorem good_callStep (hc : Closed env L A R) {rec : Obj V → Call V → Ret V} (hg : Good L A R rec) : Good L A R (callStep env rec) := by
  intro o c o' r ev hL hb hpr h
  unfold callStep at h
  split at h
  · simp only [Option.some.injEq, Prod.mk.injEq] at h
    rw [← h.1]; exact ⟨hc.refl o, .refl o⟩
  · rename_i hf
    have hf : o.frozen = false := by simpa using hf
    split at h
    · rename_i hbt
      simp only [Option.some.injEq, Prod.mk.injEq] at h
      rw [← h.1]
      exact ⟨hc.pend o ⟨c.name, c.value, c.prot⟩ hf hL (hb hbt) hpr, ⟨rfl, rfl, rfl, rfl⟩⟩
    · split at h
      · simp only [Option.some.injEq, Prod.mk.injEq] at h
        rw [← h.1]; exact ⟨hc.refl o, .refl o⟩
      · rename_i p hp
        split at h
        · simp only [Option.some.injEq, Prod.mk.injEq] at h
          rw [← h.1]; exact ⟨hc.refl o, .refl o⟩
        · rename_i hro
          have hA : A c.name := by
            cases hcp : c.prot with
            | true => exact hpr hcp
            | false =>
              rw [hcp] at hro
              exact hc.pub o c.name p hL hp (by simpa using hro)
          split at h
          · rename_i v hv
            split at h
            · simp only [Option.some.injEq, Prod.mk.injEq] at h
              rw [← h.1]; exact ⟨hc.refl o, .refl o⟩
            · rename_i w hw
              exact rel_writeWith hc hg hL hf hA hp (fun w' e => by cases e; exact ⟨v, hw⟩) h
          · split at h
            · simp only [Option.some.injEq, Prod.mk.injEq] at h
              rw [← h.1]; exact ⟨hc.refl o, .refl o⟩
            · exact rel_writeWith hc hg hL hf hA hp (fun w' e => by cases e) h

theorem good_call (hc : Closed env L A R) (fuel : Nat) : Good L A R (call env fuel) := by
  induction fuel with
  | zero => intro o c o' r ev _ _ _ h; simp [call] at h
  | succ n ih => exact good_callStep hc ih

theorem good_apply (hc : Closed env L A R) (fuel : Nat) : ∀ (l : List (Action V)) (o : Obj V) o' r ap ev, o.locals = L →
    (∀ a ∈ l, a.prot = true → A a.name) → apply env fuel o l = some (o', r, ap, ev) → R o o' ∧ Fixed o o' := by
  intro l
  induction l with
  | nil =>
    intro o o' r ap ev hL hA h
    simp only [apply, Option.some.injEq, Prod.mk.injEq] at h
    rw [← h.1]; exact ⟨hc.refl o, .refl o⟩
  | cons a l ih =>
    intro o o' r ap ev hL hA h
    rw [apply] at h
    have one := fun o1 r1 ev1 (h1 : call env fuel o ⟨a.name, a.value, a.prot, false, true⟩ = some (o1, r1, ev1)) =>
      good_call hc fuel o _ o1 r1 ev1 hL (fun h => by cases h) (hA a List.mem_cons_self) h1
    split at h
    · cases h
    · rename_i o1 e ev1 h1
      simp only [Option.some.injEq, Prod.mk.injEq] at h
      rw [← h.1]; exact one _ _ _ h1
    · rename_i o1 ev1 h1
      obtain ⟨r1, f1⟩ := one _ _ _ h1
      obtain ⟨⟨o2, r2, ap2, ev2⟩, h3, h4⟩ := Option.map_eq_some_iff.mp h
      simp only [Prod.mk.injEq] at h4
      obtain ⟨rfl, -⟩ := h4
      obtain ⟨r3, f3⟩ := ih o1 o2 r2 ap2 ev2 (f1.locals.trans hL) (fun b hb => hA b (List.mem_cons_of_mem _ hb)) h3
      exact ⟨hc.trans _ _ _ r1 r3, f1.trans f3⟩
    · rename_i o1 ev1 h1
      obtain ⟨r1, f1⟩ := one _ _ _ h1
      obtain ⟨⟨o2, r2, ap2, ev2⟩, h3, h4⟩ := Option.map_eq_some_iff.mp h
      simp only [Prod.mk.injEq] at h4
      obtain ⟨rfl, -⟩ := h4
      obtain ⟨r3, f3⟩ := ih o1 o2 r2 ap2 ev2 (f1.locals.trans hL) (fun b hb => hA b (List.mem_cons_of_mem _ hb)) h3
      exact ⟨hc.trans _ _ _ r1 r3, f1.trans f3⟩

theorem good_clearLoop (hc : Closed env L A R) (fuel : Nat) : ∀ (l : List (Name × PropDef V)) (o : Obj V) o' r ev, o.locals = L →
    clearLoop env fuel o l = some (o', r, ev) → R o o' ∧ Fixed o o' := by
  intro l
  induction l with
  | nil =>
    intro o o' r ev hL h
    simp only [clearLoop, Option.some.injEq, Prod.mk.injEq] at h
    rw [← h.1]; exact ⟨hc.refl o, .refl o⟩
  | cons a l ih =>
    intro o o' r ev hL h
    obtain ⟨n, p⟩ := a
    rw [clearLoop] at h
    split at h
    · exact ih o o' r ev hL h
    · split at h
      · exact ih o o' r ev hL h
      · split at h
        · cases h
        · rename_i o1 e ev1 h1
          simp only [Option.some.injEq, Prod.mk.injEq] at h
          rw [← h.1]; exact good_publicCall (good_call hc fuel) hL h1
        · rename_i o1 r1 ev1 _ h1
          obtain ⟨r1, f1⟩ := good_publicCall (good_call hc fuel) hL h1
          obtain ⟨⟨o2, r2, ev2⟩, h3, h4⟩ := Option.map_eq_some_iff.mp h
          simp only [Prod.mk.injEq] at h4
          obtain ⟨rfl, -⟩ := h4
          obtain ⟨r3, f3⟩ := ih o1 o2 r2 ev2 (f1.locals.trans hL) h3
          exact ⟨hc.trans _ _ _ r1 r3, f1.trans f3⟩

/-- What `endUpdate` does to the rest of the object. -/
theorem good_endUpdate (hc : Closed env L A R) (fuel : Nat) {o o' : Obj V} {r ev} (hL : o.locals = L)
    (hA : ∀ a ∈ o.pending, a.prot = true → A a.name) (h : endUpdate env fuel o = some (o', r, ev)) :
    o' = o ∨ o' = { o with count := o.count - 1 } ∨
      (o.count = 1 ∧ R { o with count := 0, pending := [] } o' ∧ Fixed { o with count := 0, pending := [] } o') := by
  unfold endUpdate at h
  split at h
  · simp only [Option.some.injEq, Prod.mk.injEq] at h; exact .inl h.1.symm
  · rename_i h0
    split at h
    · simp only [Option.some.injEq, Prod.mk.injEq] at h; exact .inr (.inl h.1.symm)
    · rename_i h1
      have h1 : o.count = 1 := by omega
      split at h
      · cases h
      · rename_i o1 e ap ev1 h2
        simp only [Option.some.injEq, Prod.mk.injEq] at h
        rw [← h.1]
        exact .inr (.inr ⟨h1, good_apply hc fuel _ { o with count := 0, pending := [] } _ _ _ _ hL hA h2⟩)
      · rename_i o1 r1 ap ev1 _ h2
        simp only [Option.some.injEq, Prod.mk.injEq] at h
        rw [← h.1]
        exact .inr (.inr ⟨h1, good_apply hc fuel _ { o with count := 0, pending := [] } _ _ _ _ hL hA h2⟩)

end Verif.PropObj
