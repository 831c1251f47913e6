import Verif.Remote.Batch

/-!
# Applying a serialized component to an existing one
-/

namespace Verif.Remote
open Spec

namespace Obj

theorem having_eq (l : List Nat) (o : Obj) : having l o = o.keep l := by
  induction o with
  | nil => rfl
  | val m p r ih => simp [having, keep, ih]
  | obj m p r _ ih => simp [having, keep, ih]

theorem keep_append (o x : Obj) (l : List Nat) : (o.append x).keep l = (o.keep l).append (x.keep l) := by
  induction o with
  | nil => rfl
  | val m p r ih => simp only [append, keep]; split <;> simp [append, ih]
  | obj m p r _ ih => simp only [append, keep]; split <;> simp [append, ih]

theorem keep_all (o : Obj) (l : List Nat) (h : ∀ n ∈ o.names, n ∈ l) : o.keep l = o := by
  induction o with
  | nil => rfl
  | val m p r ih =>
    have hm := h m (by simp [names])
    rw [keep, if_pos (by simpa using hm), ih (fun n hn => h n (by simp [names, hn]))]
  | obj m p r _ ih =>
    have hm := h m (by simp [names])
    rw [keep, if_pos (by simpa using hm), ih (fun n hn => h n (by simp [names, hn]))]

theorem names_keep (o : Obj) (l : List Nat) (n : Nat) :
    n ∈ (o.keep l).names ↔ n ∈ o.names ∧ n ∈ l := by
  induction o with
  | nil => simp [keep, names]
  | val m p r ih =>
    by_cases h : m ∈ l
    · rw [keep, if_pos (by simpa using h)]
      simp only [names, List.mem_cons, ih]
      constructor
      · rintro (e | e)
        · exact ⟨Or.inl e, e ▸ h⟩
        · exact ⟨Or.inr e.1, e.2⟩
      · rintro ⟨e | e, e2⟩
        · exact Or.inl e
        · exact Or.inr ⟨e, e2⟩
    · rw [keep, if_neg (by simpa using h)]
      simp only [names, List.mem_cons, ih]
      constructor
      · rintro ⟨e, e2⟩; exact ⟨Or.inr e, e2⟩
      · rintro ⟨e | e, e2⟩
        · exact absurd (e ▸ e2) h
        · exact ⟨e, e2⟩
  | obj m p r _ ih =>
    by_cases h : m ∈ l
    · rw [keep, if_pos (by simpa using h)]
      simp only [names, List.mem_cons, ih]
      constructor
      · rintro (e | e)
        · exact ⟨Or.inl e, e ▸ h⟩
        · exact ⟨Or.inr e.1, e.2⟩
      · rintro ⟨e | e, e2⟩
        · exact Or.inl e
        · exact Or.inr ⟨e, e2⟩
    · rw [keep, if_neg (by simpa using h)]
      simp only [names, List.mem_cons, ih]
      constructor
      · rintro ⟨e, e2⟩; exact ⟨Or.inr e, e2⟩
      · rintro ⟨e | e, e2⟩
        · exact absurd (e ▸ e2) h
        · exact ⟨e, e2⟩

/-- Equal up to stored values: near. -/
theorem near_of_norm (m : Prop) : ∀ (s c : Obj), c.norm = s.norm → near m s c
  | nil, nil, _ => by simp [near]
  | nil, val _ _ _, h => by simp [norm] at h
  | nil, obj _ _ _, h => by simp [norm] at h
  | val _ _ _, nil, h => by simp [norm] at h
  | val _ _ _, obj _ _ _, h => by simp [norm] at h
  | obj _ _ _, nil, h => by simp [norm] at h
  | obj _ _ _, val _ _ _, h => by simp [norm] at h
  | val n p s, val k q c, h => by
    simp only [norm, val.injEq] at h
    refine ⟨h.1.symm, ?_, ?_, near_of_norm m s c h.2.2⟩
    · have := congrArg P.dflt h.2.1; exact this.symm
    · have := congrArg P.fix h.2.1; exact this.symm
  | obj n o s, obj k x c, h => by
    simp only [norm, obj.injEq] at h
    refine ⟨h.1.symm, ?_, near_of_norm m s c h.2.2⟩
    have hn : x.names = o.names := by rw [← names_norm x, h.2.1, names_norm]
    rw [having_eq, propNames_eq, keep_all x _ (by rw [hn]; exact fun _ h => h)]
    exact near_of_norm True o x h.2.1

theorem near_names {s c : Obj} (h : near False s c) : c.names = s.names := by
  induction s generalizing c with
  | nil => cases c <;> simp_all [near, names]
  | val n p s ih =>
    cases c with
    | nil => exact h.1.elim
    | val m q c => obtain ⟨h1, _, _, h4⟩ := h; simp [names, h1, ih h4]
    | obj m q c => exact h.elim
  | obj n p s _ ih =>
    cases c with
    | nil => exact h.1.elim
    | val m q c => exact h.elim
    | obj m q c => obtain ⟨h1, _, h4⟩ := h; simp [names, h1, ih h4]

theorem addMissing_ok (may : Bool) : ∀ (s k c : Obj), near (may = true) s k → GoodObj s →
    (∀ n ∈ k.names, n ∈ c.names) → (∀ n ∈ s.names, n ∉ k.names → n ∉ c.names) →
    ∃ t, s.addMissing may c = some (c.append t) ∧ near False s (k.append t) ∧
      ∀ n ∈ t.names, n ∈ s.names := by
  have app : ∀ c : Obj, c.append nil = c := by
    intro c
    induction c with
    | nil => rfl
    | val m p r ih => simp [append, ih]
    | obj m p r _ ih => simp [append, ih]
  have assoc : ∀ a b c : Obj, (a.append b).append c = a.append (b.append c) := by
    intro a b c
    induction a with
    | nil => rfl
    | val m p r ih => simp [append, ih]
    | obj m p r _ ih => simp [append, ih]
  intro s
  induction s with
  | nil =>
    intro k c h _ _ _
    cases k with
    | nil => exact ⟨nil, by simp [addMissing, app], by simp [append, near], by simp [names]⟩
    | val m p r => exact h.elim
    | obj m p r => exact h.elim
  | val n p s ih =>
    intro k c h g h1 h2
    cases k with
    | nil =>
      have hc : c.has n = false := by
        rw [Bool.eq_false_iff]
        intro hh
        exact h2 n (by simp [names]) (by simp [names]) ((has_iff c n).mp hh)
      have hm : may = true := h.1
      obtain ⟨t, a1, a2, a3⟩ := ih nil (c.append (val n { p with val := none } nil)) h.2 g.2.2.2
        (by simp [names])
        (by
          intro x hx _
          rw [names_append, List.mem_append]
          rintro (hh | hh)
          · exact h2 x (by simp [names, hx]) (by simp [names]) hh
          · simp only [names, List.mem_singleton] at hh
            have := g.2.2.1
            rw [propNames_eq] at this
            exact this (hh ▸ hx))
      refine ⟨val n { p with val := none } t, ?_, ?_, ?_⟩
      · rw [addMissing, hc, hm]
        simp only [Bool.false_eq_true, if_false, if_true]
        rw [hm] at a1
        rw [a1, assoc]
        rfl
      · exact ⟨rfl, rfl, rfl, a2⟩
      · intro x
        simp only [names, List.mem_cons]
        rintro (hx | hx)
        · exact Or.inl hx
        · exact Or.inr (a3 x hx)
    | val m q k =>
      obtain ⟨e1, e2, e3, e4⟩ := h
      subst e1
      have hc : c.has n = true := (has_iff c n).mpr (h1 n (by simp [names]))
      obtain ⟨t, a1, a2, a3⟩ := ih k c e4 g.2.2.2 (fun x hx => h1 x (by simp [names, hx]))
        (fun x hx hk => h2 x (by simp [names, hx]) (by
          simp only [names, List.mem_cons, not_or]
          refine ⟨?_, hk⟩
          intro e
          have := g.2.2.1
          rw [propNames_eq] at this
          exact this (e ▸ hx)))
      exact ⟨t, by rw [addMissing, if_pos hc, a1], ⟨rfl, e2, e3, a2⟩,
        fun x hx => by simp [names, a3 x hx]⟩
    | obj m q k => exact h.elim
  | obj n o s _ ih =>
    intro k c h g h1 h2
    cases k with
    | nil =>
      have hc : c.has n = false := by
        rw [Bool.eq_false_iff]
        intro hh
        exact h2 n (by simp [names]) (by simp [names]) ((has_iff c n).mp hh)
      have hm : may = true := h.1
      obtain ⟨o', l1, l2⟩ := load_ok g.1
      obtain ⟨t, a1, a2, a3⟩ := ih nil (c.append (obj n o' nil)) h.2 g.2.2
        (by simp [names])
        (by
          intro x hx _
          rw [names_append, List.mem_append]
          rintro (hh | hh)
          · exact h2 x (by simp [names, hx]) (by simp [names]) hh
          · simp only [names, List.mem_singleton] at hh
            have := g.2.1
            rw [propNames_eq] at this
            exact this (hh ▸ hx))
      refine ⟨obj n o' t, ?_, ?_, ?_⟩
      · rw [addMissing, hc, hm, l1]
        simp only [Bool.false_eq_true, if_false, if_true]
        rw [hm] at a1
        rw [a1, assoc]
        rfl
      · refine ⟨rfl, ?_, a2⟩
        have hn : o'.names = o.names := by rw [← names_norm o', l2, names_norm]
        rw [having_eq, propNames_eq, keep_all o' _ (by rw [hn]; exact fun _ h => h)]
        exact near_of_norm True o o' l2
      · intro x
        simp only [names, List.mem_cons]
        rintro (hx | hx)
        · exact Or.inl hx
        · exact Or.inr (a3 x hx)
    | val m q k => exact h.elim
    | obj m q k =>
      obtain ⟨e1, e2, e4⟩ := h
      subst e1
      have hc : c.has n = true := (has_iff c n).mpr (h1 n (by simp [names]))
      obtain ⟨t, a1, a2, a3⟩ := ih k c e4 g.2.2 (fun x hx => h1 x (by simp [names, hx]))
        (fun x hx hk => h2 x (by simp [names, hx]) (by
          simp only [names, List.mem_cons, not_or]
          refine ⟨?_, hk⟩
          intro e
          have := g.2.1
          rw [propNames_eq] at this
          exact this (e ▸ hx)))
      exact ⟨t, by rw [addMissing, if_pos hc, a1], ⟨rfl, e2, a2⟩,
        fun x hx => by simp [names, a3 x hx]⟩

/-- Same names, kinds and definitions. -/
def Skel : Obj → Obj → Prop
  | nil, nil => True
  | val n p s, val m q c => n = m ∧ p.dflt = q.dflt ∧ p.fix = q.fix ∧ Skel s c
  | obj n _ s, obj m _ c => n = m ∧ Skel s c
  | _, _ => False

theorem skel_near {s c : Obj} (h : near False s c) : Skel s c := by
  induction s generalizing c with
  | nil => cases c <;> simp_all [near, Skel]
  | val n p s ih =>
    cases c with
    | nil => exact h.1.elim
    | val m q c => exact ⟨h.1, h.2.1, h.2.2.1, ih h.2.2.2⟩
    | obj m q c => exact h.elim
  | obj n p s _ ih =>
    cases c with
    | nil => exact h.1.elim
    | val m q c => exact h.elim
    | obj m q c => exact ⟨h.1, ih h.2.2⟩

theorem skel_store {s c : Obj} (h : Skel s c) (n : Nat) (v : Option Nat) : Skel s (c.store n v) := by
  induction s generalizing c with
  | nil => cases c <;> simp_all [Skel, store]
  | val m p s ih =>
    cases c with
    | nil => exact h.elim
    | val k q c =>
      simp only [store]
      split
      · exact h
      · exact ⟨h.1, h.2.1, h.2.2.1, ih h.2.2.2⟩
    | obj k q c => exact h.elim
  | obj m p s _ ih =>
    cases c with
    | nil => exact h.elim
    | val k q c => exact h.elim
    | obj k q c =>
      simp only [store]
      split
      · exact h
      · exact ⟨h.1, ih h.2⟩

theorem skel_setChild {s c : Obj} (h : Skel s c) (n : Nat) (x : Obj) : Skel s (c.setChild n x) := by
  induction s generalizing c with
  | nil => cases c <;> simp_all [Skel, setChild]
  | val m p s ih =>
    cases c with
    | nil => exact h.elim
    | val k q c =>
      simp only [setChild]
      split
      · exact h
      · exact ⟨h.1, h.2.1, h.2.2.1, ih h.2.2.2⟩
    | obj k q c => exact h.elim
  | obj m p s _ ih =>
    cases c with
    | nil => exact h.elim
    | val k q c => exact h.elim
    | obj k q c =>
      simp only [setChild]
      split
      · exact h
      · exact ⟨h.1, ih h.2⟩

theorem skel_child_none {s c : Obj} (h : Skel s c) (n : Nat) (hc : c.child n = none)
    (hn : n ∈ c.names) :
    ∃ p q, s.find n = some p ∧ c.find n = some q ∧ p.dflt = q.dflt ∧ p.fix = q.fix ∧
      s.child n = none := by
  induction s generalizing c with
  | nil => cases c <;> simp_all [Skel, names]
  | val m p s ih =>
    cases c with
    | nil => exact h.elim
    | val k q c =>
      obtain ⟨e, e1, e2, e3⟩ := h
      subst e
      by_cases e : m = n
      · exact ⟨p, q, by simp [find, e], by simp [find, e], e1, e2, by simp [child, e]⟩
      · simp only [child, if_neg e] at hc
        simp only [names, List.mem_cons] at hn
        obtain ⟨p', q', h1⟩ := ih e3 hc (hn.resolve_left (fun h => e h.symm))
        exact ⟨p', q', by simpa [find, child, e] using h1⟩
    | obj k q c => exact h.elim
  | obj m p s _ ih =>
    cases c with
    | nil => exact h.elim
    | val k q c => exact h.elim
    | obj k q c =>
      obtain ⟨e, e3⟩ := h
      subst e
      by_cases e : m = n
      · simp [child, e] at hc
      · simp only [child, if_neg e] at hc
        simp only [names, List.mem_cons] at hn
        obtain ⟨p', q', h1⟩ := ih e3 hc (hn.resolve_left (fun h => e h.symm))
        exact ⟨p', q', by simpa [find, child, e] using h1⟩

theorem skel_child_some {s c : Obj} (h : Skel s c) (n : Nat) {x : Obj} (hc : c.child n = some x) :
    ∃ o, s.child n = some o := by
  induction s generalizing c with
  | nil => cases c <;> simp_all [Skel, child]
  | val m p s ih =>
    cases c with
    | nil => exact h.elim
    | val k q c =>
      obtain ⟨e, e1, e2, e3⟩ := h
      subst e
      by_cases e : m = n
      · simp [child, e] at hc
      · simp only [child, if_neg e] at hc ⊢
        exact ih e3 hc
    | obj k q c => exact h.elim
  | obj m p s _ ih =>
    cases c with
    | nil => exact h.elim
    | val k q c => exact h.elim
    | obj k q c =>
      obtain ⟨e, e3⟩ := h
      subst e
      by_cases e : m = n
      · exact ⟨p, by simp [child, e]⟩
      · simp only [child, if_neg e] at hc ⊢
        exact ih e3 hc

theorem child_store (o : Obj) (m : Nat) (v : Option Nat) (n : Nat) :
    (o.store m v).child n = o.child n := by
  induction o with
  | nil => rfl
  | val k p r ih =>
    by_cases e : k = m
    · simp [store, e, child]
    · simp [store, e, child, ih]
  | obj k p r _ ih =>
    by_cases e : k = m
    · simp [store, e, child]
    · simp [store, e, child, ih]

theorem child_setChild_ne {o : Obj} {n m : Nat} (h : n ≠ m) (x : Obj) :
    (o.setChild m x).child n = o.child n := by
  induction o with
  | nil => rfl
  | val k p r ih =>
    by_cases e : k = m
    · simp [setChild, e]
    · simp [setChild, e, child, ih]
  | obj k p r _ ih =>
    by_cases e : k = m
    · subst e; simp [setChild, child, Ne.symm h]
    · simp [setChild, e, child, ih]

theorem find_setChild (o : Obj) (m : Nat) (x : Obj) (n : Nat) :
    (o.setChild m x).find n = o.find n := by
  induction o with
  | nil => rfl
  | val k p r ih =>
    by_cases e : k = m
    · simp [setChild, e]
    · simp [setChild, e, find, ih]
  | obj k p r _ ih =>
    by_cases e : k = m
    · simp [setChild, e, find]
    · simp [setChild, e, find, ih]

/-- Same value and same nested object at a name. -/
def Agree (s c : Obj) (n : Nat) : Prop :=
  (∀ p, s.find n = some p → ∃ q, c.find n = some q ∧ q.read = p.read) ∧
  (∀ o, s.child n = some o → ∃ x, c.child n = some x ∧ x.norm = o.norm)

theorem norm_of_agree : ∀ (s c : Obj), Skel s c → GoodObj s → (∀ n ∈ s.names, Agree s c n) →
    c.norm = s.norm
  | nil, nil, _, _, _ => rfl
  | nil, val _ _ _, h, _, _ => h.elim
  | nil, obj _ _ _, h, _, _ => h.elim
  | val _ _ _, nil, h, _, _ => h.elim
  | val _ _ _, obj _ _ _, h, _, _ => h.elim
  | obj _ _ _, nil, h, _, _ => h.elim
  | obj _ _ _, val _ _ _, h, _, _ => h.elim
  | val n p s, val m q c, h, g, ha => by
    obtain ⟨e, e1, e2, e3⟩ := h
    subst e
    have tail := norm_of_agree s c e3 g.2.2.2 (fun x hx => by
      have hne : n ≠ x := by
        intro e
        have := g.2.2.1
        rw [propNames_eq] at this
        exact this (e ▸ hx)
      have := ha x (by simp [names, hx])
      unfold Agree at this ⊢
      simpa [find, child, hne] using this)
    obtain ⟨q', h1, h2⟩ := (ha n (by simp [names])).1 p (by simp [find])
    simp only [find, if_true, Option.some.injEq] at h1
    subst h1
    have : q.norm = p.norm := by
      unfold P.norm; rw [h2]; cases p; cases q; simp_all
    simp only [norm, this, tail]
  | obj n o s, obj m x c, h, g, ha => by
    obtain ⟨e, e3⟩ := h
    subst e
    have tail := norm_of_agree s c e3 g.2.2 (fun x hx => by
      have hne : n ≠ x := by
        intro e
        have := g.2.1
        rw [propNames_eq] at this
        exact this (e ▸ hx)
      have := ha x (by simp [names, hx])
      unfold Agree at this ⊢
      simpa [find, child, hne] using this)
    obtain ⟨q', h1, h2⟩ := (ha n (by simp [names])).2 o (by simp [child])
    simp only [child, if_true, Option.some.injEq] at h1
    subst h1
    simp only [norm, h2, tail]

theorem put_store' {o : Obj} {n v : Nat} {p : P} (hp : o.find n = some p)
    (hf : p.fix o.env v = some v) :
    (v = p.read ∧ o.put n v = some o) ∨ o.put n v = some (o.store n (some v)) := by
  unfold put
  simp only [hp, hf]
  by_cases h : v = p.read
  · rw [if_pos h]; exact Or.inl ⟨h, rfl⟩
  · rw [if_neg h]; exact Or.inr rfl

theorem copyVals_ok {snap : Obj} (g : GoodObj snap) (kid : Nat → Obj → Option (Obj × Bool)) :
    ∀ (l : List Nat) (c : Obj), l.Nodup → (∀ n ∈ l, n ∈ c.names) → Skel snap c →
    (∀ n ∈ l, ∀ o x, snap.child n = some o → c.child n = some x →
      ∃ r, kid n x = some (r, true) ∧ r.norm = o.norm) →
    ∃ c', copyVals snap kid c l = (c', true) ∧ Skel snap c' ∧ (∀ n ∈ l, Agree snap c' n) ∧
      ∀ n, n ∉ l → c'.find n = c.find n ∧ c'.child n = c.child n := by
  intro l
  induction l with
  | nil => intro c _ _ hs _; exact ⟨c, rfl, hs, by simp, fun _ _ => ⟨rfl, rfl⟩⟩
  | cons n l ih =>
    intro c hl hn hs hk
    simp only [List.nodup_cons] at hl
    have step : ∀ c1 : Obj, c1.names = c.names → Skel snap c1 → Agree snap c1 n →
        (∀ m, m ≠ n → c1.find m = c.find m ∧ c1.child m = c.child m) →
        ∃ c', copyVals snap kid c1 l = (c', true) ∧ Skel snap c' ∧
          (∀ m ∈ n :: l, Agree snap c' m) ∧
          ∀ m, m ∉ n :: l → c'.find m = c.find m ∧ c'.child m = c.child m := by
      intro c1 e1 e2 e3 e4
      obtain ⟨c', r1, r2, r3, r4⟩ := ih c1 hl.2 (fun m hm => by rw [e1]; exact hn m (by simp [hm])) e2
        (fun m hm o x ho hx => by
          have hne : m ≠ n := fun e => hl.1 (e ▸ hm)
          rw [(e4 m hne).2] at hx
          exact hk m (by simp [hm]) o x ho hx)
      refine ⟨c', r1, r2, ?_, ?_⟩
      · intro m hm
        rcases List.mem_cons.mp hm with e | hm
        · subst e
          have := r4 m hl.1
          unfold Agree at e3 ⊢
          rw [this.1, this.2]
          exact e3
        · exact r3 m hm
      · intro m hm
        simp only [List.mem_cons, not_or] at hm
        have := r4 m hm.2
        rw [this.1, this.2]
        exact e4 m hm.1
    simp only [copyVals]
    cases hc : c.child n with
    | some x =>
      dsimp only
      obtain ⟨o, ho⟩ := skel_child_some hs n hc
      obtain ⟨r, k1, k2⟩ := hk n (by simp) o x ho hc
      rw [k1]
      simp only [if_true]
      apply step _ (names_setChild _ _ _) (skel_setChild hs n r)
      · refine ⟨?_, ?_⟩
        · intro p hp
          exfalso
          have aux : ∀ a : Obj, a.child n = some o → a.find n = some p → False := by
            intro a
            induction a with
            | nil => simp [child]
            | val m q r ih => by_cases e : m = n <;> simp [child, find, e]; exact ih
            | obj m q r _ ih => by_cases e : m = n <;> simp [child, find, e]; exact ih
          exact aux snap ho hp
        · intro o' ho'
          rw [ho] at ho'
          cases ho'
          exact ⟨r, child_setChild_self hc r, k2⟩
      · intro m hm
        exact ⟨find_setChild _ _ _ _, child_setChild_ne hm r⟩
    | none =>
      dsimp only
      obtain ⟨p, q, h1, h2, h3, h4, h5⟩ := skel_child_none hs n hc (hn n (by simp))
      rw [h1]
      dsimp only
      cases hv : p.val with
      | none =>
        dsimp only
        apply step _ (names_store _ _ _) (skel_store hs n none)
        · refine ⟨?_, by rw [h5]; simp⟩
          intro p' hp'
          rw [h1] at hp'
          cases hp'
          refine ⟨_, find_store_self h2 none, ?_⟩
          unfold P.read
          rw [hv, h3]
        · intro m hm
          exact ⟨find_store_ne hm _, child_store _ _ _ _⟩
      | some v =>
        dsimp only
        have hacc : q.fix c.env v = some v := by rw [← h4]; exact (good_find g h1).2 v hv _
        rcases put_store' h2 hacc with ⟨e1, e2⟩ | e2
        · rw [e2]
          dsimp only
          apply step c rfl hs
          · refine ⟨?_, by rw [h5]; simp⟩
            intro p' hp'
            rw [h1] at hp'
            cases hp'
            refine ⟨q, h2, ?_⟩
            rw [← e1]
            unfold P.read
            rw [hv]; rfl
          · exact fun _ _ => ⟨rfl, rfl⟩
        · rw [e2]
          dsimp only
          apply step _ (names_store _ _ _) (skel_store hs n _)
          · refine ⟨?_, by rw [h5]; simp⟩
            intro p' hp'
            rw [h1] at hp'
            cases hp'
            refine ⟨_, find_store_self h2 _, ?_⟩
            unfold P.read
            rw [hv]
            rfl
          · intro m hm
            exact ⟨find_store_ne hm _, child_store _ _ _ _⟩

theorem kid_eq (s : Obj) (n : Nat) (x : Obj) :
    s.kid n x = (s.child n).map (fun o => body true o (fun k y => o.kid k y) x) := by
  induction s with
  | nil => rfl
  | val m p r ih => by_cases e : m = n <;> simp [kid, child, e, ih]
  | obj m o r _ ih => by_cases e : m = n <;> simp [kid, child, e, ih]

theorem near_child {s c : Obj} (h : near False s c) {n : Nat} {o x : Obj} (h1 : s.child n = some o)
    (h2 : c.child n = some x) : near True o (having (propNames o) x) := by
  induction s generalizing c with
  | nil => simp [child] at h1
  | val m p s ih =>
    cases c with
    | nil => exact h.1.elim
    | val k q c =>
      obtain ⟨e, _, _, e3⟩ := h
      subst e
      by_cases e : m = n
      · simp [child, e] at h1
      · simp only [child, if_neg e] at h1 h2
        exact ih e3 h1 h2
    | obj k q c => exact h.elim
  | obj m p s _ ih =>
    cases c with
    | nil => exact h.1.elim
    | val k q c => exact h.elim
    | obj k q c =>
      obtain ⟨e, e2, e3⟩ := h
      subst e
      by_cases e : m = n
      · simp only [child, if_pos e, Option.some.injEq] at h1 h2
        subst h1; subst h2; exact e2
      · simp only [child, if_neg e] at h1 h2
        exact ih e3 h1 h2

theorem child_lt {s o : Obj} {n : Nat} (h : s.child n = some o) : sizeOf o < sizeOf s := by
  induction s with
  | nil => simp [child] at h
  | val m p r ih =>
    simp only [child] at h
    split at h
    · simp at h
    · have := ih h; simp only [val.sizeOf_spec]; omega
  | obj m p r _ ih =>
    simp only [child] at h
    split at h
    · cases h; simp only [obj.sizeOf_spec]; omega
    · have := ih h; simp only [obj.sizeOf_spec]; omega

theorem names_nodup {o : Obj} (g : GoodObj o) : o.names.Nodup := by
  induction o with
  | nil => simp [names]
  | val m p r ih =>
    have := g.2.2.1
    rw [propNames_eq] at this
    exact List.nodup_cons.mpr ⟨this, ih g.2.2.2⟩
  | obj m p r _ ih =>
    have := g.2.1
    rw [propNames_eq] at this
    exact List.nodup_cons.mpr ⟨this, ih g.2.2⟩

theorem body_ok (N : Nat) : ∀ (snap : Obj), sizeOf snap < N → GoodObj snap → ∀ (may : Bool) (c : Obj),
    near (may = true) snap (having (propNames snap) c) →
    ∃ c', body may snap (fun k x => snap.kid k x) c = (c', true) ∧ c'.norm = snap.norm := by
  induction N with
  | zero => intro _ h; omega
  | succ N ih =>
    intro snap hN g may c h
    rw [having_eq, propNames_eq] at h
    obtain ⟨t, a1, a2, a3⟩ := addMissing_ok may snap _ c h g
      (fun n hn => ((names_keep c _ n).mp hn).1)
      (fun n hn hk hc => hk ((names_keep c _ n).mpr ⟨hc, hn⟩))
    have hK : (c.append t).keep snap.names = (c.keep snap.names).append t := by
      rw [keep_append, keep_all t _ a3]
    unfold body
    rw [a1]
    dsimp only
    rw [hK]
    have hnames := near_names a2
    obtain ⟨c', b1, b2, b3, _⟩ := copyVals_ok g (fun k x => snap.kid k x) snap.names
      ((c.keep snap.names).append t) (names_nodup g) (by rw [hnames]; exact fun _ h => h)
      (skel_near a2) (by
        intro n _ o x ho hx
        obtain ⟨r, r1, r2⟩ := ih o (by have := child_lt ho; omega) (good_child g ho) true x (by
          have := near_child a2 ho hx
          simpa using this)
        exact ⟨r, by rw [kid_eq, ho]; exact congrArg some r1, r2⟩)
    rw [hnames]
    exact ⟨c', b1, norm_of_agree snap c' b2 g b3⟩

theorem follow_ok {snap : Obj} (g : GoodObj snap) (may : Bool) {c : Obj}
    (h : near (may = true) snap (having (propNames snap) c)) :
    ∃ c', follow may snap c = (c', true) ∧ c'.norm = snap.norm :=
  body_ok (sizeOf snap + 1) snap (by omega) g may c h

end Obj

/-! ### Statuses -/

theorem lookup_none {l : List (Nat × (Nat × Nat))} {n : Nat} (h : n ∉ l.map (·.1)) :
    l.lookup n = none := by
  induction l with
  | nil => rfl
  | cons x l ih =>
    obtain ⟨m, v⟩ := x
    simp only [List.map_cons, List.mem_cons, not_or] at h
    rw [List.lookup_cons, beq_eq_false_iff_ne.mpr h.1]
    exact ih h.2

theorem lookup_append_some {a b : List (Nat × (Nat × Nat))} {n : Nat} {v : Nat × Nat}
    (h : n ∉ a.map (·.1)) : (a ++ (n, v) :: b).lookup n = some v := by
  induction a with
  | nil => simp
  | cons x l ih =>
    obtain ⟨m, w⟩ := x
    simp only [List.map_cons, List.mem_cons, not_or] at h
    rw [List.cons_append, List.lookup_cons, beq_eq_false_iff_ne.mpr h.1]
    exact ih h.2

theorem statPut_append {a b : List (Nat × (Nat × Nat))} {n : Nat} {v w : Nat × Nat}
    (h : n ∉ a.map (·.1)) : statPut (a ++ (n, v) :: b) n w = a ++ (n, w) :: b := by
  induction a with
  | nil => simp [statPut]
  | cons x l ih =>
    obtain ⟨m, y⟩ := x
    simp only [List.map_cons, List.mem_cons, not_or] at h
    simp [statPut, Ne.symm h.1, ih h.2]

theorem statFollow_ok : ∀ (l a b : List (Nat × (Nat × Nat))),
    ((a ++ l).map (·.1)).Nodup → b.map (·.1) <+: l.map (·.1) → statFollow l (a ++ b) = a ++ l
  | [], a, b, _, h => by
    have : b = [] := by simpa using h
    rw [this]; rfl
  | (n, v) :: l, a, b, hd, h => by
    have hn : n ∉ a.map (·.1) := by
      intro hm
      rw [List.map_append, List.nodup_append] at hd
      exact hd.2.2 n hm n (by simp) rfl
    have hd' : (((a ++ [(n, v)]) ++ l).map (·.1)).Nodup := by
      rw [List.append_assoc]; exact hd
    simp only [statFollow]
    cases b with
    | nil =>
      rw [List.append_nil, lookup_none hn]
      simp only [Option.isSome_none, Bool.false_eq_true, if_false]
      have := statFollow_ok l (a ++ [(n, v)]) [] hd' (by simp)
      rw [List.append_nil] at this
      rw [this]; simp
    | cons y b =>
      obtain ⟨m, w⟩ := y
      simp only [List.map_cons, List.cons_prefix_cons] at h
      obtain ⟨e, h⟩ := h
      subst e
      rw [lookup_append_some hn]
      simp only [Option.isSome_some, if_true]
      rw [statPut_append hn]
      have := statFollow_ok l (a ++ [(m, v)]) b hd' h
      simpa using this

/-! ### Components -/

theorem Data.follow_ok {s c : Data} (g : GoodObj s.obj) (h : nearData (c.open_ = true) s c) :
    ∃ d, s.follow c = (d, true) ∧ d.norm = s.norm ∧ d.open_ = c.open_ ∧ d.mute = c.mute := by
  obtain ⟨h1, h2, h3, h4, h5⟩ := h
  obtain ⟨o, o1, o2⟩ := Obj.follow_ok g c.open_ h5
  refine ⟨s.followRest { c with obj := o }, ?_, ?_, rfl, rfl⟩
  · unfold Data.follow; rw [o1]; rfl
  · have := statFollow_ok s.stat [] c.stat (by simpa using h4) h3
    simp only [List.nil_append] at this
    unfold Data.norm Data.followRest
    dsimp only
    rw [o2, this, h1, h2]

namespace Forest

/-- Two lists of items. -/
def app : Forest → Forest → Forest
  | nil, x => x
  | cons k d i r, x => cons k d i (r.app x)

theorem itemsHaving_eq (l : List Nat) (f : Forest) : itemsHaving l f = f.keep l := by
  induction f with
  | nil => rfl
  | cons k d i r _ ih => simp [itemsHaving, keep, ih]

theorem get_keep {f : Forest} {l : List Nat} {k : Nat} (h : k ∈ l) : (f.keep l).get k = f.get k := by
  induction f with
  | nil => rfl
  | cons m d i r _ ih =>
    by_cases hm : m ∈ l
    · rw [keep, if_pos (by simpa using hm)]
      simp [get, ih]
    · rw [keep, if_neg (by simpa using hm)]
      have : m ≠ k := fun e => hm (e ▸ h)
      simp [get, this, ih]

theorem keep_set {f : Forest} {l : List Nat} {k : Nat} (h : k ∈ l) (c : Comp) :
    (f.set k c).keep l = (f.keep l).set k c := by
  induction f with
  | nil => rfl
  | cons m d i r _ ih =>
    by_cases e : m = k
    · subst e
      rw [set, if_pos rfl, keep, if_pos (by simpa using h), keep, if_pos (by simpa using h), set,
        if_pos rfl]
    · rw [set, if_neg e]
      by_cases hm : m ∈ l
      · rw [keep, if_pos (by simpa using hm), keep, if_pos (by simpa using hm), set, if_neg e, ih]
      · rw [keep, if_neg (by simpa using hm), keep, if_neg (by simpa using hm), ih]

theorem keep_add {f : Forest} {l : List Nat} {k : Nat} (h : k ∈ l) (c : Comp) :
    (f.add k c).keep l = (f.keep l).app (cons k c.1 c.2 nil) := by
  induction f with
  | nil =>
    show (cons k c.1 c.2 nil).keep l = cons k c.1 c.2 nil
    rw [keep, if_pos (by simpa using h)]; rfl
  | cons m d i r _ ih =>
    rw [add]
    by_cases hm : m ∈ l
    · rw [keep, if_pos (by simpa using hm), keep, if_pos (by simpa using hm), ih]; rfl
    · rw [keep, if_neg (by simpa using hm), keep, if_neg (by simpa using hm), ih]

theorem get_app {a : Forest} {k : Nat} (h : k ∉ a.ids) (x : Forest) : (a.app x).get k = x.get k := by
  induction a with
  | nil => rfl
  | cons m d i r _ ih =>
    simp only [ids, List.mem_cons, not_or] at h
    simp [app, get, Ne.symm h.1, ih h.2]

theorem set_app {a : Forest} {k : Nat} (h : k ∉ a.ids) (x : Forest) (c : Comp) :
    (a.app x).set k c = a.app (x.set k c) := by
  induction a with
  | nil => rfl
  | cons m d i r _ ih =>
    simp only [ids, List.mem_cons, not_or] at h
    simp [app, set, Ne.symm h.1, ih h.2]

theorem app_assoc (a b c : Forest) : (a.app b).app c = a.app (b.app c) := by
  induction a with
  | nil => rfl
  | cons m d i r _ ih => simp [app, ih]

theorem ids_app (a b : Forest) : (a.app b).ids = a.ids ++ b.ids := by
  induction a with
  | nil => rfl
  | cons m d i r _ ih => simp [app, ids, ih]

theorem app_nil (a : Forest) : a.app nil = a := by
  induction a with
  | nil => rfl
  | cons m d i r _ ih => simp [app, ih]

theorem follow_ok (s : Forest) : ∀ (S : List Nat) (A K c : Forest), c.keep S = A.app K →
    (∀ k ∈ s.ids, k ∈ S) → (∀ k ∈ s.ids, k ∉ A.ids) → nearItems s K → Good s →
    ∃ c', s.follow c = (c', true) ∧ ∃ B, c'.keep S = A.app B ∧ B.norm = s.norm := by
  induction s with
  | nil =>
    intro S A K c h _ _ hk _
    cases K with
    | nil => exact ⟨c, rfl, nil, h, rfl⟩
    | cons k d i r => exact hk.elim
  | cons k d i r ihi ihr =>
    intro S A K c h hS hA hk g
    have hkS : k ∈ S := hS k (by simp [ids])
    have hkA : k ∉ A.ids := hA k (by simp [ids])
    have hget : c.get k = K.get k := by rw [← get_keep hkS, h, get_app hkA]
    have gk := g.2.2.1
    rw [itemIds_eq] at gk
    have fin : ∀ (c1 : Forest) (x : Comp) (K' : Forest),
        c1.keep S = (A.app (cons k x.1 x.2 nil)).app K' → Comp.norm x = Comp.norm (d, i) →
        nearItems r K' →
        ∃ c', r.follow c1 = (c', true) ∧ ∃ B, c'.keep S = A.app B ∧ B.norm = (cons k d i r).norm := by
      intro c1 x K' h1 h2 h3
      obtain ⟨c', r1, B, r2, r3⟩ := ihr S (A.app (cons k x.1 x.2 nil)) K' c1 h1
        (fun m hm => hS m (by simp [ids, hm]))
        (fun m hm => by
          rw [ids_app, List.mem_append]
          rintro (hh | hh)
          · exact hA m (by simp [ids, hm]) hh
          · simp only [ids, List.mem_singleton] at hh
            exact gk (hh ▸ hm)) h3 g.2.2.2
      refine ⟨c', r1, cons k x.1 x.2 B, ?_, ?_⟩
      · rw [r2, app_assoc]; rfl
      · have n1 : x.1.norm = d.norm := congrArg Prod.fst h2
        have n2 : x.2.norm = i.norm := congrArg Prod.snd h2
        simp only [norm, n1, n2, r3]
    simp only [Forest.follow]
    cases K with
    | nil =>
      rw [hget]
      simp only [get]
      obtain ⟨x, l1, l2, _⟩ := Comp.load_ok (c := (d, i)) g.1 g.2.1
      rw [l1]
      dsimp only
      apply fin _ x nil
      · rw [keep_add hkS, h, app_nil, app_nil]
      · exact l2
      · exact hk
    | cons m x y K' =>
      obtain ⟨e, ho, hd, hi, hr⟩ := hk
      subst e
      rw [hget]
      simp only [get, if_true]
      obtain ⟨d', f1, f2, _⟩ := Data.follow_ok (s := d) (c := x) g.1 (by rw [ho]; simpa using hd)
      rw [itemsHaving_eq, itemIds_eq] at hi
      obtain ⟨y', f3, B, f4, f5⟩ := ihi i.ids nil (y.keep i.ids) y rfl (fun _ h => h)
        (by simp [ids]) hi g.2.1
      rw [f1]
      simp only [if_true, f3]
      apply fin _ (d', y'.keep i.ids) K'
      · rw [keep_set hkS, h, set_app hkA]
        simp only [set, if_true]
        rw [app_assoc]; rfl
      · show (d'.norm, (y'.keep i.ids).norm) = (d.norm, i.norm)
        rw [f2, f4]
        show (d.norm, B.norm) = _
        rw [f5]
      · exact hr

end Forest

theorem Comp.updateEnd_ok {s c : Comp} (g1 : GoodObj s.1.obj) (g2 : Good s.2)
    (h1 : nearData True s.1 c.1) (h2 : nearItems s.2 (itemsHaving (itemIds s.2) c.2)) :
    Comp.norm (Comp.updateEnd s c) = Comp.norm s ∧ (Comp.updateEnd s c).1.open_ = false ∧
    (Comp.updateEnd s c).1.mute = c.1.mute := by
  obtain ⟨d', f1, f2, f3, f4⟩ := Data.follow_ok (s := s.1)
    (c := { c.1 with open_ := true, mute := true }) g1 (by
      show nearData (true = true) _ _
      simpa using show nearData True s.1 { c.1 with open_ := true, mute := true } from h1)
  rw [Forest.itemsHaving_eq, Forest.itemIds_eq] at h2
  obtain ⟨y', f5, B, f6, f7⟩ := Forest.follow_ok s.2 s.2.ids .nil (c.2.keep s.2.ids) c.2 rfl
    (fun _ h => h) (by simp [Forest.ids]) h2 g2
  unfold Comp.updateEnd Comp.follow
  rw [f1]
  simp only [if_true, f5]
  refine ⟨?_, trivial, trivial⟩
  show (Data.norm _, (y'.keep s.2.ids).norm) = (s.1.norm, s.2.norm)
  rw [f6]
  show (Data.norm _, B.norm) = _
  rw [f7, ← f2]
  rfl

end Verif.Remote
