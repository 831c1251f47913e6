import Verif.Refs.Spec

/-!
# Lemmas about references
-/

namespace Verif.Refs

open Verif

variable {V : Type} [DecidableEq V] {decl : Nat → Decl V}

/-- Properties stand under their own names and only existing ones have values. -/
structure Ok (decl : Nat → Decl V) (w : World V) : Prop where
  named : ∀ o n p, (w.obj o).props.get n = some p → (decl p).name = n
  live : ∀ o n v, (w.obj o).values.get n = some v → ((w.obj o).props.get n).isSome

theorem obj_putObj (w : World V) (o o' : Nat) (x : Obj V) :
    (w.putObj o x).obj o' = if o' = o then x else w.obj o' := by
  unfold World.putObj World.obj
  dsimp only
  rw [AList.get_put]
  by_cases h : o' = o
  · rw [if_pos h, if_pos h]; rfl
  · rw [if_neg h, if_neg h]

theorem obj_owner (w : World V) (s : AList Nat Nat) (o : Nat) : ({ w with owner := s } : World V).obj o = w.obj o := rfl

theorem hookUp_props (x : Obj V) (d : Decl V) : (x.hookUp d).props = x.props := by
  unfold Obj.hookUp; split <;> rfl

theorem hookUp_values (x : Obj V) (d : Decl V) : (x.hookUp d).values = x.values := by
  unfold Obj.hookUp; split <;> rfl

/-- What an addition leads to. -/
theorem add_cases (w : World V) (o p : Nat) :
    ((w.obj o).hasDuplicate decl p = true ∧ w.add decl o p = (w, .err .duplicateReference)) ∨
    ((w.obj o).hasDuplicate decl p = false ∧ w.owner.has p = true ∧ w.add decl o p = (w, .err .ownerAssigned)) ∨
    ((w.obj o).hasDuplicate decl p = false ∧ w.owner.has p = false ∧ (w.obj o).has (decl p).name = true ∧
      w.add decl o p = ({ w with owner := w.owner.put p o }, .err .alreadyExists)) ∨
    ((w.obj o).hasDuplicate decl p = false ∧ w.owner.has p = false ∧ (w.obj o).has (decl p).name = false ∧
      w.add decl o p = (({ w with owner := w.owner.put p o } : World V).putObj o
        (({ w.obj o with props := ((decl p).name, p) :: (w.obj o).props } : Obj V).hookUp (decl p)), .ok ())) := by
  unfold World.add
  cases h1 : (w.obj o).hasDuplicate decl p with
  | true => exact .inl ⟨rfl, by simp⟩
  | false =>
    cases h2 : w.owner.has p with
    | true => exact .inr (.inl ⟨rfl, rfl, by simp⟩)
    | false =>
      cases h3 : (w.obj o).has (decl p).name with
      | true => exact .inr (.inr (.inl ⟨rfl, rfl, rfl, by simp⟩))
      | false => exact .inr (.inr (.inr ⟨rfl, rfl, rfl, by simp⟩))

/-- What a write or a clear leads to: only values change, and only those of one existing plain property. -/
theorem through_cases (w : World V) (d o : Nat) (n : Name) (act : Obj V → Nat → Out (Obj V × List Nat)) :
    (w.through decl d o n act).1 = w ∨
    ∃ p x hs, resolve decl (w.obj o) d n = .ok p ∧ act (w.obj o) p = .ok (x, hs) ∧
      w.through decl d o n act = (w.putObj o x, .ok hs) := by
  unfold World.through
  cases h : resolve decl (w.obj o) d n with
  | overflow => exact .inl rfl
  | err e => exact .inl rfl
  | ok p =>
    dsimp only
    cases h2 : act (w.obj o) p with
    | overflow => exact .inl rfl
    | err e => exact .inl rfl
    | ok r => exact .inr ⟨p, r.1, r.2, rfl, h2, rfl⟩

theorem write_ok {x : Obj V} {p : Nat} {v : V} {y : Obj V} {hs : List Nat} (h : x.write decl p v = .ok (y, hs)) :
    (decl p).readOnly = false ∧
    ((x.value decl p = v ∧ y = x ∧ hs = []) ∨
     (x.value decl p ≠ v ∧ y = { x with values := x.values.put (decl p).name v } ∧ hs = x.heard (decl p).name)) := by
  unfold Obj.write at h
  cases hr : (decl p).readOnly with
  | true => rw [hr] at h; cases h
  | false =>
    rw [hr, if_neg (by decide)] at h
    refine ⟨rfl, ?_⟩
    by_cases e : x.value decl p = v
    · rw [if_pos e] at h; cases h; exact .inl ⟨e, rfl, rfl⟩
    · rw [if_neg e] at h; cases h; exact .inr ⟨e, rfl, rfl⟩

theorem clear_ok {x : Obj V} {p : Nat} {y : Obj V} {hs : List Nat} (h : x.clear decl p = .ok (y, hs)) :
    (decl p).readOnly = false ∧
    ((x.values.get (decl p).name = none ∧ y = x ∧ hs = []) ∨
     ((x.values.get (decl p).name).isSome = true ∧ y = { x with values := x.values.del (decl p).name } ∧
       hs = x.heard (decl p).name)) := by
  unfold Obj.clear at h
  cases hr : (decl p).readOnly with
  | true => rw [hr] at h; cases h
  | false =>
    rw [hr, if_neg (by decide)] at h
    refine ⟨rfl, ?_⟩
    cases e : x.values.has (decl p).name with
    | true =>
      rw [e, if_pos rfl] at h; cases h
      exact .inr ⟨e, rfl, rfl⟩
    | false =>
      rw [e, if_neg (by decide)] at h; cases h
      refine .inl ⟨?_, rfl, rfl⟩
      unfold AList.has at e
      cases hg : x.values.get (decl p).name with
      | none => rfl
      | some v => rw [hg] at e; cases e

/-- The property found for a name is an existing plain one. -/
theorem resolve_plain {x : Obj V} : ∀ {d : Nat} {n : Name} {p : Nat}, resolve decl x d n = .ok p →
    (decl p).ref = none ∧ ∃ m, x.props.get m = some p
  | 0, _, _, h => by cases h
  | d + 1, n, p, h => by
    unfold resolve at h
    cases hp : x.props.get n with
    | none => rw [hp] at h; cases h
    | some q =>
      rw [hp] at h
      dsimp only at h
      cases hr : (decl q).ref with
      | none => rw [hr] at h; cases h; exact ⟨hr, n, hp⟩
      | some r =>
        rw [hr] at h
        dsimp only at h
        cases hc : choose x (fun c => (resolve decl x d c).map (x.value decl)) r with
        | overflow => rw [hc] at h; cases h
        | err e => rw [hc] at h; cases h
        | ok m => rw [hc] at h; exact resolve_plain h

theorem choose_mono {x : Obj V} {g g' : Name → Out V} (hg : ∀ c, g c ≠ .overflow → g' c = g c) (r : Ref V)
    (h : choose x g r ≠ .overflow) : choose x g' r = choose x g r := by
  cases r with
  | to m => rfl
  | switch c cs other =>
    unfold choose at h ⊢
    dsimp only at h ⊢
    have hc : g c ≠ .overflow := by
      intro e; rw [e] at h; exact h rfl
    rw [hg c hc]

/-- A larger stack does not change a result. -/
theorem resolve_succ {x : Obj V} : ∀ {d : Nat} {n : Name}, resolve decl x d n ≠ .overflow →
    resolve decl x (d + 1) n = resolve decl x d n
  | 0, _, h => absurd rfl h
  | d + 1, n, h => by
    have e1 : resolve decl x (d + 1) n = (match x.props.get n with
      | none => .err .notFound
      | some p => match (decl p).ref with
        | none => .ok p
        | some r => match choose x (fun c => (resolve decl x d c).map (x.value decl)) r with
          | .overflow => .overflow
          | .err e => .err e
          | .ok m => resolve decl x d m) := rfl
    have e2 : resolve decl x (d + 1 + 1) n = (match x.props.get n with
      | none => .err .notFound
      | some p => match (decl p).ref with
        | none => .ok p
        | some r => match choose x (fun c => (resolve decl x (d + 1) c).map (x.value decl)) r with
          | .overflow => .overflow
          | .err e => .err e
          | .ok m => resolve decl x (d + 1) m) := rfl
    rw [e1] at h ⊢
    rw [e2]
    cases hp : x.props.get n with
    | none => rfl
    | some p =>
      rw [hp] at h
      dsimp only at h ⊢
      cases hr : (decl p).ref with
      | none => rfl
      | some r =>
        rw [hr] at h
        dsimp only at h ⊢
        have hc : choose x (fun c => (resolve decl x d c).map (x.value decl)) r ≠ .overflow := by
          intro e; rw [e] at h; exact h rfl
        have hm : choose x (fun c => (resolve decl x (d + 1) c).map (x.value decl)) r =
            choose x (fun c => (resolve decl x d c).map (x.value decl)) r := by
          refine choose_mono ?_ r hc
          intro c hn
          have : resolve decl x d c ≠ .overflow := by
            intro e; apply hn; rw [e]; rfl
          rw [resolve_succ this]
        rw [hm]
        cases hq : choose x (fun c => (resolve decl x d c).map (x.value decl)) r with
        | overflow => rfl
        | err e => rfl
        | ok m =>
          rw [hq] at h
          exact resolve_succ h

theorem resolve_le {x : Obj V} {d d' : Nat} {n : Name} (hd : d ≤ d') (h : resolve decl x d n ≠ .overflow) :
    resolve decl x d' n = resolve decl x d n := by
  induction hd with
  | refl => rfl
  | step _ ih => rw [resolve_succ (by rw [ih]; exact h), ih]

theorem pick_iff (v : V) : ∀ (cs : List (V × Name)) (other : Option Name) (m : Name),
    pick v cs other = some m ↔ Spec.Selects v cs other m
  | [], other, m => by
    constructor
    · intro h
      change other = some m at h
      subst h
      exact .other m
    · intro h; cases h; rfl
  | (k, m') :: cs, other, m => by
    change (if v = k then some m' else pick v cs other) = some m ↔ _
    by_cases e : v = k
    · rw [if_pos e]
      subst e
      constructor
      · intro h; cases h; exact .first _ _ _
      · intro h
        cases h with
        | first => rfl
        | later _ _ _ _ _ hn _ => exact absurd rfl hn
    · rw [if_neg e, pick_iff v cs other m]
      constructor
      · intro h; exact .later _ _ _ _ _ (fun e' => e e'.symm) h
      · intro h
        cases h with
        | first => exact absurd rfl e
        | later _ _ _ _ _ _ h => exact h

theorem prop_eq (w : World V) (o : Nat) (n : Name) : Spec.prop decl w o n = ((w.obj o).props.get n).map decl := rfl

theorem stored_eq (w : World V) (o : Nat) (n : Name) : Spec.stored w o n = (w.obj o).values.get n := rfl

theorem has_iff_prop (w : World V) (o : Nat) (n : Name) :
    (w.obj o).has n = true ↔ (Spec.prop decl w o n).isSome := by
  rw [prop_eq, Option.isSome_map]; rfl

theorem choose_ok {w : World V} {o : Nat} {g : Name → Out V} {r : Ref V} {m : Name}
    (h : choose (w.obj o) g r = .ok m) :
    (r = .to m ∧ (Spec.prop decl w o m).isSome) ∨
    ∃ c cs other v, r = .switch c cs other ∧ g c = .ok v ∧ Spec.Selects v cs other m ∧
      (∀ e ∈ cs, (Spec.prop decl w o e.2).isSome) ∧ ∀ e, other = some e → (Spec.prop decl w o e).isSome := by
  cases r with
  | to m' =>
    change (if (w.obj o).has m' = true then Out.ok m' else .err .unresolved) = .ok m at h
    by_cases hh : (w.obj o).has m' = true
    · rw [if_pos hh] at h
      cases h; exact .inl ⟨rfl, (has_iff_prop w o _).mp hh⟩
    · rw [if_neg hh] at h; cases h
  | switch c cs other =>
    unfold choose at h
    dsimp only at h
    cases hc : g c with
    | overflow => rw [hc] at h; cases h
    | err e => rw [hc] at h; cases h
    | ok v =>
      rw [hc] at h
      dsimp only at h
      split at h
      · rename_i ha
        rw [Bool.and_eq_true] at ha
        cases hp : pick v cs other with
        | none => rw [hp] at h; cases h
        | some m' =>
          rw [hp] at h; cases h
          refine .inr ⟨c, cs, other, v, rfl, hc, (pick_iff v cs other m).mp hp, ?_, ?_⟩
          · intro e he
            exact (has_iff_prop w o _).mp (List.all_eq_true.mp ha.1 e he)
          · intro e he
            subst he
            exact (has_iff_prop w o _).mp (List.all_eq_true.mp ha.2 e (by simp))
      · cases h

theorem choose_switch {w : World V} {o : Nat} {g : Name → Out V} {c : Name} {cs : List (V × Name)}
    {other : Option Name} {v : V} {m : Name} (hg : g c = .ok v) (hs : Spec.Selects v cs other m)
    (h1 : ∀ e ∈ cs, (Spec.prop decl w o e.2).isSome) (h2 : ∀ e, other = some e → (Spec.prop decl w o e).isSome) :
    choose (w.obj o) g (.switch c cs other) = .ok m := by
  unfold choose
  dsimp only
  rw [hg]
  dsimp only
  have ha : ((cs.all fun e => (w.obj o).has e.2) && (other.toList.all fun m => (w.obj o).has m)) = true := by
    rw [Bool.and_eq_true]
    refine ⟨List.all_eq_true.mpr fun e he => (has_iff_prop w o _).mpr (h1 e he),
      List.all_eq_true.mpr fun e he => (has_iff_prop w o _).mpr (h2 e ?_)⟩
    cases other with
    | none => cases he
    | some e' => simp at he; rw [he]
  rw [if_pos ha, (pick_iff v cs other m).mpr hs]

theorem reads_of {w : World V} {o : Nat} (hw : Ok decl w) {n m : Name} {p : Nat}
    (hl : Spec.Leads decl w o n m) (hm : (w.obj o).props.get m = some p) :
    Spec.Reads decl w o n ((w.obj o).value decl p) := by
  have hn := hw.named o m p hm
  unfold Obj.value
  rw [hn]
  cases hv : (w.obj o).values.get m with
  | some v => exact .stored n m v hl hv
  | none => exact .dflt n m (decl p) hl hv (by rw [prop_eq, hm]; rfl)

/-- What is found is what the name stands for. -/
theorem resolve_sound {w : World V} (hw : Ok decl w) {o : Nat} : ∀ {d : Nat} {n : Name} {p : Nat},
    resolve decl (w.obj o) d n = .ok p →
      (w.obj o).props.get (decl p).name = some p ∧ Spec.Leads decl w o n (decl p).name
  | 0, _, _, h => by cases h
  | d + 1, n, p, h => by
    unfold resolve at h
    cases hp : (w.obj o).props.get n with
    | none => rw [hp] at h; cases h
    | some q =>
      have hq : Spec.prop decl w o n = some (decl q) := by rw [prop_eq, hp]; rfl
      rw [hp] at h
      dsimp only at h
      cases hr : (decl q).ref with
      | none =>
        rw [hr] at h; cases h
        have hn := hw.named o n p hp
        rw [hn]
        exact ⟨hp, .plain n _ hq hr⟩
      | some r =>
        rw [hr] at h
        dsimp only at h
        cases hc : choose (w.obj o) (fun c => (resolve decl (w.obj o) d c).map ((w.obj o).value decl)) r with
        | overflow => rw [hc] at h; cases h
        | err e => rw [hc] at h; cases h
        | ok m =>
          rw [hc] at h
          obtain ⟨hg, hl⟩ := resolve_sound hw h
          refine ⟨hg, ?_⟩
          rcases choose_ok (decl := decl) hc with ⟨e, _⟩ | ⟨c, cs, other, v, e, hv, hs, h1, h2⟩
          · exact .to n m _ _ hq (by rw [hr, e]) hl
          · cases hrc : resolve decl (w.obj o) d c with
            | overflow => rw [hrc] at hv; cases hv
            | err e => rw [hrc] at hv; cases hv
            | ok k =>
              rw [hrc] at hv
              change Out.ok _ = Out.ok _ at hv
              obtain ⟨hk, hlk⟩ := resolve_sound hw hrc
              have hread := reads_of hw hlk hk
              rw [Out.ok.inj hv] at hread
              exact .switch n c m _ _ v cs other hq (by rw [hr, e]) hread hs h1 h2 hl

theorem resolve_ref {x : Obj V} {d : Nat} {n m : Name} {p : Nat} {r : Ref V} (hp : x.props.get n = some p)
    (hr : (decl p).ref = some r) (hc : choose x (fun c => (resolve decl x d c).map (x.value decl)) r = .ok m) :
    resolve decl x (d + 1) n = resolve decl x d m := by
  have e1 : resolve decl x (d + 1) n = (match x.props.get n with
    | none => .err .notFound
    | some p => match (decl p).ref with
      | none => .ok p
      | some r => match choose x (fun c => (resolve decl x d c).map (x.value decl)) r with
        | .overflow => .overflow
        | .err e => .err e
        | .ok m => resolve decl x d m) := rfl
  rw [e1, hp]
  dsimp only
  rw [hr]
  dsimp only
  rw [hc]

theorem resolve_here {x : Obj V} {d : Nat} {n : Name} {p : Nat} (hp : x.props.get n = some p)
    (hr : (decl p).ref = none) : resolve decl x (d + 1) n = .ok p := by
  unfold resolve
  rw [hp]
  dsimp only
  rw [hr]

theorem leads_end {w : World V} {o : Nat} {n m : Name} (h : Spec.Leads decl w o n m) :
    ∃ p, (w.obj o).props.get m = some p ∧ (decl p).ref = none := by
  match h with
  | .plain n p hp hr =>
    rw [prop_eq] at hp
    cases hg : (w.obj o).props.get n with
    | none => rw [hg] at hp; cases hp
    | some q => rw [hg] at hp; cases hp; exact ⟨q, rfl, hr⟩
  | .to _ _ _ _ _ _ h => exact leads_end h
  | .switch _ _ _ _ _ _ _ _ _ _ _ _ _ _ h => exact leads_end h

mutual
/-- With enough stack what a name stands for is found. -/
theorem resolve_complete {w : World V} (hw : Ok decl w) {o : Nat} {n m : Name} (h : Spec.Leads decl w o n m) :
    ∃ d p, resolve decl (w.obj o) d n = .ok p ∧ (w.obj o).props.get m = some p := by
  match h with
  | .plain n p hp hr =>
    rw [prop_eq] at hp
    cases hg : (w.obj o).props.get n with
    | none => rw [hg] at hp; cases hp
    | some q => rw [hg] at hp; cases hp; exact ⟨1, q, resolve_here hg hr, rfl⟩
  | .to n k m p hp hr hl =>
    obtain ⟨d, q, hd, hq⟩ := resolve_complete hw hl
    rw [prop_eq] at hp
    cases hg : (w.obj o).props.get n with
    | none => rw [hg] at hp; cases hp
    | some i =>
      rw [hg] at hp; cases hp
      refine ⟨d + 1, q, ?_, hq⟩
      rw [resolve_ref hg hr (m := k), hd]
      unfold choose
      dsimp only
      have : (w.obj o).has k = true := by
        cases d with
        | zero => cases hd
        | succ d =>
          unfold resolve at hd
          cases hk : (w.obj o).props.get k with
          | none => rw [hk] at hd; cases hd
          | some j => unfold Obj.has AList.has; rw [hk]; rfl
      rw [if_pos this]
  | .switch n c k m p v cs other hp hr hread hs h1 h2 hl =>
    obtain ⟨d, q, hd, hq⟩ := resolve_complete hw hl
    obtain ⟨d', hd'⟩ := read_complete hw hread
    rw [prop_eq] at hp
    cases hg : (w.obj o).props.get n with
    | none => rw [hg] at hp; cases hp
    | some i =>
      rw [hg] at hp; cases hp
      refine ⟨max d d' + 1, q, ?_, hq⟩
      have hn' : resolve decl (w.obj o) d' c ≠ .overflow := by
        intro e; unfold read at hd'; rw [e] at hd'; cases hd'
      have e' : (resolve decl (w.obj o) (max d d') c).map ((w.obj o).value decl) = .ok v := by
        rw [resolve_le (Nat.le_max_right d d') hn']; exact hd'
      rw [resolve_ref hg hr (m := k) (choose_switch (decl := decl) e' hs h1 h2),
        resolve_le (Nat.le_max_left d d') (by rw [hd]; intro e; cases e), hd]

theorem read_complete {w : World V} (hw : Ok decl w) {o : Nat} {n : Name} {v : V} (h : Spec.Reads decl w o n v) :
    ∃ d, read decl (w.obj o) d n = .ok v := by
  match h with
  | .stored n m v hl hs =>
    obtain ⟨d, p, hd, hp⟩ := resolve_complete hw hl
    refine ⟨d, ?_⟩
    unfold read
    rw [hd]
    change Out.ok _ = _
    unfold Obj.value
    rw [hw.named o m p hp, ← stored_eq, hs]
    rfl
  | .dflt n m q hl hs hq =>
    obtain ⟨d, p, hd, hp⟩ := resolve_complete hw hl
    refine ⟨d, ?_⟩
    unfold read
    rw [hd]
    change Out.ok _ = _
    unfold Obj.value
    rw [hw.named o m p hp, ← stored_eq, hs]
    rw [prop_eq, hp] at hq
    cases hq
    rfl
end

end Verif.Refs
