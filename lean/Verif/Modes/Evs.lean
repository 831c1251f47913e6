import Verif.Modes.Settle
/-!
# What can be seen of a recursive call
-/

namespace Verif.Modes

open Spec

theorem mem_each (f : Comp → Res Comp) (e : Ev) : ∀ l : Kids, (l.each f).code = .ok →
    (e ∈ (l.each f).evs ↔ ∃ k d, l.get k = some d ∧ d.info.attached = true ∧ e ∈ (f d).evs)
  | .nil, _ => by simp [Kids.each, Kids.get]
  | .cons c l, h => by
    have ih := mem_each f e l
    unfold Kids.each at h ⊢
    by_cases ha : c.info.attached = true
    · simp only [ha, if_true] at h ⊢
      by_cases hf : (f c).code = .failed
      · simp [hf] at h
      · simp only [hf, if_false, List.mem_append] at h ⊢
        rw [ih h]
        constructor
        · rintro (h | ⟨k, d, hk, hd, hm⟩)
          · exact ⟨0, c, rfl, ha, h⟩
          · exact ⟨k + 1, d, hk, hd, hm⟩
        · rintro ⟨k, d, hk, hd, hm⟩
          cases k with
          | zero => simp only [Kids.get, Option.some.injEq] at hk; subst hk; exact .inl hm
          | succ k => exact .inr ⟨k, d, hk, hd, hm⟩
    · simp only [ha] at h ⊢
      simp only [Bool.false_eq_true, if_false] at h ⊢
      rw [ih h]
      constructor
      · rintro ⟨k, d, hk, hd, hm⟩; exact ⟨k + 1, d, hk, hd, hm⟩
      · rintro ⟨k, d, hk, hd, hm⟩
        cases k with
        | zero => simp only [Kids.get, Option.some.injEq] at hk; subst hk; exact absurd hd ha
        | succ k => exact ⟨k, d, hk, hd, hm⟩

theorem mem_subs (f : Comp → Res Comp) (e : Ev) : ∀ l : Kids, (l.subs f).code = .ok →
    (e ∈ (l.subs f).evs ↔ ∃ k d, l.get k = some d ∧ (d.info.attached = true ∧ d.info.kind = .devices) ∧
      e ∈ (d.kids.each f).evs)
  | .nil, _ => by simp [Kids.subs, Kids.get]
  | .cons c l, h => by
    have ih := mem_subs f e l
    unfold Kids.subs at h ⊢
    by_cases ha : c.info.attached = true ∧ c.info.kind = .devices
    · rw [if_pos ha] at h ⊢
      by_cases hf : (c.kids.each f).code = .failed
      · simp [hf] at h
      · simp only [hf, if_false, List.mem_append] at h ⊢
        rw [ih h]
        constructor
        · rintro (h | ⟨k, d, hk, hd, hm⟩)
          · exact ⟨0, c, rfl, ha, h⟩
          · exact ⟨k + 1, d, hk, hd, hm⟩
        · rintro ⟨k, d, hk, hd, hm⟩
          cases k with
          | zero => simp only [Kids.get, Option.some.injEq] at hk; subst hk; exact .inl hm
          | succ k => exact .inr ⟨k, d, hk, hd, hm⟩
    · rw [if_neg ha] at h ⊢
      simp only at h ⊢
      rw [ih h]
      constructor
      · rintro ⟨k, d, hk, hd, hm⟩; exact ⟨k + 1, d, hk, hd, hm⟩
      · rintro ⟨k, d, hk, hd, hm⟩
        cases k with
        | zero => simp only [Kids.get, Option.some.injEq] at hk; subst hk; exact absurd hd ha
        | succ k => exact ⟨k, d, hk, hd, hm⟩

mutual
theorem mem_hearers (t : Nat) : ∀ c : Comp, NoDev c →
    (t ∈ hearers c ↔ ∃ p d, c.at p = some d ∧ hears c p = true ∧ d.info.tag = t)
  | .mk i kids, hn => by
    have h := mem_hearersAll t kids (fun k d hk ha => hn.kid (c := .mk i kids) hk ha)
    unfold hearers
    rw [List.mem_cons, h]
    constructor
    · rintro (h | ⟨k, p, c, d, hk, ha, hp, hh, ht⟩)
      · exact ⟨[], _, rfl, rfl, h.symm⟩
      · exact ⟨k :: p, d, by simp [at_cons, kids_mk, hk, hp], by simp [hears, hn.self, kids_mk, hk, ha, hh], ht⟩
    · rintro ⟨p, d, hp, hh, ht⟩
      cases p with
      | nil => simp [at_nil] at hp; subst hp; exact .inl ht.symm
      | cons k p =>
        simp only [at_cons, kids_mk] at hp
        cases e : kids.get k with
        | none => simp [e] at hp
        | some c =>
          simp only [e, Option.bind_some] at hp
          simp only [hears, kids_mk, e, Bool.and_eq_true] at hh
          exact .inr ⟨k, p, c, d, e, hh.2.1, hp, hh.2.2, ht⟩
theorem mem_hearersAll (t : Nat) : ∀ l : Kids,
    (∀ k d, l.get k = some d → d.info.attached = true → NoDev d) →
    (t ∈ hearersAll l ↔ ∃ k p c d, l.get k = some c ∧ c.info.attached = true ∧ c.at p = some d ∧
      hears c p = true ∧ d.info.tag = t)
  | .nil, _ => by simp [hearersAll, Kids.get]
  | .cons c l, hn => by
    have ih := mem_hearersAll t l (fun k d hk => hn (k + 1) d (by simpa [Kids.get] using hk))
    unfold hearersAll
    rw [List.mem_append, ih]
    constructor
    · rintro (h | ⟨k, p, x, d, hk, hx⟩)
      · split at h
        · rename_i ha
          obtain ⟨p, d, hp⟩ := (mem_hearers t c (hn 0 c rfl ha)).mp h
          exact ⟨0, p, c, d, rfl, ha, hp⟩
        · cases h
      · exact ⟨k + 1, p, x, d, hk, hx⟩
    · rintro ⟨k, p, x, d, hk, ha, hx⟩
      cases k with
      | zero =>
        simp only [Kids.get, Option.some.injEq] at hk
        subst hk
        rw [if_pos ha]
        exact .inl ((mem_hearers t c (hn 0 c rfl ha)).mpr ⟨p, d, hx⟩)
      | succ k => exact .inr ⟨k, p, x, d, hk, ha, hx⟩
end

theorem mem_members (t : Nat) : ∀ l : Kids,
    (∀ k d, l.get k = some d → d.info.attached = true → d.info.kind ≠ .devices → NoDev d) →
    (t ∈ members l ↔ ∃ k p c d, l.get k = some c ∧ (c.info.attached = true ∧ c.info.kind ≠ .devices) ∧
      c.at p = some d ∧ hears c p = true ∧ d.info.tag = t)
  | .nil, _ => by simp [members, Kids.get]
  | .cons c l, hn => by
    have ih := mem_members t l (fun k d hk => hn (k + 1) d (by simpa [Kids.get] using hk))
    unfold members
    rw [List.mem_append, ih]
    constructor
    · rintro (h | ⟨k, p, x, d, hk, hx⟩)
      · split at h
        · rename_i ha
          obtain ⟨p, d, hp⟩ := (mem_hearers t c (hn 0 c rfl ha.1 ha.2)).mp h
          exact ⟨0, p, c, d, rfl, ha, hp⟩
        · cases h
      · exact ⟨k + 1, p, x, d, hk, hx⟩
    · rintro ⟨k, p, x, d, hk, ha, hx⟩
      cases k with
      | zero =>
        simp only [Kids.get, Option.some.injEq] at hk
        subst hk
        rw [if_pos ha]
        exact .inl ((mem_hearers t c (hn 0 c rfl ha.1 ha.2)).mpr ⟨p, d, hx⟩)
      | succ k => exact .inr ⟨k, p, x, d, hk, ha, hx⟩

/-- The events of a call. -/
theorem setMode_evs {c : Comp} {m : Mode} (hs : Shaped c) (hd : IsDevice c) (h : (setMode c m).code = .ok) :
    (setMode c m).evs =
      .told c.info.tag m :: .changed c.info.tag m :: (members c.kids).map (Ev.told · m) := by
  obtain ⟨i, kids, a, b, rfl, hk, _, _, hc, e⟩ := setMode_ok h
  rw [e]
  change _ :: _ :: (setAll kids m).evs = _
  rw [setAll_evs m kids hc (fun k d hk _ hx => device_noDev (c := .mk i kids) hs hd hk hx)]
  rfl

theorem mem_setMode {c : Comp} {m : Mode} (hs : Shaped c) (hd : IsDevice c)
    (h : (setMode c m).code ≠ .failed) (t : Nat) :
    Ev.told t m ∈ (setMode c m).evs ↔ m ∈ offers c ∧
      ∃ p d, c.at p = some d ∧ belongs c p = true ∧ d.info.tag = t := by
  by_cases ho : m ∈ offers c
  · rw [setMode_evs hs hd (setMode_code_of_offers ho h)]
    simp only [List.mem_cons, List.mem_map, Ev.told.injEq, and_true, exists_eq_right, ho, true_and,
      reduceCtorEq, false_or]
    rw [mem_members t c.kids (fun k d hk _ hx => device_noDev hs hd hk hx)]
    constructor
    · rintro (h | ⟨k, p, x, d, hk, ha, hp, hh, ht⟩)
      · exact ⟨[], c, rfl, rfl, h.symm⟩
      · exact ⟨k :: p, d, by simp [at_cons, hk, hp], by simp [belongs, hk, ha.1, ha.2, hh], ht⟩
    · rintro ⟨p, d, hp, hb, ht⟩
      cases p with
      | nil => simp [at_nil] at hp; subst hp; exact .inl ht.symm
      | cons k p =>
        rw [at_cons] at hp
        cases e : c.kids.get k with
        | none => simp [e] at hp
        | some x =>
          simp only [e, Option.bind_some] at hp
          simp only [belongs, e, Bool.and_eq_true, decide_eq_true_eq] at hb
          exact .inr ⟨k, p, x, d, e, hb.1, hp, hb.2, ht⟩
  · rw [setMode_ignored ho]
    simp [ho]

theorem mem_setMode_changed {c : Comp} {m : Mode} (hs : Shaped c) (hd : IsDevice c)
    (h : (setMode c m).code ≠ .failed) (t : Nat) :
    Ev.changed t m ∈ (setMode c m).evs ↔ m ∈ offers c ∧ c.info.tag = t := by
  by_cases ho : m ∈ offers c
  · rw [setMode_evs hs hd (setMode_code_of_offers ho h)]
    simp [ho, eq_comm]
  · rw [setMode_ignored ho]
    simp [ho]

/-- The folders of sub-devices are not changed by the first part of the call. -/
theorem setMode_devices {c : Comp} {m : Mode} (hf : (setMode c m).code ≠ .failed)
    (k : Nat) (d : Comp) :
    (setMode c m).val.kids.get k = some d ∧ (d.info.attached = true ∧ d.info.kind = .devices) ↔
      c.kids.get k = some d ∧ (d.info.attached = true ∧ d.info.kind = .devices) := by
  rw [setMode_kids hf k]
  cases e : c.kids.get k with
  | none => simp
  | some x =>
    simp only [Option.map_some, Option.some.injEq]
    constructor
    · rintro ⟨h, ha⟩
      split at h
      · rename_i hx
        have hk : (tell x m).val.info.kind = x.info.kind := kind_of_erase (tell_erase m x)
        rw [h, ha.2] at hk
        exact absurd hk.symm hx.2.2
      · exact ⟨h, ha⟩
    · rintro ⟨rfl, ha⟩
      exact ⟨by rw [if_neg (by simp [ha.2])], ha⟩

theorem setRec_succ (n : Nat) (c : Comp) (m : Mode) : setRec (n + 1) c m =
    if (setMode c m).code = .failed then setMode c m
    else
      ⟨.mk (setMode c m).val.info ((setMode c m).val.kids.subs (setRec n · m)).val,
        ((setMode c m).val.kids.subs (setRec n · m)).code,
        (setMode c m).evs ++ ((setMode c m).val.kids.subs (setRec n · m)).evs⟩ := rfl

theorem reached_cons (m : Mode) (c : Comp) (k j : Nat) (p : List Nat) : reached m c (k :: j :: p) =
    match c.kids.get k with
    | some d =>
      if d.info.kind = .devices then
        d.info.attached &&
          match d.kids.get j with
          | some e => e.info.attached && reached m e p
          | none => false
      else decide (m ∈ offers c) && belongs c (k :: j :: p)
    | none => false := rfl

theorem mem_setRec (m : Mode) (e : Ev) (n : Nat) (c : Comp) (hc : (setRec (n + 1) c m).code ≠ .failed) :
    e ∈ (setRec (n + 1) c m).evs ↔ e ∈ (setMode c m).evs ∨
      ∃ k d j x, c.kids.get k = some d ∧ (d.info.attached = true ∧ d.info.kind = .devices) ∧
        d.kids.get j = some x ∧ x.info.attached = true ∧ (setRec n x m).code ≠ .failed ∧
        e ∈ (setRec n x m).evs := by
  rw [setRec_succ] at hc ⊢
  split at hc
  · rename_i hf; exact absurd hf hc
  · rename_i hf
    rw [if_neg hf]
    have hsub : ((setMode c m).val.kids.subs (setRec n · m)).code = .ok := by
      rcases subs_code (setRec n · m) (setMode c m).val.kids with e | e
      · exact e
      · exact absurd e hc
    simp only [List.mem_append]
    rw [mem_subs _ _ _ hsub]
    refine or_congr Iff.rfl ⟨?_, ?_⟩
    · rintro ⟨k, d, hk, ha, hm⟩
      have hh := (setMode_devices hf k d).mp ⟨hk, ha⟩
      have heach := subs_kid _ _ hsub k d hk ha
      obtain ⟨j, x, hj, hx, hm⟩ := (mem_each _ _ _ heach).mp hm
      exact ⟨k, d, j, x, hh.1, ha, hj, hx, each_kid _ _ heach j x hj hx, hm⟩
    · rintro ⟨k, d, j, x, hk, ha, hj, hx, _, hm⟩
      have hh := (setMode_devices hf k d).mpr ⟨hk, ha⟩
      exact ⟨k, d, hh.1, ha, (mem_each _ _ _ (subs_kid _ _ hsub k d hh.1 ha)).mpr ⟨j, x, hj, hx, hm⟩⟩

/-- Where the call reaches. -/
theorem reached_iff {m : Mode} {c d : Comp} {p : List Nat} (hp : c.at p = some d) :
    reached m c p = true ↔ (m ∈ offers c ∧ belongs c p = true) ∨
      ∃ k f j x q, p = k :: j :: q ∧ c.kids.get k = some f ∧ (f.info.attached = true ∧ f.info.kind = .devices) ∧
        f.kids.get j = some x ∧ x.info.attached = true ∧ reached m x q = true := by
  match p with
  | [] => simp [reached, belongs]
  | [k] => simp [reached]
  | k :: j :: q =>
    cases ek : c.kids.get k with
    | none => simp [at_cons, ek] at hp
    | some f =>
      cases ej : f.kids.get j with
      | none => simp [at_cons, ek, ej] at hp
      | some x =>
        rw [reached_cons]
        simp only [ek, ej]
        by_cases hk : f.info.kind = .devices
        · rw [if_pos hk]
          constructor
          · intro h
            simp only [Bool.and_eq_true] at h
            exact .inr ⟨k, f, j, x, q, rfl, ek, ⟨h.1, hk⟩, ej, h.2.1, h.2.2⟩
          · rintro (h | ⟨k', f', j', x', q', hq, hf', ha, hj', hx, hr⟩)
            · simp [belongs, ek, hk] at h
            · cases hq
              rw [ek] at hf'; cases hf'
              rw [ej] at hj'; cases hj'
              simp [ha.1, hx, hr]
        · rw [if_neg hk]
          constructor
          · intro h; simp only [Bool.and_eq_true, decide_eq_true_eq] at h; exact .inl h
          · rintro (h | ⟨k', f', j', x', q', hq, hf', ha, hj', hx, hr⟩)
            · simp [h.1, h.2]
            · cases hq
              rw [ek] at hf'; cases hf'
              exact absurd ha.2 hk

theorem setRec_depth {c d x : Comp} {n k j : Nat} (h : c.depth ≤ n + 1) (hk : c.kids.get k = some d)
    (hj : d.kids.get j = some x) : x.depth ≤ n := by
  have h2 := kid_depth _ _ _ hk
  have h3 := kid_depth _ _ _ hj
  rw [comp_depth] at h
  rw [comp_depth d] at h2
  omega

/-- Exactly the components that are reached are told. -/
theorem setRec_told (m : Mode) (t : Nat) (n : Nat) : ∀ c : Comp, Shaped c → IsDevice c → c.depth ≤ n →
    (setRec n c m).code ≠ .failed →
    (Ev.told t m ∈ (setRec n c m).evs ↔ ∃ p d, c.at p = some d ∧ reached m c p = true ∧ d.info.tag = t) := by
  induction n with
  | zero => intro c _ _ hd; rw [comp_depth] at hd; omega
  | succ n ih =>
    intro c hs hdev hd hc
    have hf : (setMode c m).code ≠ .failed := by
      unfold setRec at hc
      split at hc
      · exact hc
      · assumption
    rw [mem_setRec m _ n c hc, mem_setMode hs hdev hf]
    constructor
    · rintro (⟨ho, p, d, hp, hb, ht⟩ | ⟨k, d, j, x, hk, ha, hj, hx, hcx, hm⟩)
      · exact ⟨p, d, hp, (reached_iff hp).mpr (.inl ⟨ho, hb⟩), ht⟩
      · have h1 := (shaped_iff c).mp hs k d hk
        have h2 := (shaped_iff d).mp h1.2 j x hj
        obtain ⟨p, f, hp, hr, ht⟩ := (ih x h2.2 (h2.1.1.mpr ha.2) (setRec_depth hd hk hj) hcx).mp hm
        have hat : c.at (k :: j :: p) = some f := by simp [at_cons, hk, hj, hp]
        exact ⟨k :: j :: p, f, hat,
          (reached_iff hat).mpr (.inr ⟨k, d, j, x, p, rfl, hk, ha, hj, hx, hr⟩), ht⟩
    · rintro ⟨p, d, hp, hr, ht⟩
      rcases (reached_iff hp).mp hr with h | ⟨k, f, j, x, q, rfl, hk, ha, hj, hx, hr'⟩
      · exact .inl ⟨h.1, p, d, hp, h.2, ht⟩
      · have h1 := (shaped_iff c).mp hs k f hk
        have h2 := (shaped_iff f).mp h1.2 j x hj
        have hcx : (setRec n x m).code ≠ .failed := by
          have hc' := hc
          unfold setRec at hc'
          rw [if_neg hf] at hc'
          have hsub : ((setMode c m).val.kids.subs (setRec n · m)).code = .ok := by
            rcases subs_code (setRec n · m) (setMode c m).val.kids with e | e
            · exact e
            · exact absurd e hc'
          exact each_kid _ _ (subs_kid _ _ hsub k f ((setMode_devices hf k f).mpr ⟨hk, ha⟩).1 ha) j x hj hx
        refine .inr ⟨k, f, j, x, hk, ha, hj, hx, hcx, ?_⟩
        refine (ih x h2.2 (h2.1.1.mpr ha.2) (setRec_depth hd hk hj) hcx).mpr ⟨q, d, ?_, hr', ht⟩
        simpa [at_cons, hk, hj] using hp

end Verif.Modes
