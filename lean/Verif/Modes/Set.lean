import Verif.Modes.Tell
/-!
# What setting the mode of a device does to everything below it
-/

namespace Verif.Modes

open Spec

/-! ## Without the sub-devices -/

theorem setAll_code : ∀ (l : Kids) (m : Mode), (setAll l m).code = .ok ∨ (setAll l m).code = .failed
  | .nil, m => .inl (by unfold setAll; rfl)
  | .cons c l, m => by
    unfold setAll
    split
    · split
      · exact .inr rfl
      · exact setAll_code l m
    · exact setAll_code l m

theorem setAll_get (l : Kids) (m : Mode) (h : (setAll l m).code = .ok) (k : Nat) :
    (setAll l m).val.get k = (l.get k).map fun d =>
      if d.info.attached ∧ d.info.kind ≠ .devices then (tell d m).val else d := by
  induction k generalizing l with
  | zero =>
    cases l with
    | nil => simp [setAll, Kids.get]
    | cons c l =>
      unfold setAll at h ⊢
      split
      · rename_i ha
        rw [if_pos ha] at h
        split
        · rename_i hf; simp [hf] at h
        · simp [Kids.get, ha]
      · rename_i ha; simp only [Kids.get, Option.map_some, ha, if_false]
  | succ k ih =>
    cases l with
    | nil => simp [setAll, Kids.get]
    | cons c l =>
      unfold setAll at h ⊢
      split
      · rename_i ha
        rw [if_pos ha] at h
        split
        · rename_i hf; simp [hf] at h
        · rename_i hf
          simp only [hf, if_false] at h
          simp only [Kids.get]
          exact ih l h
      · rename_i ha
        rw [if_neg ha] at h
        simp only [Kids.get]
        exact ih l h

theorem setAll_kid (l : Kids) (m : Mode) (h : (setAll l m).code = .ok) (k : Nat) (d : Comp)
    (hk : l.get k = some d) (ha : d.info.attached = true ∧ d.info.kind ≠ .devices) :
    (tell d m).code = .ok := by
  induction k generalizing l with
  | zero =>
    cases l with
    | nil => simp [Kids.get] at hk
    | cons c l =>
      simp only [Kids.get, Option.some.injEq] at hk
      subst hk
      unfold setAll at h
      rw [if_pos ha] at h
      split at h
      · cases h
      · rename_i hf; exact ok_iff.mpr hf
  | succ k ih =>
    cases l with
    | nil => simp [Kids.get] at hk
    | cons c l =>
      simp only [Kids.get] at hk
      unfold setAll at h
      split at h
      · split at h
        · cases h
        · exact ih l h hk
      · exact ih l h hk

theorem setAll_ok (m : Mode) : ∀ l : Kids,
    (∀ k d, l.get k = some d → d.info.attached = true → d.info.kind ≠ .devices → (tell d m).code = .ok) →
    (setAll l m).code = .ok
  | .nil, _ => by simp [setAll]
  | .cons c l, h => by
    have ih := setAll_ok m l (fun k d hk => h (k + 1) d (by simpa [Kids.get] using hk))
    unfold setAll
    split
    · rename_i ha
      have := h 0 c (by simp [Kids.get]) ha.1 ha.2
      simp [this, ih]
    · exact ih

theorem setAll_evs (m : Mode) : ∀ l : Kids, (setAll l m).code = .ok →
    (∀ k d, l.get k = some d → d.info.attached = true → d.info.kind ≠ .devices → NoDev d) →
    (setAll l m).evs = (members l).map (Ev.told · m)
  | .nil, _, _ => by simp [setAll, members]
  | .cons c l, hc, hn => by
    have ih := setAll_evs m l
    unfold setAll at hc ⊢
    split
    · rename_i ha
      rw [if_pos ha] at hc
      split
      · rename_i hf; simp [hf] at hc
      · rename_i hf
        simp only [hf, if_false] at hc
        simp only [members, if_pos ha, List.map_append]
        rw [ih hc (fun k d hk => hn (k + 1) d (by simpa [Kids.get] using hk)),
          tell_evs m c (ok_iff.mpr hf) (hn 0 c (by simp [Kids.get]) ha.1 ha.2)]
    · rename_i ha
      rw [if_neg ha] at hc
      simp only [members, if_neg ha]
      simpa using ih hc (fun k d hk => hn (k + 1) d (by simpa [Kids.get] using hk))

/-- The parts of a device that are told. -/
theorem device_noDev {c d : Comp} (hs : Shaped c) (hd : IsDevice c) {k : Nat}
    (hk : c.kids.get k = some d) (hf : d.info.kind ≠ .devices) : NoDev d := by
  have := hs [] c k d rfl hk
  refine shaped_noDev (shaped_kid hs hk) (fun h => ?_) hf
  obtain ⟨a, b, e⟩ := hd
  rw [this.1.mp h] at e
  cases e

theorem setMode_device {i : Info} {a : List Mode} {b : Mode} (h : i.kind = .device a b) (kids : Kids)
    (m : Mode) : setMode (.mk i kids) m =
      if m ∉ a then ⟨.mk i kids, .ignored, []⟩
      else if (enter i m).code = .failed then ⟨.mk i kids, .failed, []⟩
      else ⟨.mk (enter i m).val (setAll kids m).val, (setAll kids m).code,
        (enter i m).evs ++ (setAll kids m).evs⟩ := by
  simp only [setMode, h]

theorem setMode_other {i : Info} (h : ∀ a d, i.kind ≠ .device a d) (kids : Kids) (m : Mode) :
    setMode (.mk i kids) m = ⟨.mk i kids, .ignored, []⟩ := by
  cases e : i.kind with
  | device a d => exact absurd e (h a d)
  | plain => simp only [setMode, e]
  | folder => simp only [setMode, e]
  | devices => simp only [setMode, e]

theorem kids_mk (i : Info) (l : Kids) : (Comp.mk i l).kids = l := rfl

theorem offers_mk {i : Info} {a : List Mode} {b : Mode} (h : i.kind = .device a b) (kids : Kids) :
    offers (.mk i kids) = a := by
  unfold offers; simp [Comp.info, h]

/-- A call that succeeds is one with a mode that is offered. -/
theorem setMode_ok {c : Comp} {m : Mode} (h : (setMode c m).code = .ok) :
    ∃ i kids a b, c = .mk i kids ∧ i.kind = .device a b ∧ m ∈ a ∧ m ∉ i.refuses ∧
      (setAll kids m).code = .ok ∧
      setMode c m = ⟨.mk { i with mode := m, told := some m } (setAll kids m).val, .ok,
        .told i.tag m :: .changed i.tag m :: (setAll kids m).evs⟩ := by
  match c with
  | .mk i kids =>
    rcases kind_cases i kids with ⟨a, b, hk⟩ | ⟨_, hk⟩
    · rw [setMode_device hk] at h ⊢
      split at h
      · cases h
      · rename_i hm
        split at h
        · cases h
        · rename_i he
          obtain ⟨h1, h2⟩ := enter_ok he
          refine ⟨i, kids, a, b, rfl, hk, Decidable.not_not.mp hm, h1, h, ?_⟩
          rw [if_neg hm, if_neg he, h2]
          simp only [List.cons_append, List.nil_append]
          rw [h]
    · rw [setMode_other hk] at h; cases h

theorem after_device {i : Info} {a : List Mode} {b : Mode} (m : Mode) (h : i.kind = .device a b) :
    after m i = { i with mode := m, told := some m } := by
  unfold after; rw [h]

/-- What setting the mode does, everywhere below. -/
theorem setMode_at {c : Comp} {m : Mode} (hs : Shaped c) (h : (setMode c m).code = .ok) (p : List Nat) :
    ((setMode c m).val.at p).map Comp.info =
      (c.at p).map fun d => if belongs c p then after m d.info else d.info := by
  obtain ⟨i, kids, a, b, rfl, hk, _, _, hc, e⟩ := setMode_ok h
  rw [e]
  cases p with
  | nil => simp [at_nil, belongs, Comp.info, after_device m hk]
  | cons k p =>
    simp only [at_cons, Comp.kids]
    rw [setAll_get kids m hc k]
    cases ek : kids.get k with
    | none => simp
    | some d =>
      simp only [Option.map_some, Option.bind_some]
      by_cases ha : d.info.attached = true ∧ d.info.kind ≠ .devices
      · rw [if_pos ha, tell_at m p d (setAll_kid kids m hc k d ek ha)
          (device_noDev hs ⟨a, b, hk⟩ ek ha.2)]
        simp [belongs, Comp.kids, ek, ha.1, ha.2]
      · rw [if_neg ha]
        have hb : belongs (.mk i kids) (k :: p) = false := by
          simp only [belongs, Comp.kids, ek]
          by_cases h1 : d.info.attached = true
          · have h2 : d.info.kind = .devices := Decidable.not_not.mp fun h' => ha ⟨h1, h'⟩
            simp [h2]
          · simp [h1]
        simp [hb]

/-- It succeeds if the mode is offered and nobody refuses. -/
theorem setMode_willing {c : Comp} {m : Mode} (hs : Shaped c) (ho : m ∈ offers c)
    (hw : ∀ p d, c.at p = some d → belongs c p = true → m ∉ d.info.refuses) :
    (setMode c m).code = .ok := by
  match c with
  | .mk i kids =>
    rcases kind_cases i kids with ⟨a, b, hk⟩ | ⟨_, hk⟩
    · rw [setMode_device hk]
      rw [offers_mk hk] at ho
      have hr : m ∉ i.refuses := hw [] (.mk i kids) rfl rfl
      have he : (enter i m).code = .ok := by simp [enter, hr]
      simp only [ho, not_true_eq_false, if_false, he]
      change (setAll kids m).code = .ok
      refine setAll_ok m kids fun k d hk' ha hf => ?_
      refine tell_willing m d (device_noDev hs ⟨a, b, hk⟩ hk' hf) fun p e hp hh => ?_
      refine hw (k :: p) e (by simp [at_cons, Comp.kids, hk', hp]) ?_
      simp [belongs, Comp.kids, hk', ha, hf, hh]
    · unfold offers at ho
      split at ho
      · rename_i a b e; exact absurd e (hk a b)
      · simp at ho

/-- Whatever the mode, nothing happens if it is not offered. -/
theorem setMode_ignored {c : Comp} {m : Mode} (ho : m ∉ offers c) : setMode c m = ⟨c, .ignored, []⟩ := by
  match c with
  | .mk i kids =>
    rcases kind_cases i kids with ⟨a, b, hk⟩ | ⟨_, hk⟩
    · rw [setMode_device hk]
      rw [offers_mk hk] at ho
      simp [ho]
    · exact setMode_other hk kids m

/-! ## With the sub-devices -/

theorem each_get (f : Comp → Res Comp) (l : Kids) (h : (l.each f).code = .ok) (k : Nat) :
    (l.each f).val.get k = (l.get k).map fun d => if d.info.attached then (f d).val else d := by
  induction k generalizing l with
  | zero =>
    cases l with
    | nil => simp [Kids.each, Kids.get]
    | cons c l =>
      unfold Kids.each at h ⊢
      split
      · rename_i ha
        simp only [ha, if_true] at h
        split
        · rename_i hf; simp [hf] at h
        · simp [Kids.get, ha]
      · rename_i ha; simp [Kids.get, ha]
  | succ k ih =>
    cases l with
    | nil => simp [Kids.each, Kids.get]
    | cons c l =>
      unfold Kids.each at h ⊢
      split
      · rename_i ha
        simp only [ha, if_true] at h
        split
        · rename_i hf; simp [hf] at h
        · rename_i hf
          simp only [hf, if_false] at h
          simp only [Kids.get]
          exact ih l h
      · rename_i ha
        simp only [ha] at h
        simp only [Kids.get]
        exact ih l h

theorem each_kid (f : Comp → Res Comp) (l : Kids) (h : (l.each f).code = .ok) (k : Nat) (d : Comp)
    (hk : l.get k = some d) (ha : d.info.attached = true) : (f d).code ≠ .failed := by
  induction k generalizing l with
  | zero =>
    cases l with
    | nil => simp [Kids.get] at hk
    | cons c l =>
      simp only [Kids.get, Option.some.injEq] at hk
      subst hk
      unfold Kids.each at h
      simp only [ha, if_true] at h
      split at h
      · cases h
      · assumption
  | succ k ih =>
    cases l with
    | nil => simp [Kids.get] at hk
    | cons c l =>
      simp only [Kids.get] at hk
      unfold Kids.each at h
      split at h
      · split at h
        · cases h
        · exact ih l h hk
      · exact ih l h hk

theorem each_ok (f : Comp → Res Comp) : ∀ l : Kids,
    (∀ k d, l.get k = some d → d.info.attached = true → (f d).code ≠ .failed) → (l.each f).code = .ok
  | .nil, _ => by simp [Kids.each]
  | .cons c l, h => by
    have ih := each_ok f l (fun k d hk => h (k + 1) d (by simpa [Kids.get] using hk))
    unfold Kids.each
    split
    · rename_i ha
      have := h 0 c (by simp [Kids.get]) ha
      simp [this, ih]
    · exact ih

theorem each_code (f : Comp → Res Comp) : ∀ l : Kids, (l.each f).code = .ok ∨ (l.each f).code = .failed
  | .nil => .inl (by unfold Kids.each; rfl)
  | .cons c l => by
    unfold Kids.each
    split
    · split
      · exact .inr rfl
      · exact each_code f l
    · exact each_code f l

theorem subs_code (f : Comp → Res Comp) : ∀ l : Kids, (l.subs f).code = .ok ∨ (l.subs f).code = .failed
  | .nil => .inl (by unfold Kids.subs; rfl)
  | .cons c l => by
    unfold Kids.subs
    split
    · split
      · exact .inr rfl
      · exact subs_code f l
    · exact subs_code f l

theorem subs_get (f : Comp → Res Comp) (l : Kids) (h : (l.subs f).code = .ok) (k : Nat) :
    (l.subs f).val.get k = (l.get k).map fun d =>
      if d.info.attached ∧ d.info.kind = .devices then .mk d.info (d.kids.each f).val else d := by
  induction k generalizing l with
  | zero =>
    cases l with
    | nil => simp [Kids.subs, Kids.get]
    | cons c l =>
      unfold Kids.subs at h ⊢
      split
      · rename_i ha
        rw [if_pos ha] at h
        split
        · rename_i hf; simp [hf] at h
        · simp only [Kids.get, Option.map_some, if_pos ha]
      · rename_i ha; simp only [Kids.get, Option.map_some, ha, if_false]
  | succ k ih =>
    cases l with
    | nil => simp [Kids.subs, Kids.get]
    | cons c l =>
      unfold Kids.subs at h ⊢
      split
      · rename_i ha
        rw [if_pos ha] at h
        split
        · rename_i hf; simp [hf] at h
        · rename_i hf
          simp only [hf, if_false] at h
          simp only [Kids.get]
          exact ih l h
      · rename_i ha
        rw [if_neg ha] at h
        simp only [Kids.get]
        exact ih l h

theorem subs_kid (f : Comp → Res Comp) (l : Kids) (h : (l.subs f).code = .ok) (k : Nat) (d : Comp)
    (hk : l.get k = some d) (ha : d.info.attached = true ∧ d.info.kind = .devices) :
    (d.kids.each f).code = .ok := by
  induction k generalizing l with
  | zero =>
    cases l with
    | nil => simp [Kids.get] at hk
    | cons c l =>
      simp only [Kids.get, Option.some.injEq] at hk
      subst hk
      unfold Kids.subs at h
      rw [if_pos ha] at h
      split at h
      · cases h
      · rename_i hf
        rcases each_code f c.kids with e | e
        · exact e
        · exact absurd e hf
  | succ k ih =>
    cases l with
    | nil => simp [Kids.get] at hk
    | cons c l =>
      simp only [Kids.get] at hk
      unfold Kids.subs at h
      split at h
      · split at h
        · cases h
        · exact ih l h hk
      · exact ih l h hk

theorem subs_ok (f : Comp → Res Comp) : ∀ l : Kids,
    (∀ k d, l.get k = some d → d.info.attached = true → d.info.kind = .devices →
      (d.kids.each f).code = .ok) → (l.subs f).code = .ok
  | .nil, _ => by simp [Kids.subs]
  | .cons c l, h => by
    have ih := subs_ok f l (fun k d hk => h (k + 1) d (by simpa [Kids.get] using hk))
    unfold Kids.subs
    split
    · rename_i ha
      have := h 0 c (by simp [Kids.get]) ha.1 ha.2
      simp [this, ih]
    · exact ih

theorem kid_depth : ∀ (l : Kids) (k : Nat) (d : Comp), l.get k = some d → d.depth ≤ l.depth
  | .nil, k, d, h => by simp [Kids.get] at h
  | .cons c l, 0, d, h => by
    simp only [Kids.get, Option.some.injEq] at h
    subst h
    simp only [Kids.depth]; omega
  | .cons c l, k + 1, d, h => by
    have := kid_depth l k d (by simpa [Kids.get] using h)
    simp only [Kids.depth]; omega

theorem comp_depth (c : Comp) : c.depth = c.kids.depth + 1 := by
  match c with
  | .mk i kids => simp [Comp.depth, Comp.kids]

/-- The children after the first half of the recursive call. -/
theorem setMode_kids {c : Comp} {m : Mode} (h : (setMode c m).code ≠ .failed) (k : Nat) :
    (setMode c m).val.kids.get k = (c.kids.get k).map fun d =>
      if m ∈ offers c ∧ d.info.attached ∧ d.info.kind ≠ .devices then (tell d m).val else d := by
  by_cases ho : m ∈ offers c
  · have hok : (setMode c m).code = .ok := by
      match c with
      | .mk i kids =>
        rcases kind_cases i kids with ⟨a, b, hk⟩ | ⟨_, hk⟩
        · rw [setMode_device hk] at h ⊢
          rw [offers_mk hk] at ho
          simp only [ho, not_true_eq_false, if_false] at h ⊢
          split at h
          · exact absurd rfl h
          · rename_i he
            rw [if_neg he]
            rcases setAll_code kids m with e | e
            · exact e
            · exact absurd e h
        · unfold offers at ho
          split at ho
          · rename_i a b e; exact absurd e (hk a b)
          · simp at ho
    obtain ⟨i, kids, a, b, rfl, hk, _, _, hc, e⟩ := setMode_ok hok
    rw [e]
    simp only [Comp.kids, ho, true_and]
    exact setAll_get kids m hc k
  · rw [setMode_ignored ho]
    cases c.kids.get k <;> simp [ho]

theorem setMode_code_of_offers {c : Comp} {m : Mode} (ho : m ∈ offers c)
    (h : (setMode c m).code ≠ .failed) : (setMode c m).code = .ok := by
  match c with
  | .mk i kids =>
    rcases kind_cases i kids with ⟨a, b, hk⟩ | ⟨_, hk⟩
    · rw [setMode_device hk] at h ⊢
      rw [offers_mk hk] at ho
      simp only [ho, not_true_eq_false, if_false] at h ⊢
      split at h
      · exact absurd rfl h
      · rename_i he
        rw [if_neg he]
        rcases setAll_code kids m with e | e
        · exact e
        · exact absurd e h
    · unfold offers at ho
      split at ho
      · rename_i a b e; exact absurd e (hk a b)
      · simp at ho

/-- The device itself and what belongs to it, after a call that did not fail. -/
theorem setMode_at' {c : Comp} {m : Mode} (hs : Shaped c) (h : (setMode c m).code ≠ .failed)
    (p : List Nat) : ((setMode c m).val.at p).map Comp.info =
      (c.at p).map fun d => if m ∈ offers c ∧ belongs c p = true then after m d.info else d.info := by
  by_cases ho : m ∈ offers c
  · rw [setMode_at hs (setMode_code_of_offers ho h) p]
    simp [ho]
  · rw [setMode_ignored ho]
    simp [ho]

/-- What the recursive call does, everywhere below. -/
theorem setRec_at (m : Mode) (n : Nat) : ∀ (c : Comp), Shaped c → IsDevice c → c.depth ≤ n →
    (setRec n c m).code ≠ .failed → ∀ p, ((setRec n c m).val.at p).map Comp.info =
      (c.at p).map fun d => if reached m c p then after m d.info else d.info := by
  induction n with
  | zero => intro c _ _ hd; rw [comp_depth] at hd; omega
  | succ n ih =>
    intro c hs hdev hd hc p
    unfold setRec at hc ⊢
    split at hc
    · rename_i hf; exact absurd hf hc
    · rename_i hf
      rw [if_neg hf]
      have hsub : ((setMode c m).val.kids.subs (setRec n · m)).code = .ok := by
        rcases subs_code (setRec n · m) (setMode c m).val.kids with e | e
        · exact e
        · exact absurd e hc
      have hroot : ((setMode c m).val.at []).map Comp.info = _ := setMode_at' hs hf []
      match p with
      | [] =>
        simp only [at_nil, Option.map_some] at hroot ⊢
        simp only [Comp.info] at hroot ⊢
        rw [hroot]
        simp [belongs, reached]
      | k :: q =>
        simp only [at_cons, kids_mk]
        rw [subs_get _ _ hsub k]
        have hkid := setMode_kids hf k
        have hat := setMode_at' hs hf (k :: q)
        simp only [at_cons] at hat
        rw [hkid] at hat ⊢
        cases e : c.kids.get k with
        | none => simp
        | some d =>
          simp only [e, Option.map_some, Option.bind_some] at hat ⊢
          by_cases hk : d.info.kind = .devices
          · have h1 : ¬ (m ∈ offers c ∧ d.info.attached = true ∧ d.info.kind ≠ .devices) := by
              rintro ⟨_, _, h⟩; exact h hk
            rw [if_neg h1] at hat ⊢
            by_cases ha : d.info.attached = true
            · rw [if_pos ⟨ha, hk⟩]
              have hke : (setMode c m).val.kids.get k = some d := by
                rw [hkid, e]; simp only [Option.map_some]; rw [if_neg h1]
              have heach := subs_kid _ _ hsub k d hke ⟨ha, hk⟩
              match q with
              | [] =>
                have hr : reached m c [k] = false := by simp [reached, belongs, e, hk]
                simp only [at_nil, Option.map_some, hr]
                rfl
              | j :: q =>
                simp only [at_cons, kids_mk]
                rw [each_get _ _ heach j]
                cases ej : d.kids.get j with
                | none => simp
                | some f =>
                  simp only [Option.map_some, Option.bind_some]
                  by_cases haf : f.info.attached = true
                  · simp only [haf, if_true]
                    have hfd : IsDevice f := ((shaped_kid hs e) [] d j f rfl ej).1.mpr hk
                    have hdep : f.depth ≤ n := by
                      have h2 := kid_depth _ _ _ e
                      have h3 := kid_depth _ _ _ ej
                      rw [comp_depth] at hd
                      rw [comp_depth d] at h2
                      omega
                    rw [ih f (shaped_kid (shaped_kid hs e) ej) hfd hdep (each_kid _ _ heach j f ej haf) q]
                    simp [reached, e, hk, ha, ej, haf]
                  · simp [reached, e, hk, ha, ej, haf]
            · rw [if_neg (fun h => ha h.1)]
              have hr : reached m c (k :: q) = false := by
                cases q with
                | nil => simp [reached, belongs, e, ha]
                | cons j q => simp [reached, e, hk, ha]
              simp [hr]
          · have h2 : ¬ ((if m ∈ offers c ∧ d.info.attached = true ∧ d.info.kind ≠ .devices then (tell d m).val
                else d).info.attached = true ∧ (if m ∈ offers c ∧ d.info.attached = true ∧
                  d.info.kind ≠ .devices then (tell d m).val else d).info.kind = .devices) := by
              rintro ⟨_, h⟩
              split at h
              · rename_i ht
                have hn := device_noDev hs hdev e hk
                have hat0 := setMode_at' hs hf [k]
                simp only [at_cons, hkid, e, Option.map_some, Option.bind_some, at_nil, if_pos ht] at hat0
                have : (tell d m).val.info = after m d.info ∨ (tell d m).val.info = d.info := by
                  split at hat0
                  · exact .inl (Option.some.inj hat0)
                  · exact .inr (Option.some.inj hat0)
                rcases this with h' | h'
                · rw [h', after_other m (fun a b hk' => hn.self ⟨a, b, hk'⟩)] at h
                  exact hk h
                · rw [h'] at h; exact hk h
              · exact hk h
            rw [if_neg h2, hat]
            have hr : reached m c (k :: q) = (decide (m ∈ offers c) && belongs c (k :: q)) := by
              cases q with
              | nil => rfl
              | cons j q => simp only [reached, e, if_neg hk]
            rw [hr]
            simp

/-- It does not fail if nobody refuses. -/
theorem setRec_willing (m : Mode) (n : Nat) : ∀ (c : Comp), Shaped c → IsDevice c → c.depth ≤ n →
    (∀ p d, c.at p = some d → reached m c p = true → m ∉ d.info.refuses) →
    (setRec n c m).code = .ok := by
  induction n with
  | zero => intro c _ _ hd; rw [comp_depth] at hd; omega
  | succ n ih =>
    intro c hs hdev hd hw
    have hf : (setMode c m).code ≠ .failed := by
      by_cases ho : m ∈ offers c
      · rw [setMode_willing hs ho ?_]
        · simp
        · intro p d hp hb
          refine hw p d hp ?_
          match p with
          | [] => simp [reached, ho]
          | [k] => simp [reached, ho, hb]
          | k :: j :: p =>
            simp only [reached]
            cases e : c.kids.get k with
            | none => simp [belongs, e] at hb
            | some d =>
              have hk : d.info.kind ≠ .devices := by
                intro hk; simp [belongs, e, hk] at hb
              simp [hk, ho, hb]
      · rw [setMode_ignored ho]; simp
    unfold setRec
    rw [if_neg hf]
    change ((setMode c m).val.kids.subs _).code = .ok
    refine subs_ok _ _ fun k d hk ha hkd => each_ok _ _ fun j f hj haf => ?_
    rw [setMode_kids hf k] at hk
    cases e : c.kids.get k with
    | none => simp [e] at hk
    | some d' =>
      simp only [e, Option.map_some, Option.some.injEq] at hk
      have hd' : d'.info.kind = .devices ∧ d = d' := by
        split at hk
        · rename_i ht
          exfalso
          have hn := device_noDev hs hdev e ht.2.2
          have hat0 := setMode_at' hs hf [k]
          simp only [at_cons, setMode_kids hf k, e, Option.map_some, Option.bind_some, at_nil, if_pos ht] at hat0
          rw [hk] at hat0
          have : d.info = after m d'.info ∨ d.info = d'.info := by
            split at hat0
            · exact .inl (Option.some.inj hat0)
            · exact .inr (Option.some.inj hat0)
          rcases this with h' | h'
          · rw [h', after_other m (fun a b hk' => hn.self ⟨a, b, hk'⟩)] at hkd
            exact ht.2.2 hkd
          · rw [h'] at hkd; exact ht.2.2 hkd
        · exact ⟨hk ▸ hkd, hk.symm⟩
      obtain ⟨hkd', rfl⟩ := hd'
      have hfd : IsDevice f := ((shaped_kid hs e) [] d j f rfl hj).1.mpr hkd'
      have hdep : f.depth ≤ n := by
        have h2 := kid_depth _ _ _ e
        have h3 := kid_depth _ _ _ hj
        rw [comp_depth] at hd
        rw [comp_depth d] at h2
        omega
      rw [ih f (shaped_kid (shaped_kid hs e) hj) hfd hdep fun p g hg hr => ?_]
      · simp
      · refine hw (k :: j :: p) g (by simp [at_cons, e, hj, hg]) ?_
        simp [reached, e, hkd', ha, hj, haf, hr]

end Verif.Modes
