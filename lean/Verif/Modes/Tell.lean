import Verif.Modes.Spec
/-!
# What telling a component does to everything below it
-/

namespace Verif.Modes

open Spec

/-! ## Devices -/

theorem isDevice_cases (c : Comp) :
    (∃ a d, c.info.kind = .device a d) ∨ (¬ IsDevice c ∧ (∀ a d, c.info.kind ≠ .device a d)) := by
  by_cases h : IsDevice c
  · exact .inl h
  · exact .inr ⟨h, fun a d e => h ⟨a, d, e⟩⟩

theorem kind_cases (i : Info) (kids : Kids) :
    (∃ a d, i.kind = .device a d) ∨ (¬ IsDevice (.mk i kids) ∧ (∀ a d, i.kind ≠ .device a d)) :=
  isDevice_cases (.mk i kids)

theorem enter_code (i : Info) (m : Mode) : (enter i m).code = .ok ∨ (enter i m).code = .failed := by
  unfold enter; split <;> simp

theorem enter_ok {i : Info} {m : Mode} (h : (enter i m).code ≠ .failed) :
    m ∉ i.refuses ∧ enter i m =
      ⟨{ i with mode := m, told := some m }, .ok, [.told i.tag m, .changed i.tag m]⟩ := by
  unfold enter at h ⊢
  split
  · rename_i hr; simp [hr] at h
  · rename_i hr; exact ⟨hr, rfl⟩

/-! ## Telling -/

theorem tell_device {i : Info} {a : List Mode} {d : Mode} (h : i.kind = .device a d) (kids : Kids)
    (m : Mode) : tell (.mk i kids) m = ⟨.mk (enter i d).val kids, (enter i d).code, (enter i d).evs⟩ := by
  unfold tell; rw [h]

theorem tell_other {i : Info} (h : ∀ a d, i.kind ≠ .device a d) (kids : Kids) (m : Mode) :
    tell (.mk i kids) m =
      if m ∈ i.refuses then ⟨.mk i kids, .failed, []⟩
      else ⟨.mk { i with told := some m } (tellAll kids m).val, (tellAll kids m).code,
        .told i.tag m :: (tellAll kids m).evs⟩ := by
  unfold tell
  cases e : i.kind with
  | device a d => exact absurd e (h a d)
  | plain => rfl
  | folder => rfl
  | devices => rfl

mutual
theorem tell_code : ∀ (c : Comp) (m : Mode), (tell c m).code = .ok ∨ (tell c m).code = .failed
  | .mk i kids, m => by
    rcases kind_cases i kids with ⟨a, d, h⟩ | ⟨_, h⟩
    · rw [tell_device h]; exact enter_code i d
    · rw [tell_other h]
      split
      · exact .inr rfl
      · exact tellAll_code kids m
theorem tellAll_code : ∀ (l : Kids) (m : Mode), (tellAll l m).code = .ok ∨ (tellAll l m).code = .failed
  | .nil, m => .inl (by unfold tellAll; rfl)
  | .cons c l, m => by
    unfold tellAll
    split
    · split
      · exact .inr rfl
      · exact tellAll_code l m
    · exact tellAll_code l m
end

theorem ok_iff {c : Comp} {m : Mode} : (tell c m).code = .ok ↔ (tell c m).code ≠ .failed := by
  rcases tell_code c m with h | h <;> simp [h]

/-- What becomes of the children when none fails. -/
theorem tellAll_get (l : Kids) (m : Mode) (h : (tellAll l m).code = .ok) (k : Nat) :
    (tellAll l m).val.get k = (l.get k).map fun d => if d.info.attached then (tell d m).val else d := by
  induction k generalizing l with
  | zero =>
    cases l with
    | nil => simp [tellAll, Kids.get]
    | cons c l =>
      unfold tellAll at h ⊢
      split
      · rename_i ha
        simp only [ha, if_true] at h
        split
        · rename_i hf; simp [hf] at h
        · simp [Kids.get, ha]
      · rename_i ha; simp [Kids.get, ha]
  | succ k ih =>
    cases l with
    | nil => simp [tellAll, Kids.get]
    | cons c l =>
      unfold tellAll at h ⊢
      split
      · rename_i ha
        simp only [ha, if_true] at h
        split
        · rename_i hf; simp [hf] at h
        · rename_i hf
          simp only [hf, if_false] at h
          simp only [Kids.get]
          exact ih l h
      · rename_i ha
        simp only [ha] at h
        simp only [Kids.get]
        exact ih l h

theorem tellAll_kid (l : Kids) (m : Mode) (h : (tellAll l m).code = .ok) (k : Nat) (d : Comp)
    (hk : l.get k = some d) (ha : d.info.attached = true) : (tell d m).code = .ok := by
  induction k generalizing l with
  | zero =>
    cases l with
    | nil => simp [Kids.get] at hk
    | cons c l =>
      simp only [Kids.get, Option.some.injEq] at hk
      subst hk
      unfold tellAll at h
      simp only [ha, if_true] at h
      split at h
      · cases h
      · rename_i hf; exact ok_iff.mpr hf
  | succ k ih =>
    cases l with
    | nil => simp [Kids.get] at hk
    | cons c l =>
      simp only [Kids.get] at hk
      unfold tellAll at h
      split at h
      · split at h
        · cases h
        · exact ih l h hk
      · exact ih l h hk

/-- When nobody fails, the call succeeds. -/
theorem tellAll_ok (l : Kids) (m : Mode)
    (h : ∀ k d, l.get k = some d → d.info.attached = true → (tell d m).code = .ok) :
    (tellAll l m).code = .ok := by
  match l with
  | .nil => simp [tellAll]
  | .cons c l =>
    have ih := tellAll_ok l m (fun k d hk => h (k + 1) d (by simpa [Kids.get] using hk))
    unfold tellAll
    split
    · rename_i ha
      have := h 0 c (by simp [Kids.get]) ha
      simp [this, ih]
    · exact ih
termination_by structural l

/-- No device hears it. -/
def NoDev (c : Comp) : Prop := ∀ p d, c.at p = some d → hears c p = true → ¬ IsDevice d

theorem NoDev.self {c : Comp} (h : NoDev c) : ¬ IsDevice c := h [] c rfl rfl

theorem NoDev.kid {c d : Comp} (h : NoDev c) {k : Nat} (hk : c.kids.get k = some d)
    (ha : d.info.attached = true) : NoDev d := by
  intro p e he hp
  refine h (k :: p) e (by simp [Comp.at, hk, he]) ?_
  simp [hears, h.self, hk, ha, hp]

theorem at_nil (c : Comp) : c.at [] = some c := rfl

theorem at_cons (c : Comp) (k : Nat) (p : List Nat) :
    c.at (k :: p) = (c.kids.get k).bind (·.at p) := by
  simp only [Comp.at]; cases c.kids.get k <;> rfl

theorem after_other {i : Info} (m : Mode) (h : ∀ a d, i.kind ≠ .device a d) :
    after m i = { i with told := some m } := by
  unfold after
  cases e : i.kind with
  | device a d => exact absurd e (h a d)
  | plain => rfl
  | folder => rfl
  | devices => rfl

/-- What telling does, everywhere below. -/
theorem tell_at (m : Mode) (p : List Nat) : ∀ c : Comp, (tell c m).code = .ok → NoDev c →
    ((tell c m).val.at p).map Comp.info =
      (c.at p).map fun d => if hears c p then after m d.info else d.info := by
  induction p with
  | nil =>
    intro ⟨i, kids⟩ hc hn
    rcases kind_cases i kids with ⟨a, d, h⟩ | ⟨_, h⟩
    · exact absurd ⟨a, d, h⟩ hn.self
    · rw [tell_other h] at hc ⊢
      split
      · rename_i hr; simp [hr] at hc
      · simp only [at_nil, Option.map_some, hears, if_true]
        congr 1
        exact (after_other m h).symm
  | cons k p ih =>
    intro ⟨i, kids⟩ hc hn
    rcases kind_cases i kids with ⟨a, d, h⟩ | ⟨hnd, h⟩
    · exact absurd ⟨a, d, h⟩ hn.self
    · rw [tell_other h] at hc ⊢
      split
      · rename_i hr; simp [hr] at hc
      · rename_i hr
        simp only [hr, if_false] at hc
        simp only [at_cons, Comp.kids]
        rw [tellAll_get kids m hc k]
        cases e : kids.get k with
        | none => simp
        | some d =>
          simp only [Option.map_some, Option.bind_some]
          by_cases ha : d.info.attached = true
          · simp only [ha, if_true]
            rw [ih d (tellAll_kid kids m hc k d e ha) (hn.kid e ha)]
            simp [hears, hnd, Comp.kids, e, ha]
          · simp [hears, hnd, Comp.kids, e, ha]

/-- It succeeds if nobody who hears it refuses. -/
theorem tell_willing (m : Mode) : ∀ c : Comp, NoDev c →
    (∀ p d, c.at p = some d → hears c p = true → m ∉ d.info.refuses) → (tell c m).code = .ok := by
  intro c hn hw
  match c with
  | .mk i kids =>
    have h : ∀ a d, i.kind ≠ .device a d := fun a d e => hn.self ⟨a, d, e⟩
    have hr : m ∉ i.refuses := hw [] (.mk i kids) rfl rfl
    rw [tell_other h]
    simp only [hr, if_false]
    have hk : ∀ k d, kids.get k = some d → d.info.attached = true → NoDev d ∧
        ∀ p e, d.at p = some e → hears d p = true → m ∉ e.info.refuses := by
      intro k d hk ha
      refine ⟨hn.kid hk ha, fun p e he hp => hw (k :: p) e (by simp [at_cons, Comp.kids, hk, he]) ?_⟩
      have := hn.self
      simp [hears, this, Comp.kids, hk, ha, hp]
    clear hn hw hr h
    exact go kids hk
where
  go : ∀ l : Kids, (∀ k d, l.get k = some d → d.info.attached = true → NoDev d ∧
      ∀ p e, d.at p = some e → hears d p = true → m ∉ e.info.refuses) → (tellAll l m).code = .ok
  | .nil, _ => by simp [tellAll]
  | .cons c l, h => by
    have ih := go l (fun k d hk => h (k + 1) d (by simpa [Kids.get] using hk))
    unfold tellAll
    split
    · rename_i ha
      obtain ⟨h1, h2⟩ := h 0 c (by simp [Kids.get]) ha
      have := tell_willing m c h1 h2
      simp [this, ih]
    · exact ih

mutual
/-- What is seen when everybody is told. -/
theorem tell_evs (m : Mode) : ∀ c : Comp, (tell c m).code = .ok → NoDev c →
    (tell c m).evs = (hearers c).map (Ev.told · m)
  | .mk i kids, hc, hn => by
    have h : ∀ a d, i.kind ≠ .device a d := fun a d e => hn.self ⟨a, d, e⟩
    rw [tell_other h] at hc ⊢
    split
    · rename_i hr; simp [hr] at hc
    · rename_i hr
      simp only [hr, if_false] at hc
      have := tellAll_evs m kids hc (fun k d hk ha => hn.kid hk ha)
      simp [hearers, this]
theorem tellAll_evs (m : Mode) : ∀ l : Kids, (tellAll l m).code = .ok →
    (∀ k d, l.get k = some d → d.info.attached = true → NoDev d) →
    (tellAll l m).evs = (hearersAll l).map (Ev.told · m)
  | .nil, _, _ => by simp [tellAll, hearersAll]
  | .cons c l, hc, hn => by
    have ih := tellAll_evs m l
    have ihc := tell_evs m c
    unfold tellAll at hc ⊢
    split
    · rename_i ha
      simp only [ha, if_true] at hc
      split
      · rename_i hf; simp [hf] at hc
      · rename_i hf
        simp only [hf, if_false] at hc
        simp only [hearersAll, ha, if_true, List.map_append]
        rw [ih hc (fun k d hk => hn (k + 1) d (by simpa [Kids.get] using hk)),
          ihc (ok_iff.mpr hf) (hn 0 c (by simp [Kids.get]) ha)]
    · rename_i ha
      simp only [ha] at hc
      simp only [hearersAll, ha]
      simpa using ih hc (fun k d hk => hn (k + 1) d (by simpa [Kids.get] using hk))
end

/-! ## Shapes -/

theorem shaped_kid {c d : Comp} (h : Shaped c) {k : Nat} (hk : c.kids.get k = some d) : Shaped d := by
  intro p e j f he hf
  exact h (k :: p) e j f (by simp [at_cons, hk, he]) hf

/-- Below what is neither a device nor the folder of sub-devices nobody is. -/
theorem shaped_noDev {c : Comp} (h : Shaped c) (h1 : ¬ IsDevice c) (h2 : c.info.kind ≠ .devices) :
    NoDev c := by
  intro p
  induction p generalizing c with
  | nil => intro d hd _; simp [at_nil] at hd; exact hd ▸ h1
  | cons k p ih =>
    intro d hd hp
    rw [at_cons] at hd
    cases e : c.kids.get k with
    | none => simp [e] at hd
    | some f =>
      simp [e] at hd
      have := h [] c k f rfl e
      refine ih (shaped_kid h e) (fun hf => h2 (this.1.mp hf)) (fun hf => h1 (this.2 hf)) d hd ?_
      simp [hears, e, h1] at hp
      exact hp.2

end Verif.Modes
