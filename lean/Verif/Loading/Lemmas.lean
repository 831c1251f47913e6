import Verif.Loading.Model
import Verif.Loading.Spec
import Mathlib.Data.List.Nodup

/-! # Lemmas about forests and steps of loading -/

namespace Verif.Loading

variable {α C : Type}

theorem find_none_iff (f : Forest α) (x : String) : f.find x = none ↔ x ∉ f.ids := by
  induction f with
  | nil => simp [Forest.find, Forest.ids]
  | cons id a below rest _ ih =>
    unfold Forest.find Forest.ids
    by_cases h : x = id
    · simp [h]
    · simp [h, ih]

theorem find_erase (f : Forest α) (y x : String) : (f.erase y).find x = if x = y then none else f.find x := by
  induction f with
  | nil => simp [Forest.erase, Forest.find]
  | cons id a below rest _ ih =>
    unfold Forest.erase
    by_cases h : id = y
    · rw [if_pos h, ih]
      subst h
      by_cases hx : x = id
      · simp [hx]
      · simp [hx, Forest.find]
    · rw [if_neg h]
      unfold Forest.find
      by_cases hx : x = id
      · subst hx
        simp [h]
      · rw [if_neg hx, if_neg hx, ih]

theorem find_set (f : Forest α) (y x : String) (b : α) (g : Forest α) (h : (f.find y).isSome = true) :
    (f.set y b g).find x = if x = y then some (b, g) else f.find x := by
  induction f with
  | nil => cases h
  | cons id a below rest _ ih =>
    unfold Forest.set
    by_cases hy : id = y
    · rw [if_pos hy]
      subst hy
      unfold Forest.find
      by_cases hx : x = id
      · simp [hx]
      · rw [if_neg hx, if_neg hx, if_neg hx]
        clear ih h
        induction rest with
        | nil => rfl
        | cons id' a' below' rest' _ ih' =>
          unfold Forest.set
          by_cases h' : id' = id
          · rw [if_pos h']
            subst h'
            unfold Forest.find
            rw [if_neg hx, if_neg hx, ih']
          · rw [if_neg h']
            unfold Forest.find
            rw [ih']
    · rw [if_neg hy]
      unfold Forest.find at h ⊢
      rw [if_neg (fun e => hy e.symm)] at h
      rw [ih h]
      by_cases hx : x = id
      · rw [if_pos hx, if_pos hx, if_neg (fun e => hy (hx.symm.trans e))]
      · rw [if_neg hx, if_neg hx]

theorem find_snoc (f : Forest α) (y x : String) (b : α) (g : Forest α) (h : f.find y = none) :
    (f.snoc y b g).find x = if x = y then some (b, g) else f.find x := by
  induction f with
  | nil => rfl
  | cons id a below rest _ ih =>
    unfold Forest.find at h
    by_cases hy : y = id
    · rw [if_pos hy] at h
      cases h
    · rw [if_neg hy] at h
      unfold Forest.snoc
      unfold Forest.find
      rw [ih h]
      by_cases hx : x = id
      · rw [if_pos hx, if_pos hx, if_neg (fun e => hy (e.symm.trans hx))]
      · rw [if_neg hx, if_neg hx]

theorem find_removeDev (f : Forest (Dev C)) (y x : String) :
    (removeDev f y).find x = if x = y ∧ (∀ e, f.find x = some e → e.1.fixed = false) then none else f.find x := by
  unfold removeDev
  cases hf : f.find y with
  | none =>
    dsimp only
    by_cases hx : x = y
    · subst hx
      rw [hf]
      simp
    · simp [hx]
  | some e =>
    dsimp only
    by_cases he : e.1.fixed = true
    · rw [if_pos he, if_neg]
      rintro ⟨hx, hall⟩
      subst hx
      rw [hall e hf] at he
      cases he
    · rw [if_neg he, find_erase]
      by_cases hx : x = y
      · subst hx
        rw [if_pos rfl, if_pos]
        refine ⟨rfl, fun e' h' => ?_⟩
        rw [hf] at h'
        cases h'
        simpa using he
      · rw [if_neg hx, if_neg (fun h => hx h.1)]

theorem find_removeAll (l : List String) (f : Forest (Dev C)) (x : String) :
    (removeAll l f).find x = if x ∈ l ∧ (∀ e, f.find x = some e → e.1.fixed = false) then none else f.find x := by
  induction l generalizing f with
  | nil => simp [removeAll]
  | cons y l ih =>
    unfold removeAll
    have hd := find_removeDev f y x
    by_cases hc : x = y ∧ ∀ e, f.find x = some e → e.1.fixed = false
    · rw [if_pos hc] at hd
      rw [ih, hd, if_pos (⟨by rw [hc.1]; exact List.mem_cons_self .., hc.2⟩ : x ∈ y :: l ∧ _)]
      split <;> rfl
    · rw [if_neg hc] at hd
      rw [ih, hd]
      have he : (x ∈ l ∧ ∀ e, f.find x = some e → e.1.fixed = false) ↔
          (x ∈ y :: l ∧ ∀ e, f.find x = some e → e.1.fixed = false) := by
        constructor
        · rintro ⟨h1, h2⟩
          exact ⟨List.mem_cons_of_mem _ h1, h2⟩
        · rintro ⟨h1, h2⟩
          rcases List.mem_cons.1 h1 with h1 | h1
          · exact absurd ⟨h1, h2⟩ hc
          · exact ⟨h1, h2⟩
      by_cases h1 : x ∈ l ∧ ∀ e, f.find x = some e → e.1.fixed = false
      · rw [if_pos h1, if_pos (he.1 h1)]
      · rw [if_neg h1, if_neg (fun h => h1 (he.2 h))]

theorem removeRemapped_id (c : Ctx C) (h : Spec.NoRemap c.opts) (l : List String) (f : Forest (Dev C)) :
    removeRemapped c l f = f := by
  induction l generalizing f with
  | nil => rfl
  | cons y l ih =>
    unfold removeRemapped
    rw [if_neg, ih]
    unfold Ctx.mode
    cases ho : c.opts.get y with
    | none => simp
    | some o => exact h y o ho

theorem mode_eq (c : Ctx C) (id : String) : c.mode id = Spec.modeIn c.opts id := by
  unfold Ctx.mode Spec.modeIn
  cases c.opts.get id <;> rfl

end Verif.Loading
