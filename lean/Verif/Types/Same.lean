import Verif.Types.Spec
/-
Comparing types and values.
-/
namespace Verif.Types.Props
open Spec

theorem chain_iff {p : Prop} [Decidable p] {A B : Option Bool} {c d : Bool} (h : c = true → ¬ p) :
    (if p then some false else match A with
      | some true => match B with
        | some true => some (c && d)
        | r => r
      | r => r) = some true ↔ A = some true ∧ B = some true ∧ c = true ∧ d = true := by
  by_cases hp : p
  · rw [if_pos hp]
    constructor
    · intro h; cases h
    · rintro ⟨_, _, hc, _⟩; exact absurd hp (h hc)
  · rw [if_neg hp]
    match A with
    | none => simp
    | some false => simp
    | some true => match B with
      | none => simp
      | some false => simp
      | some true => simp

theorem sameNull_iff (f : Bool) (x y : Val) (h : x = .null ∨ y = .null) : sameNull f x y = some true ↔ x = y := by
  unfold sameNull
  by_cases h1 : x = .null ∧ y = .null
  · rw [if_pos h1]; simp [h1.1, h1.2]
  · rw [if_neg h1]
    have hne : x ≠ y := by
      rintro rfl
      exact h1 ⟨by rcases h with h | h <;> exact h, by rcases h with h | h <;> exact h⟩
    split
    · simp [hne]
    · split <;> simp [hne]

mutual
theorem sameTy_iff : ∀ (f : Bool) (a b : Ty), sameTy f a b = some true ↔ a = b
  | f, .simple c, .simple c' => by simp [sameTy]
  | f, .enum n vs, .enum n' vs' => by simp [sameTy, and_comm]
  | f, .struct n fs b, .struct n' fs' b' => by
    unfold sameTy
    refine (chain_iff (A := sameTys (!f) fs fs') (B := if b = b' then sameDfls (!f) fs fs' else some false)
      (by intro h; simp only [decide_eq_true_eq] at h; simp [h])).trans ?_
    by_cases hb : b = b'
    · rw [if_pos hb]
      have := sameTys_iff (!f) fs fs'
      simp only [decide_eq_true_eq, Ty.struct.injEq]
      constructor
      · rintro ⟨h1, h2, h3, h4⟩; exact ⟨h4, this.mp ⟨h1, h2, h3⟩, hb⟩
      · rintro ⟨h4, h5, _⟩
        obtain ⟨h1, h2, h3⟩ := this.mpr h5
        exact ⟨h1, h2, h3, h4⟩
    · rw [if_neg hb]; simp [hb]
  | f, .simple _, .enum _ _ => by simp [sameTy]
  | f, .simple _, .struct _ _ _ => by simp [sameTy]
  | f, .enum _ _, .simple _ => by simp [sameTy]
  | f, .enum _ _, .struct _ _ _ => by simp [sameTy]
  | f, .struct _ _ _, .simple _ => by simp [sameTy]
  | f, .struct _ _ _, .enum _ _ => by simp [sameTy]
theorem sameTys_iff : ∀ (f : Bool) (fs fs' : TyL),
    (sameTys f fs fs' = some true ∧ sameDfls f fs fs' = some true ∧ fs.names = fs'.names) ↔ fs = fs'
  | f, .nil, .nil => by simp [sameTys, sameDfls]
  | f, .nil, .cons n t d r => by simp [TyL.names]
  | f, .cons n t d r, .nil => by simp [TyL.names]
  | f, .cons n t d r, .cons n' t' d' r' => by
    have h1 := sameTy_iff f t t'
    have h2 := sameVal_iff f d d'
    have h3 := sameTys_iff f r r'
    unfold sameTys sameDfls
    constructor
    · rintro ⟨a, b, c⟩
      cases e1 : sameTy f t t' with
      | none => simp [e1] at a
      | some x =>
        cases x with
        | false => simp [e1] at a
        | true =>
          cases e2 : sameVal f d d' with
          | none => simp [e2] at b
          | some y =>
            cases y with
            | false => simp [e2] at b
            | true =>
              simp only [e1] at a
              simp only [e2] at b
              simp only [TyL.names, List.cons.injEq] at c
              rw [h1.mp e1, h2.mp e2, h3.mp ⟨a, b, c.2⟩, c.1]
    · intro h
      simp only [TyL.cons.injEq] at h
      obtain ⟨a, b, c, d⟩ := h
      obtain ⟨g1, g2, g3⟩ := h3.mpr d
      rw [h1.mpr b, h2.mpr c]
      exact ⟨g1, g2, by simp [TyL.names, a, g3]⟩
theorem sameVal_iff : ∀ (f : Bool) (a b : Val), sameVal f a b = some true ↔ a = b
  | f, .null, b => by unfold sameVal; exact sameNull_iff f _ _ (.inl rfl)
  | f, .atom c k, b => by
    cases b with
    | null => unfold sameVal; dsimp only; exact sameNull_iff f _ _ (.inr rfl)
    | atom c' k' => simp [sameVal]
    | enum _ _ _ => simp [sameVal]
    | struct _ _ _ _ => simp [sameVal]
  | f, .enum n vs v, b => by
    cases b with
    | null => unfold sameVal; dsimp only; exact sameNull_iff f _ _ (.inr rfl)
    | atom c' k' => simp [sameVal]
    | enum n' vs' v' =>
      simp only [sameVal, Option.some.injEq, Bool.and_eq_true, decide_eq_true_eq, Val.enum.injEq]
      constructor
      · rintro ⟨⟨a, b⟩, c⟩; exact ⟨b, a, c⟩
      · rintro ⟨b, a, c⟩; exact ⟨⟨a, b⟩, c⟩
    | struct _ _ _ _ => simp [sameVal]
  | f, .struct n fs b v, y => by
    cases y with
    | null => unfold sameVal; dsimp only; exact sameNull_iff f _ _ (.inr rfl)
    | atom c' k' => simp [sameVal]
    | enum _ _ _ => simp [sameVal]
    | struct n' fs' b' v' =>
      have hv := sameVals_iff (!f) v v'
      have ht := sameTys_iff f fs fs'
      unfold sameVal
      dsimp only
      by_cases hl : v.names.length ≠ v'.names.length
      · rw [if_pos hl]
        constructor
        · intro h; cases h
        · intro h; simp only [Val.struct.injEq] at h; exfalso; apply hl; rw [h.2.2.2]
      · rw [if_neg hl]
        by_cases hvv : v = v'
        · obtain ⟨g1, g2⟩ := hv.mpr hvv
          rw [g1]
          dsimp only
          rw [if_pos g2]
          refine (chain_iff (A := sameTys f fs fs') (B := if b = b' then sameDfls f fs fs' else some false)
            (by intro h; simp only [decide_eq_true_eq] at h; simp [h])).trans ?_
          by_cases hb : b = b'
          · rw [if_pos hb]
            simp only [decide_eq_true_eq, Val.struct.injEq]
            constructor
            · rintro ⟨h1, h2, h3, h4⟩; exact ⟨h4, ht.mp ⟨h1, h2, h3⟩, hb, hvv⟩
            · rintro ⟨h4, h5, _, _⟩
              obtain ⟨h1, h2, h3⟩ := ht.mpr h5
              exact ⟨h1, h2, h3, h4⟩
          · rw [if_neg hb]; simp [hb]
        · have : ¬ (sameVals (!f) v v' = some true ∧ v.names = v'.names) := fun h => hvv (hv.mp h)
          constructor
          · intro h
            exfalso
            cases e : sameVals (!f) v v' with
            | none => simp [e] at h
            | some x =>
              cases x with
              | false => simp [e] at h
              | true =>
                simp only [e] at h
                by_cases hn : v.names = v'.names
                · exact this ⟨e, hn⟩
                · rw [if_neg hn] at h; cases h
          · intro h; simp only [Val.struct.injEq] at h; exact absurd h.2.2.2 hvv
theorem sameVals_iff : ∀ (f : Bool) (v v' : ValL), (sameVals f v v' = some true ∧ v.names = v'.names) ↔ v = v'
  | f, .nil, .nil => by simp [sameVals]
  | f, .nil, .cons n x r => by simp [ValL.names]
  | f, .cons n x r, .nil => by simp [ValL.names]
  | f, .cons n x r, .cons n' x' r' => by
    have h2 := sameVal_iff f x x'
    have h3 := sameVals_iff f r r'
    unfold sameVals
    constructor
    · rintro ⟨b, c⟩
      cases e2 : sameVal f x x' with
      | none => simp [e2] at b
      | some y =>
        cases y with
        | false => simp [e2] at b
        | true =>
          simp only [e2] at b
          simp only [ValL.names, List.cons.injEq] at c
          rw [h2.mp e2, h3.mp ⟨b, c.2⟩, c.1]
    · intro h
      simp only [ValL.cons.injEq] at h
      obtain ⟨a, c, d⟩ := h
      obtain ⟨g2, g3⟩ := h3.mpr d
      rw [h2.mpr c]
      exact ⟨g2, by simp [ValL.names, a, g3]⟩
end

end Verif.Types.Props
