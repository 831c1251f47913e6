import Verif.Nest.Spec

/-!
# The model and the specification
-/

namespace Verif.Nest
open Spec

variable {V : Type}

theorem first_iff {α : Type} {l : List (Name × α)} {n : Name} {a : α} : First l n a ↔ AList.get l n = some a := by
  constructor
  · intro h
    induction h with
    | here => simp [AList.get_cons]
    | later hn _ ih => rw [AList.get_cons, if_neg (Ne.symm hn), ih]
  · intro h
    induction l with
    | nil => cases h
    | cons x l ih =>
      obtain ⟨k, b⟩ := x
      rw [AList.get_cons] at h
      by_cases hk : n = k
      · rw [if_pos hk] at h
        cases h
        subst hk
        exact .here
      · rw [if_neg hk] at h
        exact .later (Ne.symm hk) (ih h)

theorem none_iff {α : Type} {l : List (Name × α)} {n : Name} : (∀ a, ¬ First l n a) ↔ AList.get l n = none := by
  simp only [first_iff]
  cases AList.get l n <;> simp

theorem obj_iff {f : Forest V} {p : Path} {d : Data V} {b : Forest V} : Obj f p d b ↔ f.find p = some (d, b) := by
  constructor
  · intro h
    induction h with
    | here => simp [Forest.find]
    | inside _ ih => simp [Forest.find, ih]
    | beside hn _ ih => simp [Forest.find, hn, ih]
  · intro h
    induction f generalizing p with
    | nil => cases h
    | cons m d' b' r ihb ihr =>
      cases p with
      | nil => cases h
      | cons k q =>
        unfold Forest.find at h
        by_cases hk : k = m
        · rw [if_pos hk] at h
          subst hk
          cases q with
          | nil => cases h; exact .here
          | cons x q => exact .inside (ihb h)
        · rw [if_neg hk] at h
          exact .beside hk (ihr h)

theorem shows_iff [DecidableEq V] {f : Forest V} {p : Path} {n : Name} {v : V} : Shows f p n v ↔ read f p n = some v := by
  unfold Shows read
  constructor
  · rintro ⟨d, b, ho, t, ht, h⟩
    rw [obj_iff.mp ho]
    dsimp only
    rw [first_iff.mp ht]
    simp only [Option.map_some, Data.current]
    rcases h with h | ⟨h, rfl⟩
    · rw [first_iff.mp h]; rfl
    · rw [none_iff.mp h]; rfl
  · intro h
    cases hf : f.find p with
    | none => rw [hf] at h; cases h
    | some x =>
      obtain ⟨d, b⟩ := x
      rw [hf] at h
      dsimp only at h
      cases hd : AList.get d.defs n with
      | none => rw [hd] at h; cases h
      | some t =>
        rw [hd] at h
        refine ⟨d, b, obj_iff.mpr hf, t, first_iff.mpr hd, ?_⟩
        simp only [Option.map_some, Data.current, Option.some.injEq] at h
        cases hv : AList.get d.vals n with
        | none => exact .inr ⟨none_iff.mpr hv, by rw [hv] at h; exact h.symm⟩
        | some w => exact .inl (by rw [first_iff, hv]; rw [hv] at h; exact congrArg some h)

/-! ## Reaching an object -/

/-- Doing something to an object that is there. -/
theorem find_at_self {f : Forest V} {p : Path} {d : Data V} {b : Forest V} (h : f.find p = some (d, b))
    (g : Data V → Forest V → Data V × Forest V × Res) :
    (f.at false p g).1.find p = some ((g d b).1, (g d b).2.1) ∧ (f.at false p g).2 = (g d b).2.2 := by
  induction f generalizing p with
  | nil => cases h
  | cons m d' b' r ihb ihr =>
    cases p with
    | nil => cases h
    | cons k q =>
      unfold Forest.find at h
      unfold Forest.at
      by_cases hk : k = m
      · rw [if_pos hk] at h ⊢
        cases q with
        | nil => cases h; exact ⟨by simp [Forest.find, hk], rfl⟩
        | cons x q =>
          dsimp only
          rw [if_neg (by simp)]
          obtain ⟨h1, h2⟩ := ihb h
          exact ⟨by simp only [Forest.find, if_pos hk]; exact h1, h2⟩
      · rw [if_neg hk] at h ⊢
        obtain ⟨h1, h2⟩ := ihr h
        exact ⟨by simp only [Forest.find, if_neg hk]; exact h1, h2⟩

theorem find_at_none {f : Forest V} {p : Path} (h : f.find p = none)
    (g : Data V → Forest V → Data V × Forest V × Res) : f.at false p g = (f, .err .notFound) := by
  induction f generalizing p with
  | nil => rfl
  | cons m d' b' r ihb ihr =>
    cases p with
    | nil => rfl
    | cons k q =>
      unfold Forest.find at h
      unfold Forest.at
      by_cases hk : k = m
      · rw [if_pos hk] at h ⊢
        cases q with
        | nil => cases h
        | cons x q =>
          dsimp only
          rw [if_neg (by simp), ihb h]
      · rw [if_neg hk] at h ⊢
        rw [ihr h]

/-- Other objects are not touched, apart from those below. -/
theorem find_at_other {f : Forest V} {p q : Path} (h : ¬ p <+: q) (chk : Bool)
    (g : Data V → Forest V → Data V × Forest V × Res) :
    ((f.at chk p g).1.find q).map (·.1) = (f.find q).map (·.1) := by
  induction f generalizing p q with
  | nil => rfl
  | cons m d' b' r ihb ihr =>
    cases p with
    | nil => rfl
    | cons k p =>
      unfold Forest.at
      by_cases hk : k = m
      · rw [if_pos hk]
        subst hk
        cases p with
        | nil =>
          dsimp only
          cases q with
          | nil => rfl
          | cons x q =>
            have hx : x ≠ k := by
              rintro rfl
              exact h ⟨q, rfl⟩
            simp only [Forest.find, if_neg hx]
        | cons y p =>
          dsimp only
          split
          · rfl
          · cases q with
            | nil => rfl
            | cons x q =>
              by_cases hx : x = k
              · subst hx
                simp only [Forest.find, if_true]
                cases q with
                | nil => rfl
                | cons z q =>
                  refine ihb fun h' => h ?_
                  exact List.cons_prefix_cons.mpr ⟨rfl, h'⟩
              · simp only [Forest.find, if_neg hx]
      · rw [if_neg hk]
        cases q with
        | nil => rfl
        | cons x q =>
          by_cases hx : x = m
          · simp only [Forest.find, if_pos hx]
          · simp only [Forest.find, if_neg hx]
            exact ihr h

/-- Values are the same if they are related objectwise. -/
theorem pairs_find {R : Data V → Data V → Prop} {f g : Forest V} (h : Pairs R f g) (p : Path) :
    (f.find p = none ∧ g.find p = none) ∨
      ∃ d b e b', f.find p = some (d, b) ∧ g.find p = some (e, b') ∧ R d e ∧ Pairs R b b' := by
  induction h generalizing p with
  | nil => exact .inl ⟨rfl, rfl⟩
  | @cons m d e b b' r r' hR hb hr ihb ihr =>
    cases p with
    | nil => exact .inl ⟨rfl, rfl⟩
    | cons k q =>
      simp only [Forest.find]
      by_cases hk : k = m
      · simp only [if_pos hk]
        cases q with
        | nil => exact .inr ⟨d, b, e, b', rfl, rfl, hR, hb⟩
        | cons x q => exact ihb _
      · simp only [if_neg hk]
        exact ihr _

/-- Values and definitions agree. -/
def Alike (d e : Data V) : Prop := e.defs = d.defs ∧ e.vals = d.vals

theorem pairs_same {f g : Forest V} (h : Pairs Alike f g) : SameValues f g := by
  classical
  intro p n v
  rw [shows_iff, shows_iff]
  unfold read
  rcases pairs_find h p with ⟨h1, h2⟩ | ⟨d, b, e, b', h1, h2, h3, -⟩
  · rw [h1, h2]
  · rw [h1, h2]
    have hc : e.current n = d.current n := by funext t; simp [Data.current, h3.2]
    simp only [h3.1, hc]

theorem Pairs.refl {R : Data V → Data V → Prop} (hR : ∀ d, R d d) : (f : Forest V) → Pairs R f f
  | .nil => .nil
  | .cons _ _ b r => .cons (hR _) (Pairs.refl hR b) (Pairs.refl hR r)

theorem Pairs.mono {R S : Data V → Data V → Prop} (h : ∀ d e, R d e → S d e) {f g : Forest V} (hp : Pairs R f g) :
    Pairs S f g := by
  induction hp with
  | nil => exact .nil
  | cons h1 _ _ ih1 ih2 => exact .cons (h _ _ h1) ih1 ih2

theorem Pairs.trans {R : Data V → Data V → Prop} (ht : ∀ a b c, R a b → R b c → R a c) {f g h : Forest V}
    (h1 : Pairs R f g) (h2 : Pairs R g h) : Pairs R f h := by
  induction h1 generalizing h with
  | nil => exact h2
  | cons r1 _ _ ih1 ih2 =>
    cases h2 with
    | cons r2 b2 c2 => exact .cons (ht _ _ _ r1 r2) (ih1 b2) (ih2 c2)

/-- Doing to one object what keeps a relation. -/
theorem pairs_at {R : Data V → Data V → Prop} (hR : ∀ d, R d d) {P : Data V → Prop} {chk : Bool}
    {g : Data V → Forest V → Data V × Forest V × Res}
    (hg : ∀ d b, P d → Everywhere P b → R d (g d b).1 ∧ Pairs R b (g d b).2.1) {f : Forest V} (hf : Everywhere P f)
    (p : Path) : Pairs R f (f.at chk p g).1 := by
  induction f generalizing p with
  | nil => exact .nil
  | cons m d' b' r ihb ihr =>
    obtain ⟨h1, h2, h3⟩ := hf
    cases p with
    | nil => exact Pairs.refl hR _
    | cons k q =>
      unfold Forest.at
      by_cases hk : k = m
      · rw [if_pos hk]
        cases q with
        | nil =>
          obtain ⟨a, b⟩ := hg _ _ h1 h2
          exact .cons a b (Pairs.refl hR _)
        | cons x q =>
          dsimp only
          split
          · exact Pairs.refl hR _
          · exact .cons (hR _) (ihb h2 _) (Pairs.refl hR _)
      · rw [if_neg hk]
        exact .cons (hR _) (Pairs.refl hR _) (ihr h3 _)

theorem everywhere_pairs {P Q : Data V → Prop} {R : Data V → Data V → Prop} (h : ∀ d e, P d → R d e → Q e)
    {f g : Forest V} (hp : Pairs R f g) (hf : Everywhere P f) : Everywhere Q g := by
  induction hp with
  | nil => trivial
  | cons h1 _ _ ih1 ih2 => exact ⟨h _ _ hf.1 h1, ih1 hf.2.1, ih2 hf.2.2⟩

theorem everywhere_mono {P Q : Data V → Prop} (h : ∀ d, P d → Q d) : {f : Forest V} → Everywhere P f → Everywhere Q f
  | .nil, _ => trivial
  | .cons _ _ _ _, hf => ⟨h _ hf.1, everywhere_mono h hf.2.1, everywhere_mono h hf.2.2⟩

end Verif.Nest
