import Verif.Values.Eq

/-! # Copies and order -/

namespace Verif.Values

open Spec

mutual
theorem clone_bare (x : V) (n : Nat) : bare (clone x n).1 = bare x := by
  match x with
  | .list _ _ xs => simp only [clone, bare, cloneItems_bare xs n]
  | .dict _ _ _ kvs => simp only [clone, bare, cloneEntries_bare kvs n]
  | .null => rfl
  | .bool _ _ => rfl
  | .int _ _ => rfl
  | .float _ _ => rfl
  | .str _ _ => rfl
  | .ratio _ _ _ => rfl
  | .cplx _ _ _ => rfl
  | .obj _ => rfl
theorem cloneItems_bare (xs : VL) (n : Nat) : bareL (cloneItems xs n).1 = bareL xs := by
  match xs with
  | .nil => rfl
  | .cons x xs => simp only [cloneItems, bareL, clone_bare x n, cloneItems_bare xs]
theorem cloneEntries_bare (kvs : KL) (n : Nat) : bareK (cloneEntries kvs n).1 = bareK kvs := by
  match kvs with
  | .nil => rfl
  | .cons k v r => simp only [cloneEntries, bareK, clone_bare k n, clone_bare v, cloneEntries_bare r]
end

/-- Addresses from `n` up to `m`, all different. -/
def Fresh (l : List Nat) (n m : Nat) : Prop := l.Nodup ∧ ∀ a ∈ l, n ≤ a ∧ a < m

theorem Fresh.append {l l' : List Nat} {n m k : Nat} (h : Fresh l n m) (h' : Fresh l' m k) (h1 : n ≤ m) (h2 : m ≤ k) :
    Fresh (l ++ l') n k := by
  refine ⟨List.nodup_append.mpr ⟨h.1, h'.1, ?_⟩, ?_⟩
  · intro a ha b hb e
    have := h.2 a ha
    have := h'.2 b hb
    omega
  · intro a ha
    rcases List.mem_append.mp ha with ha | ha
    · have := h.2 a ha; omega
    · have := h'.2 a ha; omega

theorem Fresh.cons {l : List Nat} {n m : Nat} (h : Fresh l n m) (h1 : n ≤ m) : Fresh (m :: l) n (m + 1) := by
  refine ⟨List.nodup_cons.mpr ⟨fun e => ?_, h.1⟩, ?_⟩
  · have := h.2 m e; omega
  · intro a ha
    rcases List.mem_cons.mp ha with rfl | ha
    · omega
    · have := h.2 a ha; omega

theorem fresh_nil (n : Nat) : Fresh [] n n := ⟨List.nodup_nil, by simp⟩

mutual
theorem clone_fresh (x : V) (n : Nat) : n ≤ (clone x n).2 ∧ Fresh (holders (clone x n).1) n (clone x n).2 := by
  match x with
  | .list _ _ xs =>
    simp only [clone, holders]
    obtain ⟨h1, h2⟩ := cloneItems_fresh xs n
    exact ⟨by omega, h2.cons h1⟩
  | .dict _ _ _ kvs =>
    simp only [clone, holders]
    obtain ⟨h1, h2⟩ := cloneEntries_fresh kvs n
    exact ⟨by omega, h2.cons h1⟩
  | .null => simp only [clone, holders]; exact ⟨le_refl _, fresh_nil n⟩
  | .bool _ _ => simp only [clone, holders]; exact ⟨le_refl _, fresh_nil n⟩
  | .int _ _ => simp only [clone, holders]; exact ⟨le_refl _, fresh_nil n⟩
  | .float _ _ => simp only [clone, holders]; exact ⟨le_refl _, fresh_nil n⟩
  | .str _ _ => simp only [clone, holders]; exact ⟨le_refl _, fresh_nil n⟩
  | .ratio _ _ _ => simp only [clone, holders]; exact ⟨le_refl _, fresh_nil n⟩
  | .cplx _ _ _ => simp only [clone, holders]; exact ⟨le_refl _, fresh_nil n⟩
  | .obj _ => simp only [clone, holders]; exact ⟨le_refl _, fresh_nil n⟩
theorem cloneItems_fresh (xs : VL) (n : Nat) :
    n ≤ (cloneItems xs n).2 ∧ Fresh (holdersL (cloneItems xs n).1) n (cloneItems xs n).2 := by
  match xs with
  | .nil => simp only [cloneItems, holdersL]; exact ⟨le_refl _, fresh_nil n⟩
  | .cons x xs =>
    simp only [cloneItems, holdersL]
    obtain ⟨h1, h2⟩ := clone_fresh x n
    obtain ⟨h3, h4⟩ := cloneItems_fresh xs (clone x n).2
    exact ⟨by omega, h2.append h4 h1 h3⟩
theorem cloneEntries_fresh (kvs : KL) (n : Nat) :
    n ≤ (cloneEntries kvs n).2 ∧ Fresh (holdersK (cloneEntries kvs n).1) n (cloneEntries kvs n).2 := by
  match kvs with
  | .nil => simp only [cloneEntries, holdersK]; exact ⟨le_refl _, fresh_nil n⟩
  | .cons k v r =>
    simp only [cloneEntries, holdersK]
    obtain ⟨h1, h2⟩ := clone_fresh k n
    obtain ⟨h3, h4⟩ := clone_fresh v (clone k n).2
    obtain ⟨h5, h6⟩ := cloneEntries_fresh r (clone v (clone k n).2).2
    exact ⟨by omega, h2.append (h4.append h6 h3 h5) h1 (by omega)⟩
end

theorem clone_key {k : V} {c : Key} (h : keyOf k = some c) (n : Nat) : (clone k n).1 = k := by
  cases isKey_of h <;> simp only [clone]

mutual
theorem clone_same (x : V) (n : Nat) (h : Plain x) : Same x (clone x n).1 ∧ Plain (clone x n).1 := by
  match x with
  | .list _ _ xs =>
    simp only [Plain] at h
    simp only [clone, Same, Plain]
    exact cloneItems_same xs n h
  | .dict _ _ _ kvs =>
    simp only [Plain] at h
    simp only [clone, Same, Plain]
    obtain ⟨h1, h2, h3, h4⟩ := cloneEntries_same kvs n h.1
    exact ⟨⟨h1, (subK_iff _ _).mpr h4⟩, h2, by rw [h3]; exact h.2⟩
  | .null => simp [Plain] at h
  | .bool a b => exact ⟨same_refl _ h, h⟩
  | .int _ _ => exact ⟨same_refl _ h, h⟩
  | .float _ _ => exact ⟨same_refl _ h, h⟩
  | .str _ _ => exact ⟨same_refl _ h, h⟩
  | .ratio _ _ _ => exact ⟨same_refl _ h, h⟩
  | .cplx _ _ _ => exact ⟨same_refl _ h, h⟩
  | .obj _ => exact ⟨same_refl _ h, h⟩
theorem cloneItems_same (xs : VL) (n : Nat) (h : PlainL xs) :
    SameL xs (cloneItems xs n).1 ∧ PlainL (cloneItems xs n).1 := by
  match xs with
  | .nil => simp [cloneItems, SameL, PlainL]
  | .cons x xs =>
    simp only [PlainL] at h
    simp only [cloneItems, SameL, PlainL]
    obtain ⟨h1, h2⟩ := clone_same x n h.1
    obtain ⟨h3, h4⟩ := cloneItems_same xs (clone x n).2 h.2
    exact ⟨⟨h1, h3⟩, h2, h4⟩
theorem cloneEntries_same (kvs : KL) (n : Nat) (h : PlainK kvs) :
    entries kvs = entries (cloneEntries kvs n).1 ∧ PlainK (cloneEntries kvs n).1 ∧
    keysOf (cloneEntries kvs n).1 = keysOf kvs ∧
    ∀ p ∈ kvs.toList, ∃ q ∈ (cloneEntries kvs n).1.toList, keyOf q.1 = keyOf p.1 ∧ Same p.2 q.2 := by
  match kvs with
  | .nil => simp [cloneEntries, entries, PlainK, keysOf, KL.toList]
  | .cons k v r =>
    simp only [PlainK] at h
    obtain ⟨c, hc⟩ := Option.isSome_iff_exists.mp h.1
    have hk := clone_key hc n
    obtain ⟨h1, h2⟩ := clone_same v (clone k n).2 h.2.1
    obtain ⟨h3, h4, h5, h6⟩ := cloneEntries_same r (clone v (clone k n).2).2 h.2.2
    simp only [cloneEntries, entries, PlainK, keysOf, KL.toList, hk]
    refine ⟨by omega, ⟨h.1, h2, h4⟩, by rw [h5], ?_⟩
    intro p hp
    rcases List.mem_cons.mp hp with rfl | hp
    · exact ⟨_, List.mem_cons_self, rfl, h1⟩
    · obtain ⟨q, hq, e, s⟩ := h6 p hp
      exact ⟨q, List.mem_cons_of_mem _ hq, e, s⟩
end

/-! ## Order -/

theorem place_eq (f g : Fl) (hf : f ≠ .nan) (hg : g ≠ .nan) : place f = place g ↔ norm f = norm g := by
  cases f <;> cases g <;> simp_all [place, norm, -WithTop.coe_zero, -WithBot.coe_zero, -WithBot.coe_top, eq_comm]

theorem lt_place (f g : Fl) (hf : f ≠ .nan) (hg : g ≠ .nan) : Fl.lt f g = true ↔ place f < place g := by
  cases f <;> cases g <;> simp_all [place, Fl.lt, -WithTop.coe_zero, -WithBot.coe_zero, -WithBot.coe_top]

theorem cmpBy_says {gt lt : Bool} {l e g : Prop} (h1 : gt = true ↔ g) (h2 : lt = true ↔ l) (h3 : l → ¬ g)
    (h4 : e ↔ ¬ l ∧ ¬ g) : Says (cmpBy gt lt) l e g := by
  unfold Says cmpBy
  cases gt <;> cases lt <;> simp_all

theorem strCmp_says (s t : List UInt8) : Says (strCmp s t) (s < t) (s = t) (t < s) := by
  induction s generalizing t with
  | nil => cases t <;> simp [strCmp, Says]
  | cons a s ih =>
    cases t with
    | nil => simp [strCmp, Says]
    | cons b t =>
      obtain ⟨h1, h2, h3⟩ := ih t
      simp only [strCmp, Says, List.cons_lt_cons_iff, List.cons.injEq]
      by_cases hba : b < a
      · have : ¬ a < b := by rw [UInt8.lt_iff_toNat_lt] at *; omega
        have hne : a ≠ b := by rintro rfl; exact this hba
        simp [hba, this, hne, hne.symm]
      · by_cases hab : a < b
        · have hne : a ≠ b := by rintro rfl; exact hba hab
          simp [hba, hab, hne, hne.symm]
        · have : a = b := by
            rw [UInt8.lt_iff_toNat_lt] at *
            exact UInt8.toNat_inj.mp (by omega)
          subst this
          simp [hab, h1, h2, h3]

theorem round53_small {n : Nat} (h : n < 9007199254740992) : round53 n = n := by
  unfold round53; rw [if_pos h]

theorem intToFl_small (i : Int) (h : i.natAbs < 9007199254740992) : intToFl i = .fin i := by
  unfold intToFl
  rw [round53_small h]
  congr 1
  split
  · rename_i h0
    have : ((i.natAbs : Nat) : Int) = i := by omega
    conv => rhs; rw [← this]
    rfl
  · rename_i h0
    have : i = -((i.natAbs : Nat) : Int) := by omega
    conv => rhs; rw [this]
    rw [Int.cast_neg]; rfl

end Verif.Values
