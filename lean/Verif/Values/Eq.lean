import Mathlib.Data.List.Perm.Subperm
import Mathlib.Data.List.Nodup
import Verif.Values.Spec
import Verif.CoreTypes.PropsRatio

/-! # What the comparison of values computes -/

namespace Verif.Values

open Spec Verif.CoreTypes

theorem Fl.eq_iff (f g : Fl) (hf : f ≠ .nan) (hg : g ≠ .nan) : Fl.eq f g = true ↔ norm f = norm g := by
  cases f <;> cases g <;> simp_all [Fl.eq, norm, eq_comm]

theorem Fl.eq_comm' (f g : Fl) : Fl.eq f g = Fl.eq g f := by
  cases f <;> cases g <;> simp [Fl.eq, eq_comm]

theorem sized_nan {f : Fl} (h : Sized f) : f ≠ .nan := by rintro rfl; exact h

theorem cstr_of (s : List UInt8) (h : 0 ∉ s) : cstr s = s := by
  unfold cstr
  induction s with
  | nil => rfl
  | cons a s ih =>
    have ha : a ≠ 0 := fun e => h (by rw [e]; exact List.mem_cons_self)
    rw [List.takeWhile_cons_of_pos (by simpa using ha), ih fun e => h (List.mem_cons_of_mem _ e)]

theorem strEq_some (s t : List UInt8) (hs : 0 ∉ s) (ht : 0 ∉ t) : strEq (some s) (some t) = some (decide (s = t)) := by
  unfold strEq strLen
  dsimp only
  rw [cstr_of s hs, cstr_of t ht]
  by_cases h : s = t
  · subst h; simp
  · simp [h]

/-- The shapes of a key. -/
inductive IsKey : V → Key → Prop
  | b (a b) : IsKey (.bool a b) (.b b)
  | i (a i) : IsKey (.int a i) (.i i)
  | f (a f) (h : Sized f) : IsKey (.float a f) (.f (norm f))
  | s (a s) (h : 0 ∉ s) : IsKey (.str a (some s)) (.s s)
  | c (a re im) (h : re ≠ .nan) (h' : im ≠ .nan) : IsKey (.cplx a re im) (.c (norm re) (norm im))
  | o (a) : IsKey (.obj a) (.o a)

theorem isKey_of {k : V} {c : Key} (h : keyOf k = some c) : IsKey k c := by
  unfold keyOf at h
  split at h
  · cases h; exact .b _ _
  · cases h; exact .i _ _
  · split at h
    · cases h; exact .f _ _ (by assumption)
    · cases h
  · split at h
    · cases h
    · cases h; exact .s _ _ (by assumption)
  · split at h
    · cases h
    · rename_i hn
      cases h
      exact .c _ _ _ (fun e => hn (.inl e)) (fun e => hn (.inr e))
  · cases h; exact .o _
  · cases h

/-- A key is a leaf, and compared with another key by content. -/
theorem leafEq_key (k k' : V) (c c' : Key) (h : keyOf k = some c) (h' : keyOf k' = some c') :
    leafEq k k' = some (decide (c = c')) := by
  cases isKey_of h <;> cases isKey_of h' <;> simp only [leafEq]
  case f.f hf _ _ hg =>
    have := Fl.eq_iff _ _ (sized_nan hg) (sized_nan hf)
    simp only [Option.some.injEq, Key.f.injEq]
    rw [Bool.eq_iff_iff, this]; simp [eq_comm]
  case s.s hs _ _ ht => rw [strEq_some _ _ hs ht]; simp
  case c.c h1 h2 _ _ _ h3 h4 =>
    have e1 := Fl.eq_iff _ _ h3 h1
    have e2 := Fl.eq_iff _ _ h4 h2
    simp only [Option.some.injEq, Key.c.injEq]
    rw [Bool.eq_iff_iff, Bool.and_eq_true, e1, e2, decide_eq_true_eq]
    exact and_congr eq_comm eq_comm
  all_goals simp
  all_goals try rfl


theorem hash_some {hd : Fl → Nat} {k : V} {c : Key} (h : keyOf k = some c) : (hash hd k).isSome := by
  cases isKey_of h <;> simp only [hash, Option.isSome_some]
  case f f hf =>
    cases f <;> simp_all [Sized, norm, Fl.toSize]

theorem toSize_norm (f : Fl) : f.toSize = (norm f).toSize := by
  cases f <;> simp only [norm]
  decide +kernel

theorem hash_eq' {hd : Fl → Nat} (hh : HashOk hd) {k k' : V} {c c' : Key} (h : IsKey k c) (h' : IsKey k' c') (e : c = c') :
    hash hd k = hash hd k' := by
  cases h <;> cases h' <;> simp only [hash] <;> simp only [Key.b.injEq, Key.i.injEq, Key.f.injEq, Key.s.injEq, Key.c.injEq, Key.o.injEq, reduceCtorEq] at e
  · rw [e]
  · rw [e]
  · rw [toSize_norm, e, ← toSize_norm]
  · rw [e]
  · rw [hh _ _ e.1, hh _ _ e.2]
  · rw [e]

theorem hash_eq {hd : Fl → Nat} (hh : HashOk hd) {k k' : V} {c : Key} (h : keyOf k = some c) (h' : keyOf k' = some c) :
    hash hd k = hash hd k' := hash_eq' hh (isKey_of h) (isKey_of h') rfl

variable {hd : Fl → Nat}

theorem eqv_key (k k' : V) {c : Key} (h : keyOf k = some c) : eqv hd k k' = leafEq k k' := by
  cases isKey_of h <;> cases k' <;> simp only [eqv]

theorem rev_key (k k' : V) {c c' : Key} (h : keyOf k = some c) (h' : keyOf k' = some c') : rev hd k k' = leafEq k' k := by
  cases isKey_of h <;> cases isKey_of h' <;> simp only [rev]

theorem keyHit_key (hh : HashOk hd) {k k' : V} {c c' : Key} (h : keyOf k = some c) (h' : keyOf k' = some c') {e : Option Bool}
    (he : e = some (decide (c = c'))) : keyHit (hash hd k) (hash hd k') e = some (decide (c = c')) := by
  obtain ⟨x, hx⟩ := Option.isSome_iff_exists.mp (hash_some (hd := hd) h)
  obtain ⟨y, hy⟩ := Option.isSome_iff_exists.mp (hash_some (hd := hd) h')
  rw [hx, hy, he]
  simp only [keyHit]
  split
  · rfl
  · rename_i hne
    have : c ≠ c' := by
      rintro rfl
      have := hash_eq hh h h'
      rw [hx, hy] at this
      exact hne (Option.some.inj this)
    simp [this]

/-- Looking at an entry: the key asked for is the second. -/
theorem keyHit_eqv (hh : HashOk hd) {k k' : V} (h : (keyOf k).isSome) (h' : (keyOf k').isSome) :
    keyHit (hash hd k') (hash hd k) (eqv hd k k') = some (decide (keyOf k' = keyOf k)) := by
  obtain ⟨c, hc⟩ := Option.isSome_iff_exists.mp h
  obtain ⟨c', hc'⟩ := Option.isSome_iff_exists.mp h'
  rw [keyHit_key hh hc' hc, hc, hc']
  · simp
  · rw [eqv_key _ _ hc, leafEq_key _ _ _ _ hc hc']; simp [eq_comm]

theorem keyHit_rev (hh : HashOk hd) {k k' : V} (h : (keyOf k).isSome) (h' : (keyOf k').isSome) :
    keyHit (hash hd k') (hash hd k) (rev hd k' k) = some (decide (keyOf k' = keyOf k)) := by
  obtain ⟨c, hc⟩ := Option.isSome_iff_exists.mp h
  obtain ⟨c', hc'⟩ := Option.isSome_iff_exists.mp h'
  rw [keyHit_key hh hc' hc, hc, hc']
  · simp
  · rw [rev_key _ _ hc' hc, leafEq_key _ _ _ _ hc hc']; simp [eq_comm]

/-! ## Entries -/

theorem entry_iff (k v : V) (l : KL) : Entry k v l ↔ (k, v) ∈ l.toList := by
  match l with
  | .nil => simp [Entry, KL.toList]
  | .cons k' v' r => simp [Entry, KL.toList, entry_iff k v r]

theorem keysOf_eq (l : KL) : keysOf l = l.toList.map fun p => keyOf p.1 := by
  match l with
  | .nil => rfl
  | .cons k' v' r => simp [keysOf, KL.toList, keysOf_eq r]

theorem entries_eq (l : KL) : entries l = l.toList.length := by
  match l with
  | .nil => rfl
  | .cons k' v' r => simp [entries, KL.toList, entries_eq r]

theorem KL.length_eq (l : KL) : l.length = l.toList.length := by
  match l with
  | .nil => rfl
  | .cons k' v' r => simp [KL.length, KL.toList, KL.length_eq r]

theorem VL.length_eq (l : VL) : l.length = l.toList.length := by
  match l with
  | .nil => rfl
  | .cons x r => simp [VL.length, VL.toList, VL.length_eq r]

theorem plainK_iff (l : KL) : PlainK l ↔ ∀ p ∈ l.toList, (keyOf p.1).isSome ∧ Plain p.2 := by
  match l with
  | .nil => simp [PlainK, KL.toList]
  | .cons k' v' r => simp [PlainK, KL.toList, plainK_iff r, and_assoc]

theorem subK_iff (l m : KL) : SubK l m ↔ ∀ p ∈ l.toList, ∃ q ∈ m.toList, keyOf q.1 = keyOf p.1 ∧ Same p.2 q.2 := by
  match l with
  | .nil => simp [SubK, KL.toList]
  | .cons k' v' r => simp [SubK, KL.toList, subK_iff r, entry_iff]

/-- Two lists of the same length without repeated keys: if the keys of the first are among those of the second, then
the other way round. -/
theorem keys_swap {l m : List (V × V)} (hl : (l.map fun p => keyOf p.1).Nodup)
    (hlen : l.length = m.length) (hs : ∀ p ∈ l, ∃ q ∈ m, keyOf q.1 = keyOf p.1) :
    ∀ q ∈ m, ∃ p ∈ l, keyOf p.1 = keyOf q.1 := by
  have hsub : (l.map fun p => keyOf p.1) ⊆ m.map fun p => keyOf p.1 := by
    intro x hx
    obtain ⟨p, hp, rfl⟩ := List.mem_map.mp hx
    obtain ⟨q, hq, e⟩ := hs p hp
    exact List.mem_map.mpr ⟨q, hq, e⟩
  have hp := (hl.subperm hsub).perm_of_length_le (by simp [hlen])
  intro q hq
  have : keyOf q.1 ∈ l.map fun p => keyOf p.1 := hp.mem_iff.mpr (List.mem_map.mpr ⟨q, hq, rfl⟩)
  obtain ⟨p, hp, e⟩ := List.mem_map.mp this
  exact ⟨p, hp, e⟩

theorem entry_unique {l : List (V × V)} (hl : (l.map fun p => keyOf p.1).Nodup) {p q : V × V} (hp : p ∈ l) (hq : q ∈ l)
    (e : keyOf p.1 = keyOf q.1) : p = q :=
  List.inj_on_of_nodup_map hl hp hq e

/-- With the keys swapped, the correspondence of entries can be read in both directions. -/
theorem corr_swap {R : V → V → Prop} {l m : List (V × V)} (hl : (l.map fun p => keyOf p.1).Nodup)
    (hm : (m.map fun p => keyOf p.1).Nodup) (hlen : l.length = m.length)
    (hs : ∀ p ∈ l, ∃ q ∈ m, keyOf q.1 = keyOf p.1 ∧ R p.2 q.2) :
    ∀ q ∈ m, ∃ p ∈ l, keyOf p.1 = keyOf q.1 ∧ R p.2 q.2 := by
  intro q hq
  obtain ⟨p, hp, e⟩ := keys_swap hl hlen (fun p hp => by obtain ⟨q, h1, h2, -⟩ := hs p hp; exact ⟨q, h1, h2⟩) q hq
  obtain ⟨q', hq', e', r⟩ := hs p hp
  have : q' = q := entry_unique hm hq' hq (e'.trans e)
  subst this
  exact ⟨p, hp, e, r⟩

/-! ## Content -/

mutual
theorem same_refl (x : V) (h : Plain x) : Same x x := by
  match x with
  | .null => exact h
  | .bool _ _ => simp [Same]
  | .int _ _ => simp [Same]
  | .float _ _ => simp [Same]
  | .str _ _ => simp [Same]
  | .ratio _ _ _ => simp [Same]
  | .cplx _ _ _ => simp [Same]
  | .obj _ => simp [Same]
  | .list _ _ xs => simp only [Same]; exact sameL_refl xs (by simpa [Plain] using h)
  | .dict _ _ _ kvs =>
    simp only [Plain] at h
    simp only [Same, true_and]
    rw [subK_iff]
    intro p hp
    exact ⟨p, hp, rfl, sameK_refl kvs h.1 p hp⟩
theorem sameL_refl (xs : VL) (h : PlainL xs) : SameL xs xs := by
  match xs with
  | .nil => simp [SameL]
  | .cons x xs => simp only [PlainL] at h; simp only [SameL]; exact ⟨same_refl x h.1, sameL_refl xs h.2⟩
theorem sameK_refl (l : KL) (h : PlainK l) : ∀ p ∈ l.toList, Same p.2 p.2 := by
  match l with
  | .nil => simp [KL.toList]
  | .cons k v r =>
    simp only [PlainK] at h
    simp only [KL.toList, List.mem_cons]
    rintro p (rfl | hp)
    · exact same_refl v h.2.1
    · exact sameK_refl r h.2.2 p hp
end

mutual
theorem same_symm (x y : V) (hx : Plain x) (hy : Plain y) (h : Same x y) : Same y x := by
  match x with
  | .null => cases y <;> simp only [Same] at h
  | .list _ _ xs =>
    cases y <;> simp only [Same, Plain] at *
    exact sameL_symm xs _ hx hy h
  | .dict _ _ _ xs =>
    cases y <;> simp only [Same, Plain] at *
    refine ⟨h.1.symm, ?_⟩
    rw [subK_iff]
    have h2 := (subK_iff _ _).mp h.2
    rw [entries_eq, entries_eq] at h
    rw [keysOf_eq, plainK_iff] at hx hy
    have := corr_swap (R := fun a b => Same b a) hx.2 hy.2 h.1 (fun p hp => by
      obtain ⟨q, hq, e, r⟩ := h2 p hp
      exact ⟨q, hq, e, subK_symm xs ((plainK_iff _).mpr hx.1) p hp q.2 (hy.1 q hq).2 r⟩)
    exact this
  | .bool _ _ => cases y <;> simp only [Same] at *; exact h.symm
  | .int _ _ => cases y <;> simp only [Same] at *; exact h.symm
  | .float _ _ => cases y <;> simp only [Same] at *; exact h.symm
  | .str _ _ => cases y <;> simp only [Same] at *; exact h.symm
  | .ratio _ _ _ => cases y <;> simp only [Same] at *; exact ⟨h.1.symm, h.2.symm⟩
  | .cplx _ _ _ => cases y <;> simp only [Same] at *; exact ⟨h.1.symm, h.2.symm⟩
  | .obj _ => cases y <;> simp only [Same] at *; exact h.symm
theorem sameL_symm (xs ys : VL) (hx : PlainL xs) (hy : PlainL ys) (h : SameL xs ys) : SameL ys xs := by
  match xs, ys with
  | .nil, .nil => exact h
  | .cons x xs, .cons y ys =>
    simp only [SameL, PlainL] at *
    exact ⟨same_symm x y hx.1 hy.1 h.1, sameL_symm xs ys hx.2 hy.2 h.2⟩
theorem subK_symm (l : KL) (h : PlainK l) : ∀ p ∈ l.toList, ∀ y, Plain y → Same p.2 y → Same y p.2 := by
  match l with
  | .nil => simp [KL.toList]
  | .cons k v r =>
    simp only [PlainK] at h
    simp only [KL.toList, List.mem_cons]
    rintro p (rfl | hp)
    · exact fun y hy e => same_symm v y h.2.1 hy e
    · exact subK_symm r h.2.2 p hp
end

mutual
theorem same_trans (x y z : V) (h : Same x y) (h' : Same y z) : Same x z := by
  match x with
  | .null => cases y <;> simp only [Same] at h
  | .list _ _ xs =>
    cases y <;> simp only [Same] at h
    cases z <;> simp only [Same] at h' ⊢
    exact sameL_trans xs _ _ h h'
  | .dict _ _ _ xs =>
    cases y <;> simp only [Same] at h
    cases z <;> simp only [Same] at h' ⊢
    refine ⟨h.1.trans h'.1, ?_⟩
    rw [subK_iff] at *
    intro p hp
    obtain ⟨q, hq, e, r⟩ := h.2 p hp
    obtain ⟨t, ht, e', r'⟩ := h'.2 q hq
    exact ⟨t, ht, e'.trans e, subK_trans xs p hp _ _ r r'⟩
  | .bool _ _ => cases y <;> simp only [Same] at h; cases z <;> simp only [Same] at *; exact h.trans h'
  | .int _ _ => cases y <;> simp only [Same] at h; cases z <;> simp only [Same] at *; exact h.trans h'
  | .float _ _ => cases y <;> simp only [Same] at h; cases z <;> simp only [Same] at *; exact h.trans h'
  | .str _ _ => cases y <;> simp only [Same] at h; cases z <;> simp only [Same] at *; exact h.trans h'
  | .ratio _ _ _ => cases y <;> simp only [Same] at h; cases z <;> simp only [Same] at *; exact ⟨h.1.trans h'.1, h.2.trans h'.2⟩
  | .cplx _ _ _ => cases y <;> simp only [Same] at h; cases z <;> simp only [Same] at *; exact ⟨h.1.trans h'.1, h.2.trans h'.2⟩
  | .obj _ => cases y <;> simp only [Same] at h; cases z <;> simp only [Same] at *; exact h.trans h'
theorem sameL_trans (xs ys zs : VL) (h : SameL xs ys) (h' : SameL ys zs) : SameL xs zs := by
  match xs with
  | .nil => cases ys <;> simp only [SameL] at h; exact h'
  | .cons x xs =>
    cases ys <;> simp only [SameL] at h
    cases zs <;> simp only [SameL] at h' ⊢
    exact ⟨same_trans x _ _ h.1 h'.1, sameL_trans xs _ _ h.2 h'.2⟩
theorem subK_trans (l : KL) : ∀ p ∈ l.toList, ∀ y z, Same p.2 y → Same y z → Same p.2 z := by
  match l with
  | .nil => simp [KL.toList]
  | .cons k v r =>
    simp only [KL.toList, List.mem_cons]
    rintro p (rfl | hp)
    · exact fun y z e e' => same_trans v y z e e'
    · exact subK_trans r p hp
end

/-! ## The comparison -/

/-- The outcome is a truth value, that of `P`. -/
def Decides (r : Option Bool) (P : Prop) : Prop := ∃ b, r = some b ∧ (b = true ↔ P)

theorem Decides.mk' {b : Bool} {P : Prop} (h : b = true ↔ P) : Decides (some b) P := ⟨b, rfl, h⟩

theorem Decides.andThen {r s : Option Bool} {P Q : Prop} (h : Decides r P) (h' : Decides s Q) :
    Decides (andThen r s) (P ∧ Q) := by
  obtain ⟨b, rfl, hb⟩ := h
  cases b
  · exact ⟨false, rfl, by simp at hb; simp [hb]⟩
  · obtain ⟨c, rfl, hc⟩ := h'
    exact ⟨c, rfl, by simp at hb; simp [hb, hc]⟩

theorem Decides.congr {r : Option Bool} {P Q : Prop} (h : Decides r P) (e : P ↔ Q) : Decides r Q := by
  obtain ⟨b, h1, h2⟩ := h
  exact ⟨b, h1, h2.trans e⟩

theorem plain_ne_null {x : V} (h : Plain x) : x ≠ .null := by rintro rfl; simp [Plain] at h

theorem ptrEq_plain {x y : V} (h : Plain x) (e : Option Bool) : ptrEq x y e = e := by
  cases x <;> cases y <;> simp_all [ptrEq, Plain]

/-- Two values that are neither lists nor dictionaries of the same kind. -/
def Mixed : V → V → Prop
  | .list _ _ _, .list _ _ _ | .dict _ _ _ _, .dict _ _ _ _ => False
  | _, _ => True

theorem eqv_mixed (x y : V) (hx : Plain x) (h : Mixed x y) : eqv hd x y = leafEq x y := by
  cases x <;> cases y <;> simp only [eqv, leafEq, Mixed, Plain] at *

theorem rev_mixed (x y : V) (hy : Plain y) (h : Mixed x y) : rev hd x y = leafEq y x := by
  cases x <;> cases y <;> simp only [rev, leafEq, Mixed, Plain] at *

theorem mixed_comm {x y : V} (h : Mixed x y) : Mixed y x := by
  cases x <;> cases y <;> first | trivial | exact h

theorem leafEq_plain (x y : V) (hx : Plain x) (hy : Plain y) (h : Mixed x y) : Decides (leafEq x y) (Same x y) := by
  cases x <;> cases y <;> (try simp only [Mixed] at h) <;> (try exact absurd rfl (plain_ne_null hx)) <;>
    (try exact absurd rfl (plain_ne_null hy)) <;> simp only [leafEq, Same]
  case bool.bool => exact .mk' (by simp)
  case int.int => exact .mk' (by simp)
  case float.float => simp only [Plain] at hx hy; exact .mk' (by rw [Fl.eq_iff _ _ hy hx]; exact eq_comm)
  case str.str s _ t =>
    cases s <;> simp only [Plain] at hx
    cases t <;> simp only [Plain] at hy
    rw [strEq_some _ _ hx hy]
    exact .mk' (by simp)
  case ratio.ratio =>
    simp only [Plain] at hx hy
    obtain ⟨b, h1, h2⟩ := CoreTypes.C33_equals _ _ hx.1 hy.1 hx.2 hy.2
    rw [h1]
    exact .mk' h2
  case cplx.cplx =>
    simp only [Plain] at hx hy
    exact .mk' (by
      rw [Bool.and_eq_true, Fl.eq_iff _ _ hy.1 hx.1, Fl.eq_iff _ _ hy.2 hx.2]
      exact and_congr eq_comm eq_comm)
  all_goals exact .mk' (by simp)

theorem findM_plain (hh : HashOk hd) (k : V) (hk : (keyOf k).isSome) (l : KL) (hl : ∀ p ∈ l.toList, (keyOf p.1).isSome) :
    l.findM (fun k' => keyHit (hash hd k') (hash hd k) (eqv hd k k')) =
      some ((l.toList.find? fun p => decide (keyOf p.1 = keyOf k)).map Prod.snd) := by
  match l with
  | .nil => rfl
  | .cons k' v' r =>
    simp only [KL.toList, List.mem_cons, forall_eq_or_imp] at hl
    simp only [KL.findM, keyHit_eqv hh hk hl.1, KL.toList, List.find?_cons]
    by_cases e : keyOf k' = keyOf k
    · simp [e]
    · simp only [e, decide_false]
      exact findM_plain hh k hk r hl.2

theorem sameL_length (xs ys : VL) (h : SameL xs ys) : xs.toList.length = ys.toList.length := by
  match xs with
  | .nil => cases ys <;> simp only [SameL] at h; rfl
  | .cons x xs =>
    cases ys <;> simp only [SameL] at h
    simp [VL.toList, sameL_length xs _ h.2]

theorem allM_decides {f : V → V → Option Bool} {P : V → V → Prop} (l : KL) (h : ∀ p ∈ l.toList, Decides (f p.1 p.2) (P p.1 p.2)) :
    Decides (l.allM f) (∀ p ∈ l.toList, P p.1 p.2) := by
  match l with
  | .nil => exact ⟨true, rfl, by simp [KL.toList]⟩
  | .cons k v r =>
    simp only [KL.toList, List.mem_cons, forall_eq_or_imp] at h
    exact ((h.1).andThen (allM_decides r h.2)).congr (by simp [KL.toList])

mutual
theorem eqv_plain (hh : HashOk hd) (x y : V) (hx : Plain x) (hy : Plain y) : Decides (eqv hd x y) (Same x y) := by
  have mix : Mixed x y → Decides (eqv hd x y) (Same x y) := by
    intro h
    rw [eqv_mixed _ _ hx h]
    exact leafEq_plain _ _ hx hy h
  match x with
  | .list _ _ xs =>
    cases y
    case list =>
      simp only [Plain] at hx hy
      simp only [eqv, Same]
      split
      · rename_i hne
        exact .mk' (by
          simp only [Bool.false_eq_true, false_iff]
          intro h
          exact hne (by rw [VL.length_eq, VL.length_eq]; exact (sameL_length _ _ h).symm))
      · rename_i he
        exact items_plain hh xs _ hx hy (Decidable.not_not.mp he).symm
    all_goals exact mix trivial
  | .dict _ _ _ xs =>
    cases y
    case dict ys =>
      simp only [Plain] at hx hy
      simp only [eqv, Same]
      split
      · rename_i hne
        exact .mk' (by
          simp only [Bool.false_eq_true, false_iff]
          rintro ⟨h, -⟩
          exact hne (by rw [KL.length_eq, KL.length_eq, ← entries_eq, ← entries_eq]; exact h.symm))
      · rename_i he
        have he' := (Decidable.not_not.mp he).symm
        rw [KL.length_eq, KL.length_eq] at he'
        have hx1 := (plainK_iff _).mp hx.1
        have hy1 := (plainK_iff _).mp hy.1
        have hx2 := hx.2
        have hy2 := hy.2
        rw [keysOf_eq] at hx2 hy2
        refine (allM_decides ys (P := fun k v => ∃ q ∈ xs.toList, keyOf q.1 = keyOf k ∧ Same q.2 v)
          (fun p hp => hit_plain hh xs p.1 p.2 hx.1 hx2 (hy1 p hp).1 (hy1 p hp).2)).congr ?_
        rw [entries_eq, entries_eq, and_iff_right he', subK_iff]
        constructor
        · intro h
          exact corr_swap (R := fun a b => Same b a) hy2 hx2 he'.symm h
        · intro h
          exact corr_swap (R := fun a b => Same a b) hx2 hy2 he' h
    all_goals exact mix trivial
  | .null => exact absurd rfl (plain_ne_null hx)
  | .bool _ _ => exact mix trivial
  | .int _ _ => exact mix trivial
  | .float _ _ => exact mix trivial
  | .str _ _ => exact mix trivial
  | .ratio _ _ _ => exact mix trivial
  | .cplx _ _ _ => exact mix trivial
  | .obj _ => exact mix trivial
theorem rev_plain (hh : HashOk hd) (x y : V) (hx : Plain x) (hy : Plain y) : Decides (rev hd x y) (Same x y) := by
  have mix : Mixed x y → Decides (rev hd x y) (Same x y) := by
    intro h
    rw [rev_mixed _ _ hy h]
    exact (leafEq_plain _ _ hy hx (mixed_comm h)).congr ⟨same_symm _ _ hy hx, same_symm _ _ hx hy⟩
  match x with
  | .list _ _ xs =>
    cases y
    case list =>
      simp only [Plain] at hx hy
      simp only [rev, Same]
      split
      · rename_i hne
        exact .mk' (by
          simp only [Bool.false_eq_true, false_iff]
          intro h
          exact hne (by rw [VL.length_eq, VL.length_eq]; exact (sameL_length _ _ h)))
      · rename_i he
        exact revItems_plain hh xs _ hx hy (Decidable.not_not.mp he)
    all_goals exact mix trivial
  | .dict _ _ _ xs =>
    cases y
    case dict ys =>
      simp only [Plain] at hx hy
      simp only [rev, Same]
      split
      · rename_i hne
        exact .mk' (by
          simp only [Bool.false_eq_true, false_iff]
          rintro ⟨h, -⟩
          exact hne (by rw [KL.length_eq, KL.length_eq, ← entries_eq, ← entries_eq]; exact h))
      · rename_i he
        have he' := (Decidable.not_not.mp he)
        rw [KL.length_eq, KL.length_eq] at he'
        rw [entries_eq, entries_eq, and_iff_right he']
        exact entries_plain hh xs ys hx.1 hy.1 (by rw [← keysOf_eq]; exact hy.2)
    all_goals exact mix trivial
  | .null => exact absurd rfl (plain_ne_null hx)
  | .bool _ _ => exact mix trivial
  | .int _ _ => exact mix trivial
  | .float _ _ => exact mix trivial
  | .str _ _ => exact mix trivial
  | .ratio _ _ _ => exact mix trivial
  | .cplx _ _ _ => exact mix trivial
  | .obj _ => exact mix trivial
theorem items_plain (hh : HashOk hd) (xs ys : VL) (hx : PlainL xs) (hy : PlainL ys) (hl : xs.length = ys.length) :
    Decides (eqvItems hd xs ys) (SameL xs ys) := by
  match xs with
  | .nil =>
    cases ys <;> simp only [VL.length] at hl
    · exact ⟨true, by simp only [eqvItems], by simp [SameL]⟩
    · omega
  | .cons x xs =>
    cases ys <;> simp only [VL.length] at hl
    · omega
    · rename_i y ys
      simp only [PlainL] at hx hy
      simp only [eqvItems, SameL]
      refine Decides.andThen ?_ (items_plain hh xs ys hx.2 hy.2 (by omega))
      split
      · rename_i e
        exact .mk' (by simp only [true_iff]; rw [← e]; exact same_refl x hx.1)
      · exact eqv_plain hh x y hx.1 hy.1
theorem revItems_plain (hh : HashOk hd) (xs ys : VL) (hx : PlainL xs) (hy : PlainL ys) (hl : xs.length = ys.length) :
    Decides (revItems hd xs ys) (SameL xs ys) := by
  match xs with
  | .nil =>
    cases ys <;> simp only [VL.length] at hl
    · exact ⟨true, by simp only [revItems], by simp [SameL]⟩
    · omega
  | .cons x xs =>
    cases ys <;> simp only [VL.length] at hl
    · omega
    · rename_i y ys
      simp only [PlainL] at hx hy
      simp only [revItems, SameL]
      refine Decides.andThen ?_ (revItems_plain hh xs ys hx.2 hy.2 (by omega))
      split
      · rename_i e
        exact .mk' (by simp only [true_iff]; rw [e]; exact same_refl x hx.1)
      · exact rev_plain hh x y hx.1 hy.1
theorem hit_plain (hh : HashOk hd) (xs : KL) (k v : V) (hx : PlainK xs) (hn : (xs.toList.map fun p => keyOf p.1).Nodup)
    (hk : (keyOf k).isSome) (hv : Plain v) :
    Decides (hitIn hd xs k v) (∃ q ∈ xs.toList, keyOf q.1 = keyOf k ∧ Same q.2 v) := by
  match xs with
  | .nil => exact ⟨false, by simp only [hitIn], by simp [KL.toList]⟩
  | .cons k' v' r =>
    simp only [PlainK] at hx
    simp only [KL.toList, List.map_cons, List.nodup_cons] at hn
    simp only [hitIn, keyHit_rev hh hk hx.1]
    by_cases e : keyOf k' = keyOf k
    · simp only [e, decide_true]
      rw [ptrEq_plain hv]
      refine (rev_plain hh v' v hx.2.1 hv).congr ?_
      simp only [KL.toList, List.mem_cons]
      constructor
      · exact fun h => ⟨(k', v'), .inl rfl, e, h⟩
      · rintro ⟨q, rfl | hq, e', h⟩
        · exact h
        · exact absurd (List.mem_map.mpr ⟨q, hq, e'.trans e.symm⟩) hn.1
    · simp only [e, decide_false]
      refine (hit_plain hh r k v hx.2.2 hn.2 hk hv).congr ?_
      simp [KL.toList, e]
theorem entries_plain (hh : HashOk hd) (xs ys : KL) (hx : PlainK xs) (hy : PlainK ys)
    (hn : (ys.toList.map fun p => keyOf p.1).Nodup) : Decides (entriesIn hd xs ys) (SubK xs ys) := by
  match xs with
  | .nil => exact ⟨true, by simp only [entriesIn], by simp [SubK]⟩
  | .cons k v r =>
    simp only [PlainK] at hx
    simp only [entriesIn, SubK]
    refine Decides.andThen ?_ (entries_plain hh r ys hx.2.2 hy hn)
    have hy1 := (plainK_iff _).mp hy
    rw [findM_plain hh k hx.1 ys (fun p hp => (hy1 p hp).1)]
    cases hf : ys.toList.find? fun p => decide (keyOf p.1 = keyOf k) with
    | none =>
      refine ⟨false, rfl, ?_⟩
      rw [List.find?_eq_none] at hf
      simp only [Bool.false_eq_true, false_iff]
      rintro ⟨k', v', he, e, -⟩
      exact hf _ ((entry_iff _ _ _).mp he) (by simpa using e)
    | some q =>
      have hq := List.mem_of_find?_eq_some hf
      have e : keyOf q.1 = keyOf k := by simpa using List.find?_some hf
      simp only [Option.map_some, onFound]
      rw [ptrEq_plain hx.2.1]
      refine (eqv_plain hh v q.2 hx.2.1 (hy1 q hq).2).congr ?_
      constructor
      · exact fun h => ⟨q.1, q.2, (entry_iff _ _ _).mpr hq, e, h⟩
      · rintro ⟨k', v', he, e', h⟩
        have := entry_unique hn ((entry_iff _ _ _).mp he) hq (e'.trans e.symm)
        rw [← this]
        exact h
end

end Verif.Values
