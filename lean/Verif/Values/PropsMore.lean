import Mathlib.Data.List.Induction
import Mathlib.Tactic.Linarith
import Verif.Values.PropsJson

/-! # What holds for strings with zeros, for numbers of different kinds and for texts that are not ours -/

namespace Verif.Values.Props
open Spec

/-! ## Null references and zeros -/

/-- Dictionaries with null values: two nulls are equal, a null in the argument differs from a number, and a null in
the dictionary that is asked crashes. -/
theorem C80_null_value_violation :
    (let d (a : Nat) (v : V) := V.dict a ⟨0, 0, 0, 0, 0, 0, 0, 0, 0, 0, 0⟩ ⟨0, 0, 0, 0, 0, 0, 0, 0, 0, 0, 0⟩ (.cons (.int 9 1) v .nil)
    eqv hd0 (d 1 .null) (d 2 .null) = some true ∧ eqv hd0 (d 1 (.int 3 5)) (d 2 .null) = some false ∧
      eqv hd0 (d 1 .null) (d 2 (.int 3 5)) = none) := by decide +kernel

/-- The strings agree up to their ends or to a zero in both. -/
def UpToZero (s t : List UInt8) : Prop :=
  ∃ p : List UInt8, 0 ∉ p ∧ ((s = p ∧ t = p) ∨ (∃ u v, s = p ++ 0 :: u ∧ t = p ++ 0 :: v) ∨
    (∃ u, s = p ++ 0 :: u ∧ t = p) ∨ (∃ v, s = p ∧ t = p ++ 0 :: v))

theorem cstr_cases (s : List UInt8) : 0 ∉ cstr s ∧ (s = cstr s ∨ ∃ u, s = cstr s ++ 0 :: u) := by
  unfold cstr
  induction s with
  | nil => simp
  | cons a s ih =>
    by_cases h : a = 0
    · subst h; simp
    · simp only [h, decide_not, decide_false, Bool.not_false, List.takeWhile_cons_of_pos, List.mem_cons, ne_eq,
        List.cons_append, List.cons.injEq, true_and, not_or] at ih ⊢
      exact ⟨⟨fun e => h e.symm, ih.1⟩, ih.2⟩

theorem cstr_zero (p u : List UInt8) (h : 0 ∉ p) : cstr (p ++ 0 :: u) = p := by
  unfold cstr
  induction p with
  | nil => simp
  | cons a p ih =>
    simp only [List.mem_cons, not_or] at h
    have : a ≠ 0 := fun e => h.1 e.symm
    simp only [List.cons_append, this, decide_true, List.takeWhile_cons_of_pos, ne_eq, not_false_eq_true]
    rw [ih h.2]

theorem cstr_iff (s t : List UInt8) : cstr s = cstr t ↔ UpToZero s t := by
  constructor
  · intro e
    obtain ⟨h, hs⟩ := cstr_cases s
    obtain ⟨-, ht⟩ := cstr_cases t
    rw [← e] at ht
    refine ⟨cstr s, h, ?_⟩
    rcases hs with hs | ⟨u, hs⟩ <;> rcases ht with ht | ⟨v, ht⟩
    · exact .inl ⟨hs, ht⟩
    · exact .inr (.inr (.inr ⟨v, hs, ht⟩))
    · exact .inr (.inr (.inl ⟨u, hs, ht⟩))
    · exact .inr (.inl ⟨u, v, hs, ht⟩)
  · rintro ⟨p, h, ⟨rfl, rfl⟩ | ⟨u, v, rfl, rfl⟩ | ⟨u, rfl, rfl⟩ | ⟨v, rfl, rfl⟩⟩
    · rfl
    · rw [cstr_zero _ _ h, cstr_zero _ _ h]
    · rw [cstr_zero _ _ h, cstr_of _ h]
    · rw [cstr_zero _ _ h, cstr_of _ h]

/-- Any two strings: they are equal when they have the same length and agree up to the first zero. -/
theorem C80_strings_partial (hd : Fl → Nat) (a b : Nat) (s t : List UInt8) :
    ∃ r, eqv hd (.str a (some s)) (.str b (some t)) = some r ∧ (r = true ↔ s.length = t.length ∧ UpToZero s t) := by
  simp only [eqv, leafEq, strEq, strLen]
  by_cases h : t.length = s.length
  · simp only [h, ne_eq, not_true_eq_false, if_false]
    exact ⟨_, rfl, by rw [← cstr_iff]; simp⟩
  · simp only [ne_eq, h, not_false_eq_true, if_true]
    exact ⟨_, rfl, by simp only [Bool.false_eq_true, false_iff, not_and]; exact fun e => absurd e.symm h⟩

example : ∃ s t : List UInt8, s ≠ t ∧ s.length = t.length ∧ UpToZero s t :=
  ⟨[97, 0, 1], [97, 0, 2], by decide, rfl, [97], by decide, .inr (.inl ⟨[1], [2], rfl, rfl⟩)⟩

/-- Any two strings that are equal, also those with zeros, have the same hash code. -/
theorem C81_hash_strings (hd : Fl → Nat) (a b : Nat) (s t : List UInt8)
    (h : eqv hd (.str a (some s)) (.str b (some t)) = some true) :
    hash hd (.str a (some s)) = hash hd (.str b (some t)) ∧ (hash hd (.str a (some s))).isSome := by
  obtain ⟨r, h1, h2⟩ := C80_strings_partial hd a b s t
  rw [h] at h1
  cases h1
  have := (cstr_iff s t).mpr (h2.mp rfl).2
  simp [hash, strHash, this]

example : eqv hd0 (.str 1 (some [97, 0, 1])) (.str 2 (some [97, 0, 2])) = some true := by decide +kernel

/-! ## An integer compared with a float -/

/-- `t` is `q` without its fraction. -/
def Cut (q : Rat) (t : Int) : Prop := (0 ≤ q → (t : Rat) ≤ q ∧ q < t + 1) ∧ (q ≤ 0 → q ≤ t ∧ (t : Rat) - 1 < q)

theorem toInt_cut (q : Rat) (h1 : -9223372036854775809 < q) (h2 : q < 9223372036854775808) :
    ∃ t, Fl.toInt (.fin q) = some t ∧ Cut q t := by
  refine ⟨if 0 ≤ q then q.floor else -(-q).floor, by simp [Fl.toInt, h1, h2], ?_⟩
  have hf (q : Rat) : (q.floor : Rat) ≤ q ∧ q < q.floor + 1 :=
    ⟨Rat.floor_le q, by simpa using Rat.lt_floor_add_one q⟩
  split
  · rename_i h
    refine ⟨fun _ => hf q, fun h' => ?_⟩
    have : q = 0 := le_antisymm h' h
    subst this
    decide +kernel
  · rename_i h
    refine ⟨fun h' => absurd h' h, fun _ => ?_⟩
    have := hf (-q)
    push_cast
    exact ⟨by linarith, by linarith⟩

/-- An integer compared with a float within the range of integers is compared with the float without its fraction.
Missing: floats outside the range (undefined), and that the fraction counts. -/
theorem C85_int_float_partial (a b : Nat) (i : Int) (q : Rat) (h1 : -9223372036854775809 < q) (h2 : q < 9223372036854775808) :
    ∃ t, Cut q t ∧ Says (compareTo (.int a i) (.float b (.fin q))) (i < t) (i = t) (t < i) := by
  obtain ⟨t, h, hc⟩ := toInt_cut q h1 h2
  refine ⟨t, hc, ?_⟩
  simp only [compareTo, V.convertible, V.toInt, withOther, if_true, h]
  exact cmpBy_says (by simp) (by simp) (by omega) (by omega)

example : compareTo (.int 1 (-1)) (.float 2 (.fin (-3 / 2))) = .equal ∧ compareTo (.int 1 0) (.float 2 (.fin (-1 / 2))) = .equal ∧
    compareTo (.int 1 1) (.float 2 (.fin (5 / 2))) = .lower := by decide +kernel

/-! ## Which texts are identifiers -/

/-- Capital letters. -/
def upper (c : UInt8) : UInt8 := if 97 ≤ c ∧ c ≤ 122 then c - 32 else c

theorem hexDigit_upper (c : UInt8) (n : Nat) (h : hexDigit c = some n) : upper c = hexChar n ∧ n < 16 := by
  have : ∀ c : Fin 256, ∀ n ∈ hexDigit (UInt8.ofNat c.val), upper (UInt8.ofNat c.val) = hexChar n ∧ n < 16 := by decide +kernel
  have := this ⟨c.toNat, c.toNat_lt⟩ n
  simp only [UInt8.ofNat_toNat] at this
  exact this h

theorem hexNum_upper (s : List UInt8) (n : Nat) (h : hexNum s 0 = some n) :
    s.map upper = hexText s.length n ∧ n < 16 ^ s.length := by
  induction s using List.reverseRecOn generalizing n with
  | nil => simp [hexNum] at h; subst h; simp [hexText]
  | append_singleton s c ih =>
    rw [hexNum_append] at h
    cases hs : hexNum s 0 with
    | none => rw [hs] at h; cases h
    | some m =>
      rw [hs] at h
      simp only [Option.bind_some, hexNum] at h
      cases hc : hexDigit c with
      | none => rw [hc] at h; cases h
      | some d =>
        rw [hc] at h
        dsimp only at h
        split at h
        · cases h
        · cases h
          obtain ⟨h1, h2⟩ := ih m hs
          obtain ⟨h3, h4⟩ := hexDigit_upper c d hc
          have e1 : (m * 16 + d) / 16 = m := by omega
          have e2 : (m * 16 + d) % 16 = d := by omega
          refine ⟨?_, ?_⟩
          · simp only [List.map_append, List.map_cons, List.map_nil, List.length_append, List.length_cons, List.length_nil,
              Nat.zero_add, hexText, h1, h3, e1, e2]
          · simp only [List.length_append, List.length_cons, List.length_nil, Nat.zero_add, Nat.pow_succ]
            omega

theorem runSteps_true {f : Iid → Option Iid} {fs : List (Iid → Option Iid)} {i r : Iid} (h : runSteps (f :: fs) i = (r, true)) :
    ∃ i', f i = some i' ∧ runSteps fs i' = (r, true) := by
  unfold runSteps at h
  cases hf : f i with
  | none => rw [hf] at h; cases h
  | some i' => rw [hf] at h; exact ⟨i', rfl, h⟩

theorem charAt_some {s : List UInt8} {pos : Nat} {c : UInt8} {i i' : Iid} (h : charAt s pos c i = some i') :
    s[pos]? = some c ∧ i' = i := by
  unfold charAt at h
  split at h
  · rename_i e; exact ⟨e, by cases h; rfl⟩
  · cases h

theorem hexAt_upper {s : List UInt8} {pos len n : Nat} (h : hexAt s pos len = some n) (hl : pos + len ≤ s.length) :
    ((s.drop pos).take len).map upper = hexText len n ∧ n < 16 ^ len := by
  have := hexNum_upper _ _ h
  have e : ((s.drop pos).take len).length = len := by simp; omega
  rwa [e] at this

/-- Every text that is accepted as an identifier is the text of the identifier that was read, up to small letters. -/
theorem C86_id_strict (s : List UInt8) (i j : Iid) (h : Iid.ofText s j = (i, true)) : s.map upper = i.text := by
  unfold Iid.ofText at h
  obtain ⟨i0, hl, h1⟩ := runSteps_true h
  have hl : s.length = 38 := by
    split at hl
    · assumption
    · cases hl
  obtain ⟨_, k0, h2⟩ := runSteps_true h1
  obtain ⟨m0, rfl⟩ := charAt_some k0
  obtain ⟨_, k37, h3⟩ := runSteps_true h2
  obtain ⟨m37, rfl⟩ := charAt_some k37
  obtain ⟨_, e0, h4⟩ := runSteps_true h3
  obtain ⟨n0, f0, rfl⟩ := Option.map_eq_some_iff.mp e0
  obtain ⟨u0, v0⟩ := hexAt_upper f0 (by omega)
  obtain ⟨_, k9, h5⟩ := runSteps_true h4
  obtain ⟨m9, rfl⟩ := charAt_some k9
  obtain ⟨_, e1, h6⟩ := runSteps_true h5
  obtain ⟨n1, f1, rfl⟩ := Option.map_eq_some_iff.mp e1
  obtain ⟨u1, v1⟩ := hexAt_upper f1 (by omega)
  obtain ⟨_, k14, h7⟩ := runSteps_true h6
  obtain ⟨m14, rfl⟩ := charAt_some k14
  obtain ⟨_, e2, h8⟩ := runSteps_true h7
  obtain ⟨n2, f2, rfl⟩ := Option.map_eq_some_iff.mp e2
  obtain ⟨u2, v2⟩ := hexAt_upper f2 (by omega)
  obtain ⟨_, k19, h9⟩ := runSteps_true h8
  obtain ⟨m19, rfl⟩ := charAt_some k19
  obtain ⟨_, e3, h10⟩ := runSteps_true h9
  obtain ⟨n3, f3, rfl⟩ := Option.map_eq_some_iff.mp e3
  obtain ⟨u3, v3⟩ := hexAt_upper f3 (by omega)
  obtain ⟨_, e4, h11⟩ := runSteps_true h10
  obtain ⟨n4, f4, rfl⟩ := Option.map_eq_some_iff.mp e4
  obtain ⟨u4, v4⟩ := hexAt_upper f4 (by omega)
  obtain ⟨_, k24, h12⟩ := runSteps_true h11
  obtain ⟨m24, rfl⟩ := charAt_some k24
  obtain ⟨_, e5, h13⟩ := runSteps_true h12
  obtain ⟨n5, f5, rfl⟩ := Option.map_eq_some_iff.mp e5
  obtain ⟨u5, v5⟩ := hexAt_upper f5 (by omega)
  obtain ⟨_, e6, h14⟩ := runSteps_true h13
  obtain ⟨n6, f6, rfl⟩ := Option.map_eq_some_iff.mp e6
  obtain ⟨u6, v6⟩ := hexAt_upper f6 (by omega)
  obtain ⟨_, e7, h15⟩ := runSteps_true h14
  obtain ⟨n7, f7, rfl⟩ := Option.map_eq_some_iff.mp e7
  obtain ⟨u7, v7⟩ := hexAt_upper f7 (by omega)
  obtain ⟨_, e8, h16⟩ := runSteps_true h15
  obtain ⟨n8, f8, rfl⟩ := Option.map_eq_some_iff.mp e8
  obtain ⟨u8, v8⟩ := hexAt_upper f8 (by omega)
  obtain ⟨_, e9, h17⟩ := runSteps_true h16
  obtain ⟨n9, f9, rfl⟩ := Option.map_eq_some_iff.mp e9
  obtain ⟨u9, v9⟩ := hexAt_upper f9 (by omega)
  obtain ⟨_, e10, h18⟩ := runSteps_true h17
  obtain ⟨n10, f10, rfl⟩ := Option.map_eq_some_iff.mp e10
  obtain ⟨u10, v10⟩ := hexAt_upper f10 (by omega)
  simp only [runSteps, Prod.mk.injEq, and_true] at h18
  subst h18
  clear e0 f0 e1 f1 e2 f2 e3 f3 e4 f4 e5 f5 e6 f6 e7 f7 e8 f8 e9 f9 e10 f10 k0 k9 k14 k19 k24 k37 h h1 h2 h3 h4 h5 h6 h7 h8 h9 h10 h11 h12 h13 h14 h15 h16 h17
  simp only [Iid.text, UInt32.toNat_ofNat', UInt16.toNat_ofNat', UInt8.toNat_ofNat']
  norm_num at v0 v1 v2 v3 v4 v5 v6 v7 v8 v9 v10
  rw [Nat.mod_eq_of_lt (a := n0) (by omega)]
  rw [Nat.mod_eq_of_lt (a := n1) (by omega)]
  rw [Nat.mod_eq_of_lt (a := n2) (by omega)]
  rw [Nat.mod_eq_of_lt (a := n3) (by omega)]
  rw [Nat.mod_eq_of_lt (a := n4) (by omega)]
  rw [Nat.mod_eq_of_lt (a := n5) (by omega)]
  rw [Nat.mod_eq_of_lt (a := n6) (by omega)]
  rw [Nat.mod_eq_of_lt (a := n7) (by omega)]
  rw [Nat.mod_eq_of_lt (a := n8) (by omega)]
  rw [Nat.mod_eq_of_lt (a := n9) (by omega)]
  rw [Nat.mod_eq_of_lt (a := n10) (by omega)]
  rw [← u0, ← u1, ← u2, ← u3, ← u4, ← u5, ← u6, ← u7, ← u8, ← u9, ← u10]
  clear u0 u1 u2 u3 u4 u5 u6 u7 u8 u9 u10 v0 v1 v2 v3 v4 v5 v6 v7 v8 v9 v10
  match s, hl with
  | c0 :: c1 :: c2 :: c3 :: c4 :: c5 :: c6 :: c7 :: c8 :: c9 :: c10 :: c11 :: c12 :: c13 :: c14 :: c15 :: c16 :: c17 :: c18 :: c19 :: c20 :: c21 :: c22 :: c23 :: c24 :: c25 :: c26 :: c27 :: c28 :: c29 :: c30 :: c31 :: c32 :: c33 :: c34 :: c35 :: c36 :: c37 :: [], _ =>
    simp only [List.getElem?_cons_succ, List.getElem?_cons_zero, Option.some.injEq] at m0 m9 m14 m19 m24 m37
    subst m0 m9 m14 m19 m24 m37
    have a1 : upper 123 = 123 := by decide
    have a2 : upper 45 = 45 := by decide
    have a3 : upper 125 = 125 := by decide
    simp only [List.drop_succ_cons, List.drop_zero, List.take_succ_cons, List.take_zero, List.map_cons, List.map_nil,
      List.cons_append, List.nil_append, List.append_assoc, a1, a2, a3]

example : (Iid.ofText ((⟨0xABCDEF01, 2, 3, 4, 5, 6, 7, 8, 9, 10, 11⟩ : Iid).text.set 1 97) unknownId).2 = true := by decide +kernel

/-! ## Reading moves on -/

/-- A call that gives an element moves on by one element. -/
theorem C88_success (hd : Fl → Nat) (rt : Fl → Fl) (n : Nat) (r : Reader) (o : ROp) (ho : o ≠ .count)
    (h : ∀ x ∈ [ROut.outOfRange, .invalidType, .null], (r.step hd rt n o).2 ≠ x) :
    (r.step hd rt n o).1.index = r.index + 1 := by
  cases hj : r.items[r.index]? with
  | none => cases o <;> simp [Reader.step, hj] at h ho
  | some j =>
    cases o <;> cases j <;> simp [Reader.step, hj, Reader.next] at h ho ⊢
    split at h <;> simp_all

end Verif.Values.Props
