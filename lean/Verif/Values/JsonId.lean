import Mathlib.Tactic.NormNum
import Verif.Values.Json

/-! # Interface identifiers survive being written as text -/

namespace Verif.Values

theorem hexDigit_char (n : Nat) (h : n < 16) : hexDigit (hexChar n) = some n := by
  have : ∀ n : Fin 16, hexDigit (hexChar n.val) = some n.val := by decide +kernel
  exact this ⟨n, h⟩

theorem hexChar_ne (n : Nat) (h : n < 16) : hexChar n ≠ 0 := by
  have : ∀ n : Fin 16, hexChar n.val ≠ 0 := by decide +kernel
  exact this ⟨n, h⟩

theorem hexText_length (k n : Nat) : (hexText k n).length = k := by
  induction k generalizing n with
  | zero => rfl
  | succ k ih => simp [hexText, ih]

theorem hexText_ne (k n : Nat) : 0 ∉ hexText k n := by
  induction k generalizing n with
  | zero => simp [hexText]
  | succ k ih =>
    simp only [hexText, List.mem_append, List.mem_singleton, not_or]
    exact ⟨ih _, (hexChar_ne _ (Nat.mod_lt _ (by omega))).symm⟩

theorem hexNum_append (s : List UInt8) (c : UInt8) (r : Nat) :
    hexNum (s ++ [c]) r = (hexNum s r).bind fun r => hexNum [c] r := by
  induction s generalizing r with
  | nil => rfl
  | cons a s ih =>
    simp only [List.cons_append, hexNum]
    cases hexDigit a with
    | none => rfl
    | some d => dsimp only; split
                · rfl
                · exact ih _

theorem hexNum_text (k n : Nat) (hk : k ≤ 8) (h : n < 16 ^ k) : hexNum (hexText k n) 0 = some n := by
  induction k generalizing n with
  | zero => simp [hexText, hexNum] at *; omega
  | succ k ih =>
    have hd : n / 16 < 16 ^ k := by rw [Nat.div_lt_iff_lt_mul (by omega)]; rw [← Nat.pow_succ]; exact h
    have h8 : 16 ^ (k + 1) ≤ 16 ^ 8 := Nat.pow_le_pow_right (by omega) hk
    have h9 : (16 : Nat) ^ 8 = 4294967296 := by norm_num
    rw [h9] at h8
    have hm : n % 16 < 16 := Nat.mod_lt _ (by omega)
    rw [hexText, hexNum_append, ih _ (by omega) hd]
    simp only [Option.bind_some, hexNum, hexDigit_char _ hm]
    have : ¬ (n / 16 > (4294967295 - n % 16) / 16) := by omega
    rw [if_neg this]
    congr 1
    omega

theorem len2 {s : List UInt8} (h : s.length = 2) : ∃ a b, s = [a, b] := by
  match s, h with
  | [a, b], _ => exact ⟨a, b, rfl⟩

theorem len4 {s : List UInt8} (h : s.length = 4) : ∃ a b c d, s = [a, b, c, d] := by
  match s, h with
  | [a, b, c, d], _ => exact ⟨a, b, c, d, rfl⟩

theorem len8 {s : List UInt8} (h : s.length = 8) : ∃ a b c d e f g i, s = [a, b, c, d, e, f, g, i] := by
  match s, h with
  | [a, b, c, d, e, f, g, i], _ => exact ⟨a, b, c, d, e, f, g, i, rfl⟩

theorem runSteps_cons {f : Iid → Option Iid} {fs : List (Iid → Option Iid)} {i i' : Iid} (h : f i = some i') :
    runSteps (f :: fs) i = runSteps fs i' := by simp only [runSteps, h]

theorem charAt_of {s : List UInt8} {pos : Nat} {c : UInt8} (h : s[pos]? = some c) (i : Iid) : charAt s pos c i =
    some i :=
  if_pos h

theorem hexAt_of {s t : List UInt8} {pos len n : Nat} (e : (s.drop pos).take len = t) (v : hexNum t 0 = some n) :
    hexAt s pos len = some n := by rw [hexAt, e, v]

/-- An identifier from a text with the right characters in the right places. -/
theorem ofText_of (s t0 t1 t2 t3 t4 t5 t6 t7 t8 t9 t10 : List UInt8) (n0 n1 n2 n3 n4 n5 n6 n7 n8 n9 n10 : Nat) (hl
    : s.length = 38)
    (c0 : s[0]? = some 123) (c37 : s[37]? = some 125) (c9 : s[9]? = some 45) (c14 : s[14]? = some 45) (c19 :
    s[19]? = some 45) (c24 : s[24]? = some 45)
    (e0 : (s.drop 1).take 8 = t0) (v0 : hexNum t0 0 = some n0) (e1 : (s.drop 10).take 4 = t1) (v1 : hexNum t1 0 =
    some n1) (e2 : (s.drop 15).take 4 = t2) (v2 : hexNum t2 0 = some n2) (e3 : (s.drop 20).take 2 = t3) (v3 :
    hexNum t3 0 = some n3) (e4 : (s.drop 22).take 2 = t4) (v4 : hexNum t4 0 = some n4) (e5 : (s.drop 25).take 2 =
    t5) (v5 : hexNum t5 0 = some n5) (e6 : (s.drop 27).take 2 = t6) (v6 : hexNum t6 0 = some n6) (e7 : (s.drop
    29).take 2 = t7) (v7 : hexNum t7 0 = some n7) (e8 : (s.drop 31).take 2 = t8) (v8 : hexNum t8 0 = some n8) (e9
    : (s.drop 33).take 2 = t9) (v9 : hexNum t9 0 = some n9) (e10 : (s.drop 35).take 2 = t10) (v10 : hexNum t10 0 =
    some n10)
    (j : Iid) : Iid.ofText s j = (⟨UInt32.ofNat n0, UInt16.ofNat n1, UInt16.ofNat n2, UInt8.ofNat n3, UInt8.ofNat
    n4, UInt8.ofNat n5, UInt8.ofNat n6, UInt8.ofNat n7, UInt8.ofNat n8, UInt8.ofNat n9, UInt8.ofNat n10⟩, true) :=
    by
  simp only [Iid.ofText, runSteps, hl, if_true, charAt_of c0, charAt_of c37, charAt_of c9, charAt_of c14, charAt_of c19,
    charAt_of c24, hexAt_of e0 v0, hexAt_of e1 v1, hexAt_of e2 v2, hexAt_of e3 v3, hexAt_of e4 v4, hexAt_of e5 v5,
    hexAt_of e6 v6, hexAt_of e7 v7, hexAt_of e8 v8, hexAt_of e9 v9, hexAt_of e10 v10, Option.map_some]

set_option maxHeartbeats 400000 in
/-- The text of an identifier, in pieces. -/
theorem ofText_pieces (t0 t1 t2 t3 t4 t5 t6 t7 t8 t9 t10 : List UInt8) (n0 n1 n2 n3 n4 n5 n6 n7 n8 n9 n10 : Nat)
    (l0 : t0.length = 8) (l1 : t1.length = 4) (l2 : t2.length = 4) (l3 : t3.length = 2) (l4 : t4.length = 2) (l5 :
    t5.length = 2) (l6 : t6.length = 2) (l7 : t7.length = 2) (l8 : t8.length = 2) (l9 : t9.length = 2) (l10 :
    t10.length = 2)
    (v0 : hexNum t0 0 = some n0) (v1 : hexNum t1 0 = some n1) (v2 : hexNum t2 0 = some n2) (v3 : hexNum t3 0 =
    some n3) (v4 : hexNum t4 0 = some n4) (v5 : hexNum t5 0 = some n5) (v6 : hexNum t6 0 = some n6) (v7 : hexNum
    t7 0 = some n7) (v8 : hexNum t8 0 = some n8) (v9 : hexNum t9 0 = some n9) (v10 : hexNum t10 0 = some n10) (j :
    Iid) :
    Iid.ofText ([123] ++ t0 ++ [45] ++ t1 ++ [45] ++ t2 ++ [45] ++ t3 ++ t4 ++ [45] ++ t5 ++ t6 ++ t7 ++ t8 ++ t9
    ++ t10 ++
      [125]) j = (⟨UInt32.ofNat n0, UInt16.ofNat n1, UInt16.ofNat n2, UInt8.ofNat n3, UInt8.ofNat n4, UInt8.ofNat
      n5, UInt8.ofNat n6, UInt8.ofNat n7, UInt8.ofNat n8, UInt8.ofNat n9, UInt8.ofNat n10⟩, true) := by
  obtain ⟨_, _, _, _, _, _, _, _, rfl⟩ := len8 l0
  obtain ⟨_, _, _, _, rfl⟩ := len4 l1
  obtain ⟨_, _, _, _, rfl⟩ := len4 l2
  obtain ⟨_, _, rfl⟩ := len2 l3
  obtain ⟨_, _, rfl⟩ := len2 l4
  obtain ⟨_, _, rfl⟩ := len2 l5
  obtain ⟨_, _, rfl⟩ := len2 l6
  obtain ⟨_, _, rfl⟩ := len2 l7
  obtain ⟨_, _, rfl⟩ := len2 l8
  obtain ⟨_, _, rfl⟩ := len2 l9
  obtain ⟨_, _, rfl⟩ := len2 l10
  simp only [List.cons_append, List.nil_append, List.append_assoc]
  refine ofText_of _ _ _ _ _ _ _ _ _ _ _ _ _ _ _ _ _ _ _ _ _ _ _ rfl rfl rfl rfl rfl rfl rfl
    ?_ v0 ?_ v1 ?_ v2 ?_ v3 ?_ v4 ?_ v5 ?_ v6 ?_ v7 ?_ v8 ?_ v9 ?_ v10 j
  all_goals simp only [List.drop_succ_cons, List.drop_zero, List.take_succ_cons, List.take_zero]

/-- Reading the text of an identifier gives the identifier, whatever was there before. -/
theorem ofText_text (i j : Iid) : Iid.ofText i.text j = (i, true) := by
  have h8 (b : UInt8) : hexNum (hexText 2 b.toNat) 0 = some b.toNat :=
    hexNum_text 2 _ (by omega) (by have := b.toNat_lt; omega)
  have h16 (b : UInt16) : hexNum (hexText 4 b.toNat) 0 = some b.toNat :=
    hexNum_text 4 _ (by omega) (by have := b.toNat_lt; omega)
  have h32 (b : UInt32) : hexNum (hexText 8 b.toNat) 0 = some b.toNat :=
    hexNum_text 8 _ (by omega) (by have := b.toNat_lt; omega)
  unfold Iid.text
  rw [ofText_pieces _ _ _ _ _ _ _ _ _ _ _ _ _ _ _ _ _ _ _ _ _ _ (hexText_length _ _) (hexText_length _ _)
    (hexText_length _ _) (hexText_length _ _) (hexText_length _ _) (hexText_length _ _) (hexText_length _ _)
    (hexText_length _ _) (hexText_length _ _) (hexText_length _ _) (hexText_length _ _) (h32 _) (h16 _) (h16 _) (h8 _)
    (h8 _) (h8 _) (h8 _) (h8 _) (h8 _) (h8 _) (h8 _)]
  simp

theorem text_ne (i : Iid) : 0 ∉ i.text := by
  simp only [Iid.text, List.mem_append, List.mem_singleton, not_or, hexText_ne, not_false_eq_true, and_true, true_and]
  decide

end Verif.Values
