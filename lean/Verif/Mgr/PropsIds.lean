import Verif.Mgr.Spec
/-!
# Local ids of function blocks
-/

namespace Verif.Mgr

open Verif

theorem digit_char {n : Nat} (h : n < 10) : (Char.ofNat (48 + n)).toNat = 48 + n := by
  have : ∀ n : Fin 10, (Char.ofNat (48 + n.val)).toNat = 48 + n.val := by decide
  exact this ⟨n, h⟩

theorem isDigit_char {n : Nat} (h : n < 10) : isDigit (Char.ofNat (48 + n)) = true := by
  unfold isDigit; rw [digit_char h]; exact decide_eq_true (by omega)

theorem value_snoc (s : Text) (c : Char) : value (s ++ [c]) = value s * 10 + (c.toNat - 48) := by
  unfold value; rw [List.foldl_append]; rfl

theorem digits_spec (n : Nat) :
    value (digits n) = n ∧ (∀ c ∈ digits n, isDigit c = true) ∧ digits n ≠ [] := by
  induction n using Nat.strongRecOn with
  | ind n ih =>
    rw [digits]
    by_cases h : n < 10
    · rw [if_pos h]
      refine ⟨?_, ?_, by simp⟩
      · change 0 * 10 + ((Char.ofNat (48 + n)).toNat - 48) = n
        rw [digit_char h]; omega
      · intro c hc; rw [List.mem_singleton.mp hc]; exact isDigit_char h
    · rw [if_neg h]
      obtain ⟨h1, h2, -⟩ := ih (n / 10) (by omega)
      have hm : n % 10 < 10 := Nat.mod_lt _ (by omega)
      refine ⟨?_, ?_, by simp⟩
      · rw [value_snoc, h1, digit_char hm]; omega
      · intro c hc
        rcases List.mem_append.mp hc with hc | hc
        · exact h2 c hc
        · rw [List.mem_singleton.mp hc]; exact isDigit_char hm

theorem takeWhile_all {p : Char → Bool} : ∀ {l : Text}, (∀ c ∈ l, p c = true) → l.takeWhile p = l
  | [], _ => rfl
  | c :: l, h => by
    rw [List.takeWhile_cons_of_pos (h c List.mem_cons_self),
      takeWhile_all (fun d hd => h d (List.mem_cons_of_mem _ hd))]

theorem stoi_digits {n : Nat} (h : n ≤ intMax) : stoi (digits n) = some (n : Int) := by
  obtain ⟨hv, hd, hne⟩ := digits_spec n
  cases e : digits n with
  | nil => exact absurd e hne
  | cons c s =>
    rw [e] at hv hd
    have hc := hd c List.mem_cons_self
    have hc' : 48 ≤ c.toNat ∧ c.toNat ≤ 57 := of_decide_eq_true hc
    have hs : isSpace c = false := decide_eq_false (by omega)
    have hm : c ≠ '-' := by
      intro h; rw [h] at hc; revert hc; decide
    have hp : c ≠ '+' := by
      intro h; rw [h] at hc; revert hc; decide
    unfold stoi
    rw [List.dropWhile_cons_of_neg (by rw [hs]; decide)]
    have ht : (c :: s).takeWhile isDigit = c :: s := takeWhile_all hd
    have hg : sign (c :: s) = (false, c :: s) := by
      change (if c = '-' then (true, s) else if c = '+' then (false, s) else (false, c :: s)) = _
      rw [if_neg hm, if_neg hp]
    rw [hg]
    unfold number
    simp only [ht, hv]
    rw [if_neg (by simp), if_neg (by simp), if_pos h]

theorem afterLast_none : ∀ {s : Text}, '_' ∉ s → afterLast s = none
  | [], _ => rfl
  | c :: s, h => by
    unfold afterLast
    rw [afterLast_none (fun x => h (List.mem_cons_of_mem _ x))]
    exact if_neg (fun e : c = '_' => h (e ▸ List.mem_cons_self))

theorem afterLast_append {t : Text} (h : '_' ∉ t) : ∀ s : Text, afterLast (s ++ '_' :: t) = some t
  | [] => by
    change afterLast ('_' :: t) = _
    unfold afterLast; rw [afterLast_none h]; rfl
  | c :: s => by
    change afterLast (c :: (s ++ '_' :: t)) = _
    unfold afterLast; rw [afterLast_append h s]

theorem le_maxNum (type : Text) (m : Int) (i : Text) : m ≤ maxNum type m i := by
  unfold maxNum; split
  · split
    · exact Int.le_refl _
    · split
      · exact Int.le_refl _
      · split
        · omega
        · exact Int.le_refl _
  · exact Int.le_refl _

theorem le_foldl (type : Text) : ∀ (l : List Text) (m : Int), m ≤ l.foldl (maxNum type) m
  | [], _ => Int.le_refl _
  | i :: l, m => Int.le_trans (le_maxNum type m i) (le_foldl type l _)

theorem num_le_foldl (type : Text) {i t : Text} {n : Int} (hp : type.isPrefixOf i = true)
    (ha : afterLast i = some t) (hn : stoi t = some n) :
    ∀ (l : List Text) (m : Int), i ∈ l → n ≤ l.foldl (maxNum type) m
  | [], _, h => nomatch h
  | j :: l, m, h => by
    rcases List.mem_cons.mp h with h | h
    · subst h
      refine Int.le_trans ?_ (le_foldl type l _)
      unfold maxNum; rw [if_pos hp, ha]; simp only [hn]; split <;> omega
    · exact num_le_foldl type hp ha hn l _ h

theorem stoi_le {s : Text} {n : Int} (h : stoi s = some n) : n ≤ intMax := by
  unfold stoi number at h
  split at h
  · cases h
  · split at h
    · split at h
      · injection h with h; have : (0 : Int) ≤ intMax := by decide
        omega
      · cases h
    · split at h
      · injection h with h; omega
      · cases h

theorem maxNum_le (type : Text) {m : Int} (h : m ≤ intMax) (i : Text) : maxNum type m i ≤ intMax := by
  unfold maxNum; split
  · split
    · exact h
    · split
      · exact h
      · split
        · rename_i e _; exact stoi_le e
        · exact h
  · exact h

theorem foldl_le (type : Text) : ∀ (l : List Text) {m : Int}, m ≤ intMax → l.foldl (maxNum type) m ≤ intMax
  | [], _, h => h
  | i :: l, _, h => foldl_le type l (maxNum_le type h i)

theorem no_underscore (n : Nat) : '_' ∉ digits n := by
  intro h
  have := (digits_spec n).2.1 _ h
  revert this; decide

theorem isPrefixOf_append (a b : Text) : a.isPrefixOf (a ++ b) = true := by
  rw [List.isPrefixOf_iff_prefix]; exact List.prefix_append a b

/-- C212: the local id given to a new function block is that of no item of the folder. -/
theorem C212_unused {type x : Text} {items : List Text} (h : freshId type items = some x) : x ∉ items := by
  unfold freshId at h
  simp only at h
  generalize hm : items.foldl (maxNum type) 0 = m at h
  split at h
  · cases h
  · rename_i hne
    injection h with h
    intro hx
    have h0 : 0 ≤ m := hm ▸ le_foldl type items 0
    have h1 : m ≤ intMax := hm ▸ foldl_le type items (by decide)
    have hp : type.isPrefixOf x = true := h ▸ isPrefixOf_append _ _
    have ha : afterLast x = some (digits (m.toNat + 1)) := h ▸ afterLast_append (no_underscore _) type
    have hs := stoi_digits (n := m.toNat + 1) (by omega)
    have := num_le_foldl type hp ha hs items 0 hx
    rw [hm] at this
    omega

/-- … it is the id of the type, an underscore and a number … -/
theorem C212_shape {type x : Text} {items : List Text} (h : freshId type items = some x) :
    ∃ d : Text, x = type ++ "_".toList ++ d ∧ d ≠ [] ∧ ∀ c ∈ d, c.isDigit = true := by
  unfold freshId at h
  simp only at h
  split at h
  · cases h
  · injection h with h
    refine ⟨digits ((items.foldl (maxNum type) 0).toNat + 1), ?_, (digits_spec _).2.2, fun c hc => ?_⟩
    · rw [← h]; simp
    · have := (digits_spec _).2.1 c hc
      have h' : 48 ≤ c.toNat ∧ c.toNat ≤ 57 := of_decide_eq_true this
      unfold Char.isDigit
      simp only [Bool.and_eq_true, decide_eq_true_eq]
      exact ⟨UInt32.le_iff_toNat_le.mpr h'.1, UInt32.le_iff_toNat_le.mpr h'.2⟩

/-- Adding function blocks of some types, one after the other. -/
def addFbs (items : List Text) : List Text → Option (List Text)
  | [] => some items
  | t :: ts => (freshId t items).bind fun x => addFbs (items ++ [x]) ts

/-- … and so the items of a folder keep having different ids when function blocks are added. -/
theorem C212_distinct : ∀ {ts items l : List Text}, items.Nodup → addFbs items ts = some l → l.Nodup
  | [], _, _, hn, h => by injection h with h; exact h ▸ hn
  | t :: ts, items, l, hn, h => by
    unfold addFbs at h
    cases e : freshId t items with
    | none => rw [e] at h; cases h
    | some x =>
      rw [e] at h
      refine C212_distinct (ts := ts) (items := items ++ [x]) ?_ h
      rw [List.nodup_append]
      refine ⟨hn, by simp, ?_⟩
      intro a ha b hb hab
      rw [List.mem_singleton.mp hb] at hab
      exact C212_unused e (hab ▸ ha)

/-- Non-vacuity: removed and renamed items and other types, and two more. -/
example : addFbs ["Fft_7".toList, "Fft_x".toList, "Stat_9".toList, "FftBig_3".toList]
    ["Fft".toList, "Fft".toList, "Big".toList] =
    some (["Fft_7".toList, "Fft_x".toList, "Stat_9".toList, "FftBig_3".toList] ++
      ["Fft_8".toList, "Fft_9".toList, "Big_1".toList]) := by decide +kernel

/-- C213: after an item with the largest number, no id is generated: the addition overflows. -/
theorem C213_violation_overflow : freshId "Fft".toList ["Fft_2147483647".toList] = none := by
  decide +kernel

/-- The number of an item: what is after its last underscore. -/
def Spec.Numbered (i : Text) (n : Int) : Prop := ∃ a t : Text, i = a ++ "_".toList ++ t ∧ stoi t = some n

theorem afterLast_eq : ∀ {s t : Text}, afterLast s = some t → ∃ a, s = a ++ '_' :: t
  | [], _, h => nomatch h
  | c :: s, t, h => by
    unfold afterLast at h
    cases e : afterLast s with
    | some u =>
      rw [e] at h; injection h with h
      obtain ⟨a, ha⟩ := afterLast_eq e
      exact ⟨c :: a, by rw [ha, h]; rfl⟩
    | none =>
      rw [e] at h; simp only at h
      split at h
      · rename_i hc; injection h with h; exact ⟨[], by rw [hc, h]; rfl⟩
      · cases h

theorem maxNum_lt {type : Text} {m : Int} {i : Text} (h : m < intMax) (hi : ¬ Spec.Numbered i intMax) :
    maxNum type m i < intMax := by
  have hle := maxNum_le type (Int.le_of_lt h) i
  rcases Int.lt_or_eq_of_le hle with h' | h'
  · exact h'
  · exfalso
    unfold maxNum at h'
    split at h'
    · cases e : afterLast i with
      | none => rw [e] at h'; simp only at h'; omega
      | some t =>
        rw [e] at h'; simp only at h'
        cases e' : stoi t with
        | none => rw [e'] at h'; simp only at h'; omega
        | some n =>
          rw [e'] at h'; simp only at h'
          split at h'
          · obtain ⟨a, ha⟩ := afterLast_eq e
            exact hi ⟨a, t, by rw [ha]; simp, by rw [e', h']⟩
          · omega
    · omega

theorem foldl_lt {type : Text} : ∀ {l : List Text} {m : Int}, m < intMax →
    (∀ i ∈ l, ¬ Spec.Numbered i intMax) → l.foldl (maxNum type) m < intMax
  | [], _, h, _ => h
  | i :: l, _, h, hi =>
    foldl_lt (l := l) (maxNum_lt h (hi i List.mem_cons_self)) (fun j hj => hi j (List.mem_cons_of_mem _ hj))

/-- Otherwise an id is generated.  Missing: that one is generated even then. -/
theorem C213_generated_partial {type : Text} {items : List Text}
    (h : ∀ i ∈ items, ¬ Spec.Numbered i 2147483647) : ∃ x, freshId type items = some x := by
  have := foldl_lt (type := type) (l := items) (m := 0) (by decide) h
  unfold freshId
  simp only
  rw [if_neg (by omega)]
  exact ⟨_, rfl⟩

example : freshId "Fft".toList ["Fft_2147483646".toList, "Fft_99999999999".toList, "Fft_-3".toList] =
    some "Fft_2147483647".toList := by decide +kernel

end Verif.Mgr
