import Verif.Opts.Lemmas

/-!
# Reading numbers and words
-/

namespace Verif.Opts
open Spec

theorem digit_char {n : Nat} (h : n < 10) : (Char.ofNat (48 + n)).toNat = 48 + n := by
  have : ∀ n : Fin 10, (Char.ofNat (48 + n.val)).toNat = 48 + n.val := by decide
  exact this ⟨n, h⟩

theorem isDigit_char {n : Nat} (h : n < 10) : isDigit (Char.ofNat (48 + n)) = true := by
  unfold isDigit; rw [digit_char h]; exact decide_eq_true (by omega)

theorem value_snoc (s : Text) (c : Char) : value (s ++ [c]) = value s * 10 + (c.toNat - 48) := by
  unfold value; rw [List.foldl_append]; rfl

theorem decimal_spec {s : Text} {n : Nat} (h : Decimal s n) : value s = n ∧ (∀ c ∈ s, isDigit c = true) ∧ s ≠ [] := by
  induction h with
  | one hd =>
    refine ⟨?_, fun c hc => ?_, by simp⟩
    · change 0 * 10 + ((Char.ofNat _).toNat - 48) = _
      rw [digit_char hd]; omega
    · rw [List.mem_singleton.mp hc]; exact isDigit_char hd
  | more _ hd ih =>
    refine ⟨?_, fun c hc => ?_, by simp⟩
    · rw [value_snoc, ih.1, digit_char hd]; omega
    · rcases List.mem_append.mp hc with hc | hc
      · exact ih.2.1 c hc
      · rw [List.mem_singleton.mp hc]; exact isDigit_char hd

theorem value_append (a b : Text) : value (a ++ b) = value a * 10 ^ b.length + value b := by
  unfold value
  rw [List.foldl_append]
  generalize List.foldl _ 0 a = x
  have : ∀ (b : Text) (x y : Nat), List.foldl (fun a c => a * 10 + (c.toNat - 48)) (x + y) b
      = x * 10 ^ b.length + List.foldl (fun a c => a * 10 + (c.toNat - 48)) y b := by
    intro b
    induction b with
    | nil => intro x y; simp
    | cons c b ih =>
      intro x y
      simp only [List.foldl, List.length_cons]
      rw [show (x + y) * 10 + (c.toNat - 48) = x * 10 + (y * 10 + (c.toNat - 48)) by omega, ih, Nat.pow_succ]
      rw [Nat.mul_assoc, Nat.mul_comm 10]
  simpa using this b x 0

theorem takeWhile_all {p : Char → Bool} : ∀ {l : Text}, (∀ c ∈ l, p c = true) → l.takeWhile p = l
  | [], _ => rfl
  | c :: l, h => by
    rw [List.takeWhile_cons_of_pos (h c List.mem_cons_self),
      takeWhile_all (fun d hd => h d (List.mem_cons_of_mem _ hd))]

theorem takeWhile_stop {p : Char → Bool} : ∀ {l : Text} {c : Char} (r : Text), (∀ x ∈ l, p x = true) → p c = false →
    (l ++ c :: r).takeWhile p = l ∧ (l ++ c :: r).dropWhile p = c :: r
  | [], c, r, _, hc => by simp [hc]
  | x :: l, c, r, h, hc => by
    obtain ⟨h1, h2⟩ := takeWhile_stop (l := l) r (fun y hy => h y (List.mem_cons_of_mem _ hy)) hc
    have hx := h x List.mem_cons_self
    constructor
    · rw [List.cons_append, List.takeWhile_cons_of_pos hx, h1]
    · rw [List.cons_append, List.dropWhile_cons_of_pos hx, h2]

/-- Digits are neither blanks nor signs. -/
theorem digit_start {c : Char} (h : isDigit c = true) : isSpace c = false ∧ c ≠ '-' ∧ c ≠ '+' ∧ c ≠ '"' ∧ c ≠ '.' := by
  have hc : 48 ≤ c.toNat ∧ c.toNat ≤ 57 := of_decide_eq_true h
  refine ⟨decide_eq_false (by omega), ?_, ?_, ?_, ?_⟩ <;> (intro e; rw [e] at hc; revert hc; decide)

theorem sign_other {c : Char} {s : Text} (h : isSpace c = false) (hm : c ≠ '-') (hp : c ≠ '+') :
    sign ((c :: s).dropWhile isSpace) = (false, c :: s) := by
  rw [List.dropWhile_cons_of_neg (by rw [h]; decide)]
  change (if c = '-' then (true, s) else if c = '+' then (false, s) else (false, c :: s)) = _
  rw [if_neg hm, if_neg hp]

theorem stoll_decimal {s : Text} {n : Nat} (h : Decimal s n) (hn : n < 9223372036854775808) : stoll s = some (n : Int) := by
  obtain ⟨hv, hd, hne⟩ := decimal_spec h
  cases s with
  | nil => exact absurd rfl hne
  | cons c s =>
    obtain ⟨h1, h2, h3, -, -⟩ := digit_start (hd c List.mem_cons_self)
    unfold stoll
    rw [sign_other h1 h2 h3]
    dsimp only
    rw [takeWhile_all hd, hv, if_neg hne, if_neg (by simp), if_pos hn]

theorem stoll_negative {s : Text} {n : Nat} (h : Decimal s n) (hn : n ≤ 9223372036854775808) :
    stoll ('-' :: s) = some (-(n : Int)) := by
  obtain ⟨hv, hd, hne⟩ := decimal_spec h
  unfold stoll
  rw [List.dropWhile_cons_of_neg (by decide)]
  have : sign ('-' :: s) = (true, s) := rfl
  rw [this]
  dsimp only
  rw [takeWhile_all hd, hv, if_neg hne, if_pos rfl, if_pos hn]

/-- A text that starts with nothing a number can start with is no integer. -/
theorem stoll_none {c : Char} {s : Text} (h : ¬ Starts c) : stoll (c :: s) = none := by
  unfold Starts at h
  have h1 : isSpace c = false := decide_eq_false fun e => h (by rcases e with e | e <;> simp [e])
  have h2 : isDigit c = false := decide_eq_false fun e => h (.inl e)
  unfold stoll
  rw [sign_other h1 (fun e => h (by simp [e])) (fun e => h (by simp [e]))]
  dsimp only
  rw [List.takeWhile_cons_of_neg (by rw [h2]; decide), if_pos rfl]

/-! ## Words -/

theorem ofNat_toNat (c : Char) : Char.ofNat c.toNat = c := by simp

theorem lower_spells {s w : Text} (hw : ∀ d ∈ w, 97 ≤ d.toNat ∧ d.toNat ≤ 122) : lower s = w ↔ Spells s w := by
  induction s generalizing w with
  | nil =>
    cases w with
    | nil => exact ⟨fun _ => .nil, fun _ => rfl⟩
    | cons d w => exact ⟨(fun h => nomatch h), (fun h => nomatch h)⟩
  | cons c s ih =>
    cases w with
    | nil => exact ⟨(fun h => nomatch h), (fun h => nomatch h)⟩
    | cons d w =>
      have hd := hw d List.mem_cons_self
      have ih' := ih fun e he => hw e (List.mem_cons_of_mem _ he)
      have hc : (if 65 ≤ c.toNat ∧ c.toNat ≤ 90 then Char.ofNat (c.toNat + 32) else c) = d ↔ Folds c d := by
        by_cases h : 65 ≤ c.toNat ∧ c.toNat ≤ 90
        · rw [if_pos h]
          have ht : (Char.ofNat (c.toNat + 32)).toNat = c.toNat + 32 := by
            have : ∀ n : Fin 26, (Char.ofNat (65 + n.val + 32)).toNat = 65 + n.val + 32 := by decide
            have := this ⟨c.toNat - 65, by omega⟩
            simpa [show 65 + (c.toNat - 65) = c.toNat by omega] using this
          constructor
          · intro e
            subst e
            exact .inr ⟨hd.1, hd.2, ht.symm⟩
          · intro e
            rcases e with e | e
            · subst e; omega
            · rw [e.2.2, ofNat_toNat]
        · rw [if_neg h]
          exact ⟨.inl, fun e => by
            rcases e with e | e
            · exact e
            · omega⟩
      constructor
      · intro h
        have h' : (if 65 ≤ c.toNat ∧ c.toNat ≤ 90 then Char.ofNat (c.toNat + 32) else c) :: lower s = d :: w := h
        injection h' with h1 h2
        exact .cons (hc.mp h1) (ih'.mp h2)
      · intro h
        cases h with
        | cons h1 h2 =>
          change (if 65 ≤ c.toNat ∧ c.toNat ≤ 90 then Char.ofNat (c.toNat + 32) else c) :: lower s = d :: w
          rw [hc.mpr h1, ih'.mpr h2]

theorem true_spells {s : Text} : lower s = "true".toList ↔ Spells s "true".toList := lower_spells (by decide)
theorem false_spells {s : Text} : lower s = "false".toList ↔ Spells s "false".toList := lower_spells (by decide)

theorem toBool_true {s : Text} (h : Spells s "true".toList) : toBool s = some (.bool true) := by
  unfold toBool
  rw [if_pos (true_spells.mpr h)]

theorem toBool_false {s : Text} (h : Spells s "false".toList) : toBool s = some (.bool false) := by
  have h' := false_spells.mpr h
  unfold toBool
  rw [if_neg (by rw [h']; decide), if_pos h']

theorem toBool_none {s : Text} (h1 : ¬ Spells s "true".toList) (h2 : ¬ Spells s "false".toList) : toBool s = none := by
  unfold toBool
  rw [if_neg (fun e => h1 (true_spells.mp e)), if_neg (fun e => h2 (false_spells.mp e))]

/-- Only a letter can be folded to a letter. -/
theorem not_spells {c : Char} {s w : Text} {d : Char} (h : ∀ x, Folds c x → x ≠ d) : ¬ Spells (c :: s) (d :: w) := by
  intro e
  cases e with
  | cons h1 _ => exact h d h1 rfl

theorem digit_no_word {c : Char} {s : Text} (h : isDigit c = true ∨ c = '-') : toBool (c :: s) = none := by
  have hx : ∀ x, 97 ≤ x.toNat → ¬ Folds c x := by
    intro x hx e
    have hc : c.toNat ≤ 57 := by
      rcases h with h | h
      · exact (of_decide_eq_true h : 48 ≤ c.toNat ∧ c.toNat ≤ 57).2
      · subst h; decide
    rcases e with e | e
    · subst e; omega
    · omega
  exact toBool_none (not_spells fun x hf e => hx x (by subst e; decide) hf) (not_spells fun x hf e => hx x (by subst e; decide) hf)

/-! ## Quotes -/

theorem unquote_quoted (s : Text) : unquote ('"' :: s ++ ['"']) = some s := by
  unfold unquote
  rw [if_pos]
  · simp
  · refine ⟨by simp, by simp, ?_⟩
    rw [List.getLast?_append]
    rfl

theorem unquote_none {c : Char} {s : Text} (h : c ≠ '"') : unquote (c :: s) = none := by
  unfold unquote
  rw [if_neg]
  rintro ⟨-, h1, -⟩
  simp only [List.head?_cons, Option.some.injEq] at h1
  exact h h1

/-! ## Fractions -/

theorem stod_fraction {w f : Text} {n m : Nat} (hw : Decimal w n) (hf : Decimal f m) :
    stod (w ++ '.' :: f) = some (.num (((n * 10 ^ f.length + m : Nat) : Rat) * ten (0 - f.length))) := by
  obtain ⟨hv, hd, hne⟩ := decimal_spec hw
  obtain ⟨hv', hd', hne'⟩ := decimal_spec hf
  cases w with
  | nil => exact absurd rfl hne
  | cons c w =>
    obtain ⟨h1, h2, h3, -, -⟩ := digit_start (hd c List.mem_cons_self)
    have hc : 48 ≤ c.toNat ∧ c.toNat ≤ 57 := of_decide_eq_true (hd c List.mem_cons_self)
    have hlow : ∀ x : Char, isDigit x = true ∨ x = '.' →
        (if 65 ≤ x.toNat ∧ x.toNat ≤ 90 then Char.ofNat (x.toNat + 32) else x) = x := by
      intro x hx
      rw [if_neg]
      rcases hx with hx | hx
      · have : 48 ≤ x.toNat ∧ x.toNat ≤ 57 := of_decide_eq_true hx
        omega
      · subst hx; decide
    have hl : ∀ t : Text, (∀ x ∈ t, isDigit x = true ∨ x = '.') → lower t = t := by
      intro t ht
      unfold lower
      induction t with
      | nil => rfl
      | cons x t ih => rw [List.map_cons, hlow x (ht x List.mem_cons_self), ih fun y hy => ht y (List.mem_cons_of_mem _ hy)]
    have hall : ∀ x ∈ (c :: w) ++ '.' :: f, isDigit x = true ∨ x = '.' := by
      intro x hx
      rcases List.mem_append.mp hx with hx | hx
      · exact .inl (hd x hx)
      · rcases List.mem_cons.mp hx with hx | hx
        · exact .inr hx
        · exact .inl (hd' x hx)
    have hstart : startsHex ((c :: w) ++ '.' :: f) = false := by
      have hx : ∀ r : Text, ('0' :: 'x' :: r) ≠ (c :: w) ++ '.' :: f := by
        intro r e
        have := hall 'x' (e ▸ List.mem_cons_of_mem _ List.mem_cons_self)
        revert this
        decide
      unfold startsHex
      split
      · rename_i e; exact absurd e.symm (hx _)
      · rename_i e; exact absurd e.symm (hx _)
      · rfl
    have hci : ¬ 'i' = c := by rintro rfl; revert hc; decide
    have hcn : ¬ 'n' = c := by rintro rfl; revert hc; decide
    have hcond : ¬ ("inf".toList.isPrefixOf ((c :: w) ++ '.' :: f) = true ∨ "nan".toList.isPrefixOf ((c :: w) ++ '.' :: f) = true
        ∨ startsHex ((c :: w) ++ '.' :: f) = true) := by
      rw [hstart]
      simp [List.isPrefixOf, hci, hcn]
    obtain ⟨ht, hdr⟩ := takeWhile_stop (p := isDigit) (c := '.') f hd (by decide)
    have hs := sign_other (s := w ++ '.' :: f) h1 h2 h3
    unfold stod
    rw [List.cons_append] at ht hdr hcond hall ⊢
    rw [hs]
    dsimp only
    rw [hl _ hall, if_neg hcond, ht, hdr]
    have hd2 : f.dropWhile isDigit = [] := by
      clear hf hv' hne' hl hall hstart hcond ht hdr hs hlow
      induction f with
      | nil => rfl
      | cons x f ih =>
        rw [List.dropWhile_cons_of_pos (hd' x List.mem_cons_self)]
        exact ih fun y hy => hd' y (List.mem_cons_of_mem _ hy)
    simp only [takeWhile_all hd', hd2]
    rw [if_neg (by simp), value_append, hv, hv']
    simp [exponent]

end Verif.Opts
