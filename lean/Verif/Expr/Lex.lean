import Verif.Expr.Sound

/-! # The lexer and the layout of texts -/

namespace Verif.Expr

open Spec

theorem LexRes.bind_eq_ok {α β : Type} {x : LexRes α} {f : α → LexRes β} {b : β} :
    x.bind f = .ok b ↔ ∃ a, x = .ok a ∧ f a = .ok b := by
  cases x <;> simp [LexRes.bind]

theorem isDigit_eq (c : Char) : isDigit c = c.isDigit := rfl

theorem isAlpha_eq (c : Char) : isAlpha c = c.isAlpha := by
  rw [Bool.eq_iff_iff]
  simp only [isAlpha, isUpper, Char.isAlpha, Char.isUpper, Char.isLower, Bool.or_eq_true, Bool.and_eq_true, decide_eq_true_eq]
  exact Iff.rfl

theorem isIdent_iff (c : Char) : isIdent c = true ↔ wordChar c := by
  simp only [isIdent, wordChar, Char.isAlphanum, ← isDigit_eq, ← isAlpha_eq, Bool.or_eq_true, beq_iff_eq, or_assoc]

theorem isExp_iff (c : Char) : isExp c = true ↔ c = 'e' ∨ c = 'E' := by simp [isExp]

theorem peek_iff {s : Str} {c : Char} (hc : c ≠ '\x00') : peek s = c ↔ s.head? = some c := by
  cases s with
  | nil => simp [peek]; exact fun e => hc e.symm
  | cons d s => simp [peek]

theorem next_peek {s : Str} {P : Char → Prop} (h0 : P '\x00') : Next s P ↔ high (peek s) = false ∧ P (peek s) := by
  cases s with
  | nil => simp [Next, peek, high, h0]
  | cons c s => simp [Next, peek, high]

theorem safe_ok {α : Type} {s : Str} {r : LexRes α} {x : α} : safe s r = .ok x ↔ high (peek s) = false ∧ r = .ok x := by
  unfold safe
  split <;> simp_all

theorem span_unique {P : Char → Bool} {s d r : Str} (h : s = d ++ r) (hd : ∀ c ∈ d, P c = true)
    (hr : ∀ c, r.head? = some c → P c = false) : s.takeWhile P = d ∧ s.dropWhile P = r := by
  subst h
  induction d with
  | nil =>
    cases r with
    | nil => simp
    | cons c r => simp [hr c rfl]
  | cons a d ih =>
    have ha := hd a (by simp)
    have := ih fun c hc => hd c (by simp [hc])
    simp [ha, this]

theorem takeWhile_all {P : Char → Bool} {s : Str} : ∀ c ∈ s.takeWhile P, P c = true := by
  induction s with
  | nil => simp
  | cons a s ih =>
    intro c hc
    rw [List.takeWhile_cons] at hc
    split at hc
    · rcases List.mem_cons.mp hc with rfl | hc
      · assumption
      · exact ih c hc
    · cases hc

theorem dropWhile_head {P : Char → Bool} {s : Str} {c : Char} (h : (s.dropWhile P).head? = some c) : P c = false := by
  induction s with
  | nil => cases h
  | cons a s ih =>
    rw [List.dropWhile_cons] at h
    split at h
    · exact ih h
    · rename_i hp
      injection h with h
      subst h
      simpa using hp

theorem digit_low {c : Char} (h : c.isDigit = true) : c.toNat < 128 := by
  have : isDigit c = true := h
  simp [isDigit] at this
  omega

theorem digits_ok {s d r : Str} :
    scanDigits s = .ok (d, r) ↔ s = d ++ r ∧ Digits d ∧ Next r (fun c => ¬ c.isDigit = true) := by
  unfold scanDigits
  rw [safe_ok, next_peek (by decide)]
  constructor
  · rintro ⟨h1, h2⟩
    injection h2 with h2
    injection h2 with h2 h3
    subst h2 h3
    refine ⟨List.takeWhile_append_dropWhile.symm, takeWhile_all, h1, ?_⟩
    cases hd : s.dropWhile isDigit with
    | nil => decide
    | cons c t =>
      have := dropWhile_head (P := isDigit) (s := s) (c := c) (by rw [hd]; rfl)
      simpa [peek, isDigit_eq] using this
  · rintro ⟨h1, h2, h3, h4⟩
    have := span_unique (P := isDigit) h1 h2 (by
      intro c hc
      cases r with
      | nil => cases hc
      | cons a r =>
        injection hc with hc
        subst hc
        simpa [peek, isDigit_eq] using h4)
    rw [this.1, this.2]
    exact ⟨h3, rfl⟩

theorem peek_cons (c : Char) (s : Str) : peek (c :: s) = c := rfl

theorem peek_append {s t : Str} (h : s ≠ []) : peek (s ++ t) = peek s := by
  cases s with
  | nil => exact absurd rfl h
  | cons c s => rfl

theorem tail_of_peek {s : Str} (h : peek s ≠ '\x00') : s = peek s :: s.tail := by
  cases s with
  | nil => exact absurd rfl h
  | cons c s => rfl

theorem digits_peek {d r : Str} (hd : Digits d) (h : d ≠ []) : (peek (d ++ r)).isDigit = true := by
  cases d with
  | nil => exact absurd rfl h
  | cons c d => exact hd c (by simp)

theorem digits_ne {s d r : Str} (h : scanDigits s = .ok (d, r)) (hp : isDigit (peek s) = true) : d ≠ [] := by
  obtain ⟨h1, h2, h3⟩ := digits_ok.mp h
  rintro rfl
  rw [List.nil_append] at h1
  subst h1
  rw [next_peek (by decide)] at h3
  exact h3.2 hp

theorem exponent_ok {lex s x r : Str} :
    scanExponent lex s = .ok (x, r) ↔
      (isExp (peek s) = false ∧ x = lex ∧ r = s) ∨
      (∃ e, Exponent e ∧ s = e ++ r ∧ x = lex ++ e ∧ Next r (fun c => ¬ c.isDigit = true)) := by
  unfold scanExponent
  constructor
  · intro h
    split at h
    · rename_i he
      right
      have hz : peek s ≠ '\x00' := by intro e; rw [e] at he; revert he; decide
      have hs := tail_of_peek hz
      dsimp only at h
      by_cases hsg : peek s.tail = '+' ∨ peek s.tail = '-'
      · rw [if_pos hsg, if_pos hsg, safe_ok] at h
        have hz' : peek s.tail ≠ '\x00' := by rcases hsg with e | e <;> rw [e] <;> decide
        have hs' := tail_of_peek hz'
        obtain ⟨_, h⟩ := h
        split at h
        · cases h
        rename_i hd
        rw [LexRes.bind_eq_ok] at h
        obtain ⟨⟨d, r'⟩, h1, h2⟩ := h
        injection h2 with h2
        injection h2 with h2 h3
        dsimp only at h2 h3
        subst h3
        have hne := digits_ne h1 (by simpa using hd)
        obtain ⟨e1, e2, e3⟩ := digits_ok.mp h1
        refine ⟨peek s :: ([peek s.tail] ++ d), ⟨_, _, _, rfl, (isExp_iff _).mp he, ?_, e2, hne⟩, ?_, ?_, e3⟩
        · rcases hsg with e | e <;> simp [e]
        · rw [hs, hs', e1]; simp [peek]
        · rw [← h2]; simp
      · rw [if_neg hsg, if_neg hsg, safe_ok] at h
        obtain ⟨_, h⟩ := h
        split at h
        · cases h
        rename_i hd
        rw [LexRes.bind_eq_ok] at h
        obtain ⟨⟨d, r'⟩, h1, h2⟩ := h
        injection h2 with h2
        injection h2 with h2 h3
        dsimp only at h2 h3
        subst h3
        have hne := digits_ne h1 (by simpa using hd)
        obtain ⟨e1, e2, e3⟩ := digits_ok.mp h1
        refine ⟨peek s :: ([] ++ d), ⟨_, _, _, rfl, (isExp_iff _).mp he, Or.inl rfl, e2, hne⟩, ?_, ?_, e3⟩
        · rw [hs, e1]; simp [peek]
        · rw [← h2]; simp
    · rename_i he
      injection h with h
      injection h with h1 h2
      exact Or.inl ⟨by simpa using he, h1.symm, h2.symm⟩
  · rintro (⟨h1, rfl, rfl⟩ | ⟨e, ⟨c, sign, d, rfl, hc, hsign, hd, hne⟩, rfl, rfl, hn⟩)
    · rw [if_neg (by rw [h1]; simp)]
    · have he : isExp (peek (c :: (sign ++ d) ++ r)) = true := (isExp_iff _).mpr hc
      rw [if_pos he]
      have hp := digits_peek (r := r) hd hne
      have hlow := digit_low hp
      have hdig := digits_ok.mpr ⟨rfl, hd, hn⟩
      have hsafe : high (peek (d ++ r)) = false := by simpa [high] using hlow
      have ht : (c :: (sign ++ d) ++ r).tail = sign ++ (d ++ r) := by simp
      dsimp only
      rw [ht]
      rcases hsign with rfl | hsign
      · have hno : ¬ (peek ([] ++ (d ++ r)) = '+' ∨ peek ([] ++ (d ++ r)) = '-') := by
          rw [List.nil_append]
          rintro (e | e) <;> (rw [e] at hp; revert hp; decide)
        rw [if_neg hno, if_neg hno, List.nil_append, safe_ok]
        refine ⟨hsafe, ?_⟩
        rw [if_neg (by rw [isDigit_eq, hp]; simp), hdig]
        simp [LexRes.bind, peek]
      · have hyes : peek (sign ++ (d ++ r)) = '+' ∨ peek (sign ++ (d ++ r)) = '-' := by
          rcases hsign with rfl | rfl
          · exact Or.inl rfl
          · exact Or.inr rfl
        have hsg : [peek (sign ++ (d ++ r))] = sign ∧ (sign ++ (d ++ r)).tail = d ++ r := by
          rcases hsign with rfl | rfl <;> exact ⟨rfl, rfl⟩
        rw [if_pos hyes, if_pos hyes, hsg.1, hsg.2, safe_ok]
        refine ⟨hsafe, ?_⟩
        rw [if_neg (by rw [isDigit_eq, hp]; simp), hdig]
        simp [LexRes.bind, peek]

/-- The forms `scanFloat` accepts: digits, with a fraction or an exponent or both or none. -/
inductive FloatForm : Str → Str → Prop where
  | frac {i f s} : Digits i → Digits f → f ≠ [] → Next s (fun c => ¬ c.isDigit ∧ c ≠ 'e' ∧ c ≠ 'E') → FloatForm (i ++ '.' :: f) s
  | fracExp {i f e s} : Digits i → Digits f → f ≠ [] → Exponent e → Next s (fun c => ¬ c.isDigit) →
      FloatForm (i ++ '.' :: f ++ e) s
  | exp {i e s} : Digits i → Exponent e → Next s (fun c => ¬ c.isDigit) → FloatForm (i ++ e) s
  | plain {i s} : Digits i → Next s (fun c => ¬ c.isDigit ∧ c ≠ '.' ∧ c ≠ 'e' ∧ c ≠ 'E') → FloatForm i s

theorem exp_false {c : Char} : isExp c = false ↔ c ≠ 'e' ∧ c ≠ 'E' := by
  rw [← Bool.not_eq_true, isExp_iff]; simp [not_or]

theorem float_ok {ok : Str → Bool} {s r : Str} {l : List Tok} :
    scanFloat ok s = .ok (l, r) ↔ ∃ w, l = [.float w] ∧ s = w ++ r ∧ ok w = true ∧ FloatForm w r := by
  unfold scanFloat
  constructor
  · intro h
    rw [LexRes.bind_eq_ok] at h
    obtain ⟨⟨i, s1⟩, h1, h2⟩ := h
    rw [LexRes.bind_eq_ok] at h2
    obtain ⟨⟨w, r'⟩, h2, h3⟩ := h2
    dsimp only at h2 h3
    split at h3
    · rename_i hw
      injection h3 with h3
      injection h3 with h3 h4
      subst h4
      refine ⟨w, h3.symm, ?_⟩
      obtain ⟨e1, e2, e3⟩ := digits_ok.mp h1
      subst e1
      split at h2
      · rename_i hdot
        have hs1 := tail_of_peek (s := s1) (by rw [hdot]; decide)
        rw [hdot] at hs1
        rw [safe_ok] at h2
        obtain ⟨_, h2⟩ := h2
        split at h2
        · cases h2
        rename_i hd
        rw [LexRes.bind_eq_ok] at h2
        obtain ⟨⟨f, s2⟩, h4, h5⟩ := h2
        have hne := digits_ne h4 (by simpa using hd)
        obtain ⟨f1, f2, f3⟩ := digits_ok.mp h4
        rw [f1] at hs1
        subst hs1
        rcases exponent_ok.mp h5 with ⟨g1, rfl, rfl⟩ | ⟨e, g1, g2, rfl, g4⟩
        · refine ⟨by simp, hw, .frac e2 f2 hne ?_⟩
          rw [next_peek (by decide)] at f3 ⊢
          exact ⟨f3.1, f3.2, exp_false.mp g1⟩
        · dsimp only at g2
          subst g2
          exact ⟨by simp, hw, .fracExp e2 f2 hne g1 g4⟩
      · rename_i hdot
        rcases exponent_ok.mp h2 with ⟨g1, rfl, rfl⟩ | ⟨e, g1, g2, rfl, g4⟩
        · refine ⟨rfl, hw, .plain e2 ?_⟩
          rw [next_peek (by decide)] at e3 ⊢
          exact ⟨e3.1, e3.2, hdot, exp_false.mp g1⟩
        · subst g2
          exact ⟨by simp, hw, .exp e2 g1 g4⟩
    · cases h3
  · rintro ⟨w, rfl, rfl, hw, hf⟩
    rw [LexRes.bind_eq_ok]
    cases hf with
    | @frac i f s hi hff hne hn =>
      have hn1 : Next r (fun c => ¬ c.isDigit = true) := fun c hc => ⟨(hn c hc).1, (hn c hc).2.1⟩
      have hp := digits_peek (r := r) hff hne
      refine ⟨(i, '.' :: (f ++ r)), digits_ok.mpr ⟨by simp, hi, ?_⟩, ?_⟩
      · intro c hc; injection hc with hc; subst hc; exact ⟨by decide, by decide⟩
      · rw [LexRes.bind_eq_ok]
        refine ⟨(i ++ '.' :: f, r), ?_, by rw [if_pos hw]⟩
        dsimp only [List.tail_cons]
        rw [if_pos (peek_cons '.' _), safe_ok]
        refine ⟨by simpa [high] using digit_low hp, ?_⟩
        change (if (!isDigit (peek (f ++ r))) = true then LexRes.error else (scanDigits (f ++ r)).bind fun f =>
          scanExponent (i ++ '.' :: f.fst) f.snd) = _
        rw [if_neg (by rw [isDigit_eq, hp]; simp), LexRes.bind_eq_ok]
        refine ⟨(f, r), digits_ok.mpr ⟨rfl, hff, hn1⟩, exponent_ok.mpr (Or.inl ⟨?_, rfl, rfl⟩)⟩
        rw [next_peek (by decide)] at hn
        exact exp_false.mpr hn.2.2
    | @fracExp i f e s hi hff hne he hn =>
      obtain ⟨c, sign, d, rfl, hc, hrest⟩ := id he
      have hcd : ¬ c.isDigit = true ∧ c.toNat < 128 := by rcases hc with rfl | rfl <;> decide
      have hp := digits_peek (r := c :: (sign ++ d) ++ r) hff hne
      refine ⟨(i, '.' :: (f ++ (c :: (sign ++ d) ++ r))), digits_ok.mpr ⟨by simp, hi, ?_⟩, ?_⟩
      · intro c hc; injection hc with hc; subst hc; exact ⟨by decide, by decide⟩
      · rw [LexRes.bind_eq_ok]
        refine ⟨(i ++ '.' :: f ++ c :: (sign ++ d), r), ?_, by rw [if_pos hw]⟩
        dsimp only [List.tail_cons]
        rw [if_pos (peek_cons '.' _), safe_ok]
        refine ⟨by simpa [high] using digit_low hp, ?_⟩
        change (if (!isDigit (peek (f ++ (c :: (sign ++ d) ++ r)))) = true then LexRes.error else (scanDigits (f ++ (c :: (sign ++ d) ++ r))).bind fun f =>
          scanExponent (i ++ '.' :: f.fst) f.snd) = _
        rw [if_neg (by rw [isDigit_eq, hp]; simp), LexRes.bind_eq_ok]
        refine ⟨(f, c :: (sign ++ d) ++ r), digits_ok.mpr ⟨rfl, hff, ?_⟩, exponent_ok.mpr (Or.inr ⟨_, he, rfl, rfl, hn⟩)⟩
        intro c' h'; injection h' with h'; subst h'; exact ⟨hcd.2, hcd.1⟩
    | @exp i e s hi he hn =>
      obtain ⟨c, sign, d, rfl, hc, hrest⟩ := id he
      have hcd : ¬ c.isDigit = true ∧ c.toNat < 128 ∧ c ≠ '.' := by rcases hc with rfl | rfl <;> decide
      refine ⟨(i, c :: (sign ++ d) ++ r), digits_ok.mpr ⟨by simp, hi, ?_⟩, ?_⟩
      · intro c' h'; injection h' with h'; subst h'; exact ⟨hcd.2.1, hcd.1⟩
      · rw [LexRes.bind_eq_ok]
        refine ⟨(i ++ c :: (sign ++ d), r), ?_, by rw [if_pos hw]⟩
        simp only [List.cons_append, peek_cons, if_neg hcd.2.2]
        exact exponent_ok.mpr (Or.inr ⟨_, he, rfl, rfl, hn⟩)
    | plain hi hn =>
      have hn1 : Next r (fun c => ¬ c.isDigit = true) := fun c hc => ⟨(hn c hc).1, (hn c hc).2.1⟩
      rw [next_peek (by decide)] at hn
      refine ⟨(w, r), digits_ok.mpr ⟨rfl, hi, hn1⟩, ?_⟩
      rw [LexRes.bind_eq_ok]
      refine ⟨(w, r), ?_, by rw [if_pos hw]⟩
      rw [if_neg hn.2.2.1]
      exact exponent_ok.mpr (Or.inl ⟨exp_false.mpr hn.2.2.2, rfl, rfl⟩)

theorem foldl_val (s : Str) (n : Nat) :
    s.foldl (fun n c => n * 10 + (c.toNat - 48)) n = n * 10 ^ s.length + natVal s := by
  induction s generalizing n with
  | nil => simp [natVal]
  | cons c s ih =>
    rw [List.foldl_cons, ih, natVal, List.length_cons, Nat.pow_succ]
    show (n * 10 + (c.toNat - 48)) * 10 ^ s.length + natVal s = _
    rw [Nat.add_mul, show '0'.toNat = 48 from rfl, Nat.mul_assoc, Nat.mul_comm 10 (10 ^ s.length), Nat.add_assoc]

theorem digitsVal_eq (s : Str) : digitsVal s = natVal s := by
  unfold digitsVal
  rw [foldl_val]
  simp

theorem digits_unique {s d r d' r' : Str} (h : scanDigits s = .ok (d, r)) (h' : scanDigits s = .ok (d', r')) : d = d' ∧ r = r' := by
  rw [h] at h'
  injection h' with h'
  injection h' with h1 h2
  exact ⟨h1, h2⟩

theorem number_ok {ok : Str → Bool} {c : Char} {s r : Str} {l : List Tok} (hc : c.isDigit = true) :
    scanNumber ok (c :: s) = .ok (l, r) ↔
      ∃ t w, l = [t] ∧ c :: s = w ++ r ∧ TokAt ok t w r := by
  unfold scanNumber
  constructor
  · intro h
    rw [LexRes.bind_eq_ok] at h
    obtain ⟨⟨d, s1⟩, h1, h2⟩ := h
    have hne := digits_ne h1 hc
    obtain ⟨e1, e2, e3⟩ := digits_ok.mp h1
    dsimp only at h2
    split at h2
    · rename_i hp
      split at h2
      · rename_i hv
        injection h2 with h2
        injection h2 with h2 h3
        subst h3
        refine ⟨_, d, h2.symm, e1, ?_⟩
        rw [digitsVal_eq] at hv ⊢
        refine .int e2 hne hv ?_
        rw [next_peek (by decide)] at e3 ⊢
        exact ⟨e3.1, e3.2, hp.1, exp_false.mp hp.2⟩
      · cases h2
    · rename_i hp
      obtain ⟨w, rfl, hw, hok, hf⟩ := float_ok.mp h2
      refine ⟨_, w, rfl, hw, ?_⟩
      cases hf with
      | frac a b c d => exact .frac a b c d hok
      | fracExp a b c d e => exact .fracExp a b c d e hok
      | @exp i e _ a b d =>
        refine .exp a ?_ b d hok
        rintro rfl
        obtain ⟨c', _, _, rfl, hc', _⟩ := b
        rw [List.nil_append, List.cons_append] at hw
        injection hw with hw
        subst hw
        rcases hc' with rfl | rfl <;> (revert hc; decide)
      | plain a b =>
        have := digits_unique h1 (digits_ok.mpr ⟨hw, a, fun c hc => ⟨(b c hc).1, (b c hc).2.1⟩⟩)
        rw [next_peek (by decide)] at b
        rw [this.2] at hp
        exact absurd ⟨b.2.2.1, exp_false.mpr b.2.2.2⟩ hp
  · rintro ⟨t, w, rfl, hw, ht⟩
    have notd : ∀ {P : Char → Prop}, Next r P → True := fun _ => trivial
    have hfl : ∀ {w : Str}, c :: s = w ++ r → ok w = true → FloatForm w r →
        (∀ d s1, scanDigits (c :: s) = .ok (d, s1) → ¬ (peek s1 ≠ '.' ∧ isExp (peek s1) = false)) →
        (∃ x, scanDigits (c :: s) = .ok x) →
        ((scanDigits (c :: s)).bind fun d => if peek d.2 ≠ '.' ∧ isExp (peek d.2) = false then
          if digitsVal d.1 < 2 ^ 63 then .ok ([.int (digitsVal d.1)], d.2) else .error
          else scanFloat ok (c :: s)) = .ok ([.float w], r) := by
      rintro w hw hok hf h ⟨⟨d, s1⟩, hd⟩
      rw [LexRes.bind_eq_ok]
      refine ⟨(d, s1), hd, ?_⟩
      dsimp only
      rw [if_neg (h d s1 hd)]
      exact float_ok.mpr ⟨w, rfl, hw, hok, hf⟩
    cases ht with
    | sym h =>
      exfalso
      simp only [symbols, List.mem_cons, Prod.mk.injEq, List.not_mem_nil, or_false] at h
      rcases h with ⟨_, rfl⟩ | ⟨_, rfl⟩ | ⟨_, rfl⟩ | ⟨_, rfl⟩ | ⟨_, rfl⟩ | ⟨_, rfl⟩ | ⟨_, rfl⟩ | ⟨_, rfl⟩ | ⟨_, rfl⟩ | ⟨_, rfl⟩ |
        ⟨_, rfl⟩ | ⟨_, rfl⟩ | ⟨_, rfl⟩ | ⟨_, rfl⟩ | ⟨_, rfl⟩ | ⟨_, rfl⟩ | ⟨_, rfl⟩ | ⟨_, rfl⟩ | ⟨_, rfl⟩ | ⟨_, rfl⟩ <;>
        (injection hw with hw; rw [hw] at hc; revert hc; decide)
    | half h =>
      exfalso
      simp only [Spec.half, List.mem_cons, Prod.mk.injEq, List.not_mem_nil, or_false] at h
      rcases h with ⟨_, rfl⟩ | ⟨_, rfl⟩ | ⟨_, rfl⟩ <;> (injection hw with hw; rw [hw] at hc; revert hc; decide)
    | dot h => injection hw with hw; rw [hw] at hc; exact absurd hc (by decide)
    | str h => injection hw with hw; rw [hw] at hc; rcases h with rfl | rfl <;> exact absurd hc (by decide)
    | int a b c' d =>
      have hn1 : Next r (fun c => ¬ c.isDigit = true) := fun c hc => ⟨(d c hc).1, (d c hc).2.1⟩
      rw [LexRes.bind_eq_ok]
      refine ⟨(w, r), digits_ok.mpr ⟨hw, a, hn1⟩, ?_⟩
      rw [next_peek (by decide)] at d
      rw [if_pos ⟨d.2.2.1, exp_false.mpr d.2.2.2⟩, digitsVal_eq, if_pos c']
    | @frac i f _ a b c' d hok =>
      have hd : scanDigits (c :: s) = .ok (i, '.' :: (f ++ r)) := digits_ok.mpr ⟨by rw [hw]; simp, a, by
        intro c hc; injection hc with hc; subst hc; exact ⟨by decide, by decide⟩⟩
      refine hfl hw hok (.frac a b c' d) ?_ ⟨_, hd⟩
      intro d' s1 h1
      obtain ⟨-, rfl⟩ := digits_unique hd h1
      simp [peek]
    | @fracExp i f e _ a b c' d n hok =>
      have hd : scanDigits (c :: s) = .ok (i, '.' :: (f ++ e ++ r)) := digits_ok.mpr ⟨by rw [hw]; simp, a, by
        intro c hc; injection hc with hc; subst hc; exact ⟨by decide, by decide⟩⟩
      refine hfl hw hok (.fracExp a b c' d n) ?_ ⟨_, hd⟩
      intro d' s1 h1
      obtain ⟨-, rfl⟩ := digits_unique hd h1
      simp [peek]
    | @exp i e _ a b d n hok =>
      obtain ⟨c', sign, d', rfl, hc', _⟩ := id d
      have hcd : ¬ c'.isDigit = true ∧ c'.toNat < 128 := by rcases hc' with rfl | rfl <;> decide
      have hd : scanDigits (c :: s) = .ok (i, c' :: (sign ++ d' ++ r)) := digits_ok.mpr ⟨by rw [hw]; simp, a, by
        intro c hc; injection hc with hc; subst hc; exact ⟨hcd.2, hcd.1⟩⟩
      refine hfl hw hok (.exp a d n) ?_ ⟨_, hd⟩
      intro d' s1 h1
      obtain ⟨-, rfl⟩ := digits_unique hd h1
      rw [peek_cons]
      intro h
      have := (isExp_iff c').mpr hc'
      rw [this] at h
      exact absurd h.2 (by simp)
    | keyword h =>
      obtain ⟨⟨c', s', rfl, hc'⟩, _⟩ := h
      injection hw with hw
      subst hw
      exfalso
      rcases hc' with h | rfl
      · have h1 : isAlpha c = true := by rw [isAlpha_eq]; exact h
        have h2 : isDigit c = true := hc
        simp [isAlpha, isUpper, isDigit] at h1 h2
        omega
      · revert hc; decide
    | ident h =>
      obtain ⟨⟨c', s', rfl, hc'⟩, _⟩ := h
      injection hw with hw
      subst hw
      exfalso
      rcases hc' with h | rfl
      · have h1 : isAlpha c = true := by rw [isAlpha_eq]; exact h
        have h2 : isDigit c = true := hc
        simp [isAlpha, isUpper, isDigit] at h1 h2
        omega
      · revert hc; decide

end Verif.Expr
