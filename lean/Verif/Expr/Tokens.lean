import Verif.Expr.Lex

/-! # The tokens of a text -/

namespace Verif.Expr

open Spec

theorem word_keyword {w : Str} {t : Tok} (h : (w.map Char.toLower, t) ∈ keywords) : word w = t := by
  unfold word
  dsimp only
  rw [canonical_eq]
  simp only [keywords, List.mem_cons, Prod.mk.injEq, List.not_mem_nil, or_false] at h
  rcases h with ⟨h, rfl⟩ | ⟨h, rfl⟩ | ⟨h, rfl⟩ | ⟨h, rfl⟩ | ⟨h, rfl⟩ <;> rw [h] <;> rfl

theorem word_ident {w : Str} (h : w.map Char.toLower ∉ keywords.map (·.1)) : word w = .ident w := by
  unfold word
  dsimp only
  rw [canonical_eq]
  simp only [keywords, List.map_cons, List.map_nil, List.mem_cons, List.not_mem_nil, or_false, not_or] at h
  obtain ⟨h1, h2, h3, h4, h5⟩ := h
  change ¬ _ = ['i', 'f'] at h1
  change ¬ _ = ['s', 'w', 'i', 't', 'c', 'h'] at h2
  change ¬ _ = ['t', 'r', 'u', 'e'] at h3
  change ¬ _ = ['f', 'a', 'l', 's', 'e'] at h4
  change ¬ _ = ['u', 'n', 'i', 't'] at h5
  rw [if_neg h1, if_neg h2, if_neg h3, if_neg h4, if_neg h5]

theorem word_tok {ok : Str → Bool} {w r : Str} (hw : Word w) (hr : Next r (fun c => ¬ wordChar c)) : TokAt ok (word w) w r := by
  by_cases h : w.map Char.toLower ∈ keywords.map (·.1)
  · obtain ⟨⟨k, t⟩, h1, h2⟩ := List.mem_map.mp h
    dsimp only at h2
    subst h2
    rw [word_keyword h1]
    exact .keyword hw hr h1
  · rw [word_ident h]
    exact .ident hw hr h

theorem wordChar_zero : ¬ wordChar '\x00' := by unfold wordChar; decide

theorem scanWord_ok {s r : Str} {l : List Tok} :
    scanWord s = .ok (l, r) ↔ ∃ w, l = [word w] ∧ s = w ++ r ∧ (∀ c ∈ w, wordChar c) ∧ Next r (fun c => ¬ wordChar c) := by
  unfold scanWord
  rw [safe_ok]
  constructor
  · rintro ⟨h1, h2⟩
    injection h2 with h2
    injection h2 with h2 h3
    subst h2 h3
    refine ⟨_, rfl, List.takeWhile_append_dropWhile.symm, fun c hc => (isIdent_iff c).mp (takeWhile_all c hc), ?_⟩
    rw [next_peek wordChar_zero]
    refine ⟨h1, ?_⟩
    cases hd : s.dropWhile isIdent with
    | nil => exact wordChar_zero
    | cons c t =>
      have := dropWhile_head (P := isIdent) (s := s) (c := c) (by rw [hd]; rfl)
      rw [peek_cons]
      intro h
      rw [(isIdent_iff c).mpr h] at this
      cases this
  · rintro ⟨w, rfl, h1, h2, h3⟩
    have := span_unique (P := isIdent) h1 (fun c hc => (isIdent_iff c).mpr (h2 c hc)) (by
      intro c hc
      have := (h3 c hc).2
      cases h : isIdent c with
      | false => rfl
      | true => exact absurd ((isIdent_iff c).mp h) this)
    rw [next_peek wordChar_zero] at h3
    rw [this.1, this.2]
    exact ⟨h3.1, rfl⟩

theorem string_ok {ok : Str → Bool} {q : Char} {s r : Str} {l : List Tok} (hq : q = '"' ∨ q = '\'') :
    scanString q s = (l, r) ↔
      (∃ b, l = [.str b] ∧ q ∉ b ∧ s = b ++ q :: r) ∨ (l = [] ∧ r = [] ∧ q ∉ s) := by
  unfold scanString
  constructor
  · intro h
    have hall : q ∉ s.takeWhile (fun c => c != q) := by
      intro hm
      have := takeWhile_all q hm
      simp at this
    have happ : s.takeWhile (fun c => c != q) ++ s.dropWhile (fun c => c != q) = s := List.takeWhile_append_dropWhile
    split at h
    · rename_i hd
      injection h with h1 h2
      right
      refine ⟨h1.symm, h2.symm, ?_⟩
      rw [hd, List.append_nil] at happ
      rw [← happ]
      exact hall
    · rename_i a r' hd
      injection h with h1 h2
      subst h2
      have := dropWhile_head (P := fun c => c != q) (s := s) (c := a) (by rw [hd]; rfl)
      have ha : a = q := by simpa using this
      subst ha
      refine Or.inl ⟨_, h1.symm, hall, ?_⟩
      rw [← hd]
      exact happ.symm
  · rintro (⟨b, rfl, hb, rfl⟩ | ⟨rfl, rfl, hs⟩)
    · have := span_unique (P := fun c => c != q) (d := b) (r := q :: r) rfl (by
        intro c hc
        have : c ≠ q := by rintro rfl; exact hb hc
        simpa using this) (by
        intro c hc
        injection hc with hc
        simp [hc])
      rw [this.1, this.2]
    · have := span_unique (P := fun c => c != q) (s := s) (d := s) (r := []) (by simp) (by
        intro c hc
        have : c ≠ q := by rintro rfl; exact hs hc
        simpa using this) (by intro c hc; cases hc)
      rw [this.2]

/-- One step of the lexer: blanks, a token, or a string that is not closed. -/
def StepAt (ok : Str → Bool) (s : Str) (l : List Tok) (r : Str) : Prop :=
  (l = [] ∧ ∃ c ∈ [' ', '\t', '\n', '\r'], s = c :: r) ∨
  (∃ t w, l = [t] ∧ s = w ++ r ∧ TokAt ok t w r) ∨
  (l = [] ∧ r = [] ∧ ∃ q b, s = q :: b ∧ (q = '"' ∨ q = '\'') ∧ q ∉ b)

theorem isWhite_iff (c : Char) : isWhite c = true ↔ c ∈ [' ', '\t', '\n', '\r'] := by
  simp [isWhite, or_assoc]

theorem scan_sound {ok : Str → Bool} {c : Char} {s r : Str} {l : List Tok} (h : scanToken ok c s = .ok (l, r)) :
    StepAt ok (c :: s) l r := by
  have one : ∀ t, (t, [c]) ∈ symbols → l = [t] → r = s → StepAt ok (c :: s) l r := by
    rintro t ht rfl rfl
    exact Or.inr (Or.inl ⟨t, [c], rfl, rfl, .sym ht⟩)
  have two : ∀ t d, (t, [c, d]) ∈ symbols → d ≠ '\x00' → peek s = d → l = [t] → r = s.tail → StepAt ok (c :: s) l r := by
    rintro t d ht hd hp rfl rfl
    refine Or.inr (Or.inl ⟨t, [c, d], rfl, ?_, .sym ht⟩)
    have := tail_of_peek (s := s) (by rw [hp]; exact hd)
    rw [hp] at this
    show c :: s = c :: d :: s.tail
    rw [← this]
  have halfs : ∀ t, (t, [c]) ∈ half → peek s ≠ '=' → l = [t] → r = s → StepAt ok (c :: s) l r := by
    rintro t ht hp rfl rfl
    refine Or.inr (Or.inl ⟨t, [c], rfl, rfl, .half ht ?_⟩)
    intro e
    exact hp ((peek_iff (by decide)).mpr e)
  unfold scanToken at h
  by_cases hw : isWhite c = true
  · rw [if_pos hw] at h
    injection h with h; injection h with h1 h2
    subst h1 h2
    exact Or.inl ⟨rfl, c, (isWhite_iff c).mp hw, rfl⟩
  rw [if_neg hw] at h
  by_cases hc : c = '('
  · rw [if_pos hc] at h
    subst hc
    injection h with h; injection h with h1 h2
    exact one _ (by simp [symbols]) h1.symm h2.symm
  rw [if_neg hc] at h
  clear hc
  by_cases hc : c = ')'
  · rw [if_pos hc] at h
    subst hc
    injection h with h; injection h with h1 h2
    exact one _ (by simp [symbols]) h1.symm h2.symm
  rw [if_neg hc] at h
  clear hc
  by_cases hc : c = '['
  · rw [if_pos hc] at h
    subst hc
    injection h with h; injection h with h1 h2
    exact one _ (by simp [symbols]) h1.symm h2.symm
  rw [if_neg hc] at h
  clear hc
  by_cases hc : c = ']'
  · rw [if_pos hc] at h
    subst hc
    injection h with h; injection h with h1 h2
    exact one _ (by simp [symbols]) h1.symm h2.symm
  rw [if_neg hc] at h
  clear hc
  by_cases hc : c = '{'
  · rw [if_pos hc] at h
    subst hc
    injection h with h; injection h with h1 h2
    exact one _ (by simp [symbols]) h1.symm h2.symm
  rw [if_neg hc] at h
  clear hc
  by_cases hc : c = '}'
  · rw [if_pos hc] at h
    subst hc
    injection h with h; injection h with h1 h2
    exact one _ (by simp [symbols]) h1.symm h2.symm
  rw [if_neg hc] at h
  clear hc
  by_cases hc : c = '+'
  · rw [if_pos hc] at h
    subst hc
    injection h with h; injection h with h1 h2
    exact one _ (by simp [symbols]) h1.symm h2.symm
  rw [if_neg hc] at h
  clear hc
  by_cases hc : c = '-'
  · rw [if_pos hc] at h
    subst hc
    injection h with h; injection h with h1 h2
    exact one _ (by simp [symbols]) h1.symm h2.symm
  rw [if_neg hc] at h
  clear hc
  by_cases hc : c = '*'
  · rw [if_pos hc] at h
    subst hc
    injection h with h; injection h with h1 h2
    exact one _ (by simp [symbols]) h1.symm h2.symm
  rw [if_neg hc] at h
  clear hc
  by_cases hc : c = '/'
  · rw [if_pos hc] at h
    subst hc
    injection h with h; injection h with h1 h2
    exact one _ (by simp [symbols]) h1.symm h2.symm
  rw [if_neg hc] at h
  clear hc
  by_cases hc : c = ','
  · rw [if_pos hc] at h
    subst hc
    injection h with h; injection h with h1 h2
    exact one _ (by simp [symbols]) h1.symm h2.symm
  rw [if_neg hc] at h
  clear hc
  by_cases hc : c = '$'
  · rw [if_pos hc] at h
    subst hc
    injection h with h; injection h with h1 h2
    exact one _ (by simp [symbols]) h1.symm h2.symm
  rw [if_neg hc] at h
  clear hc
  by_cases hc : c = '%'
  · rw [if_pos hc] at h
    subst hc
    injection h with h; injection h with h1 h2
    exact one _ (by simp [symbols]) h1.symm h2.symm
  rw [if_neg hc] at h
  clear hc
  by_cases hc : c = ':'
  · rw [if_pos hc] at h
    subst hc
    injection h with h; injection h with h1 h2
    exact one _ (by simp [symbols]) h1.symm h2.symm
  rw [if_neg hc] at h
  clear hc
  by_cases hc : c = '|'
  · rw [if_pos hc] at h
    subst hc
    by_cases hp : peek s = '|'
    · rw [if_pos hp] at h
      injection h with h; injection h with h1 h2
      exact two _ _ (by simp [symbols]) (by decide) hp h1.symm h2.symm
    · rw [if_neg hp] at h
      cases h
  rw [if_neg hc] at h
  clear hc
  by_cases hc : c = '&'
  · rw [if_pos hc] at h
    subst hc
    by_cases hp : peek s = '&'
    · rw [if_pos hp] at h
      injection h with h; injection h with h1 h2
      exact two _ _ (by simp [symbols]) (by decide) hp h1.symm h2.symm
    · rw [if_neg hp] at h
      cases h
  rw [if_neg hc] at h
  clear hc
  by_cases hc : c = '='
  · rw [if_pos hc] at h
    subst hc
    by_cases hp : peek s = '='
    · rw [if_pos hp] at h
      injection h with h; injection h with h1 h2
      exact two _ _ (by simp [symbols]) (by decide) hp h1.symm h2.symm
    · rw [if_neg hp] at h
      cases h
  rw [if_neg hc] at h
  clear hc
  by_cases hc : c = '!'
  · rw [if_pos hc] at h
    subst hc
    by_cases hp : peek s = '='
    · rw [if_pos hp] at h
      injection h with h; injection h with h1 h2
      exact two _ _ (by simp [symbols]) (by decide) hp h1.symm h2.symm
    · rw [if_neg hp] at h
      injection h with h; injection h with h1 h2
      exact halfs _ (by simp [Spec.half]) hp h1.symm h2.symm
  rw [if_neg hc] at h
  clear hc
  by_cases hc : c = '<'
  · rw [if_pos hc] at h
    subst hc
    by_cases hp : peek s = '='
    · rw [if_pos hp] at h
      injection h with h; injection h with h1 h2
      exact two _ _ (by simp [symbols]) (by decide) hp h1.symm h2.symm
    · rw [if_neg hp] at h
      injection h with h; injection h with h1 h2
      exact halfs _ (by simp [Spec.half]) hp h1.symm h2.symm
  rw [if_neg hc] at h
  clear hc
  by_cases hc : c = '>'
  · rw [if_pos hc] at h
    subst hc
    by_cases hp : peek s = '='
    · rw [if_pos hp] at h
      injection h with h; injection h with h1 h2
      exact two _ _ (by simp [symbols]) (by decide) hp h1.symm h2.symm
    · rw [if_neg hp] at h
      injection h with h; injection h with h1 h2
      exact halfs _ (by simp [Spec.half]) hp h1.symm h2.symm
  rw [if_neg hc] at h
  clear hc
  split at h
  · rename_i hq
    injection h with h
    rcases (string_ok (ok := ok) hq).mp h with ⟨b, rfl, hb, rfl⟩ | ⟨rfl, rfl, hb⟩
    · exact Or.inr (Or.inl ⟨_, c :: (b ++ [c]), rfl, by simp, .str hq hb⟩)
    · exact Or.inr (Or.inr ⟨rfl, rfl, c, s, rfl, hq, hb⟩)
  split at h
  · rename_i hc
    subst hc
    rw [safe_ok] at h
    obtain ⟨hs, h⟩ := h
    split at h
    · rename_i hd
      obtain ⟨w, rfl, hw, hok, hf⟩ := float_ok.mp h
      refine Or.inr (Or.inl ⟨_, w, rfl, hw, ?_⟩)
      cases hf with
      | frac a b c d => exact .frac a b c d hok
      | fracExp a b c d e => exact .fracExp a b c d e hok
      | @exp i e _ a b d =>
        refine .exp a ?_ b d hok
        rintro rfl
        obtain ⟨c', _, _, rfl, hc', _⟩ := b
        rw [List.nil_append, List.cons_append] at hw
        injection hw with hw
        subst hw
        rcases hc' with e | e <;> cases e
      | plain a b =>
        exfalso
        cases w with
        | nil =>
          rw [List.nil_append] at hw
          exact (b '.' (by rw [← hw]; rfl)).2.2.1 rfl
        | cons c w =>
          injection hw with hw
          subst hw
          exact absurd (a '.' (by simp)) (by decide)
    · rename_i hd
      injection h with h; injection h with h1 h2
      subst h1 h2
      refine Or.inr (Or.inl ⟨.dot, ['.'], rfl, rfl, .dot ?_⟩)
      rw [next_peek (by decide)]
      exact ⟨hs, hd⟩
  split at h
  · rename_i hd
    exact Or.inr (Or.inl ((number_ok hd).mp h))
  split at h
  · rename_i hal
    obtain ⟨w, rfl, hw, h1, h2⟩ := scanWord_ok.mp h
    have hword : Word w := by
      refine ⟨?_, h1⟩
      cases w with
      | nil =>
        exfalso
        rw [List.nil_append] at hw
        subst hw
        refine (h2 c rfl).2 ?_
        rw [← isIdent_iff]
        rcases hal with h | h <;> simp [isIdent, h]
      | cons c' w =>
        injection hw with hw
        subst hw
        exact ⟨c, w, rfl, by rw [← isAlpha_eq]; exact hal⟩
    exact Or.inr (Or.inl ⟨_, w, rfl, hw, word_tok hword h2⟩)
  · cases h

theorem notSpecial {c : Char} {P : Char → Bool} (hc : P c = true) {d : Char} (hd : P d = false) : c ≠ d := by
  rintro rfl
  rw [hc] at hd
  cases hd

theorem not_white {c : Char} {P : Char → Bool} (hc : P c = true)
    (h : P ' ' = false ∧ P '\t' = false ∧ P '\n' = false ∧ P '\r' = false) : ¬ isWhite c = true := by
  rw [isWhite_iff]
  intro hm
  simp only [List.mem_cons, List.not_mem_nil, or_false] at hm
  rcases hm with rfl | rfl | rfl | rfl
  · rw [h.1] at hc; cases hc
  · rw [h.2.1] at hc; cases hc
  · rw [h.2.2.1] at hc; cases hc
  · rw [h.2.2.2] at hc; cases hc

theorem scan_digit (ok : Str → Bool) {c : Char} (s : Str) (hc : isDigit c = true) : scanToken ok c s = scanNumber ok (c :: s) := by
  unfold scanToken
  rw [if_neg (not_white hc (by decide))]
  iterate 20 rw [if_neg (notSpecial hc (by decide))]
  rw [if_neg (not_or.mpr ⟨notSpecial hc (by decide), notSpecial hc (by decide)⟩), if_neg (notSpecial hc (by decide)), if_pos hc]

theorem scan_word (ok : Str → Bool) {c : Char} (s : Str) (hc : isAlpha c = true ∨ c = '_') :
    scanToken ok c s = scanWord (c :: s) := by
  have hc' : (isAlpha c || c == '_') = true := by simpa using hc
  have hw : (fun c => isAlpha c || c == '_') c = true := hc'
  unfold scanToken
  rw [if_neg (not_white (P := fun c => isAlpha c || c == '_') hw (by decide))]
  iterate 20 rw [if_neg (notSpecial (P := fun c => isAlpha c || c == '_') hw (by decide))]
  rw [if_neg (not_or.mpr ⟨notSpecial (P := fun c => isAlpha c || c == '_') hw (by decide),
    notSpecial (P := fun c => isAlpha c || c == '_') hw (by decide)⟩),
    if_neg (notSpecial (P := fun c => isAlpha c || c == '_') hw (by decide)), if_neg, if_pos hc]
  intro hd
  rcases hc with h | rfl
  · simp [isAlpha, isUpper, isDigit] at h hd
    omega
  · revert hd; decide

theorem scan_dot (ok : Str → Bool) (s : Str) :
    scanToken ok '.' s = safe s (if isDigit (peek s) then scanFloat ok ('.' :: s) else .ok ([.dot], s)) := by
  unfold scanToken
  rw [if_neg (by decide)]
  iterate 20 rw [if_neg (by decide)]
  rw [if_neg (by decide), if_pos rfl]

theorem scan_quote (ok : Str → Bool) {q : Char} (s : Str) (hq : q = '"' ∨ q = '\'') : scanToken ok q s = .ok (scanString q s) := by
  rcases hq with rfl | rfl <;>
  · unfold scanToken
    rw [if_neg (by decide)]
    iterate 20 rw [if_neg (by decide)]
    rw [if_pos (by decide)]

theorem scan_complete {ok : Str → Bool} {c : Char} {s r : Str} {l : List Tok} (h : StepAt ok (c :: s) l r) :
    scanToken ok c s = .ok (l, r) := by
  rcases h with ⟨rfl, d, hd, e⟩ | ⟨t, w, rfl, e, ht⟩ | ⟨rfl, rfl, q, b, e, hq, hb⟩
  · injection e with e1 e2
    subst e1 e2
    unfold scanToken
    rw [if_pos ((isWhite_iff c).mpr hd)]
  · have digitcase : ∀ {t w}, TokAt ok t w r → (∃ d w', w = d :: w' ∧ isDigit d = true) → c :: s = w ++ r →
        scanToken ok c s = .ok ([t], r) := by
      rintro t w ht ⟨d, w', rfl, hd⟩ e
      have hc : isDigit c = true := by injection e with e1; rw [e1]; exact hd
      rw [scan_digit ok s hc]
      exact (number_ok hc).mpr ⟨t, _, rfl, e, ht⟩
    have dotcase : ∀ {w}, FloatForm w r → ok w = true → (∃ f fs w', w = '.' :: f :: w' ∧ isDigit f = true ∧ fs = f) →
        c :: s = w ++ r → scanToken ok c s = .ok ([.float w], r) := by
      rintro w hf hok ⟨f, _, w', rfl, hd, _⟩ e
      injection e with e1 e2
      change s = f :: (w' ++ r) at e2
      subst e1 e2
      rw [scan_dot, safe_ok]
      refine ⟨?_, ?_⟩
      · have := digit_low (c := f) hd
        simpa [high, peek] using this
      · rw [if_pos (show isDigit (peek (f :: (w' ++ r))) = true from hd)]
        exact float_ok.mpr ⟨_, rfl, rfl, hok, hf⟩
    have wordcase : ∀ {w}, Word w → Next r (fun c => ¬ wordChar c) → c :: s = w ++ r → scanToken ok c s = .ok ([word w], r) := by
      rintro w ⟨⟨d, w', rfl, hd⟩, hall⟩ hn e
      have hc : isAlpha c = true ∨ c = '_' := by injection e with e1; rw [e1, isAlpha_eq]; exact hd
      rw [scan_word ok s hc]
      exact scanWord_ok.mpr ⟨_, rfl, e, hall, hn⟩
    cases ht with
    | sym h =>
      simp only [symbols, List.mem_cons, Prod.mk.injEq, List.not_mem_nil, or_false] at h
      rcases h with ⟨rfl, rfl⟩ | ⟨rfl, rfl⟩ | ⟨rfl, rfl⟩ | ⟨rfl, rfl⟩ | ⟨rfl, rfl⟩ | ⟨rfl, rfl⟩ | ⟨rfl, rfl⟩ | ⟨rfl, rfl⟩ | ⟨rfl, rfl⟩ |
        ⟨rfl, rfl⟩ | ⟨rfl, rfl⟩ | ⟨rfl, rfl⟩ | ⟨rfl, rfl⟩ | ⟨rfl, rfl⟩ | ⟨rfl, rfl⟩ | ⟨rfl, rfl⟩ | ⟨rfl, rfl⟩ | ⟨rfl, rfl⟩ | ⟨rfl, rfl⟩ |
        ⟨rfl, rfl⟩ <;> (injection e with e1 e2; subst e1 e2; rfl)
    | half h hn =>
      have hp : peek r ≠ '=' := fun e => hn ((peek_iff (by decide)).mp e)
      simp only [Spec.half, List.mem_cons, Prod.mk.injEq, List.not_mem_nil, or_false] at h
      rcases h with ⟨rfl, rfl⟩ | ⟨rfl, rfl⟩ | ⟨rfl, rfl⟩ <;>
      · injection e with e1 e2
        change s = r at e2
        subst e1 e2
        simp [scanToken, isWhite, hp]
    | dot h =>
      injection e with e1 e2
      change s = r at e2
      subst e1 e2
      rw [next_peek (by decide)] at h
      rw [scan_dot, safe_ok, if_neg (show ¬ isDigit (peek s) = true from h.2)]
      exact ⟨h.1, rfl⟩
    | @str q b _ hq hb =>
      injection e with e1 e2
      change s = b ++ [q] ++ r at e2
      subst e1 e2
      rw [scan_quote ok _ hq, (string_ok (ok := ok) (r := r) hq).mpr (Or.inl ⟨b, rfl, hb, by simp⟩)]
    | int a b c d =>
      refine digitcase (.int a b c d) ?_ e
      cases w with
      | nil => exact absurd rfl b
      | cons x w => exact ⟨x, w, rfl, a x (by simp)⟩
    | @frac i f _ a b c d hok =>
      cases i with
      | nil =>
        refine dotcase (.frac a b c d) hok ?_ e
        cases f with
        | nil => exact absurd rfl c
        | cons x f => exact ⟨x, x, f, rfl, b x (by simp), rfl⟩
      | cons x i => exact digitcase (.frac a b c d hok) ⟨x, _, rfl, a x (by simp)⟩ e
    | @fracExp i f ex _ a b c d n hok =>
      cases i with
      | nil =>
        refine dotcase (.fracExp a b c d n) hok ?_ e
        cases f with
        | nil => exact absurd rfl c
        | cons x f => exact ⟨x, x, f ++ ex, by simp, b x (by simp), rfl⟩
      | cons x i => exact digitcase (.fracExp a b c d n hok) ⟨x, _, rfl, a x (by simp)⟩ e
    | @exp i ex _ a b d n hok =>
      cases i with
      | nil => exact absurd rfl b
      | cons x i => exact digitcase (.exp a b d n hok) ⟨x, _, rfl, a x (by simp)⟩ e
    | keyword h hn hk =>
      rw [← word_keyword hk]
      exact wordcase h hn e
    | ident h hn hk =>
      have := wordcase h hn e
      rw [word_ident hk] at this
      exact this
  · injection e with e1 e2
    subst e1 e2
    rw [scan_quote ok _ hq, (string_ok (ok := ok) hq).mpr (Or.inr ⟨rfl, rfl, hb⟩)]

theorem tokAt_ne {ok : Str → Bool} {t : Tok} {w s : Str} (h : TokAt ok t w s) : w ≠ [] := by
  cases h with
  | sym h =>
    rintro rfl
    revert h
    simp [symbols]
  | half h =>
    rintro rfl
    revert h
    simp [Spec.half]
  | dot => simp
  | str => simp
  | int _ h => exact h
  | frac => simp
  | fracExp => simp
  | exp _ h => simp [h]
  | keyword h =>
    obtain ⟨⟨c, s, rfl, _⟩, _⟩ := h
    simp
  | ident h =>
    obtain ⟨⟨c, s, rfl, _⟩, _⟩ := h
    simp

theorem stepAt_len {ok : Str → Bool} {c : Char} {s r : Str} {l : List Tok} (h : StepAt ok (c :: s) l r) : r.length ≤ s.length := by
  rcases h with ⟨-, d, -, e⟩ | ⟨t, w, -, e, ht⟩ | ⟨-, rfl, -⟩
  · injection e with _ e; rw [e]; exact Nat.le_refl _
  · cases w with
    | nil => exact absurd rfl (tokAt_ne ht)
    | cons d w => injection e with _ e; rw [e]; simp
  · exact Nat.zero_le _

theorem scanAll_iff {ok : Str → Bool} {n : Nat} {s : Str} {ts : List Tok} (hn : s.length ≤ n) :
    scanAll ok n s = .ok ts ↔ Layout ok ts s := by
  induction n generalizing s ts with
  | zero =>
    cases s with
    | nil =>
      rw [scanAll]
      constructor
      · intro h; injection h with h; subst h; exact .nil
      · intro h
        generalize hs : ([] : Str) = z at h
        cases h with
        | nil => rfl
        | white => cases hs
        | tok ht _ =>
          exact absurd (List.append_eq_nil_iff.mp hs.symm).1 (tokAt_ne ht)
        | unclosed => cases hs
    | cons c s => simp at hn
  | succ n ih =>
    cases s with
    | nil =>
      rw [scanAll]
      constructor
      · intro h; injection h with h; subst h; exact .nil
      · intro h
        generalize hs : ([] : Str) = z at h
        cases h with
        | nil => rfl
        | white => cases hs
        | tok ht _ =>
          exact absurd (List.append_eq_nil_iff.mp hs.symm).1 (tokAt_ne ht)
        | unclosed => cases hs
    | cons c s =>
      rw [List.length_cons] at hn
      rw [scanAll, LexRes.bind_eq_ok]
      constructor
      · rintro ⟨⟨l, r⟩, h1, h2⟩
        rw [LexRes.bind_eq_ok] at h2
        obtain ⟨ts', h2, h3⟩ := h2
        injection h3 with h3
        dsimp only at h2 h3
        subst h3
        have hst := scan_sound h1
        have hr := (ih (by have := stepAt_len hst; omega)).mp h2
        rcases hst with ⟨rfl, d, hd, e⟩ | ⟨t, w, rfl, e, ht⟩ | ⟨rfl, rfl, q, b, e, hq, hb⟩
        · rw [e]; exact .white hd hr
        · rw [e]; exact .tok ht hr
        · rw [e]
          have : ts' = [] := by
            rw [← ih (by simp)] at hr
            unfold scanAll at hr
            cases n <;> (injection hr with hr; exact hr.symm)
          subst this
          exact .unclosed hq hb
      · intro h
        generalize hs : c :: s = z at h
        cases h with
        | nil => cases hs
        | @white d ts' s' hd hl =>
          have hst : StepAt ok (c :: s) [] s' := Or.inl ⟨rfl, d, hd, hs⟩
          refine ⟨([], s'), scan_complete hst, ?_⟩
          rw [LexRes.bind_eq_ok]
          have := stepAt_len hst
          exact ⟨ts, (ih (s := s') (by omega)).mpr hl, rfl⟩
        | @tok t ts' w s' ht hl =>
          have hst : StepAt ok (c :: s) [t] s' := Or.inr (Or.inl ⟨t, w, rfl, hs, ht⟩)
          refine ⟨([t], s'), scan_complete hst, ?_⟩
          rw [LexRes.bind_eq_ok]
          have := stepAt_len hst
          exact ⟨ts', (ih (s := s') (by omega)).mpr hl, rfl⟩
        | @unclosed q b hq hb =>
          refine ⟨([], []), scan_complete (Or.inr (Or.inr ⟨rfl, rfl, q, b, hs, hq, hb⟩)), ?_⟩
          rw [LexRes.bind_eq_ok]
          exact ⟨[], (ih (by simp)).mpr .nil, rfl⟩

/-! ## The lexer ends, and is defined on ASCII text -/

/-- The lexer stands still, or (with the flag) the behaviour is undefined. -/
def LexRes.bad {α : Type} (b : Bool) : LexRes α → Bool
  | .hang => true
  | .ub => b
  | _ => false

theorem LexRes.bad_bind {α β : Type} {b : Bool} {x : LexRes α} {f : α → LexRes β} (hx : x.bad b = false)
    (hf : ∀ a, x = .ok a → (f a).bad b = false) : (x.bind f).bad b = false := by
  cases x with
  | ok a => exact hf a rfl
  | error => rfl
  | ub => exact hx
  | hang => cases hx

/-- Only ASCII characters. -/
def Low (s : Str) : Prop := ∀ c ∈ s, c.toNat < 128

variable {b : Bool}

theorem bad_safe {α : Type} {s : Str} {r : LexRes α} (hs : b = true → Low s) (hr : r.bad b = false) : (safe s r).bad b = false := by
  unfold safe
  split
  · rename_i h
    cases b with
    | false => rfl
    | true =>
      exfalso
      cases s with
      | nil => revert h; decide
      | cons c s =>
        have := hs rfl c (by simp)
        simp [high, peek] at h
        omega
  · exact hr

theorem low_sub {s t : Str} (h : b = true → Low s) (hst : ∀ c ∈ t, c ∈ s) : b = true → Low t :=
  fun e c hc => h e c (hst c hc)

theorem bad_digits {s : Str} (hs : b = true → Low s) : (scanDigits s).bad b = false :=
  bad_safe (low_sub hs fun _ hc => (List.dropWhile_sublist _).subset hc) rfl

theorem digits_sub {s d r : Str} (h : scanDigits s = .ok (d, r)) : ∀ c ∈ r, c ∈ s := by
  obtain ⟨rfl, _⟩ := digits_ok.mp h
  intro c hc
  exact List.mem_append_right _ hc

theorem mem_of_tail {s : Str} {c : Char} (h : c ∈ s.tail) : c ∈ s := List.mem_of_mem_tail h

theorem bad_ite {α : Type} {p : Prop} [Decidable p] {x y : LexRes α} (hx : x.bad b = false) (hy : y.bad b = false) :
    (if p then x else y).bad b = false := by
  split <;> assumption

theorem bad_exponent {lex s : Str} (hs : b = true → Low s) : (scanExponent lex s).bad b = false := by
  unfold scanExponent
  split
  · dsimp only
    have hr : b = true → Low (if peek s.tail = '+' ∨ peek s.tail = '-' then s.tail.tail else s.tail) := by
      refine low_sub hs ?_
      intro c hc
      split at hc
      · exact mem_of_tail (mem_of_tail hc)
      · exact mem_of_tail hc
    exact bad_safe hr (bad_ite rfl (LexRes.bad_bind (bad_digits hr) fun a _ => rfl))
  · rfl

theorem bad_float {ok : Str → Bool} {s : Str} (hs : b = true → Low s) : (scanFloat ok s).bad b = false := by
  unfold scanFloat
  refine LexRes.bad_bind (bad_digits hs) ?_
  rintro ⟨d, s1⟩ h1
  have h1' := low_sub hs (digits_sub h1)
  refine LexRes.bad_bind ?_ ?_
  · split
    · have h2 := low_sub h1' (t := s1.tail) fun c hc => mem_of_tail hc
      refine bad_safe h2 ?_
      split
      · rfl
      · refine LexRes.bad_bind (bad_digits h2) ?_
        rintro ⟨f, s2⟩ h3
        exact bad_exponent (low_sub h2 (digits_sub h3))
    · exact bad_exponent h1'
  · intro a _
    split <;> rfl

theorem bad_number {ok : Str → Bool} {s : Str} (hs : b = true → Low s) : (scanNumber ok s).bad b = false := by
  unfold scanNumber
  refine LexRes.bad_bind (bad_digits hs) fun a _ => ?_
  split
  · split <;> rfl
  · exact bad_float hs

theorem bad_word {s : Str} (hs : b = true → Low s) : (scanWord s).bad b = false :=
  bad_safe (low_sub hs fun _ hc => (List.dropWhile_sublist _).subset hc) rfl

theorem bad_token {ok : Str → Bool} {c : Char} {s : Str} (hs : b = true → Low (c :: s)) : (scanToken ok c s).bad b = false := by
  have hs' : b = true → Low s := low_sub hs fun _ hc => List.mem_cons_of_mem _ hc
  unfold scanToken
  refine bad_ite rfl ?_
  iterate 14 refine bad_ite rfl ?_
  iterate 3 refine bad_ite (bad_ite rfl rfl) ?_
  iterate 3 refine bad_ite (bad_ite rfl rfl) ?_
  refine bad_ite rfl ?_
  refine bad_ite (bad_safe hs' (bad_ite (bad_float hs) rfl)) ?_
  refine bad_ite (bad_number hs) ?_
  exact bad_ite (bad_word hs) rfl

theorem stepAt_sub {ok : Str → Bool} {s r : Str} {l : List Tok} (h : StepAt ok s l r) : ∀ c ∈ r, c ∈ s := by
  rcases h with ⟨-, d, -, e⟩ | ⟨t, w, -, e, ht⟩ | ⟨-, rfl, -⟩
  · intro c hc; rw [e]; simp [hc]
  · intro c hc; rw [e]; simp [hc]
  · intro c hc; cases hc

theorem bad_all {ok : Str → Bool} {n : Nat} {s : Str} (hn : s.length ≤ n) (hs : b = true → Low s) :
    (scanAll ok n s).bad b = false := by
  induction n generalizing s with
  | zero =>
    cases s with
    | nil => rfl
    | cons c s => simp at hn
  | succ n ih =>
    cases s with
    | nil => rfl
    | cons c s =>
      rw [List.length_cons] at hn
      rw [scanAll]
      refine LexRes.bad_bind (bad_token hs) ?_
      rintro ⟨l, r⟩ h1
      have hst := scan_sound h1
      refine LexRes.bad_bind (ih ?_ (low_sub hs (stepAt_sub hst))) fun _ _ => rfl
      have := stepAt_len hst
      dsimp only
      omega

end Verif.Expr
