import Verif.Expr.Complete
import Verif.Expr.Tokens

/-! # C45: expressions are parsed by the documented grammar -/

namespace Verif.Expr

open Spec

/-- The parser ends on every sequence of tokens. -/
theorem C45_terminates (fn : Bool) (ts : List Tok) : parse fn ts ≠ .hang :=
  (ends fn _).1 0 ts (by omega) (Nat.le_refl _)

/-- A sequence of tokens is read to its end as a tree exactly if the grammar derives it as that tree. -/
theorem C45_grammar (fn : Bool) (ts : List Tok) (e : Expr) : parse fn ts = .ok (e, []) ↔ Gr fn (.level 1) ts [e] := by
  constructor
  · intro h
    obtain ⟨u, hu, hg, _⟩ := (sound fn _).1 0 ts e [] (by omega) h
    rw [List.append_nil] at hu
    subst hu
    exact hg
  · intro h
    obtain ⟨n, hn⟩ := reads_one (complete h) (r := []) (fol_ends (fun t ht => by cases ht) 0)
    rw [List.append_nil] at hn
    have hne := C45_terminates fn ts
    unfold parse at hne ⊢
    rcases Nat.le_total n (3 * ts.length + 3) with hle | hle
    · exact expr_mono hle hn
    · cases hr : expr fn (3 * ts.length + 3) 0 ts with
      | ok x =>
        rw [expr_mono hle hr] at hn
        exact hn
      | err =>
        exfalso
        have : ∀ m, 3 * ts.length + 3 ≤ m → expr fn m 0 ts = .err := by
          intro m hm
          induction hm with
          | refl => exact hr
          | step _ ih =>
            rcases (mono_succ fn _).1 0 ts with h | h
            · rw [ih] at h; cases h
            · rw [← h, ih]
        rw [this n hle] at hn
        cases hn
      | hang => exact absurd hr hne

/-- What is read is derived by the grammar from the tokens used, and these are as many as possible: no operator follows.
Conversely, an expression followed by anything that cannot continue it is read as such. -/
theorem C45_longest (fn : Bool) (ts : List Tok) (e : Expr) (r : List Tok) :
    (parse fn ts = .ok (e, r) → ∃ u, ts = u ++ r ∧ Gr fn (.level 1) u [e] ∧ ∀ t, r.head? = some t → ∀ k, ¬ HasLevel t k) ∧
    (∀ u, ts = u ++ r → Gr fn (.level 1) u [e] → Ends r → parse fn ts = .ok (e, r)) := by
  constructor
  · intro h
    obtain ⟨u, hu, hg, hs⟩ := (sound fn _).1 0 ts e r (by omega) h
    refine ⟨u, hu, hg, ?_⟩
    rintro t ht k ⟨op, ho⟩
    have := hs t ht k op (infixRule_iff.mpr ho)
    have := rule_range (infixRule_iff.mpr ho)
    omega
  · rintro u rfl hg he
    obtain ⟨n, hn⟩ := reads_one (complete hg) (fol_ends he 0)
    have hne := C45_terminates fn (u ++ r)
    unfold parse at hne ⊢
    have hm := (mono_succ fn)
    rcases Nat.le_total n (3 * (u ++ r).length + 3) with hle | hle
    · exact expr_mono hle hn
    · cases hr : expr fn (3 * (u ++ r).length + 3) 0 (u ++ r) with
      | ok x =>
        rw [expr_mono hle hr] at hn
        exact hn
      | err =>
        exfalso
        have : ∀ m, 3 * (u ++ r).length + 3 ≤ m → expr fn m 0 (u ++ r) = .err := by
          intro m hm
          induction hm with
          | refl => exact hr
          | step _ ih =>
            rcases (mono_succ fn _).1 0 (u ++ r) with h | h
            · rw [ih] at h; cases h
            · rw [← h, ih]
        rw [this n hle] at hn
        cases hn
      | hang => exact absurd hr hne

/-- No sequence of tokens has two meanings. -/
theorem C45_unambiguous (fn : Bool) (ts : List Tok) (a b : Expr) (ha : Gr fn (.level 1) ts [a]) (hb : Gr fn (.level 1) ts [b]) :
    a = b := by
  have h1 := (C45_grammar fn ts a).mpr ha
  rw [(C45_grammar fn ts b).mpr hb] at h1
  injection h1 with h1
  injection h1 with h1
  exact h1.symm

theorem gr_ref_level {fn : Bool} {e : Expr} {u : List Tok} (h : Gr fn (.level 5) u [e]) : ∃ v, Gr fn (.level 5) v [e] := ⟨u, h⟩

theorem paren_of {fn : Bool} {e : Expr} (h : ∃ u, Gr fn (.level 5) u [e]) (k : Nat) (h1 : 1 ≤ k) (h5 : k ≤ 5) :
    ∃ u, Gr fn (.level k) u [e] := by
  obtain ⟨u, h⟩ := h
  exact ⟨u, gr_lower h1 h5 (Nat.le_refl 5) h⟩

theorem op_level (op : BinOp) : ∃ k t, (k, t, op) ∈ operators := by
  cases op
  · exact ⟨1, .oror, by decide⟩
  · exact ⟨1, .andand, by decide⟩
  · exact ⟨2, .eqeq, by decide⟩
  · exact ⟨2, .noteq, by decide⟩
  · exact ⟨2, .less, by decide⟩
  · exact ⟨2, .lesseq, by decide⟩
  · exact ⟨2, .greater, by decide⟩
  · exact ⟨2, .greatereq, by decide⟩
  · exact ⟨3, .plus, by decide⟩
  · exact ⟨3, .minus, by decide⟩
  · exact ⟨4, .star, by decide⟩
  · exact ⟨4, .slash, by decide⟩

theorem printable {fn : Bool} {e : Expr} (h : Proper fn e) : ∃ u, Gr fn (.level 5) u [e] := by
  have items : ∀ l : List Expr, (∀ a ∈ l, ∃ u, Gr fn (.level 5) u [a]) → ∃ u, Gr fn .items u l := by
    intro l hl
    induction l with
    | nil => exact ⟨[], .none⟩
    | cons a l ih =>
      obtain ⟨u, hu⟩ := paren_of (hl a (by simp)) 1 (by omega) (by omega)
      obtain ⟨v, hv⟩ := ih fun a ha => hl a (by simp [ha])
      exact ⟨_, .comma hu hv⟩
  have more : ∀ l : List Expr, (∀ a ∈ l, ∃ u, Gr fn (.level 5) u [a]) → ∃ u, Gr fn .more u l := by
    intro l hl
    induction l with
    | nil => exact ⟨[], .stop⟩
    | cons a l ih =>
      obtain ⟨u, hu⟩ := paren_of (hl a (by simp)) 1 (by omega) (by omega)
      obtain ⟨v, hv⟩ := ih fun a ha => hl a (by simp [ha])
      exact ⟨_, .next hu hv⟩
  induction h with
  | float s => exact ⟨_, .float s⟩
  | int n => exact ⟨_, .int n⟩
  | bool b => exact ⟨_, .bool b⟩
  | str s => exact ⟨_, .str s⟩
  | @un op a _ ih =>
    obtain ⟨u, hu⟩ := ih
    cases op with
    | not => exact ⟨_, .not hu⟩
    | neg => exact ⟨_, .neg hu⟩
  | @bin op a b _ _ iha ihb =>
    obtain ⟨k, t, ho⟩ := op_level op
    have hk := rule_range (infixRule_iff.mpr ho)
    obtain ⟨u, hu⟩ := paren_of iha k hk.1 (by omega)
    obtain ⟨v, hv⟩ := paren_of ihb (k + 1) (by omega) (by omega)
    exact ⟨_, .paren (gr_lower (Nat.le_refl 1) hk.1 (by omega) (.bin ho hu hv))⟩
  | list _ ih =>
    obtain ⟨u, hu⟩ := items _ ih
    exact ⟨_, .list hu⟩
  | ite _ _ _ ih1 ih2 ih3 =>
    obtain ⟨u, hu⟩ := paren_of ih1 1 (by omega) (by omega)
    obtain ⟨v, hv⟩ := paren_of ih2 1 (by omega) (by omega)
    obtain ⟨w, hw⟩ := paren_of ih3 1 (by omega) (by omega)
    exact ⟨_, .ite hu hv hw⟩
  | switch _ _ hl ih1 ih2 =>
    obtain ⟨u, hu⟩ := paren_of ih1 1 (by omega) (by omega)
    obtain ⟨v, hv⟩ := more _ ih2
    exact ⟨_, .switch hu hv hl⟩
  | unit _ h1 h4 ih =>
    obtain ⟨u, hu⟩ := items _ ih
    exact ⟨_, .unit hu h1 h4⟩
  | ref h => exact ⟨_, .ref h⟩
  | arg n h => exact ⟨_, .arg n h⟩
  | func h => exact ⟨_, .func h⟩

/-- Every proper tree can be written down, and what is written is parsed as that tree. -/
theorem C45_print (fn : Bool) (e : Expr) (h : Proper fn e) :
    ∃ ts, Gr fn (.level 1) ts [e] ∧ parse fn ts = .ok (e, []) := by
  obtain ⟨u, hu⟩ := paren_of (printable h) 1 (by omega) (by omega)
  exact ⟨u, hu, (C45_grammar fn u e).mpr hu⟩

/-- The operators in words: on the left of an operator the operators of the same level or above need no parentheses, on its
right those above it. -/
theorem C45_precedence (fn : Bool) (k : Nat) (t : Tok) (op : BinOp) (u v : List Tok) (a b : Expr) (ho : (k, t, op) ∈ operators)
    (hu : Gr fn (.level k) u [a]) (hv : Gr fn (.level (k + 1)) v [b]) : parse fn (u ++ t :: v) = .ok (.bin op a b, []) := by
  have hk := rule_range (infixRule_iff.mpr ho)
  exact (C45_grammar fn _ _).mpr (gr_lower (Nat.le_refl 1) hk.1 (by omega) (.bin ho hu hv))

/-- The lexer finds exactly the tokens laid out in the text. -/
theorem C45_layout (okFloat : Str → Bool) (s : Str) (ts : List Tok) : tokenize okFloat s = .ok ts ↔ Layout okFloat ts s :=
  scanAll_iff (Nat.le_refl _)

/-- The lexer ends on every text, and its behaviour is defined on every ASCII text. -/
theorem C45_lexer_ends (okFloat : Str → Bool) (s : Str) :
    tokenize okFloat s ≠ .hang ∧ ((∀ c ∈ s, c.toNat < 128) → tokenize okFloat s ≠ .ub) := by
  constructor
  · intro h
    have := bad_all (b := false) (ok := okFloat) (Nat.le_refl s.length) (fun e => by cases e)
    unfold tokenize at h
    rw [h] at this
    cases this
  · intro hs h
    have := bad_all (b := true) (ok := okFloat) (Nat.le_refl s.length) (fun _ => hs)
    unfold tokenize at h
    rw [h] at this
    cases this

theorem tokAt_blank {ok : Str → Bool} {t : Tok} {w s : Str} (h : TokAt ok t w [' ']) : TokAt ok t w (' ' :: s) := by
  have hn : ∀ {P : Char → Prop}, Next [' '] P → Next (' ' :: s) P := fun h c hc => h c hc
  cases h with
  | sym h => exact .sym h
  | half h h2 => exact .half h h2
  | dot h => exact .dot (hn h)
  | str h h2 => exact .str h h2
  | int a b c d => exact .int a b c (hn d)
  | frac a b c d e => exact .frac a b c (hn d) e
  | fracExp a b c d e f => exact .fracExp a b c d (hn e) f
  | exp a b c d e => exact .exp a b c (hn d) e
  | keyword a b c => exact .keyword a (hn b) c
  | ident a b c => exact .ident a (hn b) c

/-- Tokens written one after the other with a blank after each are found again. -/
theorem C45_blanks (okFloat : Str → Bool) (l : List (Tok × Str)) (h : ∀ x ∈ l, TokAt okFloat x.1 x.2 [' ']) :
    tokenize okFloat (l.flatMap fun x => x.2 ++ [' ']) = .ok (l.map (·.1)) := by
  rw [C45_layout]
  induction l with
  | nil => exact .nil
  | cons x l ih =>
    have hx := h x (by simp)
    have hl := ih fun y hy => h y (by simp [hy])
    rw [List.flatMap_cons, List.map_cons, List.append_assoc]
    exact .tok (tokAt_blank hx) (.white (by simp) hl)

/-- A text whose tokens form an expression is parsed as this expression. Whatever the text, parsing ends. -/
theorem C45_text (okFloat : Str → Bool) (fn : Bool) (s : Str) :
    (∀ ts e, Layout okFloat ts s → Gr fn (.level 1) ts [e] → parseText okFloat fn s = .tree e) ∧
    parseText okFloat fn s ≠ .hang := by
  constructor
  · intro ts e hl hg
    unfold parseText
    rw [(C45_layout okFloat s ts).mpr hl]
    dsimp only
    rw [(C45_grammar fn ts e).mpr hg]
  · have h1 := (C45_lexer_ends okFloat s).1
    unfold parseText
    cases h : tokenize okFloat s with
    | ok ts =>
      dsimp only
      have h2 := C45_terminates fn ts
      cases h' : parse fn ts with
      | ok x => simp
      | err => simp
      | hang => exact absurd h' h2
    | error => simp
    | ub => simp
    | hang => exact absurd h h1

/-- A text taken as an expression begins with the tokens of this expression, and no operator follows. An ASCII text without such
a beginning is refused. -/
theorem C45_text_only (okFloat : Str → Bool) (fn : Bool) (s : Str) :
    (∀ e, parseText okFloat fn s = .tree e → ∃ u r, Layout okFloat (u ++ r) s ∧ Gr fn (.level 1) u [e] ∧
      ∀ t, r.head? = some t → ∀ k, ¬ HasLevel t k) ∧
    ((∀ c ∈ s, c.toNat < 128) → (∀ u r e, Layout okFloat (u ++ r) s → ¬ Gr fn (.level 1) u [e]) →
      parseText okFloat fn s = .failed) := by
  have key : ∀ e, parseText okFloat fn s = .tree e → ∃ u r, Layout okFloat (u ++ r) s ∧ Gr fn (.level 1) u [e] ∧
      ∀ t, r.head? = some t → ∀ k, ¬ HasLevel t k := by
    intro e h
    unfold parseText at h
    cases ht : tokenize okFloat s with
    | ok ts =>
      rw [ht] at h
      dsimp only at h
      cases hp : parse fn ts with
      | ok x =>
        rw [hp] at h
        injection h with h
        subst h
        obtain ⟨u, rfl, hg, hs⟩ := (C45_longest fn ts x.1 x.2).1 hp
        exact ⟨u, x.2, (C45_layout okFloat s _).mp ht, hg, hs⟩
      | err => rw [hp] at h; cases h
      | hang => rw [hp] at h; cases h
    | error => rw [ht] at h; cases h
    | ub => rw [ht] at h; cases h
    | hang => rw [ht] at h; cases h
  refine ⟨key, fun hs hno => ?_⟩
  cases h : parseText okFloat fn s with
  | tree e =>
    obtain ⟨u, r, hl, hg, _⟩ := key e h
    exact absurd hg (hno u r e hl)
  | failed => rfl
  | hang => exact absurd h (C45_text okFloat fn s).2
  | ub =>
    exfalso
    have h2 := (C45_lexer_ends okFloat s).2 hs
    unfold parseText at h
    cases ht : tokenize okFloat s with
    | ok ts =>
      rw [ht] at h
      dsimp only at h
      cases hp : parse fn ts with
      | ok x => rw [hp] at h; cases h
      | err => rw [hp] at h; cases h
      | hang => rw [hp] at h; cases h
    | error => rw [ht] at h; cases h
    | ub => exact h2 ht
    | hang => rw [ht] at h; cases h

example : parseText (fun _ => true) false "2 *".toList = .failed := by
  have h : tokenize (fun _ => true) "2 *".toList = .ok [.int 2, .star] := by decide +kernel
  unfold parseText
  rw [h]
  rfl

/-! ## Where the parser accepts more than expressions -/

/-- What follows an expression is not looked at: `1 2` is taken as `1`, although no expression is written so. -/
theorem C45_violation_trailing :
    parseText (fun _ => true) false "1 2".toList = .tree (.int 1) ∧ ∀ e, ¬ Gr false (.level 1) [.int 1, .int 2] [e] := by
  constructor
  · have h : tokenize (fun _ => true) "1 2".toList = .ok [.int 1, .int 2] := by decide +kernel
    unfold parseText
    rw [h]
    rfl
  · intro e h
    have := (C45_grammar false _ _).mpr h
    revert this
    show (PR.ok (Expr.int 1, [Tok.int 2]) = PR.ok (e, []) → False)
    intro h
    injection h with h
    injection h with h1 h2
    cases h2

/-- A string that is not closed is dropped with all that follows it. -/
theorem C45_violation_unclosed :
    parseText (fun _ => true) false "1 + 2 \"abc".toList = .tree (.bin .add (.int 1) (.int 2)) := by
  have h : tokenize (fun _ => true) "1 + 2 \"abc".toList = .ok [.int 1, .plus, .int 2] := by decide +kernel
  unfold parseText
  rw [h]
  rfl

/-- A character outside ASCII after a word or a number is passed to a function that is not defined on it. -/
theorem C45_violation_high : tokenize (fun _ => true) ['a', 'é'] = .ub ∧ tokenize (fun _ => true) ['1', 'é'] = .ub := by
  decide +kernel

/-! ## Examples -/

example : parseText (fun _ => true) false "if(%Mode == 1, [1, -2 * (3 + $x[4]),], switch(true, 'a', 2.5e-3))".toList =
    .tree (.ite (.bin .eq (.ref ['M', 'o', 'd', 'e'] .property (-1)) (.int 1))
      (.list [.int 1, .bin .mul (.un .neg (.int 2)) (.bin .add (.int 3) (.ref ['x', '[', '4', ']'] .value (-1)))])
      (.switch (.bool true) [.str ['a'], .float ['2', '.', '5', 'e', '-', '3']])) := by
  have h : tokenize (fun _ => true) "if(%Mode == 1, [1, -2 * (3 + $x[4]),], switch(true, 'a', 2.5e-3))".toList =
      .ok [.ite, .openP, .percent, .ident ['M', 'o', 'd', 'e'], .eqeq, .int 1, .comma, .openB, .int 1, .comma, .minus, .int 2, .star,
        .openP, .int 3, .plus, .dollar, .ident ['x'], .openB, .int 4, .closeB, .closeP, .comma, .closeB, .comma, .switch, .openP,
        .bool true, .comma, .str ['a'], .comma, .float ['2', '.', '5', 'e', '-', '3'], .closeP, .closeP] := by decide +kernel
  unfold parseText
  rw [h]
  rfl

/-- `||` and `&&` are on one level, as the comment on the grammar says. -/
example : parse false [.bool true, .oror, .bool true, .andand, .bool false] =
    .ok (.bin .and (.bin .or (.bool true) (.bool true)) (.bool false), []) := by rfl

example : Layout (fun _ => true) [.int 1, .lesseq, .percent, .ident ['a', '.', 'b']] "1<= %a.b".toList := by
  rw [← C45_layout]; decide +kernel

example : ∃ ts, parse false ts = .ok (.un .not (.bin .and (.bool true) (.list [.unit [.str ['V']]])), []) := by
  obtain ⟨ts, _, h⟩ := C45_print false (.un .not (.bin .and (.bool true) (.list [.unit [.str ['V']]])))
    (.un (.bin (.bool _) (.list (fun a ha => by
      rcases List.mem_singleton.mp ha with rfl
      exact .unit (fun a ha => by rcases List.mem_singleton.mp ha with rfl; exact .str _) (by simp) (by simp)))))
  exact ⟨ts, h⟩

example : parse false [.int 6, .slash, .int 3, .star, .int 2] = .ok (.bin .mul (.bin .div (.int 6) (.int 3)) (.int 2), []) :=
  C45_precedence false 4 .star .mul [.int 6, .slash, .int 3] [.int 2] _ _ (by decide)
    (.bin (k := 4) (u := [.int 6]) (by decide) (.up (by omega) (by omega) (.int 6)) (.int 3)) (.int 2)

example : tokenize (fun _ => true) "% x ".toList = .ok [.percent, .ident ['x']] :=
  C45_blanks (fun _ => true) [(.percent, ['%']), (.ident ['x'], ['x'])] (by
    intro y hy
    rcases List.mem_cons.mp hy with rfl | hy
    · exact .sym (by decide)
    · rcases List.mem_singleton.mp hy with rfl
      refine .ident ⟨⟨'x', [], rfl, Or.inl (by decide)⟩, ?_⟩ ?_ (by decide)
      · intro c hc; rcases List.mem_singleton.mp hc with rfl; exact Or.inl (by decide)
      · intro c hc; injection hc with hc; subst hc; exact ⟨by decide, by unfold wordChar; decide⟩)

end Verif.Expr
