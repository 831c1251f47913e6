import Verif.Expr.Sound

/-! # The parser reads every expression of the grammar, and always ends -/

namespace Verif.Expr

open Spec

/-- What may follow an expression of a level. -/
def Fol (k : Nat) (r : List Tok) : Prop := Stop k r ∧ ∀ t, r.head? = some t → t ≠ .openP ∧ t ≠ .openB ∧ t ≠ .colon

theorem Fol.mono {j k : Nat} {r : List Tok} (h : Fol j r) (hjk : j ≤ k) : Fol k r :=
  ⟨fun t ht q op e => Nat.le_trans (h.1 t ht q op e) hjk, h.2⟩

theorem fol_ends {r : List Tok} (h : Ends r) (k : Nat) : Fol k r :=
  ⟨fun t ht q op e => absurd ⟨op, infixRule_iff.mp e⟩ ((h t ht).1 q), fun t ht => (h t ht).2⟩

theorem fol_cons {t : Tok} {r : List Tok} (k : Nat) (h : infixRule t = none) (h1 : t ≠ .openP ∧ t ≠ .openB ∧ t ≠ .colon) :
    Fol k (t :: r) := by
  refine ⟨?_, ?_⟩
  · intro t' ht q op e
    injection ht with ht
    rw [← ht, h] at e
    cases e
  · intro t' ht
    injection ht with ht
    exact ht ▸ h1

theorem loop_done (fn : Bool) {p : Nat} {r : List Tok} (e : Expr) (h : Stop p r) : ∃ n, loop fn n p e r = .ok (e, r) := by
  refine ⟨1, ?_⟩
  cases r with
  | nil => rw [loop]
  | cons t r =>
    rw [loop]
    cases hr : infixRule t with
    | none => rfl
    | some x =>
      obtain ⟨q, op⟩ := x
      have := h t rfl q op hr
      dsimp only
      rw [if_neg (by omega)]

theorem expr_of_pre {fn : Bool} {p : Nat} {t : Tok} {ts r : List Tok} {e : Expr} {x : Expr × List Tok}
    (h1 : ∃ n, pre fn n t ts = .ok (e, r)) (h2 : ∃ n, loop fn n p e r = .ok x) : ∃ n, expr fn n p (t :: ts) = .ok x := by
  obtain ⟨a, h1⟩ := h1
  obtain ⟨b, h2⟩ := h2
  refine ⟨max a b + 1, ?_⟩
  rw [expr, pre_mono (Nat.le_max_left a b) h1]
  exact loop_mono (Nat.le_max_right a b) h2

theorem consume_cons (t : Tok) (r : List Tok) : consume t (t :: r) = .ok r := by simp [consume]

theorem valref_ref {u r : List Tok} {s : Str} {t : RefType} (h : RefAt u s t) (hf : Fol 5 r) :
    (∃ ts, u ++ r = .dollar :: ts ∧ valref ts = .ok ((s, t), r)) ∨
    (∃ ts, u ++ r = .percent :: ts ∧ propref ts = .ok ((s, t), r)) := by
  have hpar : ∀ par : List Tok, par = [] ∨ par = [.openP, .closeP] → parens (par ++ r) = .ok r := by
    rintro par (rfl | rfl)
    · unfold parens
      split
      · rename_i r' e
        exact absurd rfl (hf.2 .openP (by rw [show r = [] ++ r from rfl, e]; rfl)).1
      · rfl
    · rfl
  cases h with
  | value s =>
    refine Or.inl ⟨_, rfl, ?_⟩
    show valref (.ident s :: r) = _
    unfold valref
    split
    · rename_i e
      injection e with e1 e2
      exact absurd rfl (hf.2 .openB (by rw [e2]; rfl)).2.1
    · rename_i e
      injection e with e1 e2
      injection e1 with e1
      rw [e1, e2]
    · rename_i h1 h2
      exact absurd rfl (h2 _ _)
  | index s n =>
    refine Or.inl ⟨_, rfl, ?_⟩
    show valref (.ident s :: .openB :: .int n :: .closeB :: r) = _
    unfold valref
    simp only [getInt, PR.bind_ok, consume_cons, decimal_eq]
    congr 3
    simp
  | prop s hp =>
    rename_i par
    refine Or.inr ⟨_, rfl, ?_⟩
    show propref (.ident _ :: (par ++ r)) = _
    have hcolon : ∀ r', par ++ r ≠ .colon :: r' := by
      intro r' e
      rcases hp with rfl | rfl
      · exact absurd rfl (hf.2 .colon (by rw [show r = [] ++ r from rfl, e]; rfl)).2.2
      · cases e
    have hq := hpar par hp
    generalize par ++ r = z at *
    unfold propref
    split
    · rename_i e; injection e with e1 e2; exact absurd e2 (hcolon _)
    · rename_i e; injection e with e1 e2; exact absurd e2 (hcolon _)
    · rename_i e
      injection e with e1 e2
      injection e1 with e1
      subst e1 e2
      rw [hq]; rfl
    · rename_i h1 h2 h3
      exact absurd rfl (h3 _ _)
  | item s i hp ht =>
    refine Or.inr ⟨_, rfl, ?_⟩
    show propref (.ident s :: .colon :: .ident i :: (_ ++ r)) = _
    unfold propref
    dsimp only
    rw [propItem_iff.mpr ht]
    simp only [hpar _ hp, PR.bind_ok, canonical_eq]
    congr 3
    simp

theorem first_tok {fn : Bool} {kd : Kind} {u : List Tok} {l : List Expr} (h : Gr fn kd u l) :
    ∀ k, kd = .level k → ∃ t u', u = t :: u' ∧ t ≠ .closeP ∧ t ≠ .closeB := by
  induction h with
  | bin _ _ _ ih1 _ =>
    intro k _
    obtain ⟨t, u', rfl, h⟩ := ih1 _ rfl
    exact ⟨t, _, rfl, h⟩
  | up _ _ _ ih => intro k _; exact ih _ rfl
  | ref h => intro k _; cases h <;> exact ⟨_, _, rfl, by simp, by simp⟩
  | none => intro k e; cases e
  | last => intro k e; cases e
  | comma => intro k e; cases e
  | stop => intro k e; cases e
  | next => intro k e; cases e
  | _ => intro k _; exact ⟨_, _, rfl, by simp, by simp⟩

/-- What is shown of every phrase of the grammar. -/
def Reads (fn : Bool) : Kind → List Tok → List Expr → Prop
  | .level k, u, l => ∀ e, l = [e] → ∀ p r x, p < k ∨ (p = 5 ∧ k = 5) → Fol k r → (∃ n, loop fn n p e r = .ok x) →
      ∃ n, expr fn n p (u ++ r) = .ok x
  | .items, u, l => ∀ c r lim, c = .closeB ∨ c = .closeP → (∀ m, lim = some m → l.length ≤ m) →
      ∃ n, items fn n c lim (u ++ c :: r) = .ok (l, r)
  | .more, u, l => ∀ r, ∃ n, more fn n (u ++ .closeP :: r) = .ok (l, r)

theorem reads_one {fn : Bool} {u : List Tok} {e : Expr} (h : Reads fn (.level 1) u [e]) {r : List Tok} (hr : Fol 0 r) :
    ∃ n, expr fn n 0 (u ++ r) = .ok (e, r) :=
  h e rfl 0 r _ (Or.inl (by omega)) (hr.mono (by omega)) (loop_done fn e hr.1)

theorem reads_pre {fn : Bool} {t : Tok} {u : List Tok} {e : Expr}
    (h : ∀ r, Fol 5 r → ∃ n, pre fn n t (u ++ r) = .ok (e, r)) : Reads fn (.level 5) (t :: u) [e] := by
  intro e' he p r x _ hr hl
  injection he with he
  subst he
  exact expr_of_pre (h r hr) hl

theorem reads_pre' {fn : Bool} {u : List Tok} {e : Expr}
    (h : ∀ r, Fol 5 r → ∃ t ts, u ++ r = t :: ts ∧ ∃ n, pre fn n t ts = .ok (e, r)) : Reads fn (.level 5) u [e] := by
  intro e' he p r x _ hr hl
  injection he with he
  subst he
  obtain ⟨t, ts, h1, h2⟩ := h r hr
  rw [h1]
  exact expr_of_pre h2 hl

theorem complete {fn : Bool} {kd : Kind} {u : List Tok} {l : List Expr} (h : Gr fn kd u l) : Reads fn kd u l := by
  induction h with
  | @bin k t op u v a b ho _ _ iha ihb =>
    intro e' he p r x hp hr hl
    injection he with he
    subst he
    have hrule := infixRule_iff.mpr ho
    have hk := rule_range hrule
    have e : u ++ t :: v ++ r = u ++ (t :: (v ++ r)) := by simp
    rw [e]
    refine iha a rfl p _ x hp ?_ ?_
    · refine ⟨?_, ?_⟩
      · intro t' ht q op' e'
        injection ht with ht
        rw [← ht, hrule] at e'
        injection e' with e'
        injection e' with e1 e2
        omega
      · intro t' ht
        injection ht with ht
        subst ht
        refine ⟨?_, ?_, ?_⟩ <;> (rintro rfl; cases hrule)
    · obtain ⟨m1, h1⟩ := ihb b rfl k r (b, r) (Or.inl (by omega)) (hr.mono (by omega)) (loop_done fn b hr.1)
      obtain ⟨m2, h2⟩ := hl
      refine ⟨max m1 m2 + 1, ?_⟩
      rw [loop, hrule]
      dsimp only
      rw [if_pos (by omega), expr_mono (Nat.le_max_left _ _) h1]
      exact loop_mono (Nat.le_max_right _ _) h2
  | @up k u a h1 h2 _ ih =>
    intro e' he p r x hp hr hl
    exact ih e' he p r x (Or.inl (by omega)) (hr.mono (by omega)) hl
  | @not u a _ ih =>
    refine reads_pre fun r hr => ?_
    obtain ⟨m, h⟩ := ih a rfl 5 r (a, r) (Or.inr ⟨rfl, rfl⟩) hr (loop_done fn a (stop_five r))
    exact ⟨m + 1, by unfold pre; dsimp only; rw [h]; rfl⟩
  | @neg u a _ ih =>
    refine reads_pre fun r hr => ?_
    obtain ⟨m, h⟩ := ih a rfl 5 r (a, r) (Or.inr ⟨rfl, rfl⟩) hr (loop_done fn a (stop_five r))
    exact ⟨m + 1, by unfold pre; dsimp only; rw [h]; rfl⟩
  | float => exact reads_pre fun r _ => ⟨1, by unfold pre; rfl⟩
  | int => exact reads_pre fun r _ => ⟨1, by unfold pre; rfl⟩
  | bool => exact reads_pre fun r _ => ⟨1, by unfold pre; rfl⟩
  | str => exact reads_pre fun r _ => ⟨1, by unfold pre; rfl⟩
  | @paren u a _ ih =>
    refine reads_pre fun r hr => ?_
    obtain ⟨m, h⟩ := reads_one ih (r := .closeP :: r) (fol_cons 0 rfl (by simp))
    refine ⟨m + 1, ?_⟩
    unfold pre
    dsimp only
    rw [show u ++ [Tok.closeP] ++ r = u ++ .closeP :: r by simp, h]
    simp [consume_cons]
  | @list u l _ ih =>
    refine reads_pre fun r hr => ?_
    obtain ⟨m, h⟩ := ih .closeB r none (Or.inl rfl) (fun m e => by cases e)
    refine ⟨m + 1, ?_⟩
    unfold pre
    dsimp only
    rw [show u ++ [Tok.closeB] ++ r = u ++ .closeB :: r by simp, h]
    rfl
  | @ite u v w c a b _ _ _ ih1 ih2 ih3 =>
    refine reads_pre fun r hr => ?_
    obtain ⟨m3, h3⟩ := reads_one ih3 (r := .closeP :: r) (fol_cons 0 rfl (by simp))
    obtain ⟨m2, h2⟩ := reads_one ih2 (r := .comma :: (w ++ .closeP :: r)) (fol_cons 0 rfl (by simp))
    obtain ⟨m1, h1⟩ := reads_one ih1 (r := .comma :: (v ++ .comma :: (w ++ .closeP :: r))) (fol_cons 0 rfl (by simp))
    refine ⟨max m1 (max m2 m3) + 1, ?_⟩
    unfold pre
    dsimp only
    have e1 := expr_mono (Nat.le_max_left m1 (max m2 m3)) h1
    have e2 := expr_mono (Nat.le_trans (Nat.le_max_left m2 m3) (Nat.le_max_right m1 _)) h2
    have e3 := expr_mono (Nat.le_trans (Nat.le_max_right m2 m3) (Nat.le_max_right m1 _)) h3
    simp only [List.cons_append, List.append_assoc, List.nil_append, consume_cons, PR.bind_ok, e1, e2, e3]
  | @switch u v c l _ _ hl ih1 ih2 =>
    refine reads_pre fun r hr => ?_
    obtain ⟨m2, h2⟩ := ih2 r
    have hf : Fol 0 (v ++ .closeP :: r) := by
      rename_i hv
      cases hv with
      | stop => exact fol_cons 0 rfl (by simp)
      | next => exact fol_cons 0 rfl (by simp)
    obtain ⟨m1, h1⟩ := reads_one ih1 hf
    refine ⟨max m1 m2 + 1, ?_⟩
    unfold pre
    dsimp only
    have e1 := expr_mono (Nat.le_max_left m1 m2) h1
    have e2 := more_mono (Nat.le_max_right m1 m2) h2
    simp only [List.cons_append, List.append_assoc, List.nil_append, consume_cons, PR.bind_ok, e1, e2]
    rw [if_neg (by omega)]
  | @unit u l _ h1 h4 ih =>
    refine reads_pre fun r hr => ?_
    obtain ⟨m, h⟩ := ih .closeP r (some 4) (Or.inr rfl) (fun m e => by injection e with e; omega)
    refine ⟨m + 1, ?_⟩
    unfold pre
    dsimp only
    simp only [List.cons_append, List.append_assoc, List.nil_append, consume_cons, PR.bind_ok, h]
    rw [if_neg (by omega)]
  | @ref u s t h =>
    refine reads_pre' fun r hr => ?_
    rcases valref_ref h hr with ⟨ts, e, hv⟩ | ⟨ts, e, hv⟩
    · exact ⟨_, _, e, 1, by unfold pre; dsimp only; rw [hv]; rfl⟩
    · exact ⟨_, _, e, 1, by unfold pre; dsimp only; rw [hv]; rfl⟩
  | @arg u s t n h =>
    refine reads_pre fun r hr => ⟨1, ?_⟩
    unfold pre
    dsimp only
    simp only [argref, List.cons_append, getInt, PR.bind_ok, consume_cons]
    rcases valref_ref h hr with ⟨ts, e, hv⟩ | ⟨ts, e, hv⟩
    · rw [e]; dsimp only; rw [hv, wrap_eq]; rfl
    · rw [e]; dsimp only; rw [hv, wrap_eq]; rfl
  | func h => exact reads_pre fun r _ => ⟨1, by unfold pre; dsimp only; rw [if_pos h]; rfl⟩
  | none =>
    intro c r lim hc hl
    exact ⟨1, by rw [items]; simp⟩
  | @last u a hg ih =>
    intro c r lim hc hl
    obtain ⟨t, u', hu, ht⟩ := first_tok hg _ rfl
    have hf : Fol 0 (c :: r) := by
      rcases hc with rfl | rfl
      · exact fol_cons 0 rfl (by simp)
      · exact fol_cons 0 rfl (by simp)
    obtain ⟨m, h⟩ := reads_one ih hf
    refine ⟨m + 1, ?_⟩
    rw [items, if_neg, if_neg, h]
    · simp
    · intro e; have := hl 0 e; simp at this
    · rw [hu]
      intro e
      injection e with e
      rcases hc with rfl | rfl
      · exact ht.2 e
      · exact ht.1 e
  | @comma u v a l hg _ ih1 ih2 =>
    intro c r lim hc hl
    obtain ⟨t, u', hu, ht⟩ := first_tok hg _ rfl
    have hl0 : lim ≠ some 0 := by intro e; have := hl 0 e; simp at this
    obtain ⟨m1, h1⟩ := reads_one ih1 (r := .comma :: (v ++ c :: r)) (fol_cons 0 rfl (by simp))
    obtain ⟨m2, h2⟩ := ih2 c r (lim.map (· - 1)) hc (by
      intro m e
      cases lim with
      | none => cases e
      | some j =>
        have := hl j rfl
        simp at e this
        omega)
    refine ⟨max m1 m2 + 1, ?_⟩
    have e1 := expr_mono (Nat.le_max_left m1 m2) h1
    have e2 := items_mono (Nat.le_max_right m1 m2) h2
    rw [items, if_neg, if_neg hl0]
    · rw [show u ++ .comma :: v ++ c :: r = u ++ .comma :: (v ++ c :: r) by simp, e1]
      have hne : (some Tok.comma : Option Tok) ≠ some c := by rcases hc with rfl | rfl <;> simp
      simp only [PR.bind_ok, List.head?_cons, if_neg hne, consume_cons, e2]
    · rw [hu]
      intro e
      injection e with e
      rcases hc with rfl | rfl
      · exact ht.2 e
      · exact ht.1 e
  | stop =>
    intro r
    exact ⟨1, by rw [more]; simp⟩
  | @next u v a l _ hv ih1 ih2 =>
    intro r
    have hf : Fol 0 (v ++ .closeP :: r) := by
      cases hv with
      | stop => exact fol_cons 0 rfl (by simp)
      | next => exact fol_cons 0 rfl (by simp)
    obtain ⟨m1, h1⟩ := reads_one ih1 hf
    obtain ⟨m2, h2⟩ := ih2 r
    refine ⟨max m1 m2 + 1, ?_⟩
    have e1 := expr_mono (Nat.le_max_left m1 m2) h1
    have e2 := more_mono (Nat.le_max_right m1 m2) h2
    rw [more, if_neg (by simp)]
    simp only [List.cons_append, List.append_assoc, consume_cons, PR.bind_ok, e1, e2]

/-! ## The parser ends -/

theorem PR.bind_ne_hang {α β : Type} {x : PR α} {f : α → PR β} (h : x ≠ .hang) (hf : ∀ a, x = .ok a → f a ≠ .hang) :
    x.bind f ≠ .hang := by
  cases x with
  | ok a => exact hf a rfl
  | err => intro e; cases e
  | hang => exact absurd rfl h

theorem consume_ne (t : Tok) (ts : List Tok) : consume t ts ≠ .hang := by
  unfold consume; split
  · split <;> simp
  · simp

theorem getInt_ne (ts : List Tok) : getInt ts ≠ .hang := by unfold getInt; split <;> simp

theorem valref_ne (ts : List Tok) : valref ts ≠ .hang := by
  unfold valref
  split
  · exact PR.bind_ne_hang (getInt_ne _) fun a _ => PR.bind_ne_hang (consume_ne _ _) fun b _ => by simp
  · simp
  · simp

theorem parens_ne (ts : List Tok) : parens ts ≠ .hang := by
  unfold parens
  split
  · exact consume_ne _ _
  · simp

theorem propref_ne (ts : List Tok) : propref ts ≠ .hang := by
  unfold propref
  split
  · split
    · exact PR.bind_ne_hang (parens_ne _) fun a _ => by simp
    · simp
  · simp
  · exact PR.bind_ne_hang (parens_ne _) fun a _ => by simp
  · simp

theorem argref_ne (ts : List Tok) : argref ts ≠ .hang := by
  unfold argref
  refine PR.bind_ne_hang (getInt_ne _) fun a _ => PR.bind_ne_hang (consume_ne _ _) fun b _ =>
    PR.bind_ne_hang (consume_ne _ _) fun c _ => ?_
  split
  · exact PR.bind_ne_hang (propref_ne _) fun a _ => by simp
  · exact PR.bind_ne_hang (valref_ne _) fun a _ => by simp
  · simp

theorem len_expr {fn : Bool} {n p : Nat} {ts r : List Tok} {e : Expr} (hp : p ≤ 5) (h : expr fn n p ts = .ok (e, r)) :
    r.length < ts.length := by
  obtain ⟨u, rfl, hg, _⟩ := (sound fn n).1 p ts e r hp h
  obtain ⟨t, u', rfl, _⟩ := first_tok hg _ rfl
  simp
  omega

theorem len_consume {t : Tok} {ts r : List Tok} (h : consume t ts = .ok r) : r.length < ts.length := by
  rw [consume_ok h]; simp

theorem ends (fn : Bool) (n : Nat) :
    (∀ p ts, p ≤ 5 → 3 * ts.length + 3 ≤ n → expr fn n p ts ≠ .hang) ∧
    (∀ t ts, 3 * ts.length + 5 ≤ n → pre fn n t ts ≠ .hang) ∧
    (∀ p l ts, p ≤ 5 → 3 * ts.length + 1 ≤ n → loop fn n p l ts ≠ .hang) ∧
    (∀ c lim ts, 3 * ts.length + 4 ≤ n → items fn n c lim ts ≠ .hang) ∧
    (∀ ts, 3 * ts.length + 3 ≤ n → more fn n ts ≠ .hang) := by
  induction n with
  | zero =>
    refine ⟨?_, ?_, ?_, ?_, ?_⟩ <;> intros <;> omega
  | succ n ih =>
    obtain ⟨hexpr, hpre, hloop, hitems, hmore⟩ := ih
    refine ⟨?_, ?_, ?_, ?_, ?_⟩
    · intro p ts hp hn
      cases ts with
      | nil => rw [expr]; simp
      | cons t ts =>
        rw [List.length_cons] at hn
        rw [expr]
        refine PR.bind_ne_hang (hpre t ts (by omega)) ?_
        rintro ⟨e, r⟩ h
        obtain ⟨u, hu, hg⟩ := (sound fn n).2.1 t ts e r h
        obtain ⟨t', u', rfl, _⟩ := first_tok hg _ rfl
        have hlen := congrArg List.length hu
        simp at hlen
        exact hloop p e r hp (by omega)
    · intro t ts hn
      unfold pre
      split
      · simp
      · simp
      · simp
      · simp
      · exact PR.bind_ne_hang (hexpr _ _ (by omega) (by omega)) fun a _ => by simp
      · exact PR.bind_ne_hang (hexpr _ _ (by omega) (by omega)) fun a _ => by simp
      · refine PR.bind_ne_hang (hexpr _ _ (by omega) (by omega)) fun a _ => ?_
        exact PR.bind_ne_hang (consume_ne _ _) fun b _ => by simp
      · exact PR.bind_ne_hang (hitems _ _ _ (by omega)) fun a _ => by simp
      · refine PR.bind_ne_hang (consume_ne _ _) fun r1 h1 => ?_
        have l1 := len_consume h1
        refine PR.bind_ne_hang (hexpr _ _ (by omega) (by omega)) fun a h2 => ?_
        have l2 := len_expr (by omega) h2
        refine PR.bind_ne_hang (consume_ne _ _) fun r3 h3 => ?_
        have l3 := len_consume h3
        refine PR.bind_ne_hang (hexpr _ _ (by omega) (by omega)) fun b h4 => ?_
        have l4 := len_expr (by omega) h4
        refine PR.bind_ne_hang (consume_ne _ _) fun r5 h5 => ?_
        have l5 := len_consume h5
        refine PR.bind_ne_hang (hexpr _ _ (by omega) (by omega)) fun c h6 => ?_
        exact PR.bind_ne_hang (consume_ne _ _) fun r5 h5 => by simp
      · refine PR.bind_ne_hang (consume_ne _ _) fun r1 h1 => ?_
        have l1 := len_consume h1
        refine PR.bind_ne_hang (hexpr _ _ (by omega) (by omega)) fun a h2 => ?_
        have l2 := len_expr (by omega) h2
        refine PR.bind_ne_hang (hmore _ (by omega)) fun b _ => ?_
        split <;> simp
      · refine PR.bind_ne_hang (consume_ne _ _) fun r1 h1 => ?_
        have l1 := len_consume h1
        refine PR.bind_ne_hang (hitems _ _ _ (by omega)) fun b _ => ?_
        split <;> simp
      · exact PR.bind_ne_hang (valref_ne _) fun a _ => by simp
      · exact PR.bind_ne_hang (propref_ne _) fun a _ => by simp
      · exact argref_ne _
      · split <;> simp
      · simp
    · intro p l ts hp hn
      cases ts with
      | nil => rw [loop]; simp
      | cons t ts =>
        rw [List.length_cons] at hn
        rw [loop]
        cases hr : infixRule t with
        | none => simp
        | some x =>
          obtain ⟨q, op⟩ := x
          have := rule_range hr
          dsimp only
          split
          · refine PR.bind_ne_hang (hexpr _ _ (by omega) (by omega)) fun a h2 => ?_
            have l2 := len_expr (by omega) h2
            exact hloop _ _ _ hp (by omega)
          · simp
    · intro c lim ts hn
      rw [items]
      split
      · simp
      split
      · simp
      refine PR.bind_ne_hang (hexpr _ _ (by omega) (by omega)) fun a h2 => ?_
      have l2 := len_expr (by omega) h2
      split
      · simp
      refine PR.bind_ne_hang (consume_ne _ _) fun r1 h1 => ?_
      have l1 := len_consume h1
      exact PR.bind_ne_hang (hitems _ _ _ (by omega)) fun b _ => by simp
    · intro ts hn
      rw [more]
      split
      · simp
      refine PR.bind_ne_hang (consume_ne _ _) fun r1 h1 => ?_
      have l1 := len_consume h1
      refine PR.bind_ne_hang (hexpr _ _ (by omega) (by omega)) fun a h2 => ?_
      have l2 := len_expr (by omega) h2
      exact PR.bind_ne_hang (hmore _ (by omega)) fun b _ => by simp

end Verif.Expr
