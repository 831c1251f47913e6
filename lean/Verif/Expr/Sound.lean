import Verif.Expr.Mono

/-! # What the parser reads is an expression of the grammar -/

namespace Verif.Expr

open Spec

/-- The next token is no operator of a level above `p`. -/
def Stop (p : Nat) (r : List Tok) : Prop := ∀ t, r.head? = some t → ∀ q op, infixRule t = some (q, op) → q ≤ p

theorem infixRule_iff {t : Tok} {q : Nat} {op : BinOp} : infixRule t = some (q, op) ↔ (q, t, op) ∈ operators := by
  cases t <;> simp [infixRule, operators] <;> (constructor <;> rintro ⟨rfl, rfl⟩ <;> exact ⟨rfl, rfl⟩)

theorem rule_range {t : Tok} {q : Nat} {op : BinOp} (h : infixRule t = some (q, op)) : 1 ≤ q ∧ q ≤ 4 := by
  cases t <;> simp [infixRule] at h <;> omega

theorem stop_five (r : List Tok) : Stop 5 r := by
  intro t _ q op h
  have := rule_range h
  omega

theorem consume_ok {t : Tok} {ts r : List Tok} (h : consume t ts = .ok r) : ts = t :: r := by
  cases ts with
  | nil => simp [consume] at h
  | cons t' ts =>
    simp only [consume] at h
    split at h
    · rename_i e
      injection h with h
      rw [e, h]
    · cases h

theorem getInt_ok {ts r : List Tok} {n : Nat} (h : getInt ts = .ok (n, r)) : ts = .int n :: r := by
  unfold getInt at h
  split at h
  · injection h with h; injection h with h1 h2; rw [h1, h2]
  · cases h

theorem isUpper_iff (c : Char) : isUpper c = true ↔ 65 ≤ c.toNat ∧ c.toNat ≤ 90 := by
  simp [isUpper]

theorem toNat_inj {c d : Char} (h : c.toNat = d.toNat) : c = d := Char.ext (UInt32.toNat.inj h)

theorem lower_eq (c : Char) : lower c = c.toLower := by
  unfold lower Char.toLower
  by_cases h : isUpper c = true
  · have h' := (isUpper_iff c).mp h
    have h2 : c.val ≥ 'A'.val ∧ c.val ≤ 'Z'.val := ⟨h'.1, h'.2⟩
    rw [if_pos h, dif_pos h2]
    apply toNat_inj
    have hv : (c.toNat + 32).isValidChar := by left; have := h'.2; omega
    unfold Char.ofNat
    rw [dif_pos hv]
    show _ = (c.val + ('a'.val - 'A'.val)).toNat
    rw [UInt32.toNat_add]
    have : c.val.toNat ≤ 90 := h'.2
    change c.val.toNat + 32 = (c.val.toNat + 32) % 2 ^ 32
    omega
  · rw [if_neg h, dif_neg]
    rintro ⟨h1, h2⟩
    exact h ((isUpper_iff c).mpr ⟨h1, h2⟩)

theorem canonical_eq (s : Str) : canonical s = s.map Char.toLower := by
  unfold canonical
  exact List.map_congr_left fun c _ => lower_eq c

theorem decimal_eq (n : Nat) : decimal n = (toString n).toList := by
  show _ = (Nat.repr n).toList
  simp [decimal, Nat.repr]

theorem wrap_eq (n : Nat) : toInt32 n = wrap32 n := by
  unfold toInt32 wrap32
  split <;> omega

theorem propItem_iff {i : Str} {t : RefType} : propItem i = some t ↔ (i.map Char.toLower, t) ∈ refItems := by
  unfold propItem refItems
  rw [canonical_eq]
  generalize i.map Char.toLower = j
  constructor
  · intro h
    split at h
    · injection h with h; subst h; rename_i e; rw [e]; simp
    split at h
    · injection h with h; subst h; rename_i e; rw [e]; simp
    split at h
    · injection h with h; subst h; rename_i e; rw [e]; simp
    · cases h
  · intro h
    simp only [List.mem_cons, Prod.mk.injEq, List.not_mem_nil, or_false] at h
    rcases h with ⟨rfl, rfl⟩ | ⟨rfl, rfl⟩ | ⟨rfl, rfl⟩ <;> rfl

theorem valref_ok {ts r : List Tok} {s : Str} {t : RefType} (h : valref ts = .ok ((s, t), r)) :
    ∃ u, .dollar :: ts = u ++ r ∧ RefAt u s t := by
  unfold valref at h
  split at h
  · rename_i s' r'
    simp only [PR.bind_eq_ok, Prod.exists] at h
    obtain ⟨n, r1, h1, r2, h2, h3⟩ := h
    injection h3 with h3
    simp only [Prod.mk.injEq] at h3
    obtain ⟨⟨rfl, rfl⟩, rfl⟩ := h3
    refine ⟨[.dollar, .ident s', .openB, .int n, .closeB], ?_, ?_⟩
    · rw [getInt_ok h1, consume_ok h2]; rfl
    · have := RefAt.index s' n
      rw [decimal_eq]
      simpa using this
  · injection h with h
    simp only [Prod.mk.injEq] at h
    obtain ⟨⟨rfl, rfl⟩, rfl⟩ := h
    exact ⟨[.dollar, .ident _], rfl, .value _⟩
  · cases h

theorem parens_ok {ts r : List Tok} (h : parens ts = .ok r) : ∃ par, (par = [] ∨ par = [.openP, .closeP]) ∧ ts = par ++ r := by
  unfold parens at h
  split at h
  · exact ⟨_, Or.inr rfl, by rw [consume_ok h]; rfl⟩
  · injection h with h
    exact ⟨_, Or.inl rfl, by rw [h]; rfl⟩

theorem propref_ok {ts r : List Tok} {s : Str} {t : RefType} (h : propref ts = .ok ((s, t), r)) :
    ∃ u, .percent :: ts = u ++ r ∧ RefAt u s t := by
  unfold propref at h
  split at h
  · rename_i s' i r'
    split at h
    · rename_i t' ht
      simp only [PR.bind_eq_ok] at h
      obtain ⟨r2, h1, h3⟩ := h
      injection h3 with h3
      simp only [Prod.mk.injEq] at h3
      obtain ⟨⟨rfl, rfl⟩, rfl⟩ := h3
      obtain ⟨par, hp, rfl⟩ := parens_ok h1
      refine ⟨.percent :: .ident s' :: .colon :: .ident i :: par, rfl, ?_⟩
      have := RefAt.item s' i hp (propItem_iff.mp ht)
      rw [canonical_eq]
      simpa using this
    · cases h
  · cases h
  · simp only [PR.bind_eq_ok] at h
    obtain ⟨r2, h1, h3⟩ := h
    injection h3 with h3
    simp only [Prod.mk.injEq] at h3
    obtain ⟨⟨rfl, rfl⟩, rfl⟩ := h3
    obtain ⟨par, hp, rfl⟩ := parens_ok h1
    exact ⟨.percent :: .ident _ :: par, rfl, .prop _ hp⟩
  · cases h

theorem argref_ok {fn : Bool} {ts r : List Tok} {e : Expr} (h : argref ts = .ok (e, r)) :
    ∃ u, .openC :: ts = u ++ r ∧ Gr fn (.level 5) u [e] := by
  simp only [argref, PR.bind_eq_ok, Prod.exists] at h
  obtain ⟨n, r1, h1, r2, h2, r3, h3, h4⟩ := h
  have e1 := getInt_ok h1
  have e2 := consume_ok h2
  have e3 := consume_ok h3
  subst e1
  subst e2 e3
  split at h4
  · simp only [PR.bind_eq_ok] at h4
    obtain ⟨⟨⟨s, t⟩, r4⟩, h4, h5⟩ := h4
    injection h5 with h5
    simp only [Prod.mk.injEq] at h5
    obtain ⟨rfl, rfl⟩ := h5
    obtain ⟨u, hu, hr⟩ := propref_ok h4
    rw [hu]
    rw [wrap_eq]
    exact ⟨_, rfl, .arg n hr⟩
  · simp only [PR.bind_eq_ok] at h4
    obtain ⟨⟨⟨s, t⟩, r4⟩, h4, h5⟩ := h4
    injection h5 with h5
    simp only [Prod.mk.injEq] at h5
    obtain ⟨rfl, rfl⟩ := h5
    obtain ⟨u, hu, hr⟩ := valref_ok h4
    rw [hu]
    rw [wrap_eq]
    exact ⟨_, rfl, .arg n hr⟩
  · cases h4

/-- Levels can be lowered. -/
theorem gr_lower {fn : Bool} {j k : Nat} {u : List Tok} {a : Expr} (hj : 1 ≤ j) (hjk : j ≤ k) (hk : k ≤ 5)
    (h : Gr fn (.level k) u [a]) : Gr fn (.level j) u [a] := by
  induction hjk with
  | refl => exact h
  | step hm ih =>
    have hm' : j ≤ _ := hm
    exact ih (by omega) (.up (by omega) (by omega) h)

/-- The level `expression` reads at. -/
def lev (p : Nat) : Nat := if p < 5 then p + 1 else 5

theorem sound (fn : Bool) (n : Nat) :
    (∀ p ts e r, p ≤ 5 → expr fn n p ts = .ok (e, r) → ∃ u, ts = u ++ r ∧ Gr fn (.level (lev p)) u [e] ∧ Stop p r) ∧
    (∀ t ts e r, pre fn n t ts = .ok (e, r) → ∃ u, t :: ts = u ++ r ∧ Gr fn (.level 5) u [e]) ∧
    (∀ p q v l ts e r, p ≤ 5 → p ≤ q → 1 ≤ q → (q = p → p = 5) → q ≤ 5 → Gr fn (.level q) v [l] → Stop q ts →
      loop fn n p l ts = .ok (e, r) → ∃ u, ts = u ++ r ∧ Gr fn (.level (lev p)) (v ++ u) [e] ∧ Stop p r) ∧
    (∀ c lim ts l r, items fn n c lim ts = .ok (l, r) →
      ∃ u, ts = u ++ c :: r ∧ Gr fn .items u l ∧ ∀ m, lim = some m → l.length ≤ m) ∧
    (∀ ts l r, more fn n ts = .ok (l, r) → ∃ u, ts = u ++ .closeP :: r ∧ Gr fn .more u l) := by
  induction n with
  | zero =>
    refine ⟨?_, ?_, ?_, ?_, ?_⟩
    · intro p ts e r _ h; rw [expr] at h; cases h
    · intro t ts e r h; rw [pre] at h; cases h
    · intro p q v l ts e r _ _ _ _ _ _ _ h; rw [loop] at h; cases h
    · intro c lim ts l r h; rw [items] at h; cases h
    · intro ts l r h; rw [more] at h; cases h
  | succ n ih =>
    obtain ⟨hexpr, hpre, hloop, hitems, hmore⟩ := ih
    have h0 : ∀ ts e r, expr fn n 0 ts = .ok (e, r) → ∃ u, ts = u ++ r ∧ Gr fn (.level 1) u [e] := by
      intro ts e r h
      obtain ⟨u, h1, h2, _⟩ := hexpr 0 ts e r (by omega) h
      exact ⟨u, h1, h2⟩
    have h5 : ∀ ts e r, expr fn n 5 ts = .ok (e, r) → ∃ u, ts = u ++ r ∧ Gr fn (.level 5) u [e] := by
      intro ts e r h
      obtain ⟨u, h1, h2, _⟩ := hexpr 5 ts e r (by omega) h
      exact ⟨u, h1, h2⟩
    refine ⟨?_, ?_, ?_, ?_, ?_⟩
    · intro p ts e r hp h
      cases ts with
      | nil => rw [expr] at h; cases h
      | cons t ts =>
        rw [expr] at h
        simp only [PR.bind_eq_ok, Prod.exists] at h
        obtain ⟨l, r1, h1, h2⟩ := h
        obtain ⟨u, hu, hg⟩ := hpre t ts l r1 h1
        obtain ⟨v, hv, hg', hs⟩ := hloop p 5 u l r1 e r hp hp (by omega) (fun e => e.symm) (by omega) hg (stop_five _) h2
        exact ⟨u ++ v, by rw [hu, hv, List.append_assoc], hg', hs⟩
    · intro t ts e r h
      unfold pre at h
      split at h
      all_goals try (injection h with h; simp only [Prod.mk.injEq] at h; obtain ⟨rfl, rfl⟩ := h)
      · exact ⟨[_], rfl, .float _⟩
      · exact ⟨[_], rfl, .int _⟩
      · exact ⟨[_], rfl, .bool _⟩
      · exact ⟨[_], rfl, .str _⟩
      · simp only [PR.bind_eq_ok, Prod.exists] at h
        obtain ⟨a, r1, h1, h2⟩ := h
        injection h2 with h2; simp only [Prod.mk.injEq] at h2; obtain ⟨rfl, rfl⟩ := h2
        obtain ⟨u, rfl, hg⟩ := h5 _ _ _ h1
        exact ⟨_ :: u, rfl, .not hg⟩
      · simp only [PR.bind_eq_ok, Prod.exists] at h
        obtain ⟨a, r1, h1, h2⟩ := h
        injection h2 with h2; simp only [Prod.mk.injEq] at h2; obtain ⟨rfl, rfl⟩ := h2
        obtain ⟨u, rfl, hg⟩ := h5 _ _ _ h1
        exact ⟨_ :: u, rfl, .neg hg⟩
      · simp only [PR.bind_eq_ok, Prod.exists] at h
        obtain ⟨a, r1, h1, r2, h2, h3⟩ := h
        injection h3 with h3; simp only [Prod.mk.injEq] at h3; obtain ⟨rfl, rfl⟩ := h3
        obtain ⟨u, rfl, hg⟩ := h0 _ _ _ h1
        have := consume_ok h2
        subst this
        exact ⟨_ :: (u ++ [.closeP]), by simp, .paren hg⟩
      · simp only [PR.bind_eq_ok, Prod.exists] at h
        obtain ⟨a, r1, h1, h2⟩ := h
        injection h2 with h2; simp only [Prod.mk.injEq] at h2; obtain ⟨rfl, rfl⟩ := h2
        obtain ⟨u, rfl, hg, _⟩ := hitems _ _ _ _ _ h1
        exact ⟨_ :: (u ++ [.closeB]), by simp, .list hg⟩
      · simp only [PR.bind_eq_ok, Prod.exists] at h
        obtain ⟨r1, h1, c, r2, h2, r3, h3, a, r4, h4, r5, h5', b, r6, h6, r7, h7, h8⟩ := h
        injection h8 with h8; simp only [Prod.mk.injEq] at h8; obtain ⟨rfl, rfl⟩ := h8
        obtain ⟨u, rfl, hu⟩ := h0 _ _ _ h2
        obtain ⟨v, rfl, hv⟩ := h0 _ _ _ h4
        obtain ⟨w, rfl, hw⟩ := h0 _ _ _ h6
        have e1 := consume_ok h1
        have e2 := consume_ok h3
        have e3 := consume_ok h5'
        have e4 := consume_ok h7
        subst e1 e2 e3 e4
        exact ⟨_, by simp, .ite hu hv hw⟩
      · simp only [PR.bind_eq_ok, Prod.exists] at h
        obtain ⟨r1, h1, c, r2, h2, l, r3, h3, h4⟩ := h
        split at h4
        · cases h4
        rename_i hl
        injection h4 with h4; simp only [Prod.mk.injEq] at h4; obtain ⟨rfl, rfl⟩ := h4
        obtain ⟨u, rfl, hu⟩ := h0 _ _ _ h2
        obtain ⟨v, hv', hv⟩ := hmore _ _ _ h3
        have e1 := consume_ok h1
        subst e1 hv'
        exact ⟨_, by simp, .switch hu hv (by simpa using hl)⟩
      · simp only [PR.bind_eq_ok, Prod.exists] at h
        obtain ⟨r1, h1, l, r3, h3, h4⟩ := h
        split at h4
        · cases h4
        rename_i hl
        injection h4 with h4; simp only [Prod.mk.injEq] at h4; obtain ⟨rfl, rfl⟩ := h4
        obtain ⟨u, rfl, hu, hm⟩ := hitems _ _ _ _ _ h3
        have e1 := consume_ok h1
        subst e1
        exact ⟨_, by simp, .unit hu (by omega) (hm 4 rfl)⟩
      · simp only [PR.bind_eq_ok, Prod.exists] at h
        obtain ⟨s, t, r1, h1, h2⟩ := h
        injection h2 with h2; simp only [Prod.mk.injEq] at h2; obtain ⟨rfl, rfl⟩ := h2
        obtain ⟨u, hu, hr⟩ := valref_ok h1
        exact ⟨u, hu, .ref hr⟩
      · simp only [PR.bind_eq_ok, Prod.exists] at h
        obtain ⟨s, t, r1, h1, h2⟩ := h
        injection h2 with h2; simp only [Prod.mk.injEq] at h2; obtain ⟨rfl, rfl⟩ := h2
        obtain ⟨u, hu, hr⟩ := propref_ok h1
        exact ⟨u, hu, .ref hr⟩
      · exact argref_ok h
      · split at h
        · rename_i hf
          injection h with h; simp only [Prod.mk.injEq] at h; obtain ⟨rfl, rfl⟩ := h
          exact ⟨[_], rfl, .func hf⟩
        · cases h
      · cases h
    · intro p q v l ts e r hp hpq hq hne hq5 hg hs h
      have hdone : Gr fn (.level (lev p)) v [l] := by
        refine gr_lower ?_ ?_ hq5 hg <;> unfold lev <;> split <;> omega
      cases ts with
      | nil =>
        rw [loop] at h
        injection h with h; simp only [Prod.mk.injEq] at h; obtain ⟨rfl, rfl⟩ := h
        exact ⟨[], rfl, by rw [List.append_nil]; exact hdone, by intro t ht; cases ht⟩
      | cons t ts =>
        rw [loop] at h
        cases hr : infixRule t with
        | none =>
          rw [hr] at h
          injection h with h; simp only [Prod.mk.injEq] at h; obtain ⟨rfl, rfl⟩ := h
          refine ⟨[], rfl, by rw [List.append_nil]; exact hdone, ?_⟩
          intro t' ht q' op' e'
          injection ht with ht
          rw [← ht, hr] at e'
          cases e'
        | some x =>
          obtain ⟨k, op⟩ := x
          rw [hr] at h
          dsimp only at h
          have hk := rule_range hr
          have hkq : k ≤ q := hs t rfl k op hr
          by_cases hpk : p < k
          · rw [if_pos hpk] at h
            simp only [PR.bind_eq_ok, Prod.exists] at h
            obtain ⟨b, r1, h1, h2⟩ := h
            obtain ⟨w, rfl, hw, hsw⟩ := hexpr k _ _ _ (by omega) h1
            have hlev : lev k = k + 1 := by unfold lev; rw [if_pos (by omega)]
            rw [hlev] at hw
            have hl := gr_lower (j := k) hk.1 hkq hq5 hg
            obtain ⟨u, hu, hgu, hsu⟩ := hloop p k _ _ _ _ _ hp (by omega) hk.1 (by omega) (by omega)
              (.bin (infixRule_iff.mp hr) hl hw) hsw h2
            subst hu
            refine ⟨t :: (w ++ u), by simp, ?_, hsu⟩
            have e : v ++ t :: (w ++ u) = v ++ t :: w ++ u := by simp
            rw [e]
            exact hgu
          · rw [if_neg hpk] at h
            injection h with h; simp only [Prod.mk.injEq] at h; obtain ⟨rfl, rfl⟩ := h
            refine ⟨[], rfl, by rw [List.append_nil]; exact hdone, ?_⟩
            intro t' ht q' op' e'
            injection ht with ht
            rw [← ht, hr] at e'
            injection e' with e'
            injection e' with e1 e2
            omega
    · intro c lim ts l r h
      rw [items] at h
      split at h
      · rename_i hc
        injection h with h; simp only [Prod.mk.injEq] at h; obtain ⟨rfl, rfl⟩ := h
        cases ts with
        | nil => cases hc
        | cons t ts =>
          injection hc with hc
          exact ⟨[], by rw [hc]; rfl, .none, fun m _ => Nat.zero_le _⟩
      · split at h
        · cases h
        rename_i hlim
        simp only [PR.bind_eq_ok, Prod.exists] at h
        obtain ⟨a, r1, h1, h2⟩ := h
        obtain ⟨u, rfl, hu⟩ := h0 _ _ _ h1
        split at h2
        · rename_i hc
          injection h2 with h2; simp only [Prod.mk.injEq] at h2; obtain ⟨rfl, rfl⟩ := h2
          cases r1 with
          | nil => cases hc
          | cons t r1 =>
            injection hc with hc
            refine ⟨u, by rw [hc]; rfl, .last hu, ?_⟩
            intro m hm
            cases m with
            | zero => exact absurd hm hlim
            | succ m => simp
        · simp only [PR.bind_eq_ok, Prod.exists] at h2
          obtain ⟨r2, h2, l', r3, h3, h4⟩ := h2
          injection h4 with h4; simp only [Prod.mk.injEq] at h4; obtain ⟨rfl, rfl⟩ := h4
          obtain ⟨v, rfl, hv, hm⟩ := hitems _ _ _ _ _ h3
          have e1 := consume_ok h2
          subst e1
          refine ⟨_, by simp, .comma hu hv, ?_⟩
          intro m hm'
          subst hm'
          cases m with
          | zero => exact absurd rfl hlim
          | succ m =>
            have := hm m rfl
            simpa using this
    · intro ts l r h
      rw [more] at h
      split at h
      · rename_i hc
        injection h with h; simp only [Prod.mk.injEq] at h; obtain ⟨rfl, rfl⟩ := h
        cases ts with
        | nil => cases hc
        | cons t ts =>
          injection hc with hc
          exact ⟨[], by rw [hc]; rfl, .stop⟩
      · simp only [PR.bind_eq_ok, Prod.exists] at h
        obtain ⟨r1, h1, a, r2, h2, l', r3, h3, h4⟩ := h
        injection h4 with h4; simp only [Prod.mk.injEq] at h4; obtain ⟨rfl, rfl⟩ := h4
        obtain ⟨u, rfl, hu⟩ := h0 _ _ _ h2
        obtain ⟨v, hv', hv⟩ := hmore _ _ _ h3
        have e1 := consume_ok h1
        subst e1 hv'
        exact ⟨_, by simp, .next hu hv⟩

end Verif.Expr
