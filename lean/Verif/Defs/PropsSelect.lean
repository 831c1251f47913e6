import Verif.Defs.PropsWrite

/-!
# C276 and C277: selecting by value
-/

namespace Verif.Defs
open Spec

/-- Names and a number. -/
def demoMixed : Def :=
  { name := some "a"
    valueType := .int
    dflt := some (.atom (.int 0))
    selection := some (.plain (.list .undefined [.other .string 1, .int 4])) }

/-! ## C276 -/

/-- An item of another type than the first can be selected, but then the selection cannot be read. -/
theorem C276_violation_types : ∃ p, build demoMixed = .ok p ∧ (select noConv noEval p (.atom (.int 4))).2 = .ok (.atom (.int 1)) ∧
    selected (some noEval) p (some (.atom (.int 1))) = .err .invalidType :=
  ⟨_, rfl, by decide +kernel, by decide +kernel⟩

/-- With limits another item than the one asked for is selected. -/
theorem C276_violation_limits : ∃ p, build { demoIndex with max := some (.int 0) } = .ok p ∧
    (select noConv noEval p (.atom (.other .string 2))).2 = .ok (.atom (.int 0)) ∧
    selected (some noEval) p (some (.atom (.int 0))) = .ok (.atom (.other .string 1)) :=
  ⟨_, rfl, by decide +kernel, by decide +kernel⟩

theorem known_plain {own own' : Owner} {d : Def} (hs : PlainSel d) :
    known own ⟨d, known own' ⟨d, infer none d⟩⟩ = infer none d ∧ known own ⟨d, infer none d⟩ = infer none d := by
  have hi : ∀ own, infer own d = infer none d := by
    intro own
    unfold infer
    cases h : d.selection with
    | none => rfl
    | some s =>
      cases s with
      | plain v => rfl
      | eval e => exact absurd h (hs e)
  have hk : ∀ own, known own ⟨d, infer none d⟩ = infer none d := by
    intro own
    unfold known
    dsimp only
    split
    · exact hi own
    · rfl
  refine ⟨?_, hk own⟩
  rw [hk own']
  exact hk own

theorem indexOf_some {items : List Atom} {a : Atom} (h : a ∈ items) :
    ∃ i, indexOf items (.atom a) = some i ∧ items[i]? = some a := by
  induction items with
  | nil => cases h
  | cons b l ih =>
    unfold indexOf
    by_cases hb : (Val.atom a) = .atom b
    · rw [if_pos hb]
      cases hb
      exact ⟨0, rfl, rfl⟩
    · rw [if_neg hb]
      rcases List.mem_cons.mp h with h | h
      · exact absurd (by rw [h]) hb
      · obtain ⟨i, h1, h2⟩ := ih h
        exact ⟨i + 1, by rw [h1]; rfl, by simpa using h2⟩

theorem indexOf_none {items : List Atom} {v : Val} (h : ∀ a ∈ items, v ≠ .atom a) : indexOf items v = none := by
  induction items with
  | nil => rfl
  | cons b l ih =>
    unfold indexOf
    rw [if_neg (h b List.mem_cons_self), ih fun a ha => h a (List.mem_cons_of_mem _ ha)]
    rfl

theorem keyOf_some {es : List (Atom × Atom)} {a : Atom} (h : a ∈ es.map (·.2)) (hn : (es.map (·.1)).Nodup) :
    ∃ k, keyOf es (.atom a) = some k ∧ k ∈ es.map (·.1) ∧ es.find? (fun e => e.1 == k) = some (k, a) := by
  induction es with
  | nil => cases h
  | cons e l ih =>
    obtain ⟨k, b⟩ := e
    unfold keyOf
    by_cases hb : (Val.atom a) = .atom b
    · rw [if_pos hb]
      cases hb
      exact ⟨k, rfl, by simp, by simp⟩
    · rw [if_neg hb]
      rw [List.map_cons] at h hn
      obtain ⟨hk, hn⟩ := List.nodup_cons.mp hn
      rcases List.mem_cons.mp h with h | h
      · exact absurd (by rw [h]) hb
      · obtain ⟨k', h1, h2, h3⟩ := ih h hn
        refine ⟨k', h1, List.mem_cons_of_mem _ h2, ?_⟩
        rw [List.find?_cons_of_neg, h3]
        simp only [beq_iff_eq]
        intro e
        exact hk (e ▸ h2)

theorem keyOf_none {es : List (Atom × Atom)} {v : Val} (h : ∀ a ∈ es.map (·.2), v ≠ .atom a) : keyOf es v = none := by
  induction es with
  | nil => rfl
  | cons e l ih =>
    obtain ⟨k, b⟩ := e
    unfold keyOf
    rw [if_neg (h b (by simp)), ih fun a ha => h a (by simp only [List.map_cons]; exact List.mem_cons_of_mem _ ha)]

theorem sel_item_list {e : CT} {items : List Atom} {a : Atom} (ho : OneType (.list e items)) (h : a ∈ items) :
    (Val.list e items).item = (Val.atom a).ty := by
  obtain ⟨t, h1, h2⟩ := ho.1 e items rfl
  change _ = a.ty
  rw [ty_eq, h2 a h]
  unfold Val.item
  by_cases he : e = .undefined
  · dsimp only
    rw [if_pos he]
    cases items with
    | nil => cases h
    | cons b l =>
      change b.ty = t
      rw [ty_eq]
      exact h2 b List.mem_cons_self
  · dsimp only
    rw [if_neg he]
    exact h1 he

theorem sel_item_dict {k e : CT} {es : List (Atom × Atom)} {a : Atom} (ho : OneType (.dict k e es)) (h : a ∈ es.map (·.2)) :
    (Val.dict k e es).item = (Val.atom a).ty := by
  obtain ⟨t, h1, h2⟩ := ho.2 k e es rfl
  change _ = a.ty
  rw [ty_eq, h2 a h]
  unfold Val.item
  by_cases he : e = .undefined
  · dsimp only
    rw [if_pos he]
    cases es with
    | nil => cases h
    | cons b l =>
      change b.2.ty = t
      rw [ty_eq]
      exact h2 b.2 (by simp)
  · dsimp only
    rw [if_neg he]
    exact h1 he

theorem clamp_none {d : Def} (hm : d.min = none) (hx : d.max = none) (w : Val) : clamp d w = w := by
  cases w <;> simp [clamp, atLeast, atMost, hm, hx]

/-- Writing a value of the right type that is selected. -/
theorem write_selected {conv : CT → Val → Option Val} {ev : Nat → Option Val} {p : Property} {a : Atom} {s : Val}
    (hr : p.d.readOnly = false) (ho : p.d.valueType ≠ .object) (ht : a.ty = p.d.valueType)
    (hs : selVal (some ev) p.d = some (some s)) (hsel : selects (known (some ev) p) s (.atom a) = true)
    (hm : p.d.min = none) (hx : p.d.max = none) : (write conv ev p (.atom a)).2 = .ok (.atom a) := by
  refine write_ok.mpr ⟨hr, ho, .atom a, ?_, rfl, ?_, (clamp_none hm hx _).symm⟩
  · unfold convert
    exact if_pos ht
  · unfold checkSelected
    rw [hs]
    dsimp only
    rw [if_pos hsel]

theorem write_d {conv : CT → Val → Option Val} {ev : Nat → Option Val} {p : Property} {v : Val} :
    (write conv ev p v).1.d = p.d := by
  unfold Defs.write
  dsimp only
  repeat' split
  all_goals first | rfl | (split <;> rfl)

theorem infer_cases {d : Def} {s : Val} (hs : d.selection = some (.plain s)) :
    infer none d = if s.ty = .dict then .sparseSelection else listKind d := by
  unfold infer
  rw [hs]

/-- The property after a write. -/
theorem write_kind {conv : CT → Val → Option Val} {ev : Nat → Option Val} {d : Def} {v : Val} (hs : PlainSel d) :
    (write conv ev ⟨d, infer none d⟩ v).1 = ⟨d, infer none d⟩ := by
  have hk : known (some ev) ⟨d, infer none d⟩ = infer none d := (known_plain (own' := none) hs).2
  unfold Defs.write
  dsimp only
  rw [hk]
  repeat' split
  all_goals rfl

theorem getType_plain {own : Owner} {d : Def} (hs : PlainSel d) : (getType own ⟨d, infer none d⟩).1 = ⟨d, infer none d⟩ := by
  unfold getType
  dsimp only
  rw [(known_plain (own' := none) hs).2]

/-- A value that is offered, by values of one type and without limits, can be selected; then it is the one that is read. -/
theorem C276_offered_partial {d : Def} {p : Property} {s v : Val} {conv : CT → Val → Option Val} {ev ev' : Nat → Option Val}
    (h : build d = .ok p) (hs : d.selection = some (.plain s)) (hr : d.readOnly = false) (hm : d.min = none) (hx : d.max = none)
    (hk : IntKeys s) (ho : OneType s) (hv : Offered s v) (ht : TypeIs d .selection → typeOfVal v = d.valueType) :
    ∃ r, (select conv ev p v).2 = .ok r ∧ selected (some ev') (select conv ev p v).1 (some r) = .ok v := by
  obtain ⟨acc, rfl⟩ := build_ok.mp h
  have hps : PlainSel d := fun e he => by rw [hs] at he; cases he
  have hkn : ∀ own, known own ⟨d, infer none d⟩ = infer none d := fun own => (known_plain (own' := none) hps).2
  have hsv : ∀ own, selVal own d = some (some s) := by intro own; unfold selVal; rw [hs]
  have hobj : d.valueType ≠ .object := by
    intro e
    have := (acc.object e).1
    rw [hs] at this; cases this
  have href : d.ref = none := by
    refine Classical.byContradiction fun hc => ?_
    have := (acc.reference hc).2.2.1
    rw [hs] at this; cases this
  have hkey : ∀ k, toKey (some ev) ⟨d, infer none d⟩ v = .ok k →
      select conv ev ⟨d, infer none d⟩ v = write conv ev ⟨d, infer none d⟩ k := by
    intro k hk'
    unfold select
    rw [hk', getType_plain hps]
  have hit : ∀ own, infer none d ≠ .selection → infer none d ≠ .reference → itemType own ⟨d, infer none d⟩ = some s.item := by
    intro own h1 h2
    unfold itemType
    rw [hkn, if_neg h1, if_neg (by simp [h2, href])]
    simp only [hsv]
    rfl
  rcases hv with ⟨e, items, a, rfl, rfl, ha⟩ | ⟨k, e, es, a, rfl, rfl, ha⟩
  · have hinf : infer none d = listKind d := by rw [infer_cases hs]; rfl
    by_cases hi : d.valueType = .int ∧ d.intSel = false
    · have hl : infer none d = .indexSelection := by rw [hinf]; unfold listKind; rw [if_pos hi]
      obtain ⟨i, h1, h2⟩ := indexOf_some ha
      have hb : i < items.length := (List.getElem?_eq_some_iff.mp h2).1
      have hkey' := hkey (.atom (.int i)) (by
        unfold toKey
        simp only [hsv, (hkn _).trans hl, h1])
      have hw := write_selected (conv := conv) (ev := ev) (p := ⟨d, infer none d⟩) (a := .int i) (s := .list e items) hr hobj
        hi.1.symm (hsv _) (by
          rw [hkn, hl]
          simp [selects, hb]) hm hx
      refine ⟨.atom (.int i), by rw [hkey']; exact hw, ?_⟩
      rw [hkey', write_kind hps]
      unfold selected
      simp only [Option.some_or, hsv]
      have hf : fromKey (some ev') ⟨d, infer none d⟩ (.list e items) (.atom (.int i)) = .ok (.atom a) := by
        unfold fromKey
        simp only [(hkn _).trans hl, position, Int.natCast_nonneg, if_true, Option.bind, Int.toNat_natCast, h2]
      rw [hf]
      dsimp only
      rw [hkn, if_neg (by rw [hl]; exact nofun), hit _ (by rw [hl]; exact nofun) (by rw [hl]; exact nofun)]
      dsimp only
      rw [if_pos (sel_item_list ho ha)]
    · have hl : infer none d = .selection := by rw [hinf]; unfold listKind; rw [if_neg hi]
      have hty : typeOfVal (.atom a) = d.valueType := ht (by rw [← hl]; exact infer_type hps)
      have hty' : a.ty = d.valueType := by rw [← hty, ← vty_eq]; rfl
      have hkey' := hkey (.atom a) (by
        unfold toKey
        simp only [hsv, (hkn _).trans hl])
      have hw := write_selected (conv := conv) (ev := ev) (p := ⟨d, infer none d⟩) (a := a) (s := .list e items) hr hobj
        hty' (hsv _) (by
          rw [hkn, hl]
          simpa [selects] using ha) hm hx
      refine ⟨.atom a, by rw [hkey']; exact hw, ?_⟩
      rw [hkey', write_kind hps]
      unfold selected
      simp only [Option.some_or, hsv]
      have hf : fromKey (some ev') ⟨d, infer none d⟩ (.list e items) (.atom a) = .ok (.atom a) := by
        unfold fromKey
        simp only [(hkn _).trans hl]
        exact if_pos hty'
      rw [hf]
      dsimp only
      rw [hkn, if_pos hl]
  · have hl : infer none d = .sparseSelection := by rw [infer_cases hs]; rfl
    obtain ⟨hn, hint⟩ := hk k e es rfl
    obtain ⟨key, h1, h2, h3⟩ := keyOf_some ha hn
    have hvt : d.valueType = .int := acc.sparse _ hs rfl
    have hkey' := hkey (.atom key) (by
      unfold toKey
      simp only [hsv, (hkn _).trans hl, h1])
    have hw := write_selected (conv := conv) (ev := ev) (p := ⟨d, infer none d⟩) (a := key) (s := .dict k e es) hr hobj
      (by rw [ty_eq, hint key h2]; exact hvt.symm) (hsv _) (by
        rw [hkn, hl]
        simpa [selects] using h2) hm hx
    refine ⟨.atom key, by rw [hkey']; exact hw, ?_⟩
    rw [hkey', write_kind hps]
    unfold selected
    simp only [Option.some_or, hsv]
    have hf : fromKey (some ev') ⟨d, infer none d⟩ (.dict k e es) (.atom key) = .ok (.atom a) := by
      unfold fromKey
      simp only [(hkn _).trans hl, h3]
    rw [hf]
    dsimp only
    rw [hkn, if_neg (by rw [hl]; exact nofun), hit _ (by rw [hl]; exact nofun) (by rw [hl]; exact nofun)]
    dsimp only
    rw [if_pos (sel_item_dict ho ha)]

/-- A value that is not offered cannot be selected. -/
theorem C276_refused_partial {d : Def} {p : Property} {s v : Val} {conv : CT → Val → Option Val} {ev : Nat → Option Val}
    (h : build d = .ok p) (hs : d.selection = some (.plain s)) (hv : ¬ Offered s v)
    (ht : TypeIs d .selection → typeOfVal v = d.valueType) : ∃ e, (select conv ev p v).2 = .err e := by
  obtain ⟨acc, rfl⟩ := build_ok.mp h
  have hps : PlainSel d := fun e he => by rw [hs] at he; cases he
  have hkn : ∀ own, known own ⟨d, infer none d⟩ = infer none d := fun own => (known_plain (own' := none) hps).2
  have hsv : ∀ own, selVal own d = some (some s) := by intro own; unfold selVal; rw [hs]
  by_cases hl : infer none d = .selection
  · have hty := ht (by rw [← hl]; exact infer_type hps)
    have hk : toKey (some ev) ⟨d, infer none d⟩ v = .ok v := by
      unfold toKey
      simp only [hsv, (hkn _).trans hl]
    unfold select
    rw [hk, getType_plain hps]
    dsimp only
    cases hw : (write conv ev ⟨d, infer none d⟩ v).2 with
    | err e => exact ⟨e, rfl⟩
    | ok r =>
      obtain ⟨-, -, w, hc, -, hsel, -⟩ := write_ok.mp hw
      unfold convert at hc
      rw [if_pos (by rw [vty_eq]; exact hty)] at hc
      cases hc
      unfold checkSelected at hsel
      simp only [hsv, (hkn _).trans hl] at hsel
      by_cases hb : selects .selection s v = true
      · exfalso
        rcases selected_of hb with ⟨h1, -⟩ | ⟨-, e, items, a, rfl, rfl, ha⟩ | ⟨h1, -⟩
        · cases h1
        · exact hv (.inl ⟨e, items, a, rfl, rfl, ha⟩)
        · cases h1
      · rw [if_neg hb] at hsel; cases hsel
  · have hk : ∃ e, toKey (some ev) ⟨d, infer none d⟩ v = .err e := by
      unfold toKey
      simp only [hsv, hkn]
      cases s with
      | atom a => cases hc : infer none d <;> first | exact absurd hc hl | exact ⟨_, rfl⟩
      | list e items =>
        have hinf : infer none d = listKind d := by rw [infer_cases hs]; rfl
        have hl2 : infer none d = .indexSelection := by
          rw [hinf] at hl ⊢
          unfold listKind at hl ⊢
          split
          · rfl
          · rename_i hc
            exact absurd (if_neg hc) hl
        rw [hl2]
        dsimp only
        rw [indexOf_none fun a ha e' => hv (.inl ⟨e, items, a, rfl, e', ha⟩)]
        exact ⟨_, rfl⟩
      | dict k e es =>
        have hl2 : infer none d = .sparseSelection := by rw [infer_cases hs]; rfl
        rw [hl2]
        dsimp only
        rw [keyOf_none fun a ha e' => hv (.inr ⟨k, e, es, a, rfl, e', ha⟩)]
        exact ⟨_, rfl⟩
    obtain ⟨e, hk⟩ := hk
    unfold select
    rw [hk]
    exact ⟨e, rfl⟩

example : OneType demoNames := ⟨fun e items h => by cases h; exact ⟨.string, fun _ => rfl, by decide⟩, nofun⟩
example : Offered demoNames (.atom (.other .string 2)) := .inl ⟨_, _, _, rfl, rfl, by decide⟩

/-! ## C277 -/

/-- The default need not select anything … -/
theorem C277_violation_default : ∃ p, build { demoIndex with dflt := some (.atom (.int 7)) } = .ok p ∧
    selected (some noEval) p none = .err .outOfRange := ⟨_, rfl, by decide +kernel⟩

/-- … and if the selection values are an expression, what was selected turns into another item or none when they change. -/
theorem C277_violation_changed : ∃ (p : Property) (old other less : Nat → Option Val), build demoEval = .ok p ∧
    (select noConv old p (.atom (.other .string 2))).2 = .ok (.atom (.int 1)) ∧
    selected (some old) p (some (.atom (.int 1))) = .ok (.atom (.other .string 2)) ∧
    selected (some other) p (some (.atom (.int 1))) = .ok (.atom (.other .string 1)) ∧
    selected (some less) p (some (.atom (.int 1))) = .err .outOfRange :=
  ⟨_, fun _ => some demoNames, fun _ => some (.list .string [.other .string 2, .other .string 1]),
    fun _ => some (.list .string [.other .string 2]), rfl, by decide +kernel, by decide +kernel, by decide +kernel, by decide +kernel⟩

/-- After any write, the selection can be read and is one of the values that are offered. -/
theorem C277_written_partial {d : Def} {p : Property} {s v r : Val} {conv : CT → Val → Option Val} {ev ev' : Nat → Option Val}
    (h : build d = .ok p) (hs : d.selection = some (.plain s)) (hm : d.min = none) (hx : d.max = none) (ho : OneType s)
    (hw : (write conv ev p v).2 = .ok r) (hc : TypeIs d .selection → typeOfVal r = d.valueType) :
    ∃ w, selected (some ev') (write conv ev p v).1 (some r) = .ok w ∧ Offered s w := by
  obtain ⟨acc, hp⟩ := build_ok.mp h
  subst hp
  have hps : PlainSel d := fun e he => by rw [hs] at he; cases he
  have hkn : ∀ own, known own ⟨d, infer none d⟩ = infer none d := fun own => (known_plain (own' := none) hps).2
  have hsv : ∀ own, selVal own d = some (some s) := by intro own; unfold selVal; rw [hs]
  have href : d.ref = none := by
    refine Classical.byContradiction fun hc => ?_
    have := (acc.reference hc).2.2.1
    rw [hs] at this; cases this
  have hit : ∀ own, infer none d ≠ .selection → infer none d ≠ .reference → itemType own ⟨d, infer none d⟩ = some s.item := by
    intro own h1 h2
    unfold itemType
    rw [hkn, if_neg h1, if_neg (by simp [h2, href])]
    simp only [hsv]
    rfl
  rw [write_kind hps]
  unfold selected
  simp only [Option.some_or, hsv]
  rcases C258_selected h hs hm hx hw (infer none d) (infer_type hps) with
    ⟨hl, e, items, i, rfl, rfl, h0, h1⟩ | ⟨hl, e, items, a, rfl, rfl, ha⟩ | ⟨hl, k, e, es, a, rfl, rfl, ha⟩
  · have hb : i.toNat < items.length := by omega
    have hf : fromKey (some ev') ⟨d, infer none d⟩ (.list e items) (.atom (.int i)) = .ok (.atom items[i.toNat]) := by
      unfold fromKey
      simp only [(hkn _).trans hl, position, if_pos h0, Option.bind, List.getElem?_eq_getElem hb]
    have hmem : items[i.toNat] ∈ items := List.getElem_mem hb
    rw [hf]
    dsimp only
    rw [hkn, if_neg (by rw [hl]; exact nofun), hit _ (by rw [hl]; exact nofun) (by rw [hl]; exact nofun)]
    dsimp only
    rw [if_pos (sel_item_list ho hmem)]
    exact ⟨_, rfl, .inl ⟨e, items, _, rfl, rfl, hmem⟩⟩
  · have hty := hc (by rw [← hl]; exact infer_type hps)
    have hf : fromKey (some ev') ⟨d, infer none d⟩ (.list e items) (.atom a) = .ok (.atom a) := by
      unfold fromKey
      simp only [(hkn _).trans hl]
      rw [if_pos (by rw [vty_eq]; exact hty)]
    rw [hf]
    dsimp only
    rw [hkn, if_pos hl]
    exact ⟨_, rfl, .inl ⟨e, items, a, rfl, rfl, ha⟩⟩
  · have hfind : ∃ b, es.find? (fun e => e.1 == a) = some (a, b) ∧ b ∈ es.map (·.2) := by
      clear hs hsv ho hit
      induction es with
      | nil => cases ha
      | cons x l ih =>
        obtain ⟨k', b⟩ := x
        by_cases hk : k' = a
        · subst hk
          exact ⟨b, by simp, by simp⟩
        · rw [List.map_cons] at ha
          rcases List.mem_cons.mp ha with ha | ha
          · exact absurd ha.symm hk
          · obtain ⟨c, h1, h2⟩ := ih ha
            refine ⟨c, ?_, by rw [List.map_cons]; exact List.mem_cons_of_mem _ h2⟩
            rw [List.find?_cons_of_neg (by simpa using hk), h1]
    obtain ⟨b, hfind, hb⟩ := hfind
    have hf : fromKey (some ev') ⟨d, infer none d⟩ (.dict k e es) (.atom a) = .ok (.atom b) := by
      unfold fromKey
      simp only [(hkn _).trans hl, hfind]
    rw [hf]
    dsimp only
    rw [hkn, if_neg (by rw [hl]; exact nofun), hit _ (by rw [hl]; exact nofun) (by rw [hl]; exact nofun)]
    dsimp only
    rw [if_pos (sel_item_dict ho hb)]
    exact ⟨_, rfl, .inr ⟨k, e, es, b, rfl, rfl, hb⟩⟩

end Verif.Defs
