import Verif.PropObj.Lemmas
import Verif.PropObj.Spec

/-! # Properties of an object, and the processing of values -/

namespace Verif.PropObj

variable {V : Type} [DecidableEq V]

theorem get_none_iff {β : Type} (l : AList Name β) (n : Name) : AList.get l n = none ↔ ∀ q, (n, q) ∉ l := by
  induction l with
  | nil => simp
  | cons e l ih =>
    obtain ⟨k, b⟩ := e
    rw [AList.get_cons]
    by_cases h : n = k
    · subst h
      simp only [if_true, reduceCtorEq, false_iff]
      exact fun h => h b List.mem_cons_self
    · rw [if_neg h, ih]
      constructor
      · intro hl q hq
        rcases List.mem_cons.mp hq with e | hq
        · exact h (Prod.mk.inj e).1
        · exact hl q hq
      · exact fun hl q hq => hl q (List.mem_cons_of_mem _ hq)

theorem get_some_iff {β : Type} (l : AList Name β) (h : (l.map (·.1)).Nodup) (n : Name) (b : β) :
    AList.get l n = some b ↔ (n, b) ∈ l := by
  induction l with
  | nil => simp
  | cons e l ih =>
    obtain ⟨k, c⟩ := e
    rw [List.map_cons, List.nodup_cons] at h
    rw [AList.get_cons]
    by_cases e : n = k
    · subst e
      rw [if_pos rfl]
      constructor
      · intro e; cases e; exact List.mem_cons_self
      · intro hm
        rcases List.mem_cons.mp hm with e | hm
        · rw [(Prod.mk.inj e).2]
        · exact absurd (List.mem_map.mpr ⟨_, hm, rfl⟩) h.1
    · rw [if_neg e, ih h.2]
      constructor
      · exact fun hm => List.mem_cons_of_mem _ hm
      · intro hm
        rcases List.mem_cons.mp hm with e' | hm
        · exact absurd (Prod.mk.inj e').1 e
        · exact hm

theorem get_reverse_iff {β : Type} (l : AList Name β) (n : Name) (b : β) :
    AList.get l.reverse n = some b ↔ ∃ l1 l2, l = l1 ++ (n, b) :: l2 ∧ ∀ q, (n, q) ∉ l2 := by
  induction l using list_snoc_induction with
  | nil => simp
  | snoc l e ih =>
    obtain ⟨k, c⟩ := e
    rw [List.reverse_append, List.reverse_singleton, List.singleton_append, AList.get_cons]
    by_cases h : n = k
    · subst h
      rw [if_pos rfl]
      constructor
      · intro e; cases e; exact ⟨l, [], by simp, by simp⟩
      · rintro ⟨l1, l2, e, hl⟩
        rcases List.eq_nil_or_concat l2 with rfl | ⟨l3, x, rfl⟩
        · have e2 := (List.append_inj' e rfl).2
          simp only [List.cons.injEq, Prod.mk.injEq, true_and, and_true] at e2
          rw [e2]
        · rw [List.concat_eq_append] at e hl
          have e' : l ++ [(n, c)] = (l1 ++ (n, b) :: l3) ++ [x] := by rw [e]; simp
          have := (List.append_inj' e' rfl).2
          have hx : x = (n, c) := by simpa using this.symm
          exact absurd (by rw [hx]; simp) (hl c)
    · rw [if_neg h, ih]
      constructor
      · rintro ⟨l1, l2, e, hl⟩
        refine ⟨l1, l2 ++ [(k, c)], by rw [e]; simp, ?_⟩
        intro q hq
        rcases List.mem_append.mp hq with hq | hq
        · exact hl q hq
        · simp at hq; exact h hq.1
      · rintro ⟨l1, l2, e, hl⟩
        rcases List.eq_nil_or_concat l2 with rfl | ⟨l3, x, rfl⟩
        · have e2 := (List.append_inj' e rfl).2
          simp only [List.cons.injEq, Prod.mk.injEq, and_true] at e2
          exact absurd e2.1.symm h
        · rw [List.concat_eq_append] at e hl
          have e' : l ++ [(k, c)] = (l1 ++ (n, b) :: l3) ++ [x] := by rw [e]; simp
          refine ⟨l1, l3, (List.append_inj' e' rfl).1, fun q hq => hl q (by simp [hq])⟩

theorem get_reverse_none {β : Type} (l : AList Name β) (n : Name) : AList.get l.reverse n = none ↔ ∀ q, (n, q) ∉ l := by
  rw [get_none_iff]; simp

/-- `lookup` finds the property. -/
theorem lookup_iff {env : Env V} {o : Obj V} (h : (o.locals.map (·.1)).Nodup) (n : Name) (p : PropDef V) :
    lookup env o n = some p ↔ HasProp env o n p := by
  unfold lookup HasProp
  cases hg : AList.get o.locals n with
  | some q =>
    have hq := (get_some_iff _ h n q).mp hg
    constructor
    · intro e; cases e; exact .inl hq
    · rintro (hp | ⟨hn, -⟩)
      · rw [← (get_some_iff _ h n p).mpr hp, hg]
      · exact absurd hq (hn q)
  | none =>
    have hn := (get_none_iff _ n).mp hg
    show AList.get env.cls.reverse n = some p ↔ _
    rw [get_reverse_iff]
    constructor
    · exact fun h => .inr ⟨hn, h⟩
    · rintro (hp | ⟨-, hp⟩)
      · exact absurd hp (hn p)
      · exact hp

/-! ## Processing -/

theorem clampMin_above {lt : V → V → Bool} (env : Env V) (he : env.lt = lt) (p : PropDef V) (v : V) (h : AboveMin lt p.min v) :
    clampMin env p v = v := by
  unfold clampMin
  split
  · rename_i m hm
    rw [he, h m hm]; rfl
  · rfl

theorem clampMin_below {lt : V → V → Bool} (env : Env V) (he : env.lt = lt) (p : PropDef V) (v : V) (h : ¬ AboveMin lt p.min v) :
    p.min = some (clampMin env p v) := by
  unfold clampMin
  cases hm : p.min with
  | none => exact absurd (fun m e => by rw [hm] at e; cases e) h
  | some m =>
    have : lt v m = true := by
      by_cases hc : lt v m = true
      · exact hc
      · exfalso; apply h; intro m' e; rw [hm] at e; cases e; simpa using hc
    simp [he, this]

theorem clampMax_below {lt : V → V → Bool} (env : Env V) (he : env.lt = lt) (p : PropDef V) (v : V) (h : BelowMax lt p.max v) :
    clampMax env p v = v := by
  unfold clampMax
  split
  · rename_i m hm
    rw [he, h m hm]; rfl
  · rfl

theorem clampMax_above {lt : V → V → Bool} (env : Env V) (he : env.lt = lt) (p : PropDef V) (v : V) (h : ¬ BelowMax lt p.max v) :
    p.max = some (clampMax env p v) := by
  unfold clampMax
  cases hm : p.max with
  | none => exact absurd (fun m e => by rw [hm] at e; cases e) h
  | some m =>
    have : lt m v = true := by
      by_cases hc : lt m v = true
      · exact hc
      · exfalso; apply h; intro m' e; rw [hm] at e; cases e; simpa using hc
    simp [he, this]

theorem clamp_limited {env : Env V} {p : PropDef V} (hs : Sensible env.lt p) (d : V) : Limited env.lt p d (clamp env p d) := by
  unfold clamp
  refine ⟨?_, ?_, ?_⟩
  · intro h
    rw [clampMin_above env rfl p d h.1, clampMax_below env rfl p d h.2]
  · intro h
    have hm := clampMin_below env rfl p d h
    rw [clampMax_below env rfl p _ (fun M hM => hs.2 _ _ hm hM), ← hm]
  · intro h1 h2
    rw [clampMin_above env rfl p d h1]
    exact clampMax_above env rfl p d h2

theorem limited_range {lt : V → V → Bool} {p : PropDef V} (hs : Sensible lt p) {d w : V} (h : Limited lt p d w) : InRange lt p w := by
  by_cases h1 : AboveMin lt p.min d
  · by_cases h2 : BelowMax lt p.max d
    · rw [h.1 ⟨h1, h2⟩]; exact ⟨h1, h2⟩
    · have hw := h.2.2 h1 h2
      exact ⟨fun m hm => hs.2 m w hm hw, fun M hM => by rw [hw] at hM; cases hM; exact hs.1 w⟩
  · have hw := h.2.1 h1
    exact ⟨fun m hm => by rw [hw] at hm; cases hm; exact hs.1 w, fun M hM => hs.2 w M hw hM⟩

theorem limited_unique {lt : V → V → Bool} {p : PropDef V} {d w w' : V} (h : Limited lt p d w) (h' : Limited lt p d w') : w = w' := by
  by_cases h1 : AboveMin lt p.min d
  · by_cases h2 : BelowMax lt p.max d
    · rw [h.1 ⟨h1, h2⟩, h'.1 ⟨h1, h2⟩]
    · have a := h.2.2 h1 h2
      rw [h'.2.2 h1 h2] at a
      exact (Option.some.inj a).symm
  · have a := h.2.1 h1
    rw [h'.2.1 h1] at a
    exact (Option.some.inj a).symm

theorem process_iff {env : Env V} {p : PropDef V} (hs : Sensible env.lt p) (v w : V) :
    process env p v = .ok w ↔ Accepts env.lt p v w := by
  unfold process Accepts
  constructor
  · intro h
    split at h
    · cases h
    · rename_i c hc
      split at h
      · cases h
      · rename_i hsel
        split at h
        · cases h
        · rename_i d hd
          split at h
          · cases h
          · rename_i hv
            cases h
            exact ⟨c, d, hc, by simpa using hsel, hd, by simpa using hv, clamp_limited hs d⟩
  · rintro ⟨c, d, hc, hsel, hd, hv, hl⟩
    simp only [hc, hsel, hd, hv, Bool.not_true, Bool.false_eq_true, if_false]
    rw [limited_unique (clamp_limited hs d) hl]

theorem process_total (env : Env V) (p : PropDef V) (v : V) (h : ∀ w, process env p v ≠ .ok w) : ∃ e, process env p v = .error e := by
  cases hp : process env p v with
  | ok w => exact absurd hp (h w)
  | error e => exact ⟨e, rfl⟩

end Verif.PropObj
