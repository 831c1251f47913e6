import Verif.Config.Spec

/-! Property objects: loading what was saved, and what a load that succeeds has done. -/

namespace Verif.Config

open Spec

theorem vals_val (n d acc c r) :
    vals (.val n d acc c r) = ([n], c.getD d) :: vals r := by
  cases c <;> rfl

theorem accepted_val (pre n d acc c r) :
    Accepted pre (.val n d acc c r) ↔
      (∀ v, c = some v → ∀ later, acc (pre ++ later) v = some v) ∧ Accepted (pre ++ [(n, c.getD d)]) r := by
  cases c <;> rfl

/-- A name that no property has is not in the saved document. -/
theorem save_get_none : ∀ (a : Obj) (n : String), n ∉ names a → a.save.get n = none
  | .nil, _, _ => rfl
  | .val m _ _ c r, n, h => by
    have h' : n ≠ m ∧ n ∉ names r := by simpa [names] using h
    cases c with
    | none => exact save_get_none r n h'.2
    | some v =>
      simp only [Obj.save, Doc.get, if_neg (Ne.symm h'.1)]
      exact save_get_none r n h'.2
  | .sub m _ _ r, n, h => by
    have h' : n ≠ m ∧ n ∉ names r := by simpa [names] using h
    simp only [Obj.save, Doc.get, if_neg (Ne.symm h'.1)]
    exact save_get_none r n h'.2
  | .skip m r, n, h => by
    have h' : n ≠ m ∧ n ∉ names r := by simpa [names] using h
    exact save_get_none r n h'.2

/-- Loading a document that agrees with the saved one on the object's names restores the values. -/
theorem load_save : ∀ (a b : Obj) (pre : Vals) (D : Doc), Distinct a → Accepted pre a → SameProps a b →
    (∀ n ∈ names a, D.get n = a.save.get n) →
    (b.load pre D).2 = true ∧ vals (b.load pre D).1 = vals a ∧ SameProps a (b.load pre D).1
  | .nil, b, pre, D, _, _, hs, _ => by
    cases b with
    | nil => exact ⟨rfl, rfl, trivial⟩
    | _ => exact absurd hs (by simp [SameProps])
  | .val n d acc c r, b, pre, D, hd, ha, hs, hg => by
    cases b with
    | val n' d' acc' c' r' =>
      obtain ⟨rfl, rfl, rfl, hs⟩ := hs
      rw [accepted_val] at ha
      have hrest : ∀ m ∈ names r, D.get m = r.save.get m := by
        intro m hm
        have hne : n ≠ m := fun e => hd.1 (e ▸ hm)
        rw [hg m (by simp [names, hm])]
        cases c with
        | none => rfl
        | some v => simp [Obj.save, Doc.get, hne]
      have ih := fun pre' h => load_save r r' pre' D hd.2 h hs hrest
      have hn := hg n (by simp [names])
      cases c with
      | none =>
        have hn' : D.get n = none := by rw [hn]; exact save_get_none r n hd.1
        have := ih (pre ++ [(n, d)]) ha.2
        simp only [Obj.load, hn']
        refine ⟨this.1, ?_, rfl, rfl, rfl, this.2.2⟩
        rw [vals_val, vals_val, this.2.1]
      | some v =>
        have hn' : D.get n = some (.val v) := by rw [hn]; simp [Obj.save, Doc.get]
        have := ih (pre ++ [(n, v)]) ha.2
        simp only [Obj.load, hn', ha.1 v rfl]
        refine ⟨this.1, ?_, rfl, rfl, rfl, this.2.2⟩
        rw [vals_val, vals_val, this.2.1]
        congr 2
        unfold stored
        split
        · rename_i h; simp [h.2]
        · rfl
    | _ => exact absurd hs (by simp [SameProps])
  | .sub n fz o r, b, pre, D, hd, ha, hs, hg => by
    cases b with
    | sub n' fz' o' r' =>
      obtain ⟨rfl, rfl, ho, hs⟩ := hs
      have hrest : ∀ m ∈ names r, D.get m = r.save.get m := by
        intro m hm
        have hne : n ≠ m := fun e => hd.1 (e ▸ hm)
        rw [hg m (by simp [names, hm])]
        simp [Obj.save, Doc.get, hne]
      have ih := load_save r r' pre D hd.2.2 ha.2 hs hrest
      have hn : D.get n = some (.sub o.save) := by rw [hg n (by simp [names])]; simp [Obj.save, Doc.get]
      cases fz with
      | true =>
        have ho' : vals o = vals o' := by simpa using ho
        simp only [Obj.load, hn, if_true]
        refine ⟨ih.1, ?_, rfl, rfl, by simpa using ho', ih.2.2⟩
        simp only [vals, ih.2.1, ho']
      | false =>
        have ho' : SameProps o o' := by simpa using ho
        have io := load_save o o' [] o.save hd.2.1 (ha.1 rfl) ho' (fun _ _ => rfl)
        simp only [Obj.load, hn, Bool.false_eq_true, if_false, io.1, if_true]
        refine ⟨ih.1, ?_, rfl, rfl, by simpa using io.2.2, ih.2.2⟩
        simp only [vals, ih.2.1, io.2.1]
    | _ => exact absurd hs (by simp [SameProps])
  | .skip n r, b, pre, D, hd, ha, hs, hg => by
    cases b with
    | skip n' r' =>
      obtain ⟨rfl, hs⟩ := hs
      have ih := load_save r r' pre D hd.2 ha hs (fun m hm => hg m (by simp [names, hm]))
      exact ⟨ih.1, ih.2.1, rfl, ih.2.2⟩
    | _ => exact absurd hs (by simp [SameProps])

/-- `Doc.get` finds the first member. -/
theorem says_iff : ∀ (d : Doc) (n : String) (x : Entry), Says d n x ↔ d.get n = some x
  | .nil, n, x => by
    constructor
    · intro h; cases h
    · intro h; simp [Doc.get] at h
  | .val m v r, n, x => by
    by_cases e : m = n
    · subst e
      simp only [Doc.get, if_true, Option.some.injEq]
      constructor
      · intro h
        cases h with
        | val => rfl
        | afterVal _ _ _ _ _ h => exact absurd rfl h
      · rintro rfl; exact .val _ _ _
    · simp only [Doc.get, if_neg e]
      rw [← says_iff r n x]
      constructor
      · intro h
        cases h with
        | val => exact absurd rfl e
        | afterVal _ _ _ _ _ _ h => exact h
      · exact .afterVal _ _ _ _ _ e
  | .sub m v r, n, x => by
    by_cases e : m = n
    · subst e
      simp only [Doc.get, if_true, Option.some.injEq]
      constructor
      · intro h
        cases h with
        | sub => rfl
        | afterSub _ _ _ _ _ h => exact absurd rfl h
      · rintro rfl; exact .sub _ _ _
    · simp only [Doc.get, if_neg e]
      rw [← says_iff r n x]
      constructor
      · intro h
        cases h with
        | sub => exact absurd rfl e
        | afterSub _ _ _ _ _ _ h => exact h
      · exact .afterSub _ _ _ _ _ e

theorem not_says {d : Doc} {n : String} (h : d.get n = none) (x : Entry) : ¬ Says d n x := by
  rw [says_iff, h]; simp

theorem clear_default : ∀ o : Obj, (o.clear).2 = true → AllDefault o.clear.1
  | .nil, _ => trivial
  | .val _ _ _ _ r, h => ⟨rfl, clear_default r h⟩
  | .sub n fz o r, h => by
    simp only [Obj.clear] at h ⊢
    split at h
    · cases h
    · rename_i hf
      rw [if_neg hf]
      by_cases ho : o.clear.2 = true
      · rw [if_pos ho] at h ⊢
        exact ⟨clear_default o ho, clear_default r h⟩
      · rw [if_neg ho] at h; cases h
  | .skip _ r, h => clear_default r h

/-- A load that succeeds has done what the document says. -/
theorem load_follows : ∀ (b : Obj) (pre : Vals) (D : Doc), (b.load pre D).2 = true → Follows D b (b.load pre D).1
  | .nil, _, _, _ => trivial
  | .skip n r, pre, D, h => ⟨rfl, load_follows r pre D h⟩
  | .val n df acc cur r, pre, D, h => by
    simp only [Obj.load] at h ⊢
    cases hg : D.get n with
    | none =>
      rw [hg] at h
      exact ⟨rfl, rfl, rfl, .inr ⟨not_says hg, rfl⟩, load_follows r _ D h⟩
    | some x =>
      rw [hg] at h
      cases x with
      | sub e => cases h
      | val v =>
        dsimp only at h ⊢
        cases ha : acc (pre ++ (n, cur.getD df) :: r.env) v with
        | none => rw [ha] at h; cases h
        | some w =>
          rw [ha] at h
          refine ⟨rfl, rfl, rfl, .inl ⟨v, w, _, (says_iff _ _ _).mpr hg, ha, ?_⟩, load_follows r _ D h⟩
          unfold stored
          split
          · rename_i heq
            split at heq
            · cases heq
            · cases heq; rfl
          · rename_i heq
            split at heq
            · rename_i h'; exact h'.2.symm
            · cases heq
  | .sub n fz o r, pre, D, h => by
    simp only [Obj.load] at h ⊢
    cases hg : D.get n with
    | none =>
      rw [hg] at h
      dsimp only at h ⊢
      by_cases hf : (fz && !o.isEmpty) = true
      · rw [if_pos hf] at h; cases h
      · rw [if_neg hf] at h ⊢
        by_cases hc : o.clear.2 = true
        · rw [if_pos hc] at h ⊢
          exact ⟨rfl, rfl, .inr (.inr ⟨not_says hg, clear_default o hc⟩), load_follows r pre D h⟩
        · rw [if_neg hc] at h; cases h
    | some x =>
      rw [hg] at h
      cases x with
      | val v => cases h
      | sub e =>
        dsimp only at h ⊢
        cases fz with
        | true =>
          simp only [if_true] at h ⊢
          exact ⟨rfl, rfl, .inl ⟨e, (says_iff _ _ _).mpr hg, rfl, rfl⟩, load_follows r pre D h⟩
        | false =>
          simp only [Bool.false_eq_true, if_false] at h ⊢
          by_cases ho : (o.load [] e).2 = true
          · rw [if_pos ho] at h ⊢
            exact ⟨rfl, rfl, .inr (.inl ⟨e, (says_iff _ _ _).mpr hg, rfl, load_follows o [] e ho⟩),
              load_follows r pre D h⟩
          · rw [if_neg ho] at h; cases h

end Verif.Config
