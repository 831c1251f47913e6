import Verif.Sync.Spec
import Mathlib.Data.List.Nodup
import Mathlib.Data.List.Perm.Subperm

/-! # Lemmas about the synchronisation component -/

namespace Verif.Sync

open Spec

/-! ## Walking up the classes -/

theorem check_mono {t : AList Name Ty} {r : Code} : ∀ (k : Nat) (c : Name), check k t c = some r →
    ∀ m, k ≤ m → check m t c = some r := by
  intro k
  induction k with
  | zero => intro c h; cases h
  | succ k ih =>
    intro c h m hm
    obtain ⟨m, rfl⟩ : ∃ m', m = m' + 1 := ⟨m - 1, by omega⟩
    have hk : k ≤ m := by omega
    unfold check at h ⊢
    cases hg : t.get c with
    | none => rw [hg] at h; exact h
    | some y =>
      rw [hg] at h
      cases y with
      | other => exact h
      | cls p =>
        cases p with
        | none => exact h
        | some p =>
          simp only at h ⊢
          split at h
          · next hp => rw [if_pos hp]; exact h
          · next hp => rw [if_neg hp]; exact ih p h m hk

theorem check_derived {t : AList Name Ty} : ∀ (k : Nat) (c : Name), check k t c = some .ok → Derived t c := by
  intro k
  induction k with
  | zero => intro c h; cases h
  | succ k ih =>
    intro c h
    unfold check at h
    cases hg : t.get c with
    | none => rw [hg] at h; cases h
    | some y =>
      rw [hg] at h
      cases y with
      | other => cases h
      | cls p =>
        cases p with
        | none => cases h
        | some p =>
          simp only at h
          split at h
          · next hp => subst hp; exact .direct hg
          · next hp => exact .up hg hp (ih p h)

theorem derived_check {t : AList Name Ty} {c : Name} (h : Derived t c) : ∃ k, check k t c = some .ok := by
  induction h with
  | direct hg => refine ⟨1, ?_⟩; unfold check; rw [hg]; simp [baseName]
  | up hg hp _ ih =>
    obtain ⟨k, hk⟩ := ih
    refine ⟨k + 1, ?_⟩
    unfold check; rw [hg]
    simp only
    rw [if_neg (show ¬ _ = baseName from hp)]
    exact hk

theorem check_code {t : AList Name Ty} : ∀ (k : Nat) (c : Name) (r : Code), check k t c = some r →
    r = .ok ∨ r = .invalidArgument := by
  intro k
  induction k with
  | zero => intro c r h; cases h
  | succ k ih =>
    intro c r h
    unfold check at h
    split at h
    · cases h; exact .inr rfl
    · cases h; exact .inr rfl
    · cases h; exact .inr rfl
    · split at h
      · cases h; exact .inl rfl
      · exact ih _ _ h

theorem endless_check {t : AList Name Ty} : ∀ (k : Nat) (c : Name), Endless t c → check k t c = none := by
  intro k
  induction k with
  | zero => intro c _; rfl
  | succ k ih =>
    intro c ⟨f, h0, hf⟩
    have h := hf 0
    rw [h0] at h
    unfold check
    rw [h.1]
    simp only
    rw [if_neg (show ¬ f (0 + 1) = baseName from h.2)]
    exact ih _ ⟨fun i => f (i + 1), rfl, fun i => hf (i + 1)⟩

/-- The parent of a class, itself if there is none. -/
def par (t : AList Name Ty) (c : Name) : Name := match t.get c with
  | some (.cls (some p)) => p
  | _ => c

def anc (t : AList Name Ty) (c : Name) : Nat → Name
  | 0 => c
  | i + 1 => par t (anc t c i)

theorem anc_par (t : AList Name Ty) (c : Name) (i : Nat) : anc t (par t c) i = anc t c (i + 1) := by
  induction i with
  | zero => rfl
  | succ i ih => show par t (anc t (par t c) i) = _; rw [ih]; rfl

def Live (t : AList Name Ty) (c : Name) : Prop := t.get c = some (.cls (some (par t c))) ∧ par t c ≠ baseName

theorem check_none {t : AList Name Ty} : ∀ (k : Nat) (c : Name), check k t c = none → ∀ i, i < k → Live t (anc t c i) := by
  intro k
  induction k with
  | zero => intro c _ i hi; omega
  | succ k ih =>
    intro c h i hi
    unfold check at h
    cases hg : t.get c with
    | none => rw [hg] at h; cases h
    | some y =>
      rw [hg] at h
      cases y with
      | other => cases h
      | cls p =>
        cases p with
        | none => cases h
        | some p =>
          simp only at h
          split at h
          · cases h
          · next hp =>
            have hpar : par t c = p := by unfold par; rw [hg]
            cases i with
            | zero => exact ⟨by show t.get c = some (.cls (some (par t c))); rw [hg, hpar], by show par t c ≠ _; rw [hpar]; exact hp⟩
            | succ i =>
              rw [← anc_par, hpar]
              exact ih p h i (by omega)

theorem anc_add (t : AList Name Ty) (c : Name) {i j : Nat} (h : anc t c i = anc t c j) (m : Nat) :
    anc t c (i + m) = anc t c (j + m) := by
  induction m with
  | zero => exact h
  | succ m ih => show par t (anc t c (i + m)) = par t (anc t c (j + m)); rw [ih]

theorem live_key {t : AList Name Ty} {c : Name} (h : Live t c) : c ∈ t.map Prod.fst := by
  have := AList.mem_of_get h.1
  exact List.mem_map.2 ⟨_, this, rfl⟩

/-- As many calls as there are types, and one more, are enough or no number is. -/
theorem check_endless {t : AList Name Ty} {c : Name} (h : check (t.length + 1) t c = none) : Endless t c := by
  have hl := check_none _ c h
  have hrep : ∃ i j, i < j ∧ j < t.length + 1 ∧ anc t c i = anc t c j := by
    apply Classical.byContradiction
    intro hno
    have hinj : ∀ i, i < t.length + 1 → ∀ j, j < t.length + 1 → anc t c i = anc t c j → i = j := by
      intro i hi j hj e
      rcases Nat.lt_trichotomy i j with hlt | heq | hgt
      · exact absurd ⟨i, j, hlt, hj, e⟩ hno
      · exact heq
      · exact absurd ⟨j, i, hgt, hi, e.symm⟩ hno
    have hnd : ((List.range (t.length + 1)).map (anc t c)).Nodup := by
      apply List.Nodup.map_on _ List.nodup_range
      intro i hi j hj e
      exact hinj i (List.mem_range.1 hi) j (List.mem_range.1 hj) e
    have hsub : ((List.range (t.length + 1)).map (anc t c)) ⊆ t.map Prod.fst := by
      intro x hx
      obtain ⟨i, hi, rfl⟩ := List.mem_map.1 hx
      exact live_key (hl i (List.mem_range.1 hi))
    have := (List.subperm_of_subset hnd hsub).length_le
    simp only [List.length_map, List.length_range] at this
    exact absurd this (Nat.not_succ_le_self _)
  obtain ⟨i, j, hij, hj, e⟩ := hrep
  have hall : ∀ n, Live t (anc t c n) := by
    intro n
    induction n using Nat.strongRecOn with
    | _ n ih =>
      by_cases hn : n < t.length + 1
      · exact hl n hn
      · have hm := anc_add t c e (n - j)
        have e1 : j + (n - j) = n := by omega
        rw [e1] at hm
        rw [← hm]
        exact ih (i + (n - j)) (by omega)
  exact ⟨anc t c, rfl, fun n => ⟨(hall n).1, (hall n).2⟩⟩

theorem derived_not_endless {t : AList Name Ty} {c : Name} (h : Derived t c) : ¬ Endless t c := by
  intro he
  obtain ⟨k, hk⟩ := derived_check h
  rw [endless_check k c he] at hk
  cases hk

theorem derived_check_len {t : AList Name Ty} {c : Name} (h : Derived t c) : check (t.length + 1) t c = some .ok := by
  cases hc : check (t.length + 1) t c with
  | none => exact absurd (check_endless hc) (derived_not_endless h)
  | some r =>
    obtain ⟨k, hk⟩ := derived_check h
    have h1 := check_mono _ _ hc (t.length + 1 + k) (by omega)
    have h2 := check_mono _ _ hk (t.length + 1 + k) (by omega)
    rw [h1] at h2; exact h2

/-! ## The position of an interface -/

theorem locate_eq (c : Name) : ∀ (l : List Name) (i : Nat), locate c i l = if c ∈ l then some (i + l.idxOf c) else none := by
  intro l
  induction l with
  | nil => intro i; simp [locate]
  | cons n l ih =>
    intro i
    unfold locate
    by_cases hn : n = c
    · subst hn; simp
    · rw [if_neg hn, ih, List.idxOf_cons_ne l hn]
      have : (c ∈ n :: l) ↔ c ∈ l := by simp [Ne.symm hn]
      by_cases hc : c ∈ l
      · rw [if_pos hc, if_pos (this.2 hc)]; congr 1; omega
      · rw [if_neg hc, if_neg (fun h => hc (this.1 h))]

theorem erase_get_lt {l : List Name} {c : Name} {j : Nat} (h : j < l.idxOf c) : (l.erase c)[j]? = l[j]? := by
  rw [← List.eraseIdx_idxOf_eq_erase]; exact List.getElem?_eraseIdx_of_lt h

theorem erase_get_ge {l : List Name} {c : Name} {j : Nat} (h : l.idxOf c ≤ j) : (l.erase c)[j]? = l[j + 1]? := by
  rw [← List.eraseIdx_idxOf_eq_erase]; exact List.getElem?_eraseIdx_of_ge h

theorem erase_filter {l : List Name} (h : l.Nodup) (c : Name) : l.erase c = l.filter (fun n => n ≠ c) := by
  rw [h.erase_eq_filter]
  apply List.filter_congr
  intro x _
  by_cases hx : x = c <;> simp [bne, hx]

/-! ## Keeping the selection -/

/-- The state `s`, outside of updates, is what `a` says. -/
structure Rel (s : St) (a : Abs) : Prop where
  all : a.all = s.names
  source : a.source = s.names[s.src.toNat]?
  nodup : s.names.Nodup
  depth : s.depth = 0
  queue : s.queue = []
  low : 0 ≤ s.src
  high : s.src < max (1 : Int) (s.names.length : Int)

theorem add_rel {s : St} {a : Abs} (r : Rel s a) (c : Option Name) :
    ∃ b, Step s.types a (.add c) b (add s c).2 ∧ Rel (add s c).1 b ∧ (add s c).1.types = s.types := by
  cases c with
  | none => exact ⟨a, .noClass, r, rfl⟩
  | some c =>
    unfold add
    simp only
    by_cases hb : c = baseName
    · rw [if_pos hb]; subst hb; exact ⟨a, .base, r, rfl⟩
    · rw [if_neg hb]
      cases ht : s.types with
      | none => exact ⟨a, .noTypes hb rfl, r, ht⟩
      | some t =>
        simp only
        cases hc : check (t.length + 1) t c with
        | none => exact ⟨a, .endless hb rfl (check_endless hc), r, ht⟩
        | some e =>
          rcases check_code _ _ _ hc with rfl | rfl
          · have hd := check_derived _ _ hc
            simp only [addProperty]
            by_cases hm : c ∈ s.names
            · rw [if_pos hm]; exact ⟨a, .twice hb rfl hd (by rw [r.all]; exact hm), r, ht⟩
            · rw [if_neg hm]
              refine ⟨a.added c, .add hb rfl hd (by rw [r.all]; exact hm), ?_, ht⟩
              refine ⟨?_, ?_, ?_, r.depth, r.queue, r.low, ?_⟩
              · show a.all ++ [c] = _; rw [r.all]
              · show (a.source.orElse fun _ => some c) = (s.names ++ [c])[s.src.toNat]?
                rw [r.source]
                have hi := r.high
                have lo := r.low
                by_cases hn : s.names = []
                · have h0 : s.src = 0 := by rw [hn] at hi; simp at hi; omega
                  rw [hn, h0]; rfl
                · have hp : 0 < s.names.length := List.length_pos_iff.2 hn
                  have hlt : s.src.toNat < s.names.length := by omega
                  rw [List.getElem?_append_left hlt, List.getElem?_eq_getElem hlt]
                  rfl
              · show (s.names ++ [c]).Nodup
                rw [List.nodup_append]
                refine ⟨r.nodup, by simp, ?_⟩
                intro x hx y hy e
                simp at hy
                subst hy; subst e
                exact hm hx
              · have := r.high
                show s.src < max 1 ((s.names ++ [c]).length : Int)
                simp
                omega
          · refine ⟨a, .foreign hb rfl ?_ ?_, r, ht⟩
            · intro hd; rw [derived_check_len hd] at hc; cases hc
            · intro he; rw [endless_check _ _ he] at hc; cases hc

theorem select_rel {s : St} {a : Abs} (r : Rel s a) (v : Int) :
    ∃ b, Step s.types a (.select v) b (select s v).2 ∧ Rel (select s v).1 b ∧ (select s v).1.types = s.types := by
  unfold select
  rw [if_neg (show ¬ s.depth > 0 by rw [r.depth]; omega)]
  unfold write
  by_cases hv : 0 ≤ v ∧ v < s.names.length
  · rw [if_pos hv]
    obtain ⟨n, rfl⟩ := Int.eq_ofNat_of_zero_le hv.1
    have hn : n < s.names.length := by omega
    refine ⟨⟨a.all, some s.names[n]⟩, .select (by rw [r.all]; exact List.getElem?_eq_getElem hn), ?_, rfl⟩
    refine ⟨r.all, ?_, r.nodup, r.depth, r.queue, hv.1, ?_⟩
    · show some s.names[n] = s.names[(n : Int).toNat]?
      rw [Int.toNat_natCast, List.getElem?_eq_getElem hn]
    · have := hv.2
      show (n : Int) < max 1 (s.names.length : Int)
      omega
  · rw [if_neg hv]
    exact ⟨a, .outside (by rw [r.all]; omega), r, rfl⟩

theorem remove_rel {s : St} {a : Abs} (r : Rel s a) (c : Name) :
    ∃ b, Step s.types a (.remove c) b (remove s c).2 ∧ Rel (remove s c).1 b ∧ (remove s c).1.types = s.types := by
  unfold remove
  rw [locate_eq]
  by_cases hc : c ∈ s.names
  · rw [if_pos hc]
    simp only [Nat.zero_add]
    refine ⟨a.removed c, ?_⟩
    have hidx := List.idxOf_lt_length_of_mem hc
    have hlen : (s.names.erase c).length = s.names.length - 1 := List.length_erase_of_mem hc
    have hall : (a.removed c).all = s.names.erase c := by
      show a.all.filter _ = _; rw [r.all, erase_filter r.nodup]
    have hnd : (s.names.erase c).Nodup := r.nodup.erase c
    have hget : s.names[s.names.idxOf c]? = some c := by
      rw [List.getElem?_eq_getElem hidx, List.getElem_idxOf]
    have lo := r.low
    have hi := r.high
    have hne : 0 < s.names.length := by omega
    have hstep : Step s.types a (.remove c) (a.removed c) .ok := .remove (by rw [r.all]; exact hc)
    have hsrc : s.src.toNat < s.names.length := by omega
    by_cases h1 : s.src = (s.names.idxOf c : Int)
    · rw [if_pos h1]
      have hs : s.src.toNat = s.names.idxOf c := by omega
      have hab : (a.removed c).source = (s.names.erase c).head? := by
        show (if a.source = some c then (a.all.filter (fun n => n ≠ c)).head? else a.source) = _
        rw [if_pos (by rw [r.source, hs, hget]), r.all, erase_filter r.nodup]
      unfold select
      rw [if_neg (show ¬ (s.depth > 0) by rw [r.depth]; omega)]
      unfold write
      by_cases h2 : (0 : Int) ≤ 0 ∧ (0 : Int) < (s.names.erase c).length
      · simp only [if_pos h2]
        refine ⟨hstep, ⟨hall, ?_, hnd, r.depth, r.queue, by simp, ?_⟩, trivial⟩
        · rw [hab]; exact List.head?_eq_getElem?
        · show (0 : Int) < max 1 ((s.names.erase c).length : Int); omega
      · simp only [if_neg h2]
        have hnil : s.names.erase c = [] := by
          apply List.eq_nil_of_length_eq_zero; omega
        refine ⟨hstep, ⟨hall, ?_, hnd, r.depth, r.queue, r.low, ?_⟩, trivial⟩
        · rw [hab]; show _ = (s.names.erase c)[_]?; rw [hnil]; simp
        · show s.src < max 1 ((s.names.erase c).length : Int)
          omega
    · rw [if_neg h1]
      have hnot : a.source ≠ some c := by
        rw [r.source]
        intro e
        have := List.getElem?_eq_getElem hsrc
        rw [this] at e
        have e' : s.names[s.src.toNat] = c := by simpa using e
        have : s.names.idxOf c = s.src.toNat := by
          rw [← e']; exact r.nodup.idxOf_getElem _ hsrc
        omega
      have hab : (a.removed c).source = s.names[s.src.toNat]? := by
        show (if a.source = some c then (a.all.filter (fun n => n ≠ c)).head? else a.source) = _
        rw [if_neg hnot, r.source]
      by_cases h2 : s.src > (s.names.idxOf c : Int)
      · rw [if_pos h2]
        unfold select
        rw [if_neg (show ¬ (s.depth > 0) by rw [r.depth]; omega)]
        unfold write
        rw [if_pos (show 0 ≤ s.src - 1 ∧ s.src - 1 < ((s.names.erase c).length : Int) by omega)]
        refine ⟨hstep, ⟨hall, ?_, hnd, r.depth, r.queue, ?_, ?_⟩, rfl⟩
        · rw [hab]
          show _ = (s.names.erase c)[(s.src - 1).toNat]?
          rw [erase_get_ge (by omega)]
          congr 1; omega
        · show 0 ≤ s.src - 1; omega
        · show s.src - 1 < max 1 ((s.names.erase c).length : Int); omega
      · rw [if_neg h2]
        refine ⟨hstep, ⟨hall, ?_, hnd, r.depth, r.queue, r.low, ?_⟩, rfl⟩
        · rw [hab]
          exact (erase_get_lt (by show s.src.toNat < _; omega)).symm
        · show s.src < max 1 ((s.names.erase c).length : Int); omega
  · rw [if_neg hc]
    exact ⟨a, .unknown (by rw [r.all]; exact hc), r, rfl⟩

theorem step_rel {s : St} {a : Abs} (r : Rel s a) (o : Op) (ho : o ≠ .beginUpdate) :
    ∃ b, Step s.types a o b (step s o).2 ∧ Rel (step s o).1 b ∧ (step s o).1.types = typesAfter s.types o := by
  cases o with
  | add c => exact add_rel r c
  | remove c => exact remove_rel r c
  | select v => exact select_rel r v
  | beginUpdate => exact absurd rfl ho
  | endUpdate =>
    refine ⟨a, ?_, ?_, ?_⟩ <;> simp only [step, endUpdate, if_pos r.depth]
    · exact .notUpdating
    · exact r
    · rfl
  | setTypes t => exact ⟨a, .types, ⟨r.all, r.source, r.nodup, r.depth, r.queue, r.low, r.high⟩, rfl⟩

theorem run_rel : ∀ (l : List Op) (s : St) (a : Abs), Rel s a → (∀ o ∈ l, o ≠ Op.beginUpdate) →
    ∃ b, Run s.types a l b (run s l).2 ∧ Rel (run s l).1 b := by
  intro l
  induction l with
  | nil => intro s a r _; exact ⟨a, .nil, r⟩
  | cons o l ih =>
    intro s a r h
    obtain ⟨b, h1, h2, h3⟩ := step_rel r o (h o (by simp))
    obtain ⟨d, h4, h5⟩ := ih _ b h2 (fun x hx => h x (by simp [hx]))
    exact ⟨d, .cons h1 (h3 ▸ h4), h5⟩

theorem create_rel (t : Option (AList Name Ty)) : Rel (create t) ⟨[], none⟩ :=
  ⟨rfl, rfl, List.nodup_nil, rfl, rfl, Int.le_refl 0, show (0 : Int) < max 1 0 by decide⟩

/-! ## Updates -/

theorem write_sound {s : St} (h : Sound s.names s.src) (v : Int) :
    Sound (write s v).1.names (write s v).1.src ∧ (write s v).1.depth = s.depth := by
  unfold write
  split
  · next hv => exact ⟨fun _ => hv, rfl⟩
  · exact ⟨h, rfl⟩

theorem apply_sound : ∀ (l : List Int) (s : St), Sound s.names s.src →
    Sound (apply s l).1.names (apply s l).1.src ∧ (apply s l).1.depth = s.depth := by
  intro l
  induction l with
  | nil => intro s h; exact ⟨h, rfl⟩
  | cons v l ih =>
    intro s h
    have hw := write_sound h v
    unfold apply
    rcases hq : write s v with ⟨s', e⟩
    rw [hq] at hw
    cases e with
    | ok => have := ih s' hw.1; exact ⟨this.1, this.2.trans hw.2⟩
    | _ => exact hw

theorem add_grows (s : St) (c : Option Name) : (add s c).1 = s ∨ ∃ n, n ∉ s.names ∧ (add s c).1 = { s with names := s.names ++ [n] } := by
  cases c with
  | none => exact .inl rfl
  | some c =>
    unfold add
    simp only
    split
    · exact .inl rfl
    · cases ht : s.types with
      | none => exact .inl rfl
      | some t =>
        simp only
        cases check (t.length + 1) t c with
        | none => exact .inl rfl
        | some e =>
          cases e with
          | ok =>
            simp only [addProperty]
            split
            · exact .inl rfl
            · next h => exact .inr ⟨c, h, by simp [ht]⟩
          | _ => exact .inl rfl

end Verif.Sync
