import Verif.Security.LockLemmas
import Mathlib.Tactic.ByContra

/-! # Lemmas about the tree of locked devices -/

namespace Verif.Security.Lock

theorem edges_mem {par : Option Nat} {f : Devs} {p c : Nat} (h : (p, c) ∈ edges par f) :
    c ∈ ids f ∧ (p ∈ ids f ∨ par = some p) := by
  induction f generalizing par with
  | nil => simp [edges] at h
  | dev id kids next ihk ihn =>
    simp only [edges, List.mem_append] at h
    simp only [ids, List.mem_cons, List.mem_append]
    rcases h with (h | h) | h
    · cases par with
      | none => simp at h
      | some q => simp at h; simp [h.1, h.2]
    · obtain ⟨h1, h2⟩ := ihk h
      refine ⟨.inr (.inl h1), ?_⟩
      rcases h2 with h2 | h2
      · exact .inl (.inr (.inl h2))
      · cases h2; exact .inl (.inl rfl)
    · obtain ⟨h1, h2⟩ := ihn h
      refine ⟨.inr (.inr h1), ?_⟩
      rcases h2 with h2 | h2
      · exact .inl (.inr (.inr h2))
      · exact .inr h2

/-! ## A failing `lock` can be undone -/

theorem chosen_congr {sel sel' : Nat → Bool} (f : Devs) : ∀ n, (∀ x ∈ chosen sel n f, sel' x = true) →
    (∀ x, sel x = true) → chosen sel' n f = chosen sel n f := by
  induction f with
  | nil => intro n _ _; cases n <;> rfl
  | dev id kids next ihk ihn =>
    intro n h hs
    cases n with
    | zero => rfl
    | succ n =>
      simp only [chosen, hs, if_true] at h ⊢
      rw [h id (by simp), if_pos rfl, ihn n (fun x hx => h x (by simp [hx])) hs]

theorem run_lock_fail (us : Users) (u : Caller) (f : Devs) : ∀ par n s, (ids f).Nodup → (∀ p, par = some p → p ∉ ids f) →
    (∀ x ∈ ids f, s x = none ∨ ¬ CanLock us s u x) → (∀ e ∈ edges par f, s e.1 ≠ none → s e.2 ≠ none) →
    ∀ s' i e, run us u f .lock par (fun _ => true) n s = (s', some (i, e)) →
      s' = paint s (chosen (fun _ => true) i f) (some (norm us u)) ∧ ∀ x ∈ chosen (fun _ => true) i f, s x = none := by
  induction f with
  | nil => intro par n s _ _ _ _ s' i e h; rw [run_nil] at h; cases h
  | dev id kids next ihk ihn =>
    intro par n s hn hpar hH hC s' i e h
    have hn0 := hn
    simp only [ids, List.nodup_cons, List.mem_append, not_or] at hn
    obtain ⟨⟨hn1, hn2⟩, hn3⟩ := hn
    rw [List.nodup_append] at hn3
    obtain ⟨hn3, hn4, hn5⟩ := hn3
    have hCk : ∀ e ∈ edges (some id) kids, s e.1 ≠ none → s e.2 ≠ none := fun e he => hC e (by simp [edges, he])
    have hfirst : ∀ i, chosen (fun _ => true) i kids ≠ [] → (∀ x ∈ chosen (fun _ => true) i kids, s x = none) → s id = none := by
      intro i hne hx
      cases kids with
      | nil => cases i <;> simp [chosen] at hne
      | dev k kk kn =>
        cases i with
        | zero => simp [chosen] at hne
        | succ i =>
          have := hx k (by simp [chosen])
          by_contra hid
          exact hCk (id, k) (by simp [edges]) hid this
    cases n with
    | zero => rw [run_zero] at h; cases h
    | succ n =>
      have hkx := run_lock_exact us u kids (some id) (fun _ => true) kids.length s hn3
      rw [chosen_all kids _ (Nat.le_refl _)] at hkx
      rcases run_lock us u id kids next par (fun _ => true) n s rfl with ⟨s1, j, e1, k1, k2⟩ | ⟨s1, k1, ⟨hc, e1, k2⟩ | ⟨hc, k2⟩⟩
      · rw [k2] at h
        obtain ⟨g1, g2⟩ := ihk (some id) kids.length s hn3 (by rintro p hp; cases hp; exact hn1) (fun x hx => hH x (by simp [ids, hx])) hCk s1 j e1 k1
        have hsel : chosen (fun x => !isLocked s x) j kids = chosen (fun _ => true) j kids :=
          chosen_congr kids j (fun x hx => by simp [isLocked, g2 x hx]) (fun _ => rfl)
        have hux := run_unlock_exact us u kids (some id) (fun x => !isLocked s x) j s1 hn3
          (by rintro p hp; cases hp; exact hn1)
        rw [hsel] at hux
        have hok : (run us u kids .unlock (some id) (fun x => !isLocked s x) j s1).2 = none := by
          rw [hux.1]
          by_cases he : chosen (fun _ => true) j kids = []
          · exact .inl he
          · right
            constructor
            · have hid := hfirst j he g2
              simp only [parentLocked, isLocked, g1, paint]
              rw [if_neg (fun hx => hn1 (chosen_sub _ _ _ _ hx)), hid]; rfl
            · intro x hx
              unfold CanUnlock
              rw [g1]
              simp only [paint, hx, if_true]
              unfold norm
              cases u with
              | none => simp
              | some a =>
                dsimp only
                split
                · simp
                · exact .inr (.inr ⟨a, rfl, rfl⟩)
        have := hux.2 hok
        simp only [Prod.mk.injEq, Option.some.injEq] at h
        obtain ⟨h1, h2, h3⟩ := h
        subst h2
        rw [← h1, this]
        refine ⟨?_, by simp [chosen]⟩
        funext x
        rw [g1]
        simp only [paint, chosen, List.not_mem_nil, if_false]
        split
        · next hx => exact (g2 x hx).symm
        · rfl
      · rw [k2] at h
        rw [k1] at hkx
        have h1 := hkx.1.mp rfl
        have h2 := hkx.2 rfl
        dsimp only at h2
        simp only [Prod.mk.injEq, Option.some.injEq] at h
        obtain ⟨h3, h4, h5⟩ := h
        subst h4
        have hkn : ∀ x ∈ ids kids, s x = none := by
          intro x hx
          rcases hH x (by simp [ids, hx]) with h | h
          · exact h
          · exact absurd (h1 x hx) h
        have hnil : kids = .nil := by
          by_contra hne
          have hid : s id = none := by
            refine hfirst kids.length ?_ ?_
            · rw [chosen_all kids _ (Nat.le_refl _)]
              cases kids with
              | nil => exact absurd rfl hne
              | dev => simp [ids]
            · rw [chosen_all kids _ (Nat.le_refl _)]; exact hkn
          apply hc
          left
          unfold holder
          rw [h2]
          simp [paint, hn1, hid]
        subst hnil
        rw [← h3, h2]
        refine ⟨?_, by simp [chosen]⟩
        funext x
        simp [paint, ids, chosen]
      · rw [k1] at hkx
        have h1 := hkx.1.mp rfl
        have h2 := hkx.2 rfl
        dsimp only at h2
        rw [k2] at h
        subst h2
        generalize hs2 : (paint s (ids kids) (some (norm us u))).set id (some (norm us u)) = s2 at h
        have hsame : ∀ x ∈ ids next, s2 x = s x := by
          intro x hx
          rw [← hs2, set_ne (by rintro rfl; exact hn2 hx)]
          simp only [paint]
          rw [if_neg]
          intro hxk
          exact hn5 x hxk x hx rfl
        cases hr : run us u next .lock par (fun _ => true) n s2 with
        | mk s3 fl =>
          rw [hr] at h
          cases fl with
          | none => simp [Fail.next] at h
          | some q =>
            obtain ⟨j, e2⟩ := q
            simp only [Fail.next, Prod.mk.injEq, Option.some.injEq] at h
            obtain ⟨h3, h4, h5⟩ := h
            subst h4
            have hidn : s id = none := by
              rcases hH id (by simp [ids]) with h | h
              · exact h
              · exact absurd ((paint_congr (by simp [paint, hn1])).mp hc) h
            have hkn : ∀ x ∈ ids kids, s x = none := by
              intro x hx
              rcases hH x (by simp [ids, hx]) with h | h
              · exact h
              · exact absurd (h1 x hx) h
            have hs2p : ∀ p, par = some p → s2 p = s p := by
              intro p hp
              have := hpar p hp
              simp only [ids, List.mem_cons, List.mem_append, not_or] at this
              rw [← hs2, set_ne this.1]
              simp [paint, this.2.1]
            obtain ⟨g1, g2⟩ := ihn par n s2 hn4 (fun p hp hx => hpar p hp (by simp [ids, hx])) (by
                intro x hx
                rw [hsame x hx, paint_congr (hsame x hx)]
                exact hH x (by simp [ids, hx])) (by
                rintro ⟨p, c⟩ he hp
                obtain ⟨m1, m2⟩ := edges_mem he
                dsimp only at hp ⊢
                rw [hsame c m1]
                refine hC (p, c) (by simp [edges, he]) ?_
                rcases m2 with m2 | m2
                · rw [hsame p m2] at hp; exact hp
                · rw [hs2p p m2] at hp; exact hp) s3 j e2 hr
            constructor
            · rw [← h3, g1]
              funext x
              simp only [paint, chosen, if_true, List.mem_append, List.mem_cons]
              by_cases hx1 : x ∈ chosen (fun _ => true) j next
              · simp [hx1]
              · rw [if_neg hx1, ← hs2]
                by_cases hx2 : x = id
                · simp [hx2, set_eq]
                · rw [set_ne hx2]
                  by_cases hx3 : x ∈ ids kids <;> simp [paint, hx1, hx2, hx3]
            · intro x hx
              simp only [chosen, if_true, List.mem_append, List.mem_cons] at hx
              rcases hx with (rfl | hx) | hx
              · exact hidn
              · exact hkn x hx
              · rw [← hsame x (chosen_sub _ _ _ _ hx)]; exact g2 x hx

/-! ## Sub-devices of a locked device -/

def Cov (us : Users) (s : St) (E : List (Nat × Nat)) : Prop :=
  ∀ e ∈ E, holder us s e.1 ≠ none → holder us s e.2 = holder us s e.1

theorem cov_congr {us : Users} {s s' : St} {E : List (Nat × Nat)} (h : Cov us s E)
    (hs : ∀ e ∈ E, s' e.1 = s e.1 ∧ s' e.2 = s e.2) : Cov us s' E := by
  intro e he hp
  obtain ⟨h1, h2⟩ := hs e he
  unfold holder at hp ⊢
  rw [h1] at hp ⊢
  rw [h2]
  exact h e he hp

theorem cov_run (us : Users) (u : Caller) (f : Devs) : ∀ c par sel n s, (ids f).Nodup →
    (∀ p, par = some p → p ∉ ids f) → Cov us s (edges par f) → Cov us (run us u f c par sel n s).1 (edges par f) := by
  induction f with
  | nil => intro c par sel n s _ _ _; exact fun e he => (by simp [edges] at he)
  | dev id kids next ihk ihn =>
    intro c par sel n s hn hpar hC
    have hn0 := hn
    simp only [ids, List.nodup_cons, List.mem_append, not_or] at hn
    obtain ⟨⟨hn1, hn2⟩, hn3⟩ := hn
    rw [List.nodup_append] at hn3
    obtain ⟨hn3, hn4, hn5⟩ := hn3
    have hparI : ∀ p, par = some p → p ≠ id ∧ p ∉ ids kids ∧ p ∉ ids next := by
      intro p hp
      have := hpar p hp
      simp only [ids, List.mem_cons, List.mem_append, not_or] at this
      exact this
    have hidk : ∀ p, some id = some p → p ∉ ids kids := by rintro p hp; cases hp; exact hn1
    have hE : ∀ s' : St, Cov us s' (edges par (.dev id kids next)) ↔
        (∀ p, par = some p → holder us s' p ≠ none → holder us s' id = holder us s' p) ∧
        Cov us s' (edges (some id) kids) ∧ Cov us s' (edges par next) := by
      intro s'
      unfold Cov
      simp only [edges, List.mem_append]
      constructor
      · intro h
        refine ⟨?_, fun e he => h e (.inl (.inr he)), fun e he => h e (.inr he)⟩
        rintro p rfl
        exact h (p, id) (.inl (.inl (by simp)))
      · rintro ⟨h1, h2, h3⟩ e ((he | he) | he)
        · cases par with
          | none => simp at he
          | some p => simp at he; subst he; exact h1 p rfl
        · exact h2 e he
        · exact h3 e he
    obtain ⟨c1, c2, c3⟩ := (hE s).mp hC
    -- a state that differs from `s` only below `id`
    have below : ∀ s' : St, (∀ x, x ∉ ids kids → s' x = s x) → Cov us s' (edges (some id) kids) →
        Cov us s' (edges par (.dev id kids next)) := by
      intro s' hs' hk
      refine (hE s').mpr ⟨?_, hk, ?_⟩
      · intro p hp
        unfold holder
        rw [hs' p (hparI p hp).2.1, hs' id hn1]
        exact c1 p hp
      · refine cov_congr c3 ?_
        rintro ⟨p, c⟩ he
        obtain ⟨m1, m2⟩ := edges_mem he
        refine ⟨hs' p ?_, hs' c (fun hk => hn5 c hk c m1 rfl)⟩
        rcases m2 with m2 | m2
        · exact fun hk => hn5 p hk p m2 rfl
        · exact (hparI p m2).2.1
    -- going on with the next device
    have onward : ∀ (s2 : St) c n, (∀ x, x ∉ id :: ids kids → s2 x = s x) →
        (∀ p, par = some p → holder us s2 p ≠ none → holder us s2 id = holder us s2 p) →
        Cov us s2 (edges (some id) kids) → Cov us (run us u next c par sel n s2).1 (edges par (.dev id kids next)) := by
      intro s2 c n hs2 hid hk
      have hfr : ∀ x, x ∉ ids next → (run us u next c par sel n s2).1 x = s2 x :=
        fun x hx => run_frame us u next c par sel n s2 x hx
      refine (hE _).mpr ⟨?_, ?_, ?_⟩
      · intro p hp
        unfold holder
        rw [hfr p (hparI p hp).2.2, hfr id hn2]
        exact hid p hp
      · refine cov_congr hk ?_
        rintro ⟨p, c⟩ he
        obtain ⟨m1, m2⟩ := edges_mem he
        refine ⟨hfr p ?_, hfr c (fun hx => hn5 c m1 c hx rfl)⟩
        rcases m2 with m2 | m2
        · exact fun hx => hn5 p m2 p hx rfl
        · cases m2; exact hn2
      · refine ihn c par sel n s2 hn4 (fun p hp => (hparI p hp).2.2) (cov_congr c3 ?_)
        rintro ⟨p, c⟩ he
        obtain ⟨m1, m2⟩ := edges_mem he
        constructor
        · refine hs2 p ?_
          simp only [List.mem_cons, not_or]
          rcases m2 with m2 | m2
          · exact ⟨by rintro rfl; exact hn2 m2, fun hk => hn5 p hk p m2 rfl⟩
          · exact ⟨(hparI p m2).1, (hparI p m2).2.1⟩
        · refine hs2 c ?_
          simp only [List.mem_cons, not_or]
          exact ⟨by rintro rfl; exact hn2 m1, fun hk => hn5 c hk c m1 rfl⟩
    cases n with
    | zero => rw [run_zero]; exact hC
    | succ n =>
      cases hs : sel id with
      | false =>
        rw [run_skip us u id kids next par sel n s c hs]
        exact onward s c n (fun _ _ => rfl) c1 c2
      | true =>
        cases c with
        | lock =>
          have hk := ihk .lock (some id) (fun _ => true) kids.length s hn3 hidk c2
          have hf := run_frame us u kids .lock (some id) (fun _ => true) kids.length s
          have hx := run_lock_exact us u kids (some id) (fun _ => true) kids.length s hn3
          rcases run_lock us u id kids next par sel n s hs with ⟨s1, i, e, k1, k2⟩ | ⟨s1, k1, ⟨-, e, k2⟩ | ⟨hc, k2⟩⟩
          · rw [k2]
            rw [k1] at hk hf
            refine below _ ?_ (ihk _ _ _ _ _ hn3 hidk hk)
            intro x hx
            rw [run_frame us u kids _ _ _ _ _ x hx]
            exact hf x hx
          · rw [k2]
            rw [k1] at hk hf
            exact below _ hf hk
          · rw [k2]
            rw [k1] at hk hf hx
            have hpaint := hx.2 rfl
            rw [chosen_all kids _ (Nat.le_refl _)] at hpaint
            dsimp only at hpaint
            have hall : ∀ x ∈ id :: ids kids, s1.set id (some (norm us u)) x = some (norm us u) := by
              intro x hx
              by_cases e : x = id
              · rw [e, set_eq]
              · rw [set_ne e, hpaint]
                simp only [List.mem_cons, e, false_or] at hx
                simp [paint, hx]
            refine onward _ _ _ ?_ ?_ ?_
            · intro x hx
              simp only [List.mem_cons, not_or] at hx
              rw [set_ne hx.1]
              exact hf x hx.2
            · intro p hp
              have h1 : s1.set id (some (norm us u)) p = s p := by
                rw [set_ne (hparI p hp).1]; exact hf p (hparI p hp).2.1
              unfold holder
              rw [h1, set_eq]
              intro hne
              have h2 := c1 p hp hne
              unfold CanLock at hc
              have h3 : holder us s1 id = holder us s id := by unfold holder; rw [show s1 id = s id from hf id hn1]
              rw [h3, h2] at hc
              rcases hc with hc | hc
              · exact absurd hc hne
              · show some ((norm us u).map us) = holder us s p
                rw [norm_who, hc]
            · rintro ⟨p, c⟩ he hne
              obtain ⟨m1, m2⟩ := edges_mem he
              unfold holder
              dsimp only
              rw [hall c (by simp [m1]), hall p (by
                rcases m2 with m2 | m2
                · simp [m2]
                · cases m2; simp)]
        | unlock =>
          have ha : Cov us (s.set id none) (edges (some id) kids) := by
            rintro ⟨p, c⟩ he hne
            obtain ⟨m1, m2⟩ := edges_mem he
            have hpne : p ≠ id := by
              rintro rfl
              exact hne (by unfold holder; rw [set_eq]; rfl)
            unfold holder at hne ⊢
            dsimp only at hne ⊢
            rw [set_ne hpne] at hne ⊢
            rw [set_ne (by rintro rfl; exact hn1 m1)]
            exact c2 (p, c) he hne
          have hk := ihk .unlock (some id) (fun _ => true) kids.length (s.set id none) hn3 hidk ha
          have hf := run_frame us u kids .unlock (some id) (fun _ => true) kids.length (s.set id none)
          rcases run_unlock us u id kids next par sel n s hs with ⟨-, e, k2⟩ | ⟨hp1, hc, ⟨s2, i, e, k1, k2⟩ | ⟨s2, k1, k2⟩⟩
          · rw [k2]; exact hC
          · rw [k2]
            rw [k1] at hk hf
            have hk2 := ihk .lock (some id) (fun x => isLocked (s.set id none) x) i s2 hn3 hidk hk
            have hf2 := run_frame us u kids .lock (some id) (fun x => isLocked (s.set id none) x) i s2
            dsimp only
            generalize (run us u kids .lock (some id) (fun x => isLocked (s.set id none) x) i s2).1 = s3 at hk2 hf2
            have hs3 : ∀ x, x ∉ id :: ids kids → s3 x = s x := by
              intro x hx
              simp only [List.mem_cons, not_or] at hx
              rw [hf2 x hx.2]
              exact (hf x hx.2).trans (set_ne hx.1)
            have := onward s3 .lock 0 hs3 (by
              intro p hp hne
              exfalso
              apply hne
              subst hp
              have := hs3 p (by simp only [List.mem_cons, not_or]; exact ⟨(hparI p rfl).1, (hparI p rfl).2.1⟩)
              unfold holder
              rw [this]
              simp only [parentLocked, isLocked] at hp1
              cases hsp : s p with
              | none => rfl
              | some _ => rw [hsp] at hp1; exact nomatch hp1) hk2
            rw [run_zero] at this
            exact this
          · rw [k2]
            rw [k1] at hk hf
            refine onward _ _ _ ?_ ?_ hk
            · intro x hx
              simp only [List.mem_cons, not_or] at hx
              exact (hf x hx.2).trans (set_ne hx.1)
            · intro p hp hne
              exfalso
              apply hne
              subst hp
              unfold holder
              rw [show s2 p = s p from (hf p (hparI p rfl).2.1).trans (set_ne (hparI p rfl).1)]
              simp only [parentLocked, isLocked] at hp1
              cases hsp : s p with
              | none => rfl
              | some _ => rw [hsp] at hp1; exact nomatch hp1

/-! ## `forceUnlock` -/

theorem force_exact (f : Devs) : ∀ par s, (ids f).Nodup → (∀ p, par = some p → p ∉ ids f) → parentLocked s par = false →
    force f par s = (paint s (ids f) none, none) := by
  induction f with
  | nil => intro par s _ _ _; simp only [force, ids]; congr 1
  | dev id kids next ihk ihn =>
    intro par s hn hpar hp
    simp only [ids, List.nodup_cons, List.mem_append, not_or] at hn
    obtain ⟨⟨hn1, hn2⟩, hn3⟩ := hn
    rw [List.nodup_append] at hn3
    obtain ⟨hn3, hn4, hn5⟩ := hn3
    rw [force, forceUnlockInternal, if_neg (by simp [hp])]
    dsimp only
    rw [ihk (some id) (s.set id none) hn3 (by rintro p hp; cases hp; exact hn1) (by simp [parentLocked, isLocked, set_eq])]
    dsimp only
    have hpn : ∀ p, par = some p → p ∉ ids next := fun p h hh => hpar p h (by simp [ids, hh])
    rw [ihn par _ hn4 hpn (by
      cases par with
      | none => rfl
      | some p =>
        have := hpar p rfl
        simp only [ids, List.mem_cons, List.mem_append, not_or] at this
        simp only [parentLocked, isLocked, paint, if_neg this.2.1, set_ne this.1]
        exact hp)]
    congr 1
    funext x
    simp only [paint, ids, List.mem_cons, List.mem_append, St.set]
    by_cases hx1 : x ∈ ids next
    · simp [hx1]
    · by_cases hx2 : x ∈ ids kids
      · simp [hx2]
      · by_cases hx3 : x = id <;> simp [hx1, hx2, hx3]

/-! ## Devices of a tree -/

theorem find_at {id : Nat} {t : Devs} {p0 par : Option Nat} {ks : Devs} (h : find id t p0 = some (par, ks)) :
    At t p0 par id ks := by
  induction t generalizing p0 with
  | nil => simp [find] at h
  | dev x kids next ihk ihn =>
    unfold find at h
    split at h
    · next e => subst e; simp at h; obtain ⟨rfl, rfl⟩ := h; exact .here _ _ _ _
    · split at h
      · next r hr => cases h; exact .kid _ _ _ (ihk hr)
      · exact .next _ _ _ (ihn h)

theorem find_none {id : Nat} {t : Devs} {p0 : Option Nat} (h : id ∉ ids t) : find id t p0 = none := by
  induction t generalizing p0 with
  | nil => rfl
  | dev x kids next ihk ihn =>
    simp only [ids, List.mem_cons, List.mem_append, not_or] at h
    unfold find
    rw [if_neg (fun e => h.1 e.symm), ihk h.2.1, ihn h.2.2]

structure Facts (t : Devs) (p0 par : Option Nat) (id : Nat) (ks : Devs) : Prop where
  found : find id t p0 = some (par, ks)
  sub : ∀ x ∈ id :: ids ks, x ∈ ids t
  nodup : (ids (.dev id ks .nil)).Nodup
  parent : ∀ p, par = some p → p ∉ id :: ids ks
  into : ∀ p c, (p, c) ∈ edges p0 t → c ∈ id :: ids ks → (p, c) ∈ edges par (.dev id ks .nil)
  outof : ∀ p c, (p, c) ∈ edges p0 t → p ∈ id :: ids ks → c ∈ id :: ids ks
  edge : ∀ e ∈ edges par (.dev id ks .nil), e ∈ edges p0 t

theorem at_facts {t : Devs} {p0 par : Option Nat} {id : Nat} {ks : Devs} (h : At t p0 par id ks) (hn : (ids t).Nodup)
    (hp0 : ∀ p, p0 = some p → p ∉ ids t) : Facts t p0 par id ks := by
  induction h with
  | here id kids next par =>
    simp only [ids, List.nodup_cons, List.mem_append, not_or] at hn
    obtain ⟨⟨hn1, hn2⟩, hn3⟩ := hn
    rw [List.nodup_append] at hn3
    obtain ⟨hn3, hn4, hn5⟩ := hn3
    have hpar : ∀ p, par = some p → p ≠ id ∧ p ∉ ids kids ∧ p ∉ ids next := by
      intro p hp
      have := hp0 p hp
      simp only [ids, List.mem_cons, List.mem_append, not_or] at this
      exact this
    have hnext : ∀ x, x ∈ ids next → x ∉ id :: ids kids := by
      intro x hx h
      rcases List.mem_cons.mp h with rfl | h
      · exact hn2 hx
      · exact hn5 x h x hx rfl
    refine ⟨by simp [find], by intro x hx; simp [ids] at hx ⊢; rcases hx with h | h <;> simp [h],
      by simp [ids, hn1, hn3], fun p hp => by simp [hpar p hp], ?_, ?_, ?_⟩
    · intro p c he hc
      simp only [edges, List.mem_append] at he ⊢
      rcases he with he | he
      · exact .inl he
      · exact absurd hc (hnext c (edges_mem he).1)
    · intro p c he hp
      simp only [edges, List.mem_append] at he
      rcases he with (he | he) | he
      · cases par with
        | none => simp at he
        | some q => simp at he; simp [he.2]
      · exact List.mem_cons_of_mem _ (edges_mem he).1
      · rcases (edges_mem he).2 with h | h
        · exact absurd hp (hnext p h)
        · have := hpar p h
          simp [this] at hp
    · intro e he
      simp only [edges, List.mem_append, List.not_mem_nil, or_false] at he ⊢
      exact .inl he
  | @kid kids par id ks x next p0 hat ih =>
    have hn' := hn
    simp only [ids, List.nodup_cons, List.mem_append, not_or] at hn
    obtain ⟨⟨hn1, hn2⟩, hn3⟩ := hn
    rw [List.nodup_append] at hn3
    obtain ⟨hn3, hn4, hn5⟩ := hn3
    have f := ih hn3 (by rintro p hp; cases hp; exact hn1)
    have hidk := f.sub id (by simp)
    have hpar : ∀ p, p0 = some p → p ≠ x ∧ p ∉ ids kids ∧ p ∉ ids next := by
      intro p hp
      have := hp0 p hp
      simp only [ids, List.mem_cons, List.mem_append, not_or] at this
      exact this
    refine ⟨?_, fun y hy => by simp [ids, f.sub y hy], f.nodup, f.parent, ?_, ?_, ?_⟩
    · unfold find
      rw [if_neg (by rintro rfl; exact hn1 hidk), f.found]
    · intro p c he hc
      simp only [edges, List.mem_append] at he
      have hck := f.sub c hc
      rcases he with (he | he) | he
      · cases p0 with
        | none => simp at he
        | some q => simp at he; rw [he.2] at hck; exact absurd hck hn1
      · exact f.into p c he hc
      · exact absurd rfl (hn5 c hck c (edges_mem he).1)
    · intro p c he hp
      simp only [edges, List.mem_append] at he
      have hpk := f.sub p hp
      rcases he with (he | he) | he
      · cases p0 with
        | none => simp at he
        | some q => simp at he; rw [he.1] at hpk; exact absurd hpk (hpar q rfl).2.1
      · exact f.outof p c he hp
      · rcases (edges_mem he).2 with h | h
        · exact absurd rfl (hn5 p hpk p h)
        · exact absurd hpk (hpar p h).2.1
    · intro e he
      simp only [edges, List.mem_append]
      exact .inl (.inr (f.edge e he))
  | @next next par id ks x kids p0 hat ih =>
    have hn' := hn
    simp only [ids, List.nodup_cons, List.mem_append, not_or] at hn
    obtain ⟨⟨hn1, hn2⟩, hn3⟩ := hn
    rw [List.nodup_append] at hn3
    obtain ⟨hn3, hn4, hn5⟩ := hn3
    have hpar : ∀ p, p0 = some p → p ≠ x ∧ p ∉ ids kids ∧ p ∉ ids next := by
      intro p hp
      have := hp0 p hp
      simp only [ids, List.mem_cons, List.mem_append, not_or] at this
      exact this
    have f := ih hn4 (fun p hp => (hpar p hp).2.2)
    have hidn := f.sub id (by simp)
    refine ⟨?_, fun y hy => by simp [ids, f.sub y hy], f.nodup, f.parent, ?_, ?_, ?_⟩
    · unfold find
      rw [if_neg (by rintro rfl; exact hn2 hidn), find_none (fun hk => hn5 id hk id hidn rfl)]
      exact f.found
    · intro p c he hc
      simp only [edges, List.mem_append] at he
      have hcn := f.sub c hc
      rcases he with (he | he) | he
      · cases p0 with
        | none => simp at he
        | some q => simp at he; rw [he.2] at hcn; exact absurd hcn hn2
      · exact absurd rfl (hn5 c (edges_mem he).1 c hcn)
      · exact f.into p c he hc
    · intro p c he hp
      simp only [edges, List.mem_append] at he
      have hpn := f.sub p hp
      rcases he with (he | he) | he
      · cases p0 with
        | none => simp at he
        | some q => simp at he; rw [he.1] at hpn; exact absurd hpn (hpar q rfl).2.2
      · rcases (edges_mem he).2 with h | h
        · exact absurd rfl (hn5 p h p hpn)
        · cases h; exact absurd hpn hn2
      · exact f.outof p c he hp
    · intro e he
      simp only [edges, List.mem_append]
      exact .inr (f.edge e he)

theorem ids_single (id : Nat) (ks : Devs) : ids (.dev id ks .nil) = id :: ids ks := by simp [ids]

theorem chosen_single (id : Nat) (ks : Devs) : chosen (fun _ => true) 1 (.dev id ks .nil) = id :: ids ks := by
  simp [chosen]

/-- A change below one device keeps the cover. -/
theorem cov_lift {us : Users} {s s' : St} {t : Devs} {par : Option Nat} {id : Nat} {ks : Devs}
    (f : Facts t none par id ks) (h : Covered us s t) (hf : ∀ x, x ∉ id :: ids ks → s' x = s x)
    (hc : Cov us s' (edges par (.dev id ks .nil))) : Covered us s' t := by
  rintro ⟨p, c⟩ he hne
  by_cases hcm : c ∈ id :: ids ks
  · exact hc (p, c) (f.into p c he hcm) hne
  · have hpm : p ∉ id :: ids ks := fun hp => hcm (f.outof p c he hp)
    unfold holder at hne ⊢
    dsimp only at hne ⊢
    rw [hf p hpm] at hne ⊢
    rw [hf c hcm]
    exact h (p, c) he hne

theorem covered_step {us : Users} {t : Devs} (hn : (ids t).Nodup) {s : St} (h : Covered us s t) (op : Op) :
    Covered us (step us t s op).1 t := by
  have hsub : ∀ {par id ks}, Facts t none par id ks → Cov us s (edges par (.dev id ks .nil)) :=
    fun f e he => h e (f.edge e he)
  cases op with
  | lock id u =>
    simp only [step]
    cases hf : find id t none with
    | none => exact h
    | some q =>
      obtain ⟨par, ks⟩ := q
      have f := at_facts (find_at hf) hn (by simp)
      refine cov_lift f h ?_ (cov_run us u _ _ _ _ _ _ f.nodup (by rw [ids_single]; exact f.parent) (hsub f))
      intro x hx
      exact run_frame us u _ _ _ _ _ _ x (by rw [ids_single]; exact hx)
  | unlock id u =>
    simp only [step]
    cases hf : find id t none with
    | none => exact h
    | some q =>
      obtain ⟨par, ks⟩ := q
      have f := at_facts (find_at hf) hn (by simp)
      refine cov_lift f h ?_ (cov_run us u _ _ _ _ _ _ f.nodup (by rw [ids_single]; exact f.parent) (hsub f))
      intro x hx
      exact run_frame us u _ _ _ _ _ _ x (by rw [ids_single]; exact hx)
  | forceUnlock id =>
    simp only [step]
    cases hf : find id t none with
    | none => exact h
    | some q =>
      obtain ⟨par, ks⟩ := q
      have f := at_facts (find_at hf) hn (by simp)
      dsimp only
      cases hp : parentLocked s par with
      | true =>
        rw [force, forceUnlockInternal, if_pos hp]
        exact h
      | false =>
        rw [force_exact _ par s f.nodup (by rw [ids_single]; exact f.parent) hp]
        dsimp only
        rw [ids_single]
        refine cov_lift f h (fun x hx => by simp only [paint]; rw [if_neg hx]) ?_
        rintro ⟨p, c⟩ he hne
        exfalso
        apply hne
        obtain ⟨m1, m2⟩ := edges_mem he
        rw [ids_single] at m1 m2
        unfold holder
        rcases m2 with m2 | m2
        · simp only [paint]; rw [if_pos m2]; rfl
        · simp only [paint]
          rw [if_neg (f.parent p m2)]
          rw [m2] at hp
          simp only [parentLocked, isLocked] at hp
          cases hsp : s p with
          | none => rfl
          | some _ => rw [hsp] at hp; exact nomatch hp

theorem covered_exec {us : Users} {t : Devs} (hn : (ids t).Nodup) (ops : List Op) : Covered us (exec us t ops).1 t := by
  induction ops using list_snoc_induction with
  | nil => intro e _ hne; exact absurd rfl hne
  | snoc ops op ih =>
    unfold exec at ih ⊢
    rw [runTrace_snoc]
    exact covered_step hn ih op

end Verif.Security.Lock
