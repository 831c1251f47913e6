import Verif.Sched.Loop
/-!
# The main loop: what becomes of works
-/

namespace Verif.Sched

open Spec

/-- What a call has still to run. -/
def curOf : Option Frame → List Item
  | some ⟨_, some c, _⟩ => c
  | _ => []

/-- What all calls have still to run. -/
def held (l : List (Option Frame)) : List Item := l.flatMap curOf

theorem held_snoc (l : List (Option Frame)) (f : Option Frame) :
    held (l ++ [f]) = held l ++ curOf f := by simp [held]

theorem held_count (x : Item) (o : Option Frame) : ∀ (l : List (Option Frame)) (i : Nat) (f : Option Frame),
    l[i]? = some f → (held (l.set i o)).count x + (curOf f).count x = (held l).count x + (curOf o).count x
  | [], i, f, h => by simp at h
  | a :: l, 0, f, h => by
    simp at h; subst h
    simp only [held, List.set_cons_zero, List.flatMap_cons, List.count_append]; omega
  | a :: l, i + 1, f, h => by
    have := held_count x o l i f (by simpa using h)
    simp only [held] at this
    simp only [held, List.set_cons_succ, List.flatMap_cons, List.count_append]; omega

/-- The books are balanced: what was accepted and runs once has run, or is still to be run. -/
structure Books (s : St) (l : List Ev) : Prop where
  fresh : ∀ x ∈ posted l, x.tag < s.next
  nodup : (posted l).Nodup
  once : ∀ x : Item, x.kind ≠ .repeating →
    (posted l).count x = (ran l).count x + s.queue.count x + (held s.frames).count x
  all : ∀ x ∈ posted l, x ∈ ran l ∨ x ∈ s.queue ∨ x ∈ held s.frames
  queue : ∀ x ∈ s.queue, x ∈ posted l
  held : ∀ x ∈ held s.frames, x ∈ posted l
  ran : ∀ x ∈ ran l, x ∈ posted l
  kept : ∀ (i : Nat) (f : Frame), s.frames[i]? = some (some f) → ∀ x ∈ f.kept,
    x.kind = .repeating ∧ x ∈ Spec.ran l

theorem mem_held {x : Item} {l : List (Option Frame)} : x ∈ held l ↔ 0 < (held l).count x :=
  List.count_pos_iff.symm

theorem kept_new {s : St} {l : List Ev} {i : Nat} {f : Frame} {o : Option Frame} {l' : List Ev}
    (h : ∀ (i : Nat) (f : Frame), s.frames[i]? = some (some f) → ∀ x ∈ f.kept,
      x.kind = .repeating ∧ x ∈ Spec.ran l) (hi : s.frames[i]? = some (some f))
    (hl : ∀ x ∈ Spec.ran l, x ∈ Spec.ran l')
    (ho : ∀ g, o = some g → ∀ x ∈ g.kept, x.kind = .repeating ∧ x ∈ Spec.ran l') :
    ∀ (j : Nat) (g : Frame), (s.frames.set i o)[j]? = some (some g) → ∀ x ∈ g.kept,
      x.kind = .repeating ∧ x ∈ Spec.ran l' := by
  intro j g hj x hx
  rcases set_active hi hj with ⟨_, e⟩ | ⟨_, e⟩
  · exact ho g e x hx
  · exact ⟨(h j g e x hx).1, hl x (h j g e x hx).2⟩

theorem books_step (s s' : St) (l e : List Ev) (t : Tr s s' e) (h : Books s l) : Books s' (l ++ e) := by
  cases t with
  | none => simpa using h
  | refused hr =>
    exact ⟨by simpa [posted] using h.fresh, by simpa [posted] using h.nodup,
      by simpa [posted, Spec.ran] using h.once, by simpa [posted, Spec.ran] using h.all,
      by simpa [posted] using h.queue, by simpa [posted] using h.held,
      by simpa [posted, Spec.ran] using h.ran, by simpa [Spec.ran] using h.kept⟩
  | post k =>
    have hn : (⟨s.next, k⟩ : Item) ∉ posted l := fun hm => by have := h.fresh _ hm; simp at this
    refine ⟨?_, ?_, ?_, ?_, ?_, ?_, ?_, ?_⟩
    · intro x hx
      simp [posted] at hx
      rcases hx with hx | hx
      · have := h.fresh x hx; exact Nat.lt_succ_of_lt this
      · subst hx; exact Nat.lt_succ_self _
    · simp only [posted_append, posted]
      rw [List.nodup_append]
      refine ⟨h.nodup, by simp, ?_⟩
      intro a ha b hb
      simp at hb; subst hb
      intro e; subst e; exact hn ha
    · intro x hx
      have := h.once x hx
      simp only [posted_append, posted, ran_append, Spec.ran, List.count_append, List.append_nil]
      omega
    · intro x hx
      simp [posted] at hx
      rcases hx with hx | hx
      · rcases h.all x hx with h | h | h
        · exact .inl (by simp [Spec.ran, h])
        · exact .inr (.inl (by simp [h]))
        · exact .inr (.inr h)
      · subst hx; exact .inr (.inl (by simp))
    · intro x hx
      simp at hx
      rcases hx with hx | hx
      · simp [posted, h.queue x hx]
      · subst hx; simp [posted]
    · intro x hx; simp [posted, h.held x hx]
    · intro x hx
      simp [Spec.ran] at hx; simp [posted, h.ran x hx]
    · simpa [Spec.ran] using h.kept
  | single hr =>
    refine ⟨by simpa [posted] using h.fresh, by simpa [posted] using h.nodup, ?_, ?_, by simp, ?_,
      by simpa [posted, Spec.ran] using h.ran, ?_⟩
    · intro x hx
      have := h.once x hx
      simp only [posted_append, posted, ran_append, Spec.ran, List.append_nil, held_snoc, curOf,
        List.count_append, List.count_nil]
      omega
    · intro x hx
      simp [posted] at hx
      rcases h.all x hx with h | h | h
      · exact .inl (by simp [Spec.ran, h])
      · exact .inr (.inr (by rw [held_snoc]; simp [curOf, h]))
      · exact .inr (.inr (by rw [held_snoc]; simp [h]))
    · intro x hx
      rw [held_snoc] at hx
      simp [curOf] at hx
      rcases hx with hx | hx
      · simp [posted, h.held x hx]
      · simp [posted, h.queue x hx]
    · intro i f hf x hx
      rcases snoc_get hf with ⟨_, e⟩ | e
      · cases e; simp at hx
      · simpa [Spec.ran] using h.kept i f e x hx
  | loop hr =>
    refine ⟨by simpa [posted] using h.fresh, by simpa [posted] using h.nodup, ?_, ?_,
      by simpa [posted] using h.queue, ?_, by simpa [posted, Spec.ran] using h.ran, ?_⟩
    · intro x hx
      have := h.once x hx
      simp only [posted_append, posted, ran_append, Spec.ran, List.append_nil, held_snoc, curOf]
      omega
    · intro x hx
      simp [posted] at hx
      rcases h.all x hx with h | h | h
      · exact .inl (by simp [Spec.ran, h])
      · exact .inr (.inl h)
      · exact .inr (.inr (by rw [held_snoc]; simp [h]))
    · intro x hx
      rw [held_snoc] at hx
      simp [curOf] at hx
      simp [posted, h.held x hx]
    · intro i f hf x hx
      rcases snoc_get hf with ⟨_, e⟩ | e
      · cases e; simp at hx
      · simpa [Spec.ran] using h.kept i f e x hx
  | wake i b k hi =>
    have hc := fun x => held_count x (some ⟨b, some s.queue, k⟩) s.frames i _ hi
    simp only [curOf, List.count_nil, Nat.add_zero] at hc
    simp only [List.append_nil]
    refine ⟨h.fresh, h.nodup, ?_, ?_, by simp, ?_, h.ran, ?_⟩
    · intro x hx
      have := h.once x hx
      have := hc x
      simp only [List.count_nil]
      omega
    · intro x hx
      rcases h.all x hx with h | h | h
      · exact .inl h
      · refine .inr (.inr ?_); rw [mem_held]; have := hc x
        have := List.count_pos_iff.mpr h; simp only; omega
      · refine .inr (.inr ?_); rw [mem_held] at *; have := hc x; simp only; omega
    · intro x hx
      rw [mem_held] at hx
      have := hc x
      simp only at hx
      by_cases hq : x ∈ s.queue
      · exact h.queue x hq
      · rw [List.count_eq_zero_of_not_mem hq] at this
        exact h.held x (mem_held.mpr (by omega))
    · refine kept_new h.kept hi (fun _ h => h) ?_
      intro g e x hx
      cases e; exact h.kept i _ hi x hx
  | exec i b x r k a hi =>
    have hc := fun y => held_count y (some ⟨b, some r,
      if x.kind = .repeating ∧ a = true then k ++ [x] else k⟩) s.frames i _ hi
    simp only [curOf] at hc
    have hx : x ∈ posted l := by
      refine h.held x (mem_held.mpr ?_)
      have := hc x; simp at this; omega
    refine ⟨by simpa [posted] using h.fresh, by simpa [posted] using h.nodup, ?_, ?_,
      by simpa [posted] using h.queue, ?_, ?_, ?_⟩
    · intro y hy
      have h1 := h.once y hy
      have h2 := hc y
      simp only [posted_append, posted, ran_append, Spec.ran, List.append_nil, List.count_append]
      rw [List.count_cons] at h2
      rw [List.count_cons, List.count_nil]
      omega
    · intro y hy
      simp [posted] at hy
      by_cases e : y = x
      · subst e; exact .inl (by simp [Spec.ran])
      · rcases h.all y hy with h | h | h
        · exact .inl (by simp [Spec.ran, h])
        · exact .inr (.inl h)
        · refine .inr (.inr ?_)
          rw [mem_held] at *
          have := hc y
          rw [List.count_cons_of_ne (Ne.symm e)] at this
          simp only; omega
    · intro y hy
      simp only [posted_append, posted, List.append_nil]
      rw [mem_held] at hy
      simp only at hy
      have h2 := hc y
      by_cases e : y = x
      · subst e; exact hx
      · rw [List.count_cons_of_ne (Ne.symm e)] at h2
        exact h.held y (mem_held.mpr (by omega))
    · intro y hy
      simp [Spec.ran] at hy
      rcases hy with hy | hy
      · simp [posted, h.ran y hy]
      · subst hy; simpa [posted] using hx
    · refine kept_new h.kept hi (fun y hy => by simp [hy]) ?_
      intro g e y hy
      cases e
      simp only at hy
      split at hy
      · rename_i hk
        simp at hy
        rcases hy with hy | hy
        · have := h.kept i _ hi y hy; exact ⟨this.1, by simp [this.2]⟩
        · subst hy; exact ⟨hk.1, by simp [Spec.ran]⟩
      · have := h.kept i _ hi y hy; exact ⟨this.1, by simp [this.2]⟩
  | again i k hi hr =>
    have hc := fun x => held_count x (some ⟨false, none, []⟩) s.frames i _ hi
    simp only [curOf, List.count_nil, Nat.add_zero] at hc
    have hk := h.kept i _ hi
    simp only at hk
    simp only [List.append_nil]
    refine ⟨h.fresh, h.nodup, ?_, ?_, ?_, ?_, h.ran, ?_⟩
    · intro x hx
      have h1 := h.once x hx
      have h2 := hc x
      have : k.count x = 0 := List.count_eq_zero_of_not_mem fun hm => hx (hk x hm).1
      simp only [List.count_append]; omega
    · intro x hx
      rcases h.all x hx with h | h | h
      · exact .inl h
      · exact .inr (.inl (by simp [h]))
      · refine .inr (.inr ?_); rw [mem_held] at *; have := hc x; simp only; omega
    · intro x hx
      simp at hx
      rcases hx with hx | hx
      · exact h.queue x hx
      · exact h.ran x (hk x hx).2
    · intro x hx
      rw [mem_held] at hx
      have := hc x
      simp only at hx
      exact h.held x (mem_held.mpr (by omega))
    · refine kept_new h.kept hi (fun _ h => h) ?_
      intro g e x hx
      cases e; simp at hx
  | ret i b k hi hr =>
    have hc := fun x => held_count x none s.frames i _ hi
    simp only [curOf, List.count_nil, Nat.add_zero] at hc
    have hk := h.kept i _ hi
    simp only at hk
    refine ⟨by simpa [posted] using h.fresh, by simpa [posted] using h.nodup, ?_, ?_, ?_, ?_,
      by simpa [posted, Spec.ran] using h.ran, ?_⟩
    · intro x hx
      have h1 := h.once x hx
      have h2 := hc x
      have : k.count x = 0 := List.count_eq_zero_of_not_mem fun hm => hx (hk x hm).1
      simp only [posted_append, posted, ran_append, Spec.ran, List.append_nil, List.count_append]
      omega
    · intro x hx
      simp [posted] at hx
      rcases h.all x hx with h | h | h
      · exact .inl (by simp [Spec.ran, h])
      · exact .inr (.inl (by simp [h]))
      · refine .inr (.inr ?_); rw [mem_held] at *; have := hc x; simp only; omega
    · intro x hx
      simp at hx
      rcases hx with hx | hx
      · simp [posted, h.queue x hx]
      · simp [posted, h.ran x (hk x hx).2]
    · intro x hx
      rw [mem_held] at hx
      have := hc x
      simp only at hx
      simpa [posted] using h.held x (mem_held.mpr (by omega))
    · refine kept_new h.kept hi (fun y hy => by simp [hy]) ?_
      intro g e; cases e

theorem books (ops : List Op) : Books (St.init.run ops).1 (St.init.run ops).2 := by
  have := run_inv Books books_step ops St.init []
    ⟨by simp [posted], by simp [posted], by simp [posted, ran, St.init, held],
     by simp [posted], by simp [St.init], by simp [St.init, held], by simp [ran],
     by simp [St.init]⟩
  simpa using this

theorem idle_held {s : St} (h : Idle s) : held s.frames = [] := by
  unfold held
  rw [List.flatMap_eq_nil_iff]
  intro o ho
  obtain ⟨i, hi⟩ := List.mem_iff_getElem?.mp ho
  cases o with
  | none => rfl
  | some f => exact absurd hi (h i f)

/-! ### One iteration -/

/-- A single iteration `i` that began with the works `q`: it has run the first ones and has the
others before it, or it has returned and has run them all. -/
def Iter (i : Nat) (q : List Item) (s : St) (l : List Ev) : Prop :=
  (∃ c, s.frames[i]? = some (some ⟨true, some c, asked i l⟩) ∧ ranBy i l ++ c = q ∧ .returned i ∉ l) ∨
  (s.frames[i]? = some none ∧ ranBy i l = q ∧ .returned i ∈ l)

theorem iter_other {i : Nat} {q : List Item} {s s' : St} {l e : List Ev}
    (hf : s'.frames[i]? = s.frames[i]?) (hr : ranBy i e = []) (ha : asked i e = [])
    (hn : .returned i ∉ e) (h : Iter i q s l) : Iter i q s' (l ++ e) := by
  rcases h with ⟨c, h1, h2, h3⟩ | ⟨h1, h2, h3⟩
  · exact .inl ⟨c, by simp [hf, h1, ha], by simpa [hr] using h2, by simp [h3, hn]⟩
  · exact .inr ⟨by rw [hf, h1], by simpa [hr] using h2, by simp [h3]⟩

theorem iter_lt {i : Nat} {q : List Item} {s : St} {l : List Ev} (h : Iter i q s l) :
    i < s.frames.length := by
  rcases h with ⟨c, h1, _⟩ | ⟨h1, _⟩ <;> exact (List.getElem?_eq_some_iff.mp h1).1

theorem iter_step (i : Nat) (q : List Item) (s s' : St) (l e : List Ev) (t : Tr s s' e)
    (h : Iter i q s l) : Iter i q s' (l ++ e) := by
  have hlt := iter_lt h
  cases t with
  | none => simpa using h
  | refused => exact iter_other rfl rfl rfl (by simp) h
  | post => exact iter_other rfl rfl rfl (by simp) h
  | single => exact iter_other (List.getElem?_append_left hlt) rfl rfl (by simp) h
  | loop => exact iter_other (List.getElem?_append_left hlt) rfl rfl (by simp) h
  | wake j b k hj =>
    refine iter_other (e := []) (get_set_ne _ ?_) rfl rfl (by simp) h
    rintro rfl
    rcases h with ⟨c, h1, _⟩ | ⟨h1, _⟩ <;> simp [hj] at h1
  | again j k hj hr =>
    refine iter_other (e := []) (get_set_ne _ ?_) rfl rfl (by simp) h
    rintro rfl
    rcases h with ⟨c, h1, _⟩ | ⟨h1, _⟩ <;> simp [hj] at h1
  | exec j b x r k a hj =>
    by_cases e : j = i
    · subst e
      rcases h with ⟨c, h1, h2, h3⟩ | ⟨h1, h2, h3⟩
      · rw [hj] at h1
        simp at h1
        obtain ⟨rfl, rfl, rfl⟩ := h1
        refine .inl ⟨r, ?_, ?_, by simp [h3]⟩
        · rw [get_set_self _ hj]
          simp [asked]
          split <;> simp
        · simpa [ranBy] using h2
      · simp [hj] at h1
    · exact iter_other (get_set_ne _ e) (by simp [ranBy, e]) (by simp [asked, e]) (by simp) h
  | ret j b k hj hr =>
    by_cases e : j = i
    · subst e
      rcases h with ⟨c, h1, h2, h3⟩ | ⟨h1, h2, h3⟩
      · rw [hj] at h1
        simp at h1
        obtain ⟨rfl, rfl, rfl⟩ := h1
        exact .inr ⟨get_set_self _ hj, by simpa [ranBy] using h2, by simp⟩
      · simp [hj] at h1
    · exact iter_other (get_set_ne _ e) rfl rfl (by simpa using fun h => e h.symm) h

/-- A call that is alone: it has the works accepted meanwhile before it, then those that asked for
more. -/
def IterAlone (i : Nat) (s : St) (l : List Ev) : Prop :=
  NoStart l →
    (∃ c, s.frames[i]? = some (some ⟨true, some c, asked i l⟩) ∧
      (∀ (j : Nat) (f : Frame), s.frames[j]? = some (some f) → j = i) ∧ s.queue = posted l ∧
      .returned i ∉ l) ∨
    (Idle s ∧ ∃ a b, l = a ++ .returned i :: b ∧ s.queue = posted a ++ asked i a ++ posted b ∧
      .returned i ∉ a ∧ ran b = [])

theorem iterAlone_step (i : Nat) (s s' : St) (l e : List Ev) (t : Tr s s' e)
    (h : IterAlone i s l) : IterAlone i s' (l ++ e) := by
  intro hn
  have hl : NoStart l := fun j b hj => hn j b (by simp [hj])
  have he : NoStart e := fun j b hj => hn j b (by simp [hj])
  have h := h hl
  cases t with
  | none => simpa using h
  | refused =>
    rcases h with ⟨c, h1, h2, h3, h4⟩ | ⟨h1, a, b, h2, h3, h4, h5⟩
    · exact .inl ⟨c, by simpa [asked] using h1, h2, by simpa [posted] using h3, by simp [h4]⟩
    · exact .inr ⟨h1, a, b ++ [.refused], by simp [h2], by simpa [posted] using h3, h4, by simp [h5, ran]⟩
  | post k =>
    rcases h with ⟨c, h1, h2, h3, h4⟩ | ⟨h1, a, b, h2, h3, h4, h5⟩
    · exact .inl ⟨c, by simpa [asked] using h1, h2, by simp [posted, h3], by simp [h4]⟩
    · exact .inr ⟨h1, a, b ++ [.posted ⟨s.next, k⟩], by simp [h2], by simp [posted, h3], h4,
        by simp [h5, ran]⟩
  | single => exact absurd (List.mem_singleton.mpr rfl) (he _ _)
  | loop => exact absurd (List.mem_singleton.mpr rfl) (he _ _)
  | wake j b k hj =>
    rcases h with ⟨c, h1, h2, h3, h4⟩ | ⟨h1, _⟩
    · have := h2 j _ hj; subst this; simp [hj] at h1
    · exact absurd hj (h1 j _)
  | again j k hj hr =>
    rcases h with ⟨c, h1, h2, h3, h4⟩ | ⟨h1, _⟩
    · have := h2 j _ hj; subst this; simp [hj] at h1
    · exact absurd hj (h1 j _)
  | exec j b x r k a hj =>
    rcases h with ⟨c, h1, h2, h3, h4⟩ | ⟨h1, _⟩
    · have := h2 j _ hj; subst this
      rw [hj] at h1
      simp at h1
      obtain ⟨rfl, rfl, rfl⟩ := h1
      refine .inl ⟨r, ?_, ?_, by simpa [posted] using h3, by simp [h4]⟩
      · rw [get_set_self _ hj]
        simp [asked]
        split <;> simp
      · intro j' f hf
        rcases set_active hj hf with ⟨e, _⟩ | ⟨_, e⟩
        · exact e.symm
        · exact h2 j' f e
    · exact absurd hj (h1 j _)
  | ret j b k hj hr =>
    rcases h with ⟨c, h1, h2, h3, h4⟩ | ⟨h1, _⟩
    · have := h2 j _ hj; subst this
      rw [hj] at h1
      simp at h1
      obtain ⟨rfl, rfl, rfl⟩ := h1
      refine .inr ⟨?_, l, [], rfl, by simp [h3, posted], h4, rfl⟩
      intro j' f hf
      rcases set_active hj hf with ⟨_, e⟩ | ⟨e', e⟩
      · cases e
      · exact e' (h2 j' f e).symm
    · exact absurd hj (h1 j _)

end Verif.Sched
