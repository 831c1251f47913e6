import Verif.Sched.Works
import Mathlib.Tactic.Tauto
/-!
# The main loop: order, and stopping
-/

namespace Verif.Sched

open Spec

theorem alone_left {a b : List Ev} (h : Alone (a ++ b)) : Alone a := by
  intro l₁ i c l₂ e
  exact h l₁ i c (l₂ ++ b) (by rw [e]; simp)

theorem alone_start {l : List Ev} {i : Nat} {b : Bool} (h : Alone (l ++ [.started i b])) : Quiet l :=
  h l i b [] (by simp)

/-- At most one call is in progress. -/
def One (s : St) : Prop :=
  ∀ (i j : Nat) (f g : Frame), s.frames[i]? = some (some f) → s.frames[j]? = some (some g) → i = j

theorem one_set {s : St} {i : Nat} {f : Frame} {o : Option Frame} (h : One s)
    (hi : s.frames[i]? = some (some f)) {q : List Item} {r : Bool} {n : Nat} :
    One ⟨q, r, s.frames.set i o, n⟩ := by
  intro a b f' g' ha hb
  rcases set_active hi ha with ⟨e, _⟩ | ⟨_, e⟩ <;> rcases set_active hi hb with ⟨e', _⟩ | ⟨_, e'⟩
  · exact e.symm.trans e'
  · exact e ▸ h i b _ _ hi e'
  · exact e' ▸ h a i _ _ e hi
  · exact h a b _ _ e e'

theorem one_snoc {s : St} {f : Frame} (h : Idle s) {q : List Item} {r : Bool} {n : Nat} :
    One ⟨q, r, s.frames ++ [some f], n⟩ := by
  intro a b f' g' ha hb
  rcases snoc_get ha with ⟨e, _⟩ | e
  · rcases snoc_get hb with ⟨e', _⟩ | e'
    · exact e.trans e'.symm
    · exact absurd e' (h b _)
  · exact absurd e (h a _)

/-- Invariants can be shown along the executions in which calls follow one another. -/
theorem alone_inv (P : St → List Ev → Prop)
    (hstep : ∀ s s' l e, Tr s s' e → Calls s l → Books s l → One s → Alone (l ++ e) → P s l → P s' (l ++ e))
    (h0 : P St.init []) (ops : List Op) (ha : Alone (St.init.run ops).2) :
    P (St.init.run ops).1 (St.init.run ops).2 := by
  have key := run_inv (fun s l => Calls s l ∧ Books s l ∧ (Alone l → One s ∧ P s l))
    (by
      intro s s' l e t ⟨hc, hb, hp⟩
      refine ⟨calls_step s s' l e t hc, books_step s s' l e t hb, fun ha => ?_⟩
      obtain ⟨h1, h2⟩ := hp (alone_left ha)
      refine ⟨?_, hstep s s' l e t hc hb h1 ha h2⟩
      cases t with
      | none => exact h1
      | refused => exact h1
      | post => exact h1
      | single => exact one_snoc ((quiet_idle hc).mp (alone_start ha))
      | loop => exact one_snoc ((quiet_idle hc).mp (alone_start ha))
      | wake i b k hi => exact one_set h1 hi
      | exec i b x r k a hi => exact one_set h1 hi
      | again i k hi hr => exact one_set h1 hi
      | ret i b k hi hr => exact one_set h1 hi)
    ops St.init []
    ⟨⟨by simp [St.init], by simp [St.init]⟩,
      ⟨by simp [posted], by simp [posted], by simp [posted, ran, St.init, held], by simp [posted],
        by simp [St.init], by simp [St.init, held], by simp [ran], by simp [St.init]⟩,
      fun _ => ⟨by intro i j f g h; simp [St.init] at h, h0⟩⟩
  simp only [List.nil_append] at key
  exact (key.2.2 ha).2

/-! ### Order -/

/-- What was accepted has run up to some point, and what is behind it is still to be run, in the
same order. -/
def Line (s : St) (l : List Ev) : Prop :=
  InOrder l ∧ ∃ A B, posted l = A ++ B ∧ (∀ x ∈ A, x ∈ ran l) ∧ (∀ x ∈ B, x ∉ ran l) ∧
    B = (held s.frames ++ s.queue).filter (fun x => !decide (x ∈ ran l))

theorem held_one {s : St} {i : Nat} {f : Frame} (h : One s) (hi : s.frames[i]? = some (some f)) :
    held s.frames = curOf (some f) := by
  have key : ∀ (l : List (Option Frame)) (i : Nat), l[i]? = some (some f) →
      (∀ (j : Nat) (g : Frame), l[j]? = some (some g) → j = i) → held l = curOf (some f) := by
    intro l
    induction l with
    | nil => intro i h; simp at h
    | cons a l ih =>
      intro i hi hj
      cases i with
      | zero =>
        simp at hi; subst hi
        have : held l = [] := by
          unfold held
          rw [List.flatMap_eq_nil_iff]
          intro o ho
          obtain ⟨j, hj'⟩ := List.mem_iff_getElem?.mp ho
          cases o with
          | none => rfl
          | some g => have := hj (j + 1) g (by simpa using hj'); omega
        change curOf (some f) ++ held l = _
        rw [this, List.append_nil]
      | succ i =>
        have ha : curOf a = [] := by
          cases a with
          | none => rfl
          | some g => have := hj 0 g (by simp); omega
        change curOf a ++ held l = _
        rw [ha, List.nil_append]
        refine ih i (by simpa using hi) ?_
        intro j g hg
        have := hj (j + 1) g (by simpa using hg); omega
  exact key s.frames i hi (fun j g hg => h j i _ _ hg hi)

theorem inOrder_same {l l' : List Ev} (hp : posted l' = posted l) (hr : ran l' = ran l)
    (h : InOrder l) : InOrder l' := by
  intro p₁ y p₂ r₁ r₂ x h1 h2 hx
  exact h p₁ y p₂ r₁ r₂ x (hp ▸ h1) (hr ▸ h2) hx

theorem line_step (s s' : St) (l e : List Ev) (t : Tr s s' e) (hc : Calls s l) (hb : Books s l)
    (h1 : One s) (ha : Alone (l ++ e)) (h : Line s l) : Line s' (l ++ e) := by
  obtain ⟨ho, A, B, hp, hA, hB, hF⟩ := h
  cases t with
  | none => simpa using ⟨ho, A, B, hp, hA, hB, hF⟩
  | refused =>
    exact ⟨inOrder_same (by simp [posted]) (by simp [ran]) ho, A, B, by simpa [posted] using hp,
      by simpa [ran] using hA, by simpa [ran] using hB, by simpa [ran] using hF⟩
  | post k =>
    have hn : (⟨s.next, k⟩ : Item) ∉ posted l := fun hm => by have := hb.fresh _ hm; simp at this
    have hnr : (⟨s.next, k⟩ : Item) ∉ ran l := fun hm => hn (hb.ran _ hm)
    refine ⟨?_, A, B ++ [⟨s.next, k⟩], by simp [posted, hp], by simpa [ran] using hA, ?_, ?_⟩
    · intro p₁ y p₂ r₁ r₂ x e1 e2 hx
      simp only [posted_append, posted, ran_append, ran, List.append_nil] at e1 e2
      -- `y` has run, so it is not the new one
      have hy : y ∈ posted l := hb.ran y (by rw [e2]; simp)
      rw [List.append_eq_append_iff] at e1
      rcases e1 with ⟨as, e3, e4⟩ | ⟨bs, e3, e4⟩
      · -- p₁ = posted l ++ as, [new] = as ++ y :: p₂
        cases as with
        | nil => simp at e4; rw [← e4.1] at hy; exact absurd hy hn
        | cons a as => simp at e4
      · -- posted l = p₁ ++ bs, y :: p₂ = bs ++ [new]
        cases bs with
        | nil => simp at e4; rw [e4.1] at hy; exact absurd hy hn
        | cons a bs =>
          simp at e4
          rw [← e4.1] at e3
          exact ho p₁ y bs r₁ r₂ x e3 e2 hx
    · intro x hx
      simp at hx
      rcases hx with hx | hx
      · simpa [ran] using hB x hx
      · subst hx; simpa [ran] using hnr
    · simp only [ran_append, ran, List.append_nil]
      rw [← List.append_assoc, List.filter_append, ← hF]
      simp [hnr]
  | single hr =>
    have hi := (quiet_idle hc).mp (alone_start ha)
    refine ⟨inOrder_same (by simp [posted]) (by simp [ran]) ho, A, B, by simpa [posted] using hp,
      by simpa [ran] using hA, by simpa [ran] using hB, ?_⟩
    rw [idle_held hi, List.nil_append] at hF
    simp only [ran_append, ran, List.append_nil, held_snoc, idle_held hi, curOf, List.nil_append]
    exact hF
  | loop hr =>
    have hi := (quiet_idle hc).mp (alone_start ha)
    refine ⟨inOrder_same (by simp [posted]) (by simp [ran]) ho, A, B, by simpa [posted] using hp,
      by simpa [ran] using hA, by simpa [ran] using hB, ?_⟩
    rw [idle_held hi, List.nil_append] at hF
    simp only [ran_append, ran, List.append_nil, held_snoc, idle_held hi, curOf, List.nil_append]
    exact hF
  | wake i b k hi =>
    have hh := held_one (one_set h1 hi (q := []) (r := s.running) (n := s.next)
      (o := some ⟨b, some s.queue, k⟩)) (get_set_self _ hi)
    simp only [List.append_nil]
    refine ⟨ho, A, B, hp, hA, hB, ?_⟩
    rw [held_one h1 hi] at hF
    simp only at hh
    rw [hF, hh]
    simp [curOf]
  | exec i b x r k a hi =>
    have hh := held_one (one_set h1 hi (q := s.queue) (r := s.running) (n := s.next)
      (o := some ⟨b, some r, if x.kind = .repeating ∧ a = true then k ++ [x] else k⟩)) (get_set_self _ hi)
    simp only at hh
    rw [held_one h1 hi] at hF
    simp only [curOf] at hF hh
    by_cases hx : x ∈ ran l
    · have hm : ∀ y, y ∈ ran l ++ [x] ↔ y ∈ ran l := by
        intro y; simp; intro e; subst e; exact hx
      refine ⟨?_, A, B, by simpa [posted] using hp, ?_, ?_, ?_⟩
      · intro p₁ y p₂ r₁ r₂ z e1 e2 hz
        simp only [posted_append, posted, List.append_nil, ran_append, ran] at e1 e2
        rw [List.append_eq_append_iff] at e2
        rcases e2 with ⟨as, e3, e4⟩ | ⟨bs, e3, e4⟩
        · cases as with
          | nil =>
            simp at e4
            rw [← e4.1] at e1
            obtain ⟨u, v, huv⟩ := List.append_of_mem hx
            have := ho p₁ x p₂ u v z e1 huv hz
            rw [e3, huv]; simp [this]
          | cons c as => simp at e4
        · cases bs with
          | nil =>
            simp at e4 e3
            rw [e4.1] at e1
            obtain ⟨u, v, huv⟩ := List.append_of_mem hx
            have := ho p₁ x p₂ u v z e1 huv hz
            rw [← e3, huv]; simp [this]
          | cons c bs =>
            simp at e4
            rw [← e4.1] at e3
            exact ho p₁ y p₂ r₁ bs z e1 e3 hz
      · intro y hy; simp [hA y hy]
      · intro y hy; simp only [ran_append, ran]; rw [hm]; exact hB y hy
      · simp only [ran_append, ran, hm]
        rw [hF, hh, List.cons_append, List.filter_cons]
        simp [hx]
    · have hF' : B = x :: (r ++ s.queue).filter (fun y => !decide (y ∈ ran l)) := by
        rw [hF, List.cons_append, List.filter_cons]; simp [hx]
      have hnd : (A ++ B).Nodup := hp ▸ hb.nodup
      have hnd' := (List.nodup_append.mp hnd).2.1
      rw [hF', List.nodup_cons] at hnd'
      refine ⟨?_, A ++ [x], (r ++ s.queue).filter (fun y => !decide (y ∈ ran l)), ?_, ?_, ?_, ?_⟩
      · intro p₁ y p₂ r₁ r₂ z e1 e2 hz
        simp only [posted_append, posted, List.append_nil, ran_append, ran] at e1 e2
        have own : y = x → r₁ = ran l → z ∈ r₁ := by
          intro ey er
          subst ey
          rw [er]
          rw [hp, hF'] at e1
          -- `A ++ y :: _ = p₁ ++ y :: p₂` and `y` occurs once
          have : p₁ = A := by
            have hnd2 : (A ++ y :: (r ++ s.queue).filter (fun y => !decide (y ∈ ran l))).Nodup := by
              rw [← hF']; exact hnd
            have hyA : y ∉ A := fun hm => by
              have := (List.nodup_append.mp hnd2).2.2 y hm y (by simp); exact this rfl
            have hyp : y ∉ p₁ := fun hm => by
              rw [e1] at hnd2
              have := (List.nodup_append.mp hnd2).2.2 y hm y (by simp); exact this rfl
            rw [List.append_eq_append_iff] at e1
            rcases e1 with ⟨as, e3, e4⟩ | ⟨bs, e3, e4⟩
            · cases as with
              | nil => simpa using e3
              | cons c as =>
                simp at e4
                rw [e3, ← e4.1] at hyp
                exact absurd (by simp) hyp
            · cases bs with
              | nil => simpa using e3.symm
              | cons c bs =>
                simp at e4
                rw [e3, ← e4.1] at hyA
                exact absurd (by simp) hyA
          rw [this] at hz
          exact hA z hz
        rw [List.append_eq_append_iff] at e2
        rcases e2 with ⟨as, e3, e4⟩ | ⟨bs, e3, e4⟩
        · cases as with
          | nil => simp at e4 e3; exact own e4.1.symm e3
          | cons c as => simp at e4
        · cases bs with
          | nil => simp at e4 e3; exact own e4.1 e3.symm
          | cons c bs =>
            simp at e4
            rw [← e4.1] at e3
            exact ho p₁ y p₂ r₁ bs z e1 e3 hz
      · simp [posted, hp, hF']
      · intro y hy
        simp at hy
        rcases hy with hy | hy
        · simp [hA y hy]
        · subst hy; simp [ran]
      · intro y hy hm
        simp only [ran_append, ran] at hm
        simp at hm
        rcases hm with hm | hm
        · simp [hm] at hy
        · subst hm; exact hnd'.1 hy
      · rw [hh]
        simp only [ran_append, ran]
        refine List.filter_congr ?_
        intro y hy
        by_cases e : y = x
        · subst e
          -- it would be twice in what is accepted
          have : y ∈ (r ++ s.queue).filter (fun y => !decide (y ∈ ran l)) := by simp [hx]; simpa using hy
          exact absurd this hnd'.1
        · simp [e]
  | again i k hi hr =>
    have hh := held_one (one_set h1 hi (q := []) (r := s.running) (n := s.next)
      (o := some ⟨false, none, []⟩)) (get_set_self _ hi)
    simp only [List.append_nil]
    refine ⟨ho, A, B, hp, hA, hB, ?_⟩
    rw [held_one h1 hi] at hF
    simp only at hh
    rw [hF, hh]
    have hk : k.filter (fun x => !decide (x ∈ ran l)) = [] := by
      rw [List.filter_eq_nil_iff]; intro x hx; simp [(hb.kept i _ hi x hx).2]
    simp [curOf, hk]
  | ret i b k hi hr =>
    have hidle : held (s.frames.set i none) = [] := by
      refine idle_held (s := ⟨[], false, s.frames.set i none, 0⟩) ?_
      intro j f hf
      rcases set_active hi hf with ⟨_, e⟩ | ⟨e', e⟩
      · cases e
      · exact e' (h1 i j _ _ hi e)
    refine ⟨inOrder_same (by simp [posted]) (by simp [ran]) ho, A, B, by simpa [posted] using hp,
      by simpa [ran] using hA, by simpa [ran] using hB, ?_⟩
    rw [held_one h1 hi] at hF
    have hk : k.filter (fun x => !decide (x ∈ ran l)) = [] := by
      rw [List.filter_eq_nil_iff]; intro x hx; simp [(hb.kept i _ hi x hx).2]
    simp only [ran_append, ran, List.append_nil]
    rw [hF, hidle]
    simp [curOf, hk]

theorem line (ops : List Op) (ha : Alone (St.init.run ops).2) :
    Line (St.init.run ops).1 (St.init.run ops).2 :=
  alone_inv Line line_step
    ⟨by intro p₁ y p₂ r₁ r₂ x h; simp [posted] at h,
      [], [], rfl, by simp, by simp, by simp [St.init, held]⟩ ops ha

/-! ### One call at a time -/

theorem stopped_append {a b : List Ev} : Stopped (a ++ b) ↔ Stopped a ∨ Stopped b := by
  simp only [Stopped, List.mem_append]
  constructor
  · rintro ⟨i, x, c, h | h, k⟩
    · exact .inl ⟨i, x, c, h, k⟩
    · exact .inr ⟨i, x, c, h, k⟩
  · rintro (⟨i, x, c, h, k⟩ | ⟨i, x, c, h, k⟩)
    · exact ⟨i, x, c, .inl h, k⟩
    · exact ⟨i, x, c, .inr h, k⟩

theorem alone_other {l e : List Ev} (h : Alone l) (he : NoStart e) : Alone (l ++ e) := by
  intro l₁ i b l₂ eq
  rw [List.append_eq_append_iff] at eq
  rcases eq with ⟨as, e1, e2⟩ | ⟨bs, e1, e2⟩
  · exact absurd (by rw [e2]; simp) (he i b)
  · cases bs with
    | nil => simp at e2; exact absurd (by rw [← e2]; simp) (he i b)
    | cons c bs => simp at e2; rw [← e2.1] at e1; exact h l₁ i b bs e1

theorem alone_snoc {l : List Ev} {i : Nat} {b : Bool} (h : Alone l) (hq : Quiet l) :
    Alone (l ++ [.started i b]) := by
  intro l₁ j c l₂ eq
  rw [List.append_eq_append_iff] at eq
  rcases eq with ⟨as, e1, e2⟩ | ⟨bs, e1, e2⟩
  · cases as with
    | nil => simp at e1; rw [e1]; exact hq
    | cons d as => simp at e2
  · cases bs with
    | nil => simp at e1; rw [← e1]; exact hq
    | cons d bs => simp at e2; rw [← e2.1] at e1; exact h l₁ j c bs e1

theorem unstopped_alone (ops : List Op) (h : ¬ Stopped (St.init.run ops).2) :
    Alone (St.init.run ops).2 := by
  have key := run_inv (fun s l => Calls s l ∧ (¬ Stopped l → Alone l ∧ One s ∧
      ((∃ (i : Nat) (f : Frame), s.frames[i]? = some (some f)) → s.running = true)))
    (by
      intro s s' l e t ⟨hc, hp⟩
      refine ⟨calls_step s s' l e t hc, fun hs => ?_⟩
      rw [stopped_append, not_or] at hs
      obtain ⟨h1, h2, h3⟩ := hp hs.1
      have idle : s.running = false → Idle s := by
        intro hr i f hf
        have := h3 ⟨i, f, hf⟩
        rw [hr] at this; cases this
      cases t with
      | none => rw [List.append_nil]; exact ⟨h1, h2, h3⟩
      | refused => exact ⟨alone_other h1 (by intro i b; simp), h2, h3⟩
      | post => exact ⟨alone_other h1 (by intro i b; simp), h2, h3⟩
      | single hr => exact ⟨alone_snoc h1 ((quiet_idle hc).mpr (idle hr)), one_snoc (idle hr), fun _ => rfl⟩
      | loop hr => exact ⟨alone_snoc h1 ((quiet_idle hc).mpr (idle hr)), one_snoc (idle hr), fun _ => rfl⟩
      | wake i b k hi => exact ⟨by simpa using h1, one_set h2 hi, fun _ => h3 ⟨i, _, hi⟩⟩
      | exec i b x r k a hi =>
        refine ⟨alone_other h1 (by intro i b; simp), one_set h2 hi, fun _ => ?_⟩
        have : x.kind ≠ .stop := fun hk => hs.2 ⟨i, x, a, by simp, hk⟩
        simp only [if_neg this]
        exact h3 ⟨i, _, hi⟩
      | again i k hi hr => exact ⟨by simpa using h1, one_set h2 hi, fun _ => hr⟩
      | ret i b k hi hr =>
        refine ⟨alone_other h1 (by intro i b; simp), one_set h2 hi, ?_⟩
        rintro ⟨j, f, hf⟩
        rcases set_active hi hf with ⟨_, e⟩ | ⟨e', e⟩
        · cases e
        · exact absurd (h2 i j _ _ hi e) e')
    ops St.init [] ⟨⟨by simp [St.init], by simp [St.init]⟩, fun _ => ⟨by intro l₁ i b l₂ h; simp at h,
      by intro i j f g h; simp [St.init] at h, by rintro ⟨i, f, h⟩; simp [St.init] at h⟩⟩
  simp only [List.nil_append] at key
  exact (key.2 h).1

/-! ### Stopping -/

/-- While nothing has told the call to stop, it counts as running. -/
def Loops (s : St) (l : List Ev) : Prop :=
  (∀ (i : Nat) (f : Frame), s.frames[i]? = some (some f) →
    s.running = true ∨ ∃ x b, .ran i x b ∈ l ∧ x.kind = .stop) ∧
  (∀ (i : Nat) (f : Frame), s.frames[i]? = some (some f) → ∀ b, .started i b ∈ l → b = f.single) ∧
  (∀ i, .started i false ∈ l → .returned i ∈ l → ∃ x b, .ran i x b ∈ l ∧ x.kind = .stop)

theorem loops_step (s s' : St) (l e : List Ev) (t : Tr s s' e) (hc : Calls s l) (_hb : Books s l)
    (h1 : One s) (ha : Alone (l ++ e)) (h : Loops s l) : Loops s' (l ++ e) := by
  obtain ⟨h2, h3, h4⟩ := h
  have stopl : ∀ i, (∃ x b, .ran i x b ∈ l ∧ x.kind = .stop) →
      ∃ x b, .ran i x b ∈ l ++ e ∧ x.kind = .stop :=
    fun i ⟨x, b, h, k⟩ => ⟨x, b, by simp [h], k⟩
  have start : ∀ (f : Frame) (q : List Item) (n : Nat), e = [.started s.frames.length f.single] →
      Loops ⟨q, true, s.frames ++ [some f], n⟩ (l ++ e) := by
    intro f q n he
    subst he
    refine ⟨fun _ _ _ => .inl rfl, ?_, ?_⟩
    · intro i g hg b hb
      rcases snoc_get hg with ⟨e, e'⟩ | e
      · simp only [List.mem_append, List.mem_singleton, Ev.started.injEq] at hb
        cases e'
        rcases hb with hb | ⟨_, hb⟩
        · have := (hc.1 i).mp ⟨b, hb⟩; omega
        · exact hb
      · have hlt := (List.getElem?_eq_some_iff.mp e).1
        simp only [List.mem_append, List.mem_singleton, Ev.started.injEq] at hb
        rcases hb with hb | ⟨hb, _⟩
        · exact h3 i g e b hb
        · omega
    · intro i hs hr
      simp only [List.mem_append, List.mem_singleton, reduceCtorEq, or_false] at hr
      have hlt := (List.getElem?_eq_some_iff.mp ((hc.2 i).mp hr)).1
      simp only [List.mem_append, List.mem_singleton, Ev.started.injEq] at hs
      rcases hs with hs | ⟨hs, _⟩
      · exact stopl i (h4 i hs hr)
      · omega
  cases t with
  | none => simpa using ⟨h2, h3, h4⟩
  | refused =>
    exact ⟨fun i f hf => (h2 i f hf).imp id (stopl i), fun i f hf b hb => h3 i f hf b (by simpa using hb),
      fun i hs hr => stopl i (h4 i (by simpa using hs) (by simpa using hr))⟩
  | post k =>
    exact ⟨fun i f hf => (h2 i f hf).imp id (stopl i), fun i f hf b hb => h3 i f hf b (by simpa using hb),
      fun i hs hr => stopl i (h4 i (by simpa using hs) (by simpa using hr))⟩
  | single hr => exact start ⟨true, some s.queue, []⟩ _ _ rfl
  | loop hr => exact start ⟨false, none, []⟩ _ _ rfl
  | wake i b k hi =>
    simp only [List.append_nil]
    refine ⟨?_, ?_, h4⟩
    · intro j f hf
      rcases set_active hi hf with ⟨e, _⟩ | ⟨_, e⟩
      · subst e; exact h2 i _ hi
      · exact h2 j f e
    · intro j f hf
      rcases set_active hi hf with ⟨e, e'⟩ | ⟨_, e⟩
      · subst e; cases e'; have := h3 i _ hi; exact this
      · exact h3 j f e
  | exec i b x r k a hi =>
    refine ⟨?_, ?_, ?_⟩
    · intro j f hf
      have hj : j = i := by
        rcases set_active hi hf with ⟨e, _⟩ | ⟨_, e⟩
        · exact e.symm
        · exact h1 j i _ _ e hi
      subst hj
      by_cases hk : x.kind = .stop
      · exact .inr ⟨x, a, by simp, hk⟩
      · simp only [if_neg hk]
        exact (h2 j _ hi).imp id (stopl j)
    · intro j f hf c hc'
      have hc' : Ev.started j c ∈ l := by simpa using hc'
      rcases set_active hi hf with ⟨e, e'⟩ | ⟨_, e⟩
      · subst e; cases e'; exact h3 i _ hi c hc'
      · exact h3 j f e c hc'
    · intro j hs hr
      exact stopl j (h4 j (by simpa using hs) (by simpa using hr))
  | again i k hi hr =>
    simp only [List.append_nil]
    refine ⟨fun _ _ _ => .inl hr, ?_, h4⟩
    intro j f hf
    rcases set_active hi hf with ⟨e, e'⟩ | ⟨_, e⟩
    · subst e; cases e'; have := h3 i _ hi; exact this
    · exact h3 j f e
  | ret i b k hi hr =>
    refine ⟨?_, ?_, ?_⟩
    · intro j f hf
      rcases set_active hi hf with ⟨_, e⟩ | ⟨e', e⟩
      · cases e
      · exact absurd (h1 i j _ _ hi e) e'
    · intro j f hf
      rcases set_active hi hf with ⟨_, e⟩ | ⟨e', e⟩
      · cases e
      · exact absurd (h1 i j _ _ hi e) e'
    · intro j hs hret
      have hs' : Ev.started j false ∈ l := by simpa using hs
      simp only [List.mem_append, List.mem_singleton, Ev.returned.injEq] at hret
      rcases hret with hret | hret
      · exact stopl j (h4 j hs' hret)
      · subst hret
        have hb := h3 j _ hi false hs'
        simp only at hb
        subst hb
        rcases hr with hr | hr
        · cases hr
        · rcases h2 j _ hi with h | h
          · rw [hr] at h; cases h
          · exact stopl j h

theorem loops (ops : List Op) (ha : Alone (St.init.run ops).2) :
    Loops (St.init.run ops).1 (St.init.run ops).2 :=
  alone_inv Loops loops_step
    ⟨by intro i f h; simp [St.init] at h, by intro i f h; simp [St.init] at h, by simp⟩ ops ha

/-- After the call `i` was told to stop: it runs at most what had been accepted by then (`p`). -/
def Ends (i : Nat) (p : List Item) (s : St) (l : List Ev) : Prop :=
  (s.running = false ∧ ∃ b c k, s.frames[i]? = some (some ⟨b, some c, k⟩) ∧ ∀ x ∈ ranBy i l ++ c, x ∈ p) ∨
  (s.frames[i]? = some none ∧ ∀ x ∈ ranBy i l, x ∈ p)

theorem ends_step (i : Nat) (p : List Item) (s s' : St) (l₀ l e : List Ev) (t : Tr s s' e)
    (hc : Calls s (l₀ ++ l)) (h1 : One s) (ha : Alone (l₀ ++ l ++ e)) (h : Ends i p s l) :
    Ends i p s' (l ++ e) := by
  rcases h with ⟨hr, b, c, k, hi, hp⟩ | ⟨hi, hp⟩
  · cases t with
    | none => exact .inl ⟨hr, b, c, k, hi, by simpa using hp⟩
    | refused hr' => exact .inl ⟨hr, b, c, k, hi, by simpa [ranBy] using hp⟩
    | post => exact .inl ⟨hr, b, c, k, hi, by simpa [ranBy] using hp⟩
    | single => exact absurd hi ((quiet_idle hc).mp (alone_start ha) i _)
    | loop => exact absurd hi ((quiet_idle hc).mp (alone_start ha) i _)
    | wake j b' k' hj =>
      have := h1 j i _ _ hj hi; subst this; simp [hj] at hi
    | again j k' hj hr' => rw [hr] at hr'; cases hr'
    | exec j b' x r k' a hj =>
      have := h1 j i _ _ hj hi; subst this
      rw [hj] at hi
      simp at hi
      obtain ⟨rfl, rfl, rfl⟩ := hi
      refine .inl ⟨?_, b', r, _, get_set_self _ hj, ?_⟩
      · simp [hr]
      · intro y hy
        refine hp y ?_
        simpa [ranBy] using hy
    | ret j b' k' hj hr' =>
      have := h1 j i _ _ hj hi; subst this
      rw [hj] at hi
      simp at hi
      obtain ⟨rfl, rfl, rfl⟩ := hi
      exact .inr ⟨get_set_self _ hj, by simpa [ranBy] using hp⟩
  · have hne : ∀ (j : Nat) (f : Frame), s.frames[j]? = some (some f) → j ≠ i := by
      rintro j f hf rfl; simp [hf] at hi
    have hlt := (List.getElem?_eq_some_iff.mp hi).1
    cases t with
    | none => exact .inr ⟨hi, by simpa using hp⟩
    | refused hr' => exact .inr ⟨hi, by simpa [ranBy] using hp⟩
    | post => exact .inr ⟨hi, by simpa [ranBy] using hp⟩
    | single => exact .inr ⟨by rw [List.getElem?_append_left hlt]; exact hi, by simpa [ranBy] using hp⟩
    | loop => exact .inr ⟨by rw [List.getElem?_append_left hlt]; exact hi, by simpa [ranBy] using hp⟩
    | wake j b' k' hj => exact .inr ⟨by rw [get_set_ne _ (hne j _ hj)]; exact hi, by simpa using hp⟩
    | again j k' hj hr' => exact .inr ⟨by rw [get_set_ne _ (hne j _ hj)]; exact hi, by simpa using hp⟩
    | exec j b' x r k' a hj =>
      exact .inr ⟨by rw [get_set_ne _ (hne j _ hj)]; exact hi, by simpa [ranBy, hne j _ hj] using hp⟩
    | ret j b' k' hj hr' =>
      exact .inr ⟨by rw [get_set_ne _ (hne j _ hj)]; exact hi, by simpa [ranBy] using hp⟩

/-- Every call that was told to stop. -/
def AllEnd (s : St) (l : List Ev) : Prop :=
  ∀ l₁ i x a l₂, l = l₁ ++ .ran i x a :: l₂ → x.kind = .stop → Ends i (posted l₁) s l₂

theorem allEnd_step (s s' : St) (l e : List Ev) (t : Tr s s' e) (hc : Calls s l) (hb : Books s l)
    (h1 : One s) (ha : Alone (l ++ e)) (h : AllEnd s l) : AllEnd s' (l ++ e) := by
  intro l₁ i x a l₂ eq hk
  rw [List.append_eq_append_iff] at eq
  have new : l₁ = l → e = .ran i x a :: l₂ → Ends i (posted l₁) s' l₂ := by
    intro el ee
    cases t with
    | exec j b y r k c hj =>
      simp at ee
      obtain ⟨⟨rfl, rfl, rfl⟩, rfl⟩ := ee
      refine .inl ⟨by simp [hk], b, r, _, get_set_self _ hj, ?_⟩
      intro z hz
      simp [ranBy] at hz
      rw [el]
      refine hb.held z ?_
      rw [held_one h1 hj]; simp [curOf, hz]
    | _ => simp at ee
  rcases eq with ⟨as, e1, e2⟩ | ⟨bs, e1, e2⟩
  · cases as with
    | nil => exact new (by simpa using e1) (by simpa using e2)
    | cons c as =>
      exfalso
      have : 2 ≤ e.length := by rw [e2]; simp; omega
      cases t <;> simp at this
  · cases bs with
    | nil => exact new (by simpa using e1.symm) (by simpa using e2.symm)
    | cons c bs =>
      simp at e2
      obtain ⟨rfl, rfl⟩ := e2
      refine ends_step i _ s s' (l₁ ++ [.ran i x a]) bs e t ?_ h1 ?_ (h l₁ i x a bs e1 hk)
      · rw [List.append_assoc]; simpa [e1] using hc
      · rw [e1] at ha; simpa using ha

theorem allEnd (ops : List Op) (ha : Alone (St.init.run ops).2) :
    AllEnd (St.init.run ops).1 (St.init.run ops).2 :=
  alone_inv AllEnd allEnd_step (by intro l₁ i x a l₂ h; simp at h) ops ha

theorem finish_off (i : Nat) (b : Bool) : ∀ (c k : List Item) (s : St) (as : List Bool),
    s.frames[i]? = some (some ⟨b, some c, k⟩) → (b = true ∨ s.running = false) →
    as.length = c.length → .returned i ∈ (s.run (as.map (Op.exec i) ++ [.finish i])).2
  | [], k, s, as, hi, hr, hl => by
    have : as = [] := List.length_eq_zero_iff.mp hl
    subst this
    simp only [List.map_nil, List.nil_append, St.run, St.step, List.append_nil]
    unfold St.finish
    rw [frame_of hi]
    cases b with
    | true => simp
    | false => rcases hr with hr | hr
               · cases hr
               · simp [hr]
  | x :: c, k, s, a :: as, hi, hr, hl => by
    simp only [List.map_cons, List.cons_append, St.run, List.mem_append]
    right
    have e : (s.step (.exec i a)).1 = St.mk s.queue (if x.kind = .stop then false else s.running)
        (s.frames.set i (some ⟨b, some c, if x.kind = .repeating ∧ a = true then k ++ [x] else k⟩))
        s.next := by
      change (s.exec i a).1 = _
      unfold St.exec
      rw [frame_of hi]
    rw [e]
    refine finish_off i b c _ _ as (get_set_self _ hi) ?_ (by simpa using hl)
    rcases hr with hr | hr
    · exact .inl hr
    · right; simp [hr]
  | x :: c, k, s, [], hi, hr, hl => by simp at hl

end Verif.Sched
