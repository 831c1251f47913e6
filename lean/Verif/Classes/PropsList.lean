import Verif.Classes.Props
import Mathlib.Data.List.Nodup
/-
C129: the list of the properties of a class.
C130: the list of the properties of an object.
-/
namespace Verif.Classes.Props
open Verif.Types (Name Mgr Op)
open Spec

def names (l : List Property) : List Name := l.map (·.name)

def look (l : List Property) (n : Name) : Option Property := l.find? (fun p => p.name = n)

/-- The last property of a name. -/
def lastOf (l : List Property) (n : Name) : Option Property := l.reverse.find? (fun p => p.name = n)

theorem look_some {l : List Property} {n : Name} {p : Property} (h : look l n = some p) : p ∈ l ∧ p.name = n := by
  have h1 := List.find?_some h
  simp at h1
  exact ⟨List.mem_of_find?_eq_some h, h1⟩

theorem look_none {l : List Property} {n : Name} : look l n = none ↔ n ∉ names l := by
  simp [look, names, List.find?_eq_none]

theorem look_cons (p : Property) (l : List Property) (n : Name) :
    look (p :: l) n = if p.name = n then some p else look l n := by
  simp only [look, List.find?_cons]
  by_cases h : p.name = n <;> simp [h]

theorem look_nodup {l : List Property} (h : (names l).Nodup) {n : Name} {p : Property} :
    look l n = some p ↔ p ∈ l ∧ p.name = n := by
  refine ⟨look_some, ?_⟩
  rintro ⟨hp, rfl⟩
  cases hf : look l p.name with
  | none => exact absurd (List.mem_map.mpr ⟨p, hp, rfl⟩) (look_none.mp hf)
  | some q =>
    obtain ⟨h1, h2⟩ := look_some hf
    rw [List.inj_on_of_nodup_map h h1 hp h2]

theorem look_append (a b : List Property) (n : Name) : look (a ++ b) n = (look a n).or (look b n) := by
  simp [look, List.find?_append]

theorem lastOf_append (a b : List Property) (n : Name) : lastOf (a ++ b) n = (lastOf b n).or (lastOf a n) := by
  simp [lastOf, List.reverse_append, List.find?_append]

theorem lastOf_nodup {l : List Property} (h : (names l).Nodup) (n : Name) : lastOf l n = look l n := by
  have hr : (names l.reverse).Nodup := by
    simp only [names, List.map_reverse]
    exact List.nodup_reverse.mpr h
  cases hf : look l n with
  | none =>
    have : n ∉ names l.reverse := by simpa [names] using look_none.mp hf
    exact look_none.mpr this
  | some p => exact (look_nodup hr).mpr (by simpa using look_some hf)

theorem mem_firsts (l : List Name) (n : Name) : n ∈ firsts l ↔ n ∈ l := by
  induction l with
  | nil => simp [firsts]
  | cons a l ih =>
    simp only [firsts, List.mem_cons, List.mem_filter, ih, decide_eq_true_eq]
    by_cases h : n = a <;> simp [h]

theorem firsts_nodup (l : List Name) : (firsts l).Nodup := by
  induction l with
  | nil => simp [firsts]
  | cons a l ih =>
    simp only [firsts, List.nodup_cons, List.mem_filter, decide_eq_true_eq]
    exact ⟨by simp, ih.filter _⟩

theorem firsts_of_nodup {l : List Name} (h : l.Nodup) : firsts l = l := by
  induction l with
  | nil => rfl
  | cons a l ih =>
    simp only [List.nodup_cons] at h
    simp only [firsts, ih h.2, List.cons.injEq, true_and, List.filter_eq_self, decide_eq_true_eq]
    rintro b hb rfl
    exact h.1 hb

theorem firsts_append (a b : List Name) : firsts (a ++ b) = firsts a ++ (firsts b).filter (fun n => n ∉ a) := by
  induction a with
  | nil => simp [firsts]
  | cons x a ih =>
    simp only [List.cons_append, firsts, ih, List.filter_append, List.filter_filter, List.cons.injEq, true_and,
      List.append_cancel_left_eq]
    apply List.filter_congr
    intro n _
    simp only [List.mem_cons, not_or]
    by_cases h : n = x <;> simp [h]

theorem firsts_firsts_append (a b : List Name) : firsts (firsts a ++ b) = firsts (a ++ b) := by
  rw [firsts_append, firsts_append, firsts_of_nodup (firsts_nodup a)]
  simp [mem_firsts]

theorem names_assign (l : List Property) (p : Property) :
    names (assign l p) = if p.name ∈ names l then names l else names l ++ [p.name] := by
  induction l with
  | nil => simp [assign, names]
  | cons q l ih =>
    unfold assign
    by_cases h : q.name = p.name
    · rw [if_pos h]
      simp [names, h]
    · rw [if_neg h]
      have : names (q :: assign l p) = q.name :: names (assign l p) := rfl
      rw [this, ih]
      have h2 : p.name ∈ names (q :: l) ↔ p.name ∈ names l := by
        simp only [names, List.map_cons, List.mem_cons]
        constructor
        · rintro (h' | h')
          · exact absurd h'.symm h
          · exact h'
        · exact .inr
      by_cases h3 : p.name ∈ names l
      · rw [if_pos h3, if_pos (h2.mpr h3)]; rfl
      · rw [if_neg h3, if_neg (fun x => h3 (h2.mp x))]; rfl

theorem look_assign (l : List Property) (p : Property) (n : Name) :
    look (assign l p) n = if p.name = n then some p else look l n := by
  induction l with
  | nil => simp [assign, look_cons]
  | cons q l ih =>
    unfold assign
    by_cases h : q.name = p.name
    · rw [if_pos h, look_cons, look_cons, h]
      split <;> rfl
    · rw [if_neg h, look_cons, ih, look_cons]
      by_cases h1 : q.name = n
      · have : p.name ≠ n := fun x => h (h1.trans x.symm)
        simp [h1, this]
      · simp [h1]

theorem names_fold (l a : List Property) (h : (names a).Nodup) :
    names (l.foldl assign a) = firsts (names a ++ names l) := by
  induction l generalizing a with
  | nil => simp [names] at h ⊢; exact (firsts_of_nodup h).symm
  | cons p l ih =>
    have hn : (names (assign a p)).Nodup := by
      rw [names_assign]
      split
      · exact h
      · rename_i hp
        exact List.nodup_append.mpr ⟨h, by simp, by
          intro x hx y hy
          simp only [List.mem_singleton] at hy
          rintro rfl
          exact hp (hy ▸ hx)⟩
    rw [List.foldl_cons, ih _ hn, names_assign]
    split
    · rename_i hp
      rw [firsts_append, firsts_append]
      congr 1
      show _ = (firsts (p.name :: names l)).filter _
      simp only [firsts, List.filter_cons, hp, not_true_eq_false, decide_false, Bool.false_eq_true, if_false,
        List.filter_filter]
      apply List.filter_congr
      intro n _
      by_cases hx : n = p.name
      · subst hx; simp [hp]
      · simp [hx]
    · rw [List.append_assoc]; rfl

theorem look_fold (l a : List Property) (n : Name) :
    look (l.foldl assign a) n = (lastOf l n).or (look a n) := by
  induction l generalizing a with
  | nil => simp [lastOf]
  | cons p l ih =>
    rw [List.foldl_cons, ih, look_assign]
    have : lastOf (p :: l) n = (lastOf l n).or (look [p] n) := by
      rw [show p :: l = [p] ++ l from rfl, lastOf_append]; rfl
    rw [this, look_cons]
    by_cases h : p.name = n
    · simp [h, Option.or_assoc]
    · simp [h, look]

theorem mem_names_ne (l : List Property) (n x : Name) :
    x ∈ names (l.filter (fun q => decide (q.name ≠ n))) ↔ x ∈ names l ∧ x ≠ n := by
  simp only [names, List.mem_map, List.mem_filter, decide_eq_true_eq]
  constructor
  · rintro ⟨p, ⟨a, c⟩, rfl⟩; exact ⟨⟨p, a, rfl⟩, c⟩
  · rintro ⟨⟨p, a, rfl⟩, c⟩; exact ⟨p, ⟨a, c⟩, rfl⟩

theorem names_append (a b : List Property) : names (a ++ b) = names a ++ names b := by simp [names]

/-- What the loop over the custom order takes out and what it leaves. -/
theorem pick_spec (order : List Name) (l : List Property) (h : (names l).Nodup) :
    names (pick order l).1 = (firsts order).filter (fun n => n ∈ names l) ∧
    (pick order l).2 = l.filter (fun p => p.name ∉ order) ∧
    ∀ p, p ∈ (pick order l).1 ↔ p ∈ l ∧ p.name ∈ order := by
  induction order generalizing l with
  | nil => simp [pick, names, firsts]
  | cons n r ih =>
    unfold pick
    cases hf : l.find? (fun p => decide (p.name = n)) with
    | none =>
      have hn : n ∉ names l := look_none.mp hf
      obtain ⟨h1, h2, h3⟩ := ih l h
      have hne : ∀ p ∈ l, p.name ≠ n := fun p hp e => hn (List.mem_map.mpr ⟨p, hp, e⟩)
      refine ⟨?_, ?_, ?_⟩
      · show names (pick r l).1 = _
        rw [h1]
        simp only [firsts, List.filter_cons, hn, decide_false, Bool.false_eq_true, if_false, List.filter_filter]
        apply List.filter_congr
        intro x _
        by_cases hx : x = n
        · subst hx; simp [hn]
        · simp [hx]
      · show (pick r l).2 = _
        rw [h2]
        apply List.filter_congr
        intro p hp
        simp [hne p hp]
      · intro p
        show p ∈ (pick r l).1 ↔ _
        rw [h3]
        constructor
        · rintro ⟨a, b⟩; exact ⟨a, List.mem_cons_of_mem _ b⟩
        · rintro ⟨a, b⟩
          rcases List.mem_cons.mp b with b | b
          · exact absurd b (hne p a)
          · exact ⟨a, b⟩
    | some q =>
      obtain ⟨hq, hqn⟩ := look_some hf
      have h' : (names (l.filter (fun q => decide (q.name ≠ n)))).Nodup := by
        unfold names at h ⊢
        exact h.sublist (List.filter_sublist.map _)
      obtain ⟨h1, h2, h3⟩ := ih _ h'
      dsimp only
      refine ⟨?_, ?_, ?_⟩
      · show q.name :: names (pick r (l.filter (fun q => decide (q.name ≠ n)))).1 = _
        rw [h1, hqn]
        have hn : n ∈ names l := hqn ▸ List.mem_map.mpr ⟨q, hq, rfl⟩
        simp only [firsts, List.filter_cons, hn, decide_true, if_true, List.filter_filter, List.cons.injEq, true_and]
        apply List.filter_congr
        intro x _
        have := mem_names_ne l n x
        by_cases hx : x = n
        · rw [decide_eq_false (fun y => (this.mp y).2 hx)]
          simp [hx]
        · have e : x ∈ names (l.filter (fun q => decide (q.name ≠ n))) ↔ x ∈ names l :=
            ⟨fun y => (this.mp y).1, fun y => this.mpr ⟨y, hx⟩⟩
          simp only [decide_eq_decide.mpr e]
          simp [hx]
      · rw [h2, List.filter_filter]
        apply List.filter_congr
        intro p _
        simp only [List.mem_cons, not_or]
        by_cases hx : p.name = n <;> simp [hx]
      · intro p
        rw [List.mem_cons, h3, List.mem_filter, List.mem_cons]
        constructor
        · rintro (rfl | ⟨⟨a, _⟩, b⟩)
          · exact ⟨hq, .inl hqn⟩
          · exact ⟨a, .inr b⟩
        · rintro ⟨a, b⟩
          by_cases hx : p.name = n
          · exact .inl (List.inj_on_of_nodup_map h a hq (hx.trans hqn.symm))
          · exact .inr ⟨⟨a, by simpa using hx⟩, b.resolve_left hx⟩

/-- The reordered list. -/
theorem pick_all (order : List Name) (l : List Property) (h : (names l).Nodup) :
    names ((pick order l).1 ++ (pick order l).2) =
      (firsts order).filter (fun n => n ∈ names l) ++ (names l).filter (fun n => n ∉ order) ∧
    ∀ p, p ∈ (pick order l).1 ++ (pick order l).2 ↔ p ∈ l := by
  obtain ⟨h1, h2, h3⟩ := pick_spec order l h
  constructor
  · show ((pick order l).1 ++ (pick order l).2).map _ = _
    rw [List.map_append]
    congr 1
    rw [h2]
    simp only [names, List.filter_map]
    rfl
  · intro p
    rw [List.mem_append, h3, h2, List.mem_filter]
    by_cases hx : p.name ∈ order <;> simp [hx]

theorem nodup_order (order all : List Name) (h : all.Nodup) :
    ((firsts order).filter (fun n => n ∈ all) ++ all.filter (fun n => n ∉ order)).Nodup := by
  refine List.nodup_append.mpr ⟨(firsts_nodup _).filter _, h.filter _, ?_⟩
  intro x hx y hy
  simp only [List.mem_filter, mem_firsts, decide_eq_true_eq] at hx hy
  rintro rfl
  exact hy.2 hx.1

theorem listed_nodup : ∀ l : List Cls, (listed l).Nodup
  | [] => by simp [listed]
  | c :: l => by
    unfold listed
    exact nodup_order _ _ (firsts_nodup _)

/-- The properties of a class as they are listed. -/
theorem arrange_spec (order : List Name) (inh own : List Property) (lst : List Name) (hi : firsts (names inh) = lst)
    (ho : (names own).Nodup) :
    firsts (names (arrange order inh own)) =
      (firsts order).filter (fun n => n ∈ firsts (lst ++ names own)) ++
        (firsts (lst ++ names own)).filter (fun n => n ∉ order) ∧
    (∀ n, lastOf (arrange order inh own) n = (look own n).or (lastOf inh n)) ∧
    (order ≠ [] → (names (arrange order inh own)).Nodup) := by
  subst hi
  rw [firsts_firsts_append]
  unfold arrange
  by_cases h : order = []
  · subst h
    rw [if_pos rfl]
    refine ⟨?_, ?_, by simp⟩
    · simp [firsts, names]
    · intro n
      rw [lastOf_append, lastOf_nodup ho]
  · rw [if_neg h]
    have h1 : own.foldl assign (inh.foldl assign []) = (inh ++ own).foldl assign [] := by rw [List.foldl_append]
    rw [h1]
    have hn := names_fold (inh ++ own) [] (by simp [names])
    rw [names_append, show names [] = [] from rfl, List.nil_append] at hn
    have hL : (names ((inh ++ own).foldl assign [])).Nodup := by rw [hn]; exact firsts_nodup _
    obtain ⟨h2, h3⟩ := pick_all order _ hL
    have hnd : (names ((pick order ((inh ++ own).foldl assign [])).1 ++ (pick order ((inh ++ own).foldl assign [])).2)).Nodup := by
      rw [h2]; exact nodup_order _ _ hL
    dsimp only
    refine ⟨?_, ?_, fun _ => hnd⟩
    · rw [firsts_of_nodup hnd, h2, hn]
    · intro n
      rw [lastOf_nodup hnd]
      have : (look own n).or (lastOf inh n) = look ((inh ++ own).foldl assign []) n := by
        rw [look_fold, lastOf_append, lastOf_nodup ho]; simp [look]
      rw [this]
      cases hf : look ((inh ++ own).foldl assign []) n with
      | none =>
        rw [look_none] at hf ⊢
        intro hx
        obtain ⟨p, hp, rfl⟩ := List.mem_map.mp hx
        exact hf (List.mem_map.mpr ⟨p, (h3 p).mp hp, rfl⟩)
      | some p =>
        obtain ⟨a, b⟩ := look_some hf
        exact (look_nodup hnd).mpr ⟨(h3 p).mpr a, b⟩

/-- The list of a class and its ancestors. -/
theorem list_spec {m : CMgr} {c : Cls} {l : List Cls} (h : Chain m c l) (ht : ∀ d ∈ l, Tidy d) (k : Nat) (hk : l.length ≤ k) :
    ∃ r, c.list k m true = some (.ok r) ∧ firsts (names r) = listed l ∧ (∀ n, lastOf r n = nearest l n) ∧
      (c.order ≠ [] → (names r).Nodup) := by
  induction h generalizing k with
  | root c hp =>
    obtain ⟨k, rfl⟩ : ∃ j, k = j + 1 := ⟨k - 1, by simp at hk; omega⟩
    obtain ⟨h1, h2, h3⟩ := arrange_spec c.order [] c.props [] (by simp [names, firsts]) (ht c (by simp))
    refine ⟨_, by unfold Cls.list; simp [hp], h1, ?_, h3⟩
    intro n
    rw [h2]
    show _ = match look c.props n with
      | some p => some p
      | none => none
    cases look c.props n <;> simp [lastOf]
  | step c d q l hp hm hl _ ih =>
    obtain ⟨k, rfl⟩ : ∃ j, k = j + 1 := ⟨k - 1, by simp at hk; omega⟩
    obtain ⟨r, hr, a1, a2, _⟩ := ih (fun e he => ht e (List.mem_cons_of_mem _ he)) k (by simp at hk; omega)
    obtain ⟨h1, h2, h3⟩ := arrange_spec c.order r c.props (listed l) a1 (ht c (by simp))
    refine ⟨_, by unfold Cls.list; simp only [hp, hm, hl, hr, Bool.not_true, Bool.false_eq_true, if_false], h1, ?_, h3⟩
    intro n
    rw [h2, a2]
    show _ = match look c.props n with
      | some p => some p
      | none => nearest l n
    cases look c.props n <;> simp

/-- No two classes have a property of the same name. -/
def Separate (l : List Cls) : Prop := (l.flatMap (fun c => names c.props)).Nodup

theorem sep_nodup {m : CMgr} {c : Cls} {l : List Cls} (h : Chain m c l) (hs : Separate l) (k : Nat)
    (r : List Property) (hr : c.list k m true = some (.ok r)) :
    (names r).Nodup ∧ ∀ n, n ∈ names r ↔ n ∈ l.flatMap (fun c => names c.props) := by
  have key : ∀ (order : List Name) (inh own : List Property), (names inh ++ names own).Nodup →
      (names (arrange order inh own)).Nodup ∧ ∀ n, n ∈ names (arrange order inh own) ↔ n ∈ names inh ∨ n ∈ names own := by
    intro order inh own hn
    unfold arrange
    by_cases ho : order = []
    · rw [if_pos ho]
      exact ⟨by simpa [names] using hn, by simp [names]⟩
    · rw [if_neg ho]
      have h1 : own.foldl assign (inh.foldl assign []) = (inh ++ own).foldl assign [] := by rw [List.foldl_append]
      rw [h1]
      have hL : names ((inh ++ own).foldl assign []) = names inh ++ names own := by
        rw [names_fold _ _ (by simp [names])]
        have : names [] ++ names (inh ++ own) = names inh ++ names own := by simp [names]
        rw [this]
        exact firsts_of_nodup hn
      obtain ⟨h2, h3⟩ := pick_all order _ (hL ▸ hn)
      dsimp only
      constructor
      · rw [h2]; exact nodup_order _ _ (hL ▸ hn)
      · intro n
        rw [← List.mem_append, ← hL]
        constructor
        · intro hx
          obtain ⟨p, hp, rfl⟩ := List.mem_map.mp hx
          exact List.mem_map.mpr ⟨p, (h3 p).mp hp, rfl⟩
        · intro hx
          obtain ⟨p, hp, rfl⟩ := List.mem_map.mp hx
          exact List.mem_map.mpr ⟨p, (h3 p).mpr hp, rfl⟩
  induction h generalizing k r with
  | root c hp =>
    cases k with
    | zero => simp [Cls.list] at hr
    | succ k =>
      simp only [Cls.list, hp, Option.some.injEq, Except.ok.injEq] at hr
      subst hr
      have := key c.order [] c.props (by simpa [Separate, names] using hs)
      refine ⟨this.1, fun n => ?_⟩
      rw [this.2]
      simp [names]
  | step c d q l hp hm hl _ ih =>
    cases k with
    | zero => simp [Cls.list] at hr
    | succ k =>
      simp only [Cls.list, hp, hm, hl, Bool.not_true, Bool.false_eq_true, if_false] at hr
      have hs' := hs
      unfold Separate at hs'
      rw [List.flatMap_cons, List.nodup_append] at hs'
      cases hd : Cls.list k m d true with
      | none => simp [hd] at hr
      | some x =>
        cases x with
        | error e => simp [hd] at hr
        | ok r' =>
          simp only [hd, Option.some.injEq, Except.ok.injEq] at hr
          subst hr
          obtain ⟨b1, b2⟩ := ih hs'.2.1 k r' hd
          have := key c.order r' c.props (List.nodup_append.mpr ⟨b1, hs'.1, by
            intro x hx y hy e
            subst e
            exact hs'.2.2 x hy x ((b2 x).mp hx) rfl⟩)
          refine ⟨this.1, fun n => ?_⟩
          rw [this.2, b2, List.flatMap_cons, List.mem_append]
          exact Or.comm

/-- C129: the properties of a class with all ancestors.  With a custom order, or if no class
overrides a property of an ancestor, every property is listed once, exactly those that
`getProperty` gives, in the documented order.  Missing: classes without a custom order that
override properties, see the violation. -/
theorem C129_list_partial {m : CMgr} {c : Cls} {l : List Cls} (h : Chain m c l) (ht : ∀ d ∈ l, Tidy d)
    (k : Nat) (hk : l.length ≤ k) (ho : c.order ≠ [] ∨ Separate l) :
    ∃ r, c.list k m true = some (.ok r) ∧ r.map (·.name) = listed l ∧ (r.map (·.name)).Nodup ∧
      ∀ p, p ∈ r ↔ c.get k m p.name = some (.ok p) := by
  obtain ⟨r, hr, h1, h2, h3⟩ := list_spec h ht k hk
  have hn : (names r).Nodup := by
    rcases ho with ho | ho
    · exact h3 ho
    · exact (sep_nodup h ho k r hr).1
  refine ⟨r, hr, by rw [← h1, firsts_of_nodup hn]; rfl, hn, ?_⟩
  intro p
  rw [C127_get h k hk, ← h2, lastOf_nodup hn]
  constructor
  · intro hp
    rw [(look_nodup hn).mpr ⟨hp, rfl⟩]
  · intro hp
    cases hf : look r p.name with
    | none => simp [hf] at hp
    | some q =>
      simp only [hf, Option.some.injEq, Except.ok.injEq] at hp
      subst hp
      exact (look_some hf).1

/-- C129: without ancestors only the properties of the class are listed, in the custom order
if there is one. -/
theorem C129_own (m : CMgr) (c : Cls) (ht : Tidy c) (k : Nat) :
    ∃ r, c.list (k + 1) m false = some (.ok r) ∧
      r.map (·.name) = (firsts c.order).filter (fun n => n ∈ c.props.map (·.name)) ++
        (c.props.map (·.name)).filter (fun n => n ∉ c.order) ∧
      ∀ p, p ∈ r ↔ p ∈ c.props := by
  have ht' : (names c.props).Nodup := ht
  refine ⟨_, rfl, ?_⟩
  unfold arrange
  by_cases ho : c.order = []
  · rw [if_pos ho, ho]
    simp [firsts]
  · rw [if_neg ho]
    have hL : names (c.props.foldl assign ([].foldl assign [])) = names c.props := by
      rw [List.foldl_nil, names_fold _ _ (by simp [names])]
      exact firsts_of_nodup ht'
    obtain ⟨h2, h3⟩ := pick_all c.order _ (hL ▸ ht')
    refine ⟨by rw [hL] at h2; exact h2, fun p => ?_⟩
    rw [h3]
    have hx : look (c.props.foldl assign ([].foldl assign [])) p.name = look c.props p.name := by
      rw [List.foldl_nil, look_fold, lastOf_nodup ht']; simp [look]
    constructor
    · intro hp
      exact (look_some (hx ▸ (look_nodup (hL ▸ ht')).mpr ⟨hp, rfl⟩)).1
    · intro hp
      exact (look_some (hx ▸ (look_nodup ht').mpr ⟨hp, rfl⟩)).1

/-- C129, violation: an overridden property is listed twice; the first one is not the one
that the class has. -/
theorem C129_violation_twice : derived.list 2 bothMgr true =
    some (.ok [⟨nx, none, 1⟩, ⟨ny, none, 2⟩, ⟨nx, none, 3⟩, ⟨nz, none, 4⟩]) ∧
    derived.get 2 bothMgr nx = some (.ok ⟨nx, none, 3⟩) := ⟨by decide +kernel, rfl⟩

/-- With a custom order it is listed once. -/
example : ({ derived with order := [nz] } : Cls).list 2 bothMgr true =
    some (.ok [⟨nz, none, 4⟩, ⟨nx, none, 3⟩, ⟨ny, none, 2⟩]) := by decide +kernel

/-- C130: what an object of a class lists, with its own properties: every property once, the
one that it uses, the ancestors' first, then those of the class, then its own, or in its
custom order. -/
theorem C130_object {m : CMgr} {c : Cls} {l : List Cls} (h : Chain m c l) (ht : ∀ d ∈ l, Tidy d)
    (k : Nat) (hk : l.length ≤ k) (locals : List Property) (hl : (locals.map (·.name)).Nodup) (order : List Name) :
    ∃ r, objList k m c locals true order = some (.ok r) ∧
      r.map (·.name) =
        (firsts order).filter (fun n => n ∈ firsts (listed l ++ locals.map (·.name))) ++
          (firsts (listed l ++ locals.map (·.name))).filter (fun n => n ∉ order) ∧
      (r.map (·.name)).Nodup ∧ ∀ p, p ∈ r ↔ objGet k m c locals p.name = some (.ok p) := by
  obtain ⟨r, hr, h1, h2, -⟩ := list_spec h ht k hk
  have hn : names ((r ++ locals).foldl assign []) = firsts (listed l ++ names locals) := by
    rw [names_fold _ _ (by simp [names]), ← h1, firsts_firsts_append]
    simp [names]
  have hL : (names ((r ++ locals).foldl assign [])).Nodup := by rw [hn]; exact firsts_nodup _
  have hlook : ∀ p : Property, p ∈ (r ++ locals).foldl assign [] ↔ objGet k m c locals p.name = some (.ok p) := by
    intro p
    have e : p ∈ (r ++ locals).foldl assign [] ↔ look ((r ++ locals).foldl assign []) p.name = some p :=
      ⟨fun hp => (look_nodup hL).mpr ⟨hp, rfl⟩, fun hp => (look_some hp).1⟩
    rw [e, look_fold, lastOf_append, lastOf_nodup hl, h2]
    unfold objGet
    show _ ↔ (match look locals p.name with
      | some p => some (Except.ok p)
      | none => c.get k m p.name) = _
    rw [C127_get h k hk]
    cases look locals p.name with
    | some q => simp [look]
    | none => cases nearest l p.name <;> simp [look]
  unfold objList
  rw [hr]
  by_cases ho : order = []
  · subst ho
    refine ⟨_, rfl, ?_, hL, hlook⟩
    have : (firsts ([] : List Name)) = [] := rfl
    rw [this]
    show names _ = _
    simp only [if_true]
    rw [hn]
    simp [names]
  · obtain ⟨h3, h4⟩ := pick_all order _ hL
    refine ⟨_, by dsimp only; rw [if_neg ho], ?_, ?_, fun p => by
      rw [← hlook p]; exact h4 p⟩
    · show names _ = _
      rw [hn] at h3
      exact h3
    · show (names _).Nodup
      have : names ((pick order ((r ++ locals).foldl assign [])).1 ++ (pick order ((r ++ locals).foldl assign [])).2) = _ := h3
      exact this ▸ nodup_order _ _ hL

/-- C129, violation: while a configuration is loaded into an object the overridden property of
the ancestor is used instead: if that is a reference property, say, the value is skipped
(obj:3664-3675). -/
theorem C129_violation_update : objList 2 bothMgr derived [] false [] =
    some (.ok [⟨nx, none, 1⟩, ⟨ny, none, 2⟩, ⟨nz, none, 4⟩]) ∧
    objGet 2 bothMgr derived [] nx = some (.ok ⟨nx, none, 3⟩) := ⟨by decide +kernel, rfl⟩

/-- Non-vacuity of C130. -/
example : objList 2 bothMgr derived [⟨ny, none, 8⟩] true [nz, nA, ny] =
    some (.ok [⟨nz, none, 4⟩, ⟨ny, none, 8⟩, ⟨nx, none, 3⟩]) ∧ (∀ d ∈ [derived, base], Tidy d) := by
  refine ⟨by decide +kernel, ?_⟩
  intro d hd
  rcases List.mem_cons.mp hd with rfl | hd
  · unfold Tidy; decide
  · rw [List.mem_singleton.mp hd]; unfold Tidy; decide

end Verif.Classes.Props
