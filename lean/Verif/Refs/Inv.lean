import Verif.Refs.Lemmas

/-!
# Invariants of sequences of calls
-/

namespace Verif.Refs

open Verif

variable {V : Type} [DecidableEq V] {decl : Nat → Decl V}

theorem run_snoc (d : Nat) : ∀ (ops : List (Op V)) (w : World V) (op : Op V),
    run decl d w (ops ++ [op]) = (step decl d (run decl d w ops) op).1
  | [], _, _ => rfl
  | a :: ops, w, op => run_snoc d ops (step decl d w a).1 op

/-- How a call changes one object. -/
inductive Change (decl : Nat → Decl V) (x : Obj V) : Obj V → Prop where
  | same : Change decl x x
  | add (p : Nat) : x.hasDuplicate decl p = false → x.has (decl p).name = false →
      Change decl x (({ x with props := ((decl p).name, p) :: x.props } : Obj V).hookUp (decl p))
  | remove (n : Name) : x.has n = true → Change decl x { x with props := x.props.del n, values := x.values.del n }
  | listen (n : Name) (p : Nat) (h : Nat) : x.props.get n = some p → (decl p).ref = none →
      Change decl x { x with events := x.events.put n (x.heard n ++ [h]) }
  | put (n : Name) (p : Nat) (v : V) : x.props.get n = some p → Change decl x { x with values := x.values.put (decl p).name v }
  | del (n : Name) : Change decl x { x with values := x.values.del n }

theorem add_change (w : World V) (o p o' : Nat) : Change decl (w.obj o') ((w.add decl o p).1.obj o') := by
  rcases add_cases (decl := decl) w o p with ⟨_, e⟩ | ⟨_, _, e⟩ | ⟨_, _, _, e⟩ | ⟨h1, _, h3, e⟩
  · rw [e]; exact .same
  · rw [e]; exact .same
  · rw [e]; exact .same
  · rw [e]
    dsimp only
    rw [obj_putObj]
    by_cases h : o' = o
    · rw [if_pos h, h]; exact .add p h1 h3
    · rw [if_neg h]; exact .same

theorem step_change (d : Nat) (w : World V) (op : Op V) (o : Nat) :
    Change decl (w.obj o) ((step decl d w op).1.obj o) := by
  cases op with
  | add o' p => exact add_change w o' p o
  | remove o' n =>
    change Change decl _ ((w.remove o' n).1.obj o)
    unfold World.remove
    cases h : (w.obj o').has n with
    | false => rw [if_neg (by decide)]; exact .same
    | true =>
      rw [if_pos rfl]
      dsimp only
      rw [obj_putObj]
      by_cases e : o = o'
      · rw [if_pos e, e]; exact .remove n h
      · rw [if_neg e]; exact .same
  | listen o' n h =>
    change Change decl _ ((w.listen decl o' n h).1.obj o)
    unfold World.listen
    cases hp : (w.obj o').props.get n with
    | none => exact .same
    | some p =>
      dsimp only
      cases hr : (decl p).ref with
      | some r => rw [if_pos (by simp)]; exact .same
      | none =>
        rw [if_neg (by simp)]
        dsimp only
        rw [obj_putObj]
        by_cases e : o = o'
        · rw [if_pos e, e]; exact .listen n p h hp hr
        · rw [if_neg e]; exact .same
  | set o' n v =>
    change Change decl _ ((w.through decl d o' n fun x p => x.write decl p v).1.obj o)
    rcases through_cases (decl := decl) w d o' n (fun x p => x.write decl p v) with e | ⟨p, x, hs, hr, ha, e⟩
    · rw [e]; exact .same
    · rw [e]
      dsimp only
      rw [obj_putObj]
      by_cases e' : o = o'
      · rw [if_pos e', e']
        rcases (write_ok ha).2 with ⟨_, ex, _⟩ | ⟨_, ex, _⟩
        · rw [ex]; exact .same
        · rw [ex]
          obtain ⟨_, m, hm⟩ := resolve_plain hr
          exact .put m p v hm
      · rw [if_neg e']; exact .same
  | clear o' n =>
    change Change decl _ ((w.through decl d o' n fun x p => x.clear decl p).1.obj o)
    rcases through_cases (decl := decl) w d o' n (fun x p => x.clear decl p) with e | ⟨p, x, hs, hr, ha, e⟩
    · rw [e]; exact .same
    · rw [e]
      dsimp only
      rw [obj_putObj]
      by_cases e' : o = o'
      · rw [if_pos e', e']
        rcases (clear_ok ha).2 with ⟨_, ex, _⟩ | ⟨_, ex, _⟩
        · rw [ex]; exact .same
        · rw [ex]; exact .del _
      · rw [if_neg e']; exact .same

/-- The part of the invariant that concerns one object. -/
structure OkObj (decl : Nat → Decl V) (x : Obj V) : Prop where
  named : ∀ n p, x.props.get n = some p → (decl p).name = n
  live : ∀ n v, x.values.get n = some v → (x.props.get n).isSome

theorem has_false {x : Obj V} {n : Name} (h : x.has n = false) : x.props.get n = none := by
  unfold Obj.has AList.has at h
  cases e : x.props.get n with
  | none => rfl
  | some p => rw [e] at h; cases h

theorem change_ok {x y : Obj V} (hc : Change decl x y) (hx : OkObj decl x) : OkObj decl y := by
  cases hc with
  | same => exact hx
  | add p _ hn =>
    constructor
    · intro n q h
      rw [hookUp_props] at h
      rw [AList.get_cons] at h
      by_cases e : n = (decl p).name
      · rw [if_pos e] at h; cases h; exact e.symm
      · rw [if_neg e] at h; exact hx.named n q h
    · intro n v h
      rw [hookUp_values] at h
      rw [hookUp_props, AList.get_cons]
      split
      · rfl
      · exact hx.live n v h
  | remove n _ =>
    constructor
    · intro m q h
      rw [AList.get_del] at h
      split at h
      · cases h
      · exact hx.named m q h
    · intro m v h
      dsimp only at h ⊢
      rw [AList.get_del] at h ⊢
      by_cases e : m = n
      · rw [if_pos e] at h; cases h
      · rw [if_neg e] at h; rw [if_neg e]; exact hx.live m v h
  | listen n p h hp _ => exact ⟨hx.named, hx.live⟩
  | put n p v hp =>
    refine ⟨hx.named, ?_⟩
    intro m u h
    dsimp only at h ⊢
    rw [AList.get_put] at h
    by_cases e : m = (decl p).name
    · rw [e, hx.named n p hp, hp]; rfl
    · rw [if_neg e] at h; exact hx.live m u h
  | del n =>
    refine ⟨hx.named, ?_⟩
    intro m u h
    dsimp only at h ⊢
    rw [AList.get_del] at h
    by_cases e : m = n
    · rw [if_pos e] at h; cases h
    · rw [if_neg e] at h; exact hx.live m u h

theorem ok_obj {w : World V} (h : Ok decl w) (o : Nat) : OkObj decl (w.obj o) := ⟨h.named o, h.live o⟩

theorem ok_step {d : Nat} {w : World V} (h : Ok decl w) (op : Op V) : Ok decl (step decl d w op).1 :=
  ⟨fun o => (change_ok (step_change d w op o) (ok_obj h o)).named,
   fun o => (change_ok (step_change d w op o) (ok_obj h o)).live⟩

theorem ok_init : Ok decl ({} : World V) := ⟨fun _ _ _ h => (nomatch h), fun _ _ _ h => (nomatch h)⟩

theorem ok_run {d : Nat} : ∀ (ops : List (Op V)) {w : World V}, Ok decl w → Ok decl (run decl d w ops)
  | [], _, h => h
  | op :: ops, _, h => ok_run ops (ok_step h op)

/-- References come after what they mention. -/
structure Sorted (decl : Nat → Decl V) (l : AList Name Nat) : Prop where
  apart : l.Pairwise fun a b => a.1 ≠ b.1 ∧ ∀ r, (decl b.2).ref = some r → a.1 ∉ Spec.mentions r
  self : ∀ e ∈ l, ∀ r, (decl e.2).ref = some r → e.1 ∉ Spec.mentions r

theorem get_of_sorted : ∀ {l : AList Name Nat} {n : Name} {p : Nat},
    l.Pairwise (fun a b => a.1 ≠ b.1) → (n, p) ∈ l → AList.get l n = some p
  | [], _, _, _, h => by cases h
  | (m, q) :: l, n, p, hs, h => by
    rw [AList.get_cons]
    rw [List.pairwise_cons] at hs
    rcases List.mem_cons.mp h with e | e
    · cases e; rw [if_pos rfl]
    · rw [if_neg (fun e' => hs.1 _ e e'.symm)]
      exact get_of_sorted hs.2 e

theorem mentions_targets {r : Ref V} {m : Name} (h : m ∈ Spec.targets r) : m ∈ Spec.mentions r := by
  cases r with
  | to _ => exact h
  | switch c cs other => exact List.mem_cons_of_mem _ h

theorem selects_target {v : V} {cs : List (V × Name)} {other : Option Name} {m : Name}
    (h : Spec.Selects v cs other m) : m ∈ cs.map (·.2) ++ other.toList := by
  induction h with
  | first m cs other => simp
  | later k m m' cs other _ _ ih => exact List.mem_cons_of_mem _ ih
  | other m => simp

include decl in
theorem choose_target {w : World V} {o : Nat} {g : Name → Out V} {r : Ref V} {m : Name}
    (h : choose (w.obj o) g r = .ok m) : m ∈ Spec.targets r := by
  rcases choose_ok (decl := decl) h with
    ⟨e, _⟩ | ⟨c, cs, other, v, e, _, hs, _, _⟩
  · rw [e]; exact List.mem_singleton.mpr rfl
  · rw [e]; exact selects_target hs

theorem choose_overflow {x : Obj V} {g : Name → Out V} {r : Ref V} (h : choose x g r = .overflow) :
    ∃ c ∈ Spec.mentions r, g c = .overflow := by
  cases r with
  | to m =>
    change (if x.has m = true then Out.ok m else .err .unresolved) = .overflow at h
    split at h <;> cases h
  | switch c cs other =>
    refine ⟨c, List.mem_cons_self .., ?_⟩
    unfold choose at h
    dsimp only at h
    cases hg : g c with
    | overflow => rfl
    | err e => rw [hg] at h; cases h
    | ok v =>
      rw [hg] at h
      dsimp only at h
      split at h
      · cases hp : pick v cs other <;> rw [hp] at h <;> cases h
      · cases h

/-- Following references that come after what they mention takes at most as many steps as there are properties. -/
theorem sorted_ends {w : World V} {o : Nat} (hs : Sorted decl (w.obj o).props) :
    ∀ (l pre : AList Name Nat), (w.obj o).props = pre ++ l → ∀ n,
      (n ∈ l.map (·.1) ∨ (w.obj o).props.get n = none) →
      resolve decl (w.obj o) (l.length + 1) n ≠ .overflow
  | [], pre, _, n, hn => by
    rcases hn with h | h
    · cases h
    · intro e
      unfold resolve at e
      rw [h] at e
      cases e
  | (k, p) :: l, pre, hl, n, hn => by
    have hl' : (w.obj o).props = (pre ++ [(k, p)]) ++ l := by rw [hl, List.append_assoc]; rfl
    have ih := sorted_ends hs l (pre ++ [(k, p)]) hl'
    by_cases hm : n ∈ l.map (·.1) ∨ (w.obj o).props.get n = none
    · have := ih n hm
      rw [List.length_cons, resolve_succ this]
      exact this
    · have hk : n = k := by
        rcases hn with h | h
        · rcases List.mem_cons.mp h with e | e
          · exact e
          · exact absurd (.inl e) hm
        · exact absurd (.inr h) hm
      subst hk
      have hmem : (n, p) ∈ (w.obj o).props := by rw [hl]; simp
      have hg : (w.obj o).props.get n = some p := get_of_sorted (hs.apart.imp fun h => h.1) hmem
      cases hr : (decl p).ref with
      | none => rw [resolve_here hg hr]; intro e; cases e
      | some r =>
        have hme : ∀ c ∈ Spec.mentions r, c ∈ l.map (·.1) ∨ (w.obj o).props.get c = none := by
          intro c hc
          cases hgc : (w.obj o).props.get c with
          | none => exact .inr rfl
          | some q =>
            have hq := AList.mem_of_get hgc
            rw [hl] at hq
            rcases List.mem_append.mp hq with h | h
            · have ha := hs.apart
              rw [hl, List.pairwise_append] at ha
              exact absurd hc ((ha.2.2 _ h _ (List.mem_cons_self ..)).2 r hr)
            · rcases List.mem_cons.mp h with e | e
              · cases e
                exact absurd hc (hs.self _ hmem r hr)
              · exact .inl (List.mem_map.mpr ⟨_, e, rfl⟩)
        intro ho
        cases hch : choose (w.obj o) (fun c => (resolve decl (w.obj o) (l.length + 1) c).map ((w.obj o).value decl)) r with
        | overflow =>
          obtain ⟨c, hc, hov⟩ := choose_overflow hch
          have := ih c (hme c hc)
          cases hrc : resolve decl (w.obj o) (l.length + 1) c with
          | overflow => exact this hrc
          | err e => rw [hrc] at hov; cases hov
          | ok q => rw [hrc] at hov; cases hov
        | err e =>
          unfold resolve at ho
          rw [hg] at ho
          dsimp only [List.length_cons] at ho
          rw [hr] at ho
          dsimp only at ho
          rw [hch] at ho
          cases ho
        | ok m =>
          rw [List.length_cons, resolve_ref hg hr hch] at ho
          exact ih m (hme m (mentions_targets (choose_target (decl := decl) hch))) ho

/-- Two references never name the same existing property. -/
def Single (decl : Nat → Decl V) (x : Obj V) : Prop :=
  x.props.Pairwise fun a b => ∀ ra rb m, (decl a.2).ref = some ra → (decl b.2).ref = some rb →
    m ∈ Spec.targets ra → m ∈ Spec.targets rb → x.props.get m = none

theorem targets_eq (r : Ref V) : r.targets = Spec.targets r := by cases r <;> rfl

theorem isReferenced_iff {x : Obj V} {n : Name} :
    x.isReferenced decl n = true ↔ ∃ e ∈ x.props, ∃ r, (decl e.2).ref = some r ∧ n ∈ Spec.targets r := by
  unfold Obj.isReferenced
  rw [List.any_eq_true]
  constructor
  · rintro ⟨e, he, h⟩
    refine ⟨e, he, ?_⟩
    cases hr : (decl e.2).ref with
    | none => rw [hr] at h; cases h
    | some r =>
      rw [hr] at h
      dsimp only at h
      rw [targets_eq, List.contains_iff_mem] at h
      exact ⟨r, rfl, h⟩
  · rintro ⟨e, he, r, hr, h⟩
    refine ⟨e, he, ?_⟩
    rw [hr]
    dsimp only
    rw [targets_eq, List.contains_iff_mem]
    exact h

theorem hasDuplicate_iff {x : Obj V} {p : Nat} :
    x.hasDuplicate decl p = true ↔ ∃ r m, (decl p).ref = some r ∧ m ∈ Spec.targets r ∧ (x.props.get m).isSome ∧
      ∃ e ∈ x.props, ∃ r', (decl e.2).ref = some r' ∧ m ∈ Spec.targets r' := by
  unfold Obj.hasDuplicate
  cases hr : (decl p).ref with
  | none =>
    constructor
    · intro h; cases h
    · rintro ⟨r, m, h, _⟩; cases h
  | some r =>
    dsimp only
    rw [List.any_eq_true]
    constructor
    · rintro ⟨m, hm, h⟩
      rw [Bool.and_eq_true, isReferenced_iff] at h
      exact ⟨r, m, rfl, by rw [← targets_eq]; exact hm, h.1, h.2⟩
    · rintro ⟨r', m, e, hm, h1, h2⟩
      cases e
      refine ⟨m, by rw [targets_eq]; exact hm, ?_⟩
      rw [Bool.and_eq_true, isReferenced_iff]
      exact ⟨h1, h2⟩

/-- The orderly condition for one object. -/
def Later (decl : Nat → Decl V) (x : Obj V) (p : Nat) : Prop :=
  (∀ r, (decl p).ref = some r → (decl p).name ∉ Spec.mentions r) ∧
  ∀ e ∈ x.props, ∀ r, (decl e.2).ref = some r → (decl p).name ∉ Spec.mentions r

theorem mem_keys_of_get {l : AList Name Nat} {n : Name} (h : AList.get l n = none) : ∀ e ∈ l, e.1 ≠ n := by
  intro e he h'
  have := (AList.get_isSome_iff_mem_keys l n).mpr (List.mem_map.mpr ⟨e, he, h'⟩)
  rw [h] at this
  cases this

theorem sorted_add {x : Obj V} {p : Nat} (hs : Sorted decl x.props) (hl : Later decl x p)
    (hn : x.has (decl p).name = false) : Sorted decl (((decl p).name, p) :: x.props) := by
  have hg := has_false hn
  constructor
  · rw [List.pairwise_cons]
    exact ⟨fun e he => ⟨fun h => mem_keys_of_get hg e he h.symm, hl.2 e he⟩, hs.apart⟩
  · intro e he
    rcases List.mem_cons.mp he with h | h
    · cases h; exact hl.1
    · exact hs.self e h

theorem sorted_del {l : AList Name Nat} (hs : Sorted decl l) (n : Name) : Sorted decl (l.del n) :=
  ⟨hs.apart.filter _, fun e he => hs.self e (List.mem_filter.mp he).1⟩

theorem single_add {x : Obj V} {p : Nat} (hs : Single decl x) (hl : Later decl x p)
    (hd : x.hasDuplicate decl p = false) (ev : AList Name (List Nat)) :
    Single decl { x with props := ((decl p).name, p) :: x.props, events := ev } := by
  unfold Single
  dsimp only
  rw [List.pairwise_cons]
  constructor
  · intro e he ra rb m hra hrb ha hb
    have hne : m ≠ (decl p).name := fun h => hl.1 ra hra (h ▸ mentions_targets ha)
    rw [AList.get_cons, if_neg hne]
    cases hg : x.props.get m with
    | none => rfl
    | some q =>
      have : x.hasDuplicate decl p = true :=
        hasDuplicate_iff.mpr ⟨ra, m, hra, ha, by rw [hg]; rfl, e, he, rb, hrb, hb⟩
      rw [hd] at this
      cases this
  · refine List.Pairwise.imp_of_mem ?_ hs
    intro a b hma hmb h ra rb m hra hrb ha hb
    have hne : m ≠ (decl p).name := fun h => hl.2 a hma ra hra (h ▸ mentions_targets ha)
    rw [AList.get_cons, if_neg hne]
    exact h ra rb m hra hrb ha hb

theorem single_del {x : Obj V} (hs : Single decl x) (n : Name) (vs : AList Name V) :
    Single decl { x with props := x.props.del n, values := vs } := by
  refine (List.Pairwise.filter _ hs).imp ?_
  intro a b h ra rb m hra hrb ha hb
  dsimp only
  rw [AList.get_del, h ra rb m hra hrb ha hb]
  split <;> rfl

/-- What holds of each object if references are added after what they mention. -/
structure Tidy (decl : Nat → Decl V) (w : World V) : Prop where
  sorted : ∀ o, Sorted decl (w.obj o).props
  single : ∀ o, Single decl (w.obj o)

theorem hookUp_eq (x : Obj V) (d : Decl V) : x.hookUp d = { x with events := (x.hookUp d).events } := by
  unfold Obj.hookUp; split <;> rfl

theorem tidy_step {d : Nat} {past : List (Op V)} {op : Op V} (h : Tidy decl (run decl d {} past))
    (hg : Spec.Orderly decl d past op) (hok : Ok decl (run decl d {} past)) :
    Tidy decl (step decl d (run decl d {} past) op).1 := by
  generalize hw : run decl d {} past = w at *
  have both : ∀ o, Sorted decl ((step decl d w op).1.obj o).props ∧ Single decl ((step decl d w op).1.obj o) := by
    intro o
    have hso := h.sorted o
    have hsi := h.single o
    cases op with
    | add o' p =>
      change Sorted decl ((w.add decl o' p).1.obj o).props ∧ Single decl ((w.add decl o' p).1.obj o)
      rcases add_cases (decl := decl) w o' p with ⟨_, e⟩ | ⟨_, _, e⟩ | ⟨_, _, _, e⟩ | ⟨h1, _, h3, e⟩
      · rw [e]; exact ⟨hso, hsi⟩
      · rw [e]; exact ⟨hso, hsi⟩
      · rw [e]; exact ⟨hso, hsi⟩
      · rw [e]
        dsimp only
        rw [obj_putObj]
        by_cases ho : o = o'
        · rw [if_pos ho]
          subst ho
          have hl : Later decl (w.obj o) p := by
            refine ⟨hg.1, ?_⟩
            intro e he r hr
            have := get_of_sorted (hso.apart.imp fun h => h.1) (n := e.1) (p := e.2) he
            refine hg.2 e.1 (decl e.2) r ?_ hr
            rw [hw, prop_eq, this]
            rfl
          refine ⟨by rw [hookUp_props]; exact sorted_add hso hl h3, ?_⟩
          rw [hookUp_eq]
          exact single_add hsi hl h1 _
        · rw [if_neg ho]; exact ⟨hso, hsi⟩
    | remove o' n =>
      change Sorted decl ((w.remove o' n).1.obj o).props ∧ Single decl ((w.remove o' n).1.obj o)
      unfold World.remove
      cases hh : (w.obj o').has n with
      | false => rw [if_neg (by decide)]; exact ⟨hso, hsi⟩
      | true =>
        rw [if_pos rfl]
        dsimp only
        rw [obj_putObj]
        by_cases e : o = o'
        · rw [if_pos e]
          subst e
          exact ⟨sorted_del hso n, single_del hsi n _⟩
        · rw [if_neg e]; exact ⟨hso, hsi⟩
    | listen o' n k =>
      have hp : ((step decl d w (.listen o' n k)).1.obj o).props = (w.obj o).props := by
        change ((w.listen decl o' n k).1.obj o).props = _
        unfold World.listen
        split
        · rfl
        · split
          · rfl
          · dsimp only
            rw [obj_putObj]
            by_cases e : o = o'
            · rw [if_pos e, e]
            · rw [if_neg e]
      unfold Single
      rw [hp]
      exact ⟨hso, hsi⟩
    | set o' n v =>
      have hp : ((step decl d w (.set o' n v)).1.obj o).props = (w.obj o).props := by
        change ((w.through decl d o' n fun x p => x.write decl p v).1.obj o).props = _
        rcases through_cases (decl := decl) w d o' n (fun x p => x.write decl p v) with e | ⟨p, x, hs, hr, ha, e⟩
        · rw [e]
        · rw [e]
          dsimp only
          rw [obj_putObj]
          by_cases e' : o = o'
          · rw [if_pos e', e']
            rcases (write_ok ha).2 with ⟨_, ex, _⟩ | ⟨_, ex, _⟩ <;> rw [ex]
          · rw [if_neg e']
      unfold Single
      rw [hp]
      exact ⟨hso, hsi⟩
    | clear o' n =>
      have hp : ((step decl d w (.clear o' n)).1.obj o).props = (w.obj o).props := by
        change ((w.through decl d o' n fun x p => x.clear decl p).1.obj o).props = _
        rcases through_cases (decl := decl) w d o' n (fun x p => x.clear decl p) with e | ⟨p, x, hs, hr, ha, e⟩
        · rw [e]
        · rw [e]
          dsimp only
          rw [obj_putObj]
          by_cases e' : o = o'
          · rw [if_pos e', e']
            rcases (clear_ok ha).2 with ⟨_, ex, _⟩ | ⟨_, ex, _⟩ <;> rw [ex]
          · rw [if_neg e']
      unfold Single
      rw [hp]
      exact ⟨hso, hsi⟩
  exact ⟨fun o => (both o).1, fun o => (both o).2⟩

theorem tidy_run {d : Nat} {ops : List (Op V)} (h : Spec.Always (Spec.Orderly decl d) ops) :
    Tidy decl (run decl d {} ops) := by
  induction h with
  | nil => exact ⟨fun _ => ⟨List.Pairwise.nil, fun _ h => (nomatch h)⟩, fun _ => List.Pairwise.nil⟩
  | snoc ops op _ hg ih =>
    rw [run_snoc]
    exact tidy_step ih hg (ok_run ops ok_init)

end Verif.Refs
