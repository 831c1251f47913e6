import Verif.Refs.Inv

/-!
# Which handlers a property has, and who owns a definition
-/

namespace Verif.Refs

open Verif

variable {V : Type} [DecidableEq V] {decl : Nat → Decl V}

theorem done_snoc (d : Nat) : ∀ (ops : List (Op V)) (w : World V) (op : Op V),
    Spec.done decl d w (ops ++ [op]) = Spec.done decl d w ops ++
      (if Spec.succeeded (step decl d (run decl d w ops) op).2 then [op] else [])
  | [], w, op => by
    change (if Spec.succeeded (step decl d w op).2 then op :: [] else []) = [] ++ _
    rw [List.nil_append]; rfl
  | a :: ops, w, op => by
    have e1 : Spec.done decl d w (a :: ops ++ [op]) =
      (if Spec.succeeded (step decl d w a).2 then a :: Spec.done decl d (step decl d w a).1 (ops ++ [op])
        else Spec.done decl d (step decl d w a).1 (ops ++ [op])) := rfl
    have e2 : Spec.done decl d w (a :: ops) =
      (if Spec.succeeded (step decl d w a).2 then a :: Spec.done decl d (step decl d w a).1 ops
        else Spec.done decl d (step decl d w a).1 ops) := rfl
    have e3 : run decl d w (a :: ops) = run decl d (step decl d w a).1 ops := rfl
    rw [e1, e2, e3, done_snoc d ops]
    split <;> simp

theorem registered_append (o : Nat) (n : Name) : ∀ (l l' : List (Op V)),
    Spec.registered o n (l ++ l') = Spec.registered o n l ++ Spec.registered o n l'
  | [], _ => rfl
  | .listen o' n' h :: l, l' => by
    have ih := registered_append o n l l'
    change (if o' = o ∧ n' = n then h :: Spec.registered o n (l ++ l') else Spec.registered o n (l ++ l')) =
      (if o' = o ∧ n' = n then h :: Spec.registered o n l else Spec.registered o n l) ++ _
    rw [ih]
    split <;> rfl
  | .add _ _ :: l, l' => registered_append o n l l'
  | .remove _ _ :: l, l' => registered_append o n l l'
  | .set _ _ _ :: l, l' => registered_append o n l l'
  | .clear _ _ :: l, l' => registered_append o n l l'

/-- The handlers are those of the definition followed by the registered ones. -/
structure Hears (decl : Nat → Decl V) (ops done : List (Op V)) (w : World V) : Prop where
  live : ∀ o n p, (w.obj o).props.get n = some p →
    (w.obj o).heard n = (decl p).handlers ++ Spec.registered o n done
  free : ∀ o n, (w.obj o).props.get n = none → Op.remove o n ∉ ops →
    (w.obj o).events.get n = none ∧ Spec.registered o n done = []

theorem hears_same {ops done l : List (Op V)} {op : Op V} {w w' : World V} (h : Hears decl ops done w)
    (hp : ∀ o, (w'.obj o).props = (w.obj o).props) (he : ∀ o, (w'.obj o).events = (w.obj o).events)
    (hr : ∀ o n, Spec.registered o n l = []) : Hears decl (ops ++ [op]) (done ++ l) w' := by
  constructor
  · intro o n p hn
    rw [hp] at hn
    unfold Obj.heard
    rw [he, registered_append, hr, List.append_nil]
    exact h.live o n p hn
  · intro o n hn hm
    rw [hp] at hn
    rw [he, registered_append, hr, List.append_nil]
    exact h.free o n hn fun h' => hm (List.mem_append.mpr (.inl h'))

theorem heard_hookUp (x : Obj V) (q : Decl V) (ps : AList Name Nat) (n : Name) (hn : x.events.get q.name = none) :
    (({ x with props := ps } : Obj V).hookUp q).heard n = if n = q.name then q.handlers else x.heard n := by
  unfold Obj.hookUp
  by_cases hh : q.handlers.isEmpty = true
  · rw [if_pos hh]
    by_cases e : n = q.name
    · rw [if_pos e]
      unfold Obj.heard
      dsimp only
      rw [e, hn]
      exact (List.isEmpty_iff.mp hh).symm
    · rw [if_neg e]; rfl
  · rw [if_neg hh]
    unfold Obj.heard
    dsimp only
    unfold AList.add
    rw [hn]
    rw [if_neg (by decide), AList.get_cons]
    by_cases e : n = q.name
    · rw [if_pos e, if_pos e]; rfl
    · rw [if_neg e, if_neg e]

theorem events_hookUp (x : Obj V) (q : Decl V) (ps : AList Name Nat) (n : Name) (hne : n ≠ q.name) :
    (({ x with props := ps } : Obj V).hookUp q).events.get n = x.events.get n := by
  unfold Obj.hookUp
  split
  · rfl
  · dsimp only
    rw [AList.get_add]
    split
    · rename_i h
      exact absurd h hne
    · rfl

theorem hears_step {d : Nat} {ops : List (Op V)} {op : Op V}
    (h : Hears decl ops (Spec.done decl d {} ops) (run decl d {} ops)) (hg : Spec.NoReuse decl ops op) :
    Hears decl (ops ++ [op]) (Spec.done decl d {} (ops ++ [op])) (run decl d {} (ops ++ [op])) := by
  rw [done_snoc, run_snoc]
  generalize run decl d {} ops = w at *
  generalize Spec.done decl d {} ops = dn at *
  cases op with
  | add o p =>
    have hr : ∀ (b : Bool) o' n', Spec.registered o' n' (if b = true then [Op.add o p] else ([] : List (Op V))) = [] := by
      intro b _ _; cases b <;> rfl
    rcases add_cases (decl := decl) w o p with ⟨_, e⟩ | ⟨_, _, e⟩ | ⟨_, _, _, e⟩ | ⟨_, _, h3, e⟩
    · have e' : (step decl d w (.add o p)).1 = w := by change (w.add decl o p).1 = w; rw [e]
      rw [e']
      exact hears_same h (fun _ => rfl) (fun _ => rfl) (hr _)
    · have e' : (step decl d w (.add o p)).1 = w := by change (w.add decl o p).1 = w; rw [e]
      rw [e']
      exact hears_same h (fun _ => rfl) (fun _ => rfl) (hr _)
    · have e' : (step decl d w (.add o p)).1 = { w with owner := w.owner.put p o } := by
        change (w.add decl o p).1 = _; rw [e]
      rw [e']
      exact hears_same h (fun _ => rfl) (fun _ => rfl) (hr _)
    · have e' : (step decl d w (.add o p)).1 = ({ w with owner := w.owner.put p o } : World V).putObj o
          (({ w.obj o with props := ((decl p).name, p) :: (w.obj o).props } : Obj V).hookUp (decl p)) := by
        change (w.add decl o p).1 = _; rw [e]
      rw [e']
      have hgone := has_false h3
      obtain ⟨hev, hreg⟩ := h.free o (decl p).name hgone hg
      constructor
      · intro o' n q hq
        rw [obj_putObj] at hq ⊢
        rw [registered_append, hr, List.append_nil]
        by_cases eo : o' = o
        · rw [if_pos eo] at hq ⊢
          subst eo
          rw [hookUp_props, AList.get_cons] at hq
          rw [heard_hookUp _ _ _ _ hev]
          by_cases en : n = (decl p).name
          · rw [if_pos en] at hq ⊢
            cases hq
            rw [en, hreg, List.append_nil]
          · rw [if_neg en] at hq ⊢
            exact h.live o' n q hq
        · rw [if_neg eo] at hq ⊢
          exact h.live o' n q hq
      · intro o' n hq hm
        have hm' : Op.remove o' n ∉ ops := fun h' => hm (List.mem_append.mpr (.inl h'))
        rw [obj_putObj] at hq ⊢
        rw [registered_append, hr, List.append_nil]
        by_cases eo : o' = o
        · rw [if_pos eo] at hq ⊢
          subst eo
          rw [hookUp_props, AList.get_cons] at hq
          by_cases en : n = (decl p).name
          · rw [if_pos en] at hq; cases hq
          · rw [if_neg en] at hq
            rw [events_hookUp _ _ _ _ en]
            exact h.free o' n hq hm'
        · rw [if_neg eo] at hq ⊢
          exact h.free o' n hq hm'
  | remove o n =>
    have hr : ∀ (b : Bool) o' n', Spec.registered o' n' (if b = true then [Op.remove o n] else ([] : List (Op V))) = [] := by
      intro b _ _; cases b <;> rfl
    cases hh : (w.obj o).has n with
    | false =>
      have e' : (step decl d w (.remove o n)).1 = w := by
        change (w.remove o n).1 = w
        unfold World.remove
        rw [hh]; rfl
      rw [e']
      exact hears_same h (fun _ => rfl) (fun _ => rfl) (hr _)
    | true =>
      have e' : (step decl d w (.remove o n)).1 = w.putObj o
          { w.obj o with props := (w.obj o).props.del n, values := (w.obj o).values.del n } := by
        change (w.remove o n).1 = _
        unfold World.remove
        rw [hh]; rfl
      rw [e']
      constructor
      · intro o' m q hq
        rw [obj_putObj] at hq ⊢
        rw [registered_append, hr, List.append_nil]
        by_cases eo : o' = o
        · rw [if_pos eo] at hq ⊢
          subst eo
          dsimp only at hq
          rw [AList.get_del] at hq
          split at hq
          · cases hq
          · exact h.live o' m q hq
        · rw [if_neg eo] at hq ⊢
          exact h.live o' m q hq
      · intro o' m hq hm
        have hm' : Op.remove o' m ∉ ops := fun h' => hm (List.mem_append.mpr (.inl h'))
        rw [obj_putObj] at hq ⊢
        rw [registered_append, hr, List.append_nil]
        by_cases eo : o' = o
        · rw [if_pos eo] at hq ⊢
          subst eo
          dsimp only at hq ⊢
          rw [AList.get_del] at hq
          by_cases en : m = n
          · subst en
            exact absurd (List.mem_append.mpr (.inr (List.mem_singleton.mpr rfl))) hm
          · rw [if_neg en] at hq
            exact h.free o' m hq hm'
        · rw [if_neg eo] at hq ⊢
          exact h.free o' m hq hm'
  | listen o n k =>
    cases hp : (w.obj o).props.get n with
    | none =>
      have e' : step decl d w (.listen o n k) = (w, .err .notFound) := by
        change (((w.listen decl o n k).1, (w.listen decl o n k).2.map fun _ => []) : World V × Out (List Nat)) = _
        unfold World.listen
        rw [hp]; rfl
      rw [e']
      exact hears_same h (fun _ => rfl) (fun _ => rfl) (fun _ _ => rfl)
    | some p =>
      cases hr : (decl p).ref with
      | some r =>
        have e' : step decl d w (.listen o n k) = (w, .err .invalidOperation) := by
          change (((w.listen decl o n k).1, (w.listen decl o n k).2.map fun _ => []) : World V × Out (List Nat)) = _
          unfold World.listen
          rw [hp]; dsimp only; rw [hr]; rfl
        rw [e']
        exact hears_same h (fun _ => rfl) (fun _ => rfl) (fun _ _ => rfl)
      | none =>
        have e' : step decl d w (.listen o n k) = (w.putObj o { w.obj o with
            events := (w.obj o).events.put n ((w.obj o).heard n ++ [k]) }, .ok []) := by
          change (((w.listen decl o n k).1, (w.listen decl o n k).2.map fun _ => []) : World V × Out (List Nat)) = _
          unfold World.listen
          rw [hp]; dsimp only; rw [hr]; rfl
        rw [e']
        change Hears decl _ (dn ++ [Op.listen o n k]) (w.putObj o _)
        have hreg : ∀ o' n', Spec.registered o' n' [(Op.listen o n k : Op V)] = if o = o' ∧ n = n' then [k] else [] := by
          intro o' n'; rfl
        constructor
        · intro o' m q hq
          rw [obj_putObj] at hq ⊢
          rw [registered_append, hreg]
          by_cases eo : o' = o
          · rw [if_pos eo] at hq ⊢
            subst eo
            unfold Obj.heard
            dsimp only at hq ⊢
            rw [AList.get_put]
            by_cases en : m = n
            · subst en
              rw [if_pos rfl, if_pos ⟨rfl, rfl⟩]
              change (w.obj o').heard m ++ [k] = _
              rw [h.live o' m q hq, List.append_assoc]
            · rw [if_neg en, if_neg (fun h' => en h'.2.symm), List.append_nil]
              exact h.live o' m q hq
          · rw [if_neg eo] at hq ⊢
            rw [if_neg (fun h' => eo h'.1.symm), List.append_nil]
            exact h.live o' m q hq
        · intro o' m hq hm
          have hm' : Op.remove o' m ∉ ops := fun h' => hm (List.mem_append.mpr (.inl h'))
          rw [obj_putObj] at hq ⊢
          rw [registered_append, hreg]
          by_cases eo : o' = o
          · rw [if_pos eo] at hq ⊢
            subst eo
            dsimp only at hq ⊢
            rw [AList.get_put]
            by_cases en : m = n
            · subst en; rw [hp] at hq; cases hq
            · rw [if_neg en, if_neg (fun h' => en h'.2.symm), List.append_nil]
              exact h.free o' m hq hm'
          · rw [if_neg eo] at hq ⊢
            rw [if_neg (fun h' => eo h'.1.symm), List.append_nil]
            exact h.free o' m hq hm'
  | set o n v =>
    have hr : ∀ (b : Bool) o' n', Spec.registered o' n' (if b = true then [Op.set o n v] else ([] : List (Op V))) = [] := by
      intro b _ _; cases b <;> rfl
    rcases through_cases (decl := decl) w d o n (fun x p => x.write decl p v) with e | ⟨p, x, hs, _, ha, e⟩
    · have e' : (step decl d w (.set o n v)).1 = w := e
      rw [e']
      exact hears_same h (fun _ => rfl) (fun _ => rfl) (hr _)
    · have e' : (step decl d w (.set o n v)).1 = w.putObj o x := by
        change (w.through decl d o n fun x p => x.write decl p v).1 = _; rw [e]
      rw [e']
      have hx : x.props = (w.obj o).props ∧ x.events = (w.obj o).events := by
        rcases (write_ok ha).2 with ⟨_, ex, _⟩ | ⟨_, ex, _⟩ <;> rw [ex] <;> exact ⟨rfl, rfl⟩
      refine hears_same h ?_ ?_ (hr _)
      · intro o'
        rw [obj_putObj]
        by_cases eo : o' = o
        · rw [if_pos eo, hx.1, eo]
        · rw [if_neg eo]
      · intro o'
        rw [obj_putObj]
        by_cases eo : o' = o
        · rw [if_pos eo, hx.2, eo]
        · rw [if_neg eo]
  | clear o n =>
    have hr : ∀ (b : Bool) o' n', Spec.registered o' n' (if b = true then [Op.clear o n] else ([] : List (Op V))) = [] := by
      intro b _ _; cases b <;> rfl
    rcases through_cases (decl := decl) w d o n (fun x p => x.clear decl p) with e | ⟨p, x, hs, _, ha, e⟩
    · have e' : (step decl d w (.clear o n)).1 = w := e
      rw [e']
      exact hears_same h (fun _ => rfl) (fun _ => rfl) (hr _)
    · have e' : (step decl d w (.clear o n)).1 = w.putObj o x := by
        change (w.through decl d o n fun x p => x.clear decl p).1 = _; rw [e]
      rw [e']
      have hx : x.props = (w.obj o).props ∧ x.events = (w.obj o).events := by
        rcases (clear_ok ha).2 with ⟨_, ex, _⟩ | ⟨_, ex, _⟩ <;> rw [ex] <;> exact ⟨rfl, rfl⟩
      refine hears_same h ?_ ?_ (hr _)
      · intro o'
        rw [obj_putObj]
        by_cases eo : o' = o
        · rw [if_pos eo, hx.1, eo]
        · rw [if_neg eo]
      · intro o'
        rw [obj_putObj]
        by_cases eo : o' = o
        · rw [if_pos eo, hx.2, eo]
        · rw [if_neg eo]

theorem hears_run {d : Nat} {ops : List (Op V)} (h : Spec.Always (Spec.NoReuse decl) ops) :
    Hears decl ops (Spec.done decl d {} ops) (run decl d {} ops) := by
  induction h with
  | nil => exact ⟨fun _ _ _ h => (nomatch h), fun _ _ _ _ => ⟨rfl, rfl⟩⟩
  | snoc ops op _ hg ih => exact hears_step ih hg

end Verif.Refs
