import Verif.SmartPtr.Step

namespace Verif.SmartPtr.Props
open Spec

/-! ## C77: a program that keeps the rules of smart pointers neither leaks nor touches destroyed objects -/

theorem inv_of {n : Nat} {ops : List Op} (h : Keeps (init n) ops) : Inv (run (init n) ops) := inv_run (inv_init n) ops h

/-- No object is used, referenced or released after it was destroyed. -/
theorem C77_no_use_after_free (n : Nat) (ops : List Op) (h : Keeps (init n) ops) : (run (init n) ops).ub = false :=
  (inv_of h).ub

/-- Every object lives exactly as long as somebody holds a reference of their own to it. -/
theorem C77_alive (n : Nat) (ops : List Op) (h : Keeps (init n) ops) (o : Nat) (x : Obj)
    (ho : (run (init n) ops).heap[o]? = some x) :
    x.count = ((owners (run (init n) ops) o : Nat) : Int) ∧ (x.alive = true ↔ 0 < owners (run (init n) ops) o) := by
  have h1 := (inv_of h).obj o
  rw [ho] at h1
  rw [tot_owners]
  refine ⟨h1.1, ?_⟩
  have h2 : x.alive = decide (0 < refs (run (init n) ops) o) := h1.2
  rw [h2, decide_eq_true_iff]
  exact Iff.rfl

/-- When all the variables are gone, or hold loans only, and no raw reference is left, all the objects are
destroyed. -/
theorem C77_no_leak (n : Nat) (ops : List Op) (h : Keeps (init n) ops) (hr : (run (init n) ops).raw = [])
    (hv : ∀ p ∈ (run (init n) ops).vars, p.obj = none ∨ p.borrowed = true) (x : Obj)
    (hx : x ∈ (run (init n) ops).heap) : x.alive = false := by
  obtain ⟨o, ho⟩ := List.getElem?_of_mem hx
  have h1 := (C77_alive n ops h o x ho).2
  have h2 : owners (run (init n) ops) o = 0 := by
    unfold owners
    rw [hr]
    have : (run (init n) ops).vars.filter (fun p => decide (p.obj = some o) && !p.borrowed) = [] := by
      rw [List.filter_eq_nil_iff]
      intro p hp
      rcases hv p hp with e | e <;> simp [e]
    rw [this]; rfl
  cases ha : x.alive with
  | false => rfl
  | true => have := h1.mp ha; omega

/-- The object a variable refers to can be used: it is there, unless the variable has only borrowed it. -/
theorem C77_usable (n : Nat) (ops : List Op) (h : Keeps (init n) ops) (d o : Nat) (p : Ptr)
    (hd : (run (init n) ops).vars[d]? = some p) (ho : Owns p o) :
    ∃ x, (run (init n) ops).heap[o]? = some x ∧ x.alive = true := by
  have hi := inv_of h
  have hl := (List.getElem?_eq_some_iff.mp hd).1
  have hv : (run (init n) ops).var d = p := by unfold St.var; simp [List.getD_eq_getElem?_getD, hd]
  have := own_pos_alive hi hl (o := o) (by rw [hv]; simp [own, ho.1, ho.2])
  unfold St.alive at this
  cases hx : (run (init n) ops).heap[o]? with
  | none => rw [hx] at this; cases this
  | some x => rw [hx] at this; exact ⟨x, rfl, this⟩

theorem drop_vars (s : St) (p : Ptr) : (s.drop p).vars = s.vars := by
  unfold St.drop; split
  · split
    · rfl
    · unfold St.releaseRef; split <;> rfl
  · rfl

theorem drop_raw (s : St) (p : Ptr) : (s.drop p).raw = s.raw := by
  unfold St.drop; split
  · split
    · rfl
    · unfold St.releaseRef; split <;> rfl
  · rfl

/-- What an assignment does: the variable refers to the object that was assigned and, but for moves, so does the
source; the other variables refer to what they did. -/
theorem C77_assign (s : St) (d v : Nat) (op : Op) (hd : d < s.vars.length) (hv : v < s.vars.length) (hne : d ≠ v)
    (hop : op = .copy d v ∨ op = .assignRaw d v ∨ op = .move d v ∨ op = .borrow d v) :
    ((step s op).1.var d).obj = (s.var v).obj ∧
    (step s op).1.var v = (if op = .move d v then {} else s.var v) ∧
    ∀ w, w ≠ d → w ≠ v → (step s op).1.var w = s.var w := by
  have vd : (s.drop (s.var d)).vars = s.vars := drop_vars _ _
  have va : ∀ (t : St) (o : Nat), (t.addRef o).vars = t.vars := by
    intro t o; unfold St.addRef; split <;> rfl
  have hne' := Ne.symm hne
  rcases hop with rfl | rfl | rfl | rfl <;> simp only [step] <;> generalize s.drop (s.var d) = t at *
  · rw [if_neg hne]
    cases hs : (s.var v).obj <;>
    · simp only [St.var, va, St.setVar, vd, List.getD_eq_getElem?_getD, List.getElem?_set, hd, hne] at hs ⊢
      refine ⟨by simp, by simp, fun w h1 h2 => by simp [Ne.symm h1]⟩
  · cases hs : (s.var v).obj <;>
    · simp only [St.var, va, St.setVar, vd, List.getD_eq_getElem?_getD, List.getElem?_set, hd, hne] at hs ⊢
      refine ⟨by simp, by simp, fun w h1 h2 => by simp [Ne.symm h1]⟩
  · rw [if_neg hne]
    simp only [St.var, St.setVar, vd, List.getD_eq_getElem?_getD, List.getElem?_set]
    refine ⟨by simp [hd, hne'], by simp [hv], fun w h1 h2 => by simp [Ne.symm h1, Ne.symm h2]⟩
  · simp only [St.var, St.setVar, vd, List.getD_eq_getElem?_getD, List.getElem?_set, hd, hne]
    refine ⟨by simp, by simp, fun w h1 h2 => by simp [Ne.symm h1]⟩

/-- What the operations that take or give objects do: `create` and out parameters leave a new object with its interfaces
in the variable; `detach` makes the variable's reference a raw one, `adopt` does the opposite. -/
theorem C77_give (n : Nat) (ops : List Op) (d : Nat) (is : List Nat) (h : Keeps (init n) ops)
    (hd : d < (run (init n) ops).vars.length) :
    let s := run (init n) ops
    ((step s (.create d is)).1.var d = { obj := some s.heap.length } ∧
      IsNew (step s (.create d is)).1 s.heap.length is) ∧
    ((s.var d).borrowed = false → (step s (.outParam d is)).1.var d = { obj := some s.heap.length } ∧
      IsNew (step s (.outParam d is)).1 s.heap.length is) ∧
    (∀ o, (s.var d).obj = some o → (step s (.detach d)).1.raw = o :: s.raw ∧ (step s (.detach d)).1.var d = {}) ∧
    (∀ o rs, s.raw = o :: rs → (step s (.adopt d)).1.raw = rs ∧ (step s (.adopt d)).1.var d = { obj := some o }) := by
  intro s
  have hi : Inv s := inv_of h
  have hl : (s.drop (s.var d)).heap.length = s.heap.length := (wipe_facts hi hd).2.2.2.1
  have vd : (s.drop (s.var d)).vars = s.vars := drop_vars _ _
  have key : ∀ t : St, t.vars = s.vars → ∀ p, (t.setVar d p).var d = p := by
    intro t ht p
    have hd' : d < s.vars.length := hd
    simp [St.var, St.setVar, ht, List.getD_eq_getElem?_getD, hd']
  refine ⟨⟨?_, ?_⟩, fun hb => ⟨?_, ?_⟩, fun o ho => ?_, fun o rs hr => ?_⟩
  · simp only [step]; rw [key ((s.drop (s.var d)).alloc is) vd, hl]
  · refine ⟨{ count := 1, intfs := is }, ?_, rfl, rfl⟩
    simp only [step, St.setVar, St.alloc]
    rw [← hl]; exact List.getElem?_concat_length
  · simp only [step, hb]; rw [key ((s.drop (s.var d)).alloc is) vd, hl]
  · refine ⟨{ count := 1, intfs := is }, ?_, rfl, rfl⟩
    simp only [step, St.setVar, St.alloc]
    rw [← hl]; exact List.getElem?_concat_length
  · simp only [step]
    rw [ho]
    exact ⟨rfl, key _ rfl _⟩
  · simp only [step, hr]
    refine ⟨?_, key (({ s with raw := rs } : St).drop (s.var d)) (drop_vars _ _) _⟩
    exact drop_raw _ _

/-- What a conversion does, if the rules are kept: the variable refers to the object that was assigned, and has a
reference of its own if it was copied. -/
theorem C77_convert (n : Nat) (ops : List Op) (d v i o : Nat) (h : Keeps (init n) ops) (hne : d ≠ v)
    (hd : d < (run (init n) ops).vars.length) (hv : v < (run (init n) ops).vars.length)
    (ho : ((run (init n) ops).var v).obj = some o)
    (hk : Kept (run (init n) ops) d o) (hs : Supports (run (init n) ops) o i) :
    let s := run (init n) ops
    (step s (.convCopy d v i)).2 = .ok ∧ (step s (.convCopy d v i)).1.var d = { obj := some o } ∧
    (step s (.convCopy d v i)).1.var v = s.var v ∧
    (step s (.convMove d v i)).2 = .ok ∧ (step s (.convMove d v i)).1.var d = s.var v ∧
    (step s (.convMove d v i)).1.var v = {} := by
  intro s
  have hi : Inv s := inv_of h
  have hd' : d < s.vars.length := hd
  have hv' : v < s.vars.length := hv
  have h1 : (s.drop (s.var d)).alive o = true := wipe_alive hi hd hk
  have h2 : (s.drop (s.var d)).supports o i = true := wipe_supports hi hd hs
  have vd : (s.drop (s.var d)).vars = s.vars := drop_vars _ _
  have e2 : ({ obj := some o, borrowed := (s.var v).borrowed } : Ptr) = s.var v := by rw [← ho]
  have va : ∀ (t : St) (o : Nat), (t.addRef o).vars = t.vars := by
    intro t o; unfold St.addRef; split <;> rfl
  have hne' := Ne.symm hne
  have ho' : (s.var v).obj = some o := ho
  simp only [step, if_neg hne, ho', h1, h2, Bool.not_true, Bool.false_eq_true, if_false, if_true, e2, true_and]
  generalize s.drop (s.var d) = t at *
  simp only [St.var, va, St.setVar, vd, List.getD_eq_getElem?_getD, List.getElem?_set]
  simp [hd', hv', hne, hne']

/-- A program that copies, moves, converts, borrows, detaches and adopts. -/
def tour : List Op :=
  [.create 0 [1, 2], .copy 1 0, .convCopy 2 1 2, .borrow 3 0, .use 3, .clear 0, .move 0 1, .convMove 1 2 1,
   .outParam 2 [], .detach 1, .use 3, .clear 0, .use 3, .adopt 0, .use 0, .assignRaw 2 0, .copy 2 2, .clear 0, .clear 2]

/-- A way to find out that a program keeps the rules. -/
def keptB (s : St) (d o : Nat) : Bool :=
  (List.range s.vars.length).any (fun w => w != d && ((s.var w).obj == some o && !(s.var w).borrowed)) || s.raw.contains o

def ruleB (s : St) : Op → Bool
  | .create _ _ | .clear _ | .adopt _ | .move _ _ | .borrow _ _ => true
  | .copy d v => d == v || match (s.var v).obj with | some o => keptB s d o | none => true
  | .assignRaw d v => match (s.var v).obj with | some o => keptB s d o | none => true
  | .convCopy d v i | .convMove d v i =>
    d == v || match (s.var v).obj with | some o => keptB s d o && s.supports o i | none => true
  | .outParam d _ => !(s.var d).borrowed
  | .detach d => match (s.var d).obj with | some _ => !(s.var d).borrowed | none => true
  | .use d => match (s.var d).obj with | some o => !(s.var d).borrowed || keptB s d o | none => true

def keepsB : St → List Op → Bool
  | _, [] => true
  | s, op :: ops => op.vars.all (· < s.vars.length) && ruleB s op && keepsB (step s op).1 ops

theorem keptB_sound {s : St} {d o : Nat} (h : keptB s d o = true) : Kept s d o := by
  unfold keptB at h
  rw [Bool.or_eq_true, List.any_eq_true] at h
  rcases h with ⟨w, hw, hb⟩ | h
  · simp only [Bool.and_eq_true, bne_iff_ne, beq_iff_eq, Bool.not_eq_true'] at hb
    have hl : w < s.vars.length := List.mem_range.mp hw
    refine .inl ⟨w, s.var w, hb.1, ?_, hb.2⟩
    simp [St.var, List.getD_eq_getElem?_getD, hl]
  · exact .inr (by simpa using h)

theorem supports_sound {s : St} {o i : Nat} (h : s.supports o i = true) : Supports s o i := by
  unfold St.supports at h
  cases hx : s.heap[o]? with
  | none => rw [hx] at h; cases h
  | some x => rw [hx] at h; exact ⟨x, hx, by simpa using h⟩

theorem ruleB_sound {s : St} {op : Op} (h : ruleB s op = true) : Rule s op := by
  cases op with
  | create | clear | adopt | move | borrow => trivial
  | copy d v =>
    intro hne o ho
    simp only [ruleB, ho, Bool.or_eq_true, beq_iff_eq] at h
    exact keptB_sound (h.resolve_left hne)
  | assignRaw d v =>
    intro o ho
    simp only [ruleB, ho] at h
    exact keptB_sound h
  | convCopy d v i =>
    intro hne o ho
    simp only [ruleB, ho, Bool.or_eq_true, beq_iff_eq, Bool.and_eq_true] at h
    exact ⟨keptB_sound (h.resolve_left hne).1, supports_sound (h.resolve_left hne).2⟩
  | convMove d v i =>
    intro hne o ho
    simp only [ruleB, ho, Bool.or_eq_true, beq_iff_eq, Bool.and_eq_true] at h
    exact ⟨keptB_sound (h.resolve_left hne).1, supports_sound (h.resolve_left hne).2⟩
  | outParam d is => exact (by simpa [ruleB] using h : (s.var d).borrowed = false)
  | detach d =>
    intro o ho
    simp only [ruleB, ho] at h
    exact ⟨ho, by simpa using h⟩
  | use d =>
    intro o ho
    simp only [ruleB, ho, Bool.or_eq_true] at h
    exact h.imp (fun e => ⟨ho, by simpa using e⟩) keptB_sound

theorem keepsB_sound {s : St} {ops : List Op} (h : keepsB s ops = true) : Keeps s ops := by
  induction ops generalizing s with
  | nil => trivial
  | cons op ops ih =>
    simp only [keepsB, Bool.and_eq_true] at h
    exact ⟨by simpa using h.1.1, ruleB_sound h.1.2, ih h.2⟩

example : Keeps (init 4) tour ∧ (run (init 4) tour).heap.length = 2 ∧
    ∀ x ∈ (run (init 4) tour).heap, x.alive = false :=
  ⟨keepsB_sound (by decide), by decide, by decide⟩

/-- Half way through both objects are alive, one of them with a raw reference only. -/
example : Keeps (init 4) (tour.take 12) ∧ (run (init 4) (tour.take 12)).heap.map (·.alive) = [true, true] ∧
    owners (run (init 4) (tour.take 12)) 0 = 1 ∧ (run (init 4) (tour.take 12)).raw = [0] :=
  ⟨keepsB_sound (by decide), by decide, by decide, by decide⟩

/-! ## C78: smart pointers are safe without rules: not so -/

/-- Assigning a pointer of the wrong type throws; the variable keeps the object it has already released, and releases
it again when it is destroyed, although another variable owns it. -/
theorem C78_violation_conversion :
    let s := run (init 3) [.create 0 [], .copy 2 0, .create 1 [1]]
    (step s (.convCopy 0 1 2)).2 = .threw ∧
    (run s [.convCopy 0 1 2]).ub = false ∧ owners s 0 = 2 ∧
    (run s [.convCopy 0 1 2, .clear 0]).heap[0]? = some { count := 0, alive := false, intfs := [] } ∧
    (run s [.convCopy 0 1 2, .clear 0]).var 2 = { obj := some 0 } ∧
    (run s [.convCopy 0 1 2, .clear 0, .use 2]).ub = true ∧
    (run s [.convCopy 0 1 2, .clear 0, .clear 2]).ub = true := by decide

/-- Moving a pointer of the wrong type ends the program. -/
theorem C78_violation_terminate :
    (step (run (init 2) [.create 1 [1]]) (.convMove 0 1 2)).2 = .terminated := by decide

/-- A view of the object a variable owns, assigned to this variable: the object is destroyed before it is referenced. -/
theorem C78_violation_own_view :
    (run (init 2) [.create 0 [], .borrow 1 0]).ub = false ∧
    (run (init 2) [.create 0 [], .borrow 1 0, .copy 0 1]).ub = true := by decide

/-- The same with the interface pointer of the variable itself. -/
theorem C78_violation_own_raw : (run (init 1) [.create 0 [], .assignRaw 0 0]).ub = true := by decide

/-- An out parameter on a borrowing variable: the object returned is never released. -/
theorem C78_violation_out_param :
    let s := run (init 2) [.create 0 [], .borrow 1 0, .outParam 1 [], .clear 1, .clear 0]
    s.ub = false ∧ (∀ p ∈ s.vars, p.obj = none) ∧ s.raw = [] ∧ s.heap[1]? = some { count := 1, alive := true, intfs := [] } := by
  decide

/-- A reference detached from a borrowing variable is none. -/
theorem C78_violation_detach :
    (run (init 2) [.create 0 [], .borrow 1 0, .detach 1, .adopt 1, .clear 1, .use 0]).ub = true := by decide

/-- A conversion that fails leaves an unassigned variable as it was, and everything else, too.
Missing: variables that refer to an object (`C78_violation_conversion`). -/
theorem C78_failed_conversion_partial (s : St) (d v i o : Nat) (hd : d < s.vars.length) (hne : d ≠ v)
    (hn : s.var d = {}) (ho : (s.var v).obj = some o) (ha : s.alive o = true) (hs : ¬ Supports s o i) :
    step s (.convCopy d v i) = (s, .threw) := by
  have e : s.supports o i = false := by
    cases hh : s.supports o i with
    | false => rfl
    | true => exact absurd (supports_sound hh) hs
  have e2 : s.drop {} = s := rfl
  simp only [step, hn, e2, ho, ha, e, if_neg hne, Bool.not_true, Bool.false_eq_true, if_false]
  have : s.setVar d {} = s := by
    have h1 : s.vars[d] = ({} : Ptr) := by
      have := hn
      simpa [St.var, List.getD_eq_getElem?_getD, hd] using this
    have h2 : s.vars.set d {} = s.vars := by rw [← h1]; exact List.set_getElem_self _
    unfold St.setVar
    rw [h2]
  rw [this]

example : let s := run (init 2) [.create 1 [1]]
    s.var 0 = {} ∧ (s.var 1).obj = some 0 ∧ s.alive 0 = true ∧ s.supports 0 2 = false ∧ step s (.convCopy 0 1 2) = (s, .threw) := by
  decide

end Verif.SmartPtr.Props
