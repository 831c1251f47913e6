import Verif.Sched.Spec
/-!
# The main loop: invariants
-/

namespace Verif.Sched

open Spec

/-- The steps, one by one. -/
inductive Tr : St → St → List Ev → Prop
  | none (s : St) : Tr s s []
  | refused (s : St) (h : s.running = true) : Tr s s [.refused]
  | post (s : St) (k : Kind) :
      Tr s { s with queue := s.queue ++ [⟨s.next, k⟩], next := s.next + 1 } [.posted ⟨s.next, k⟩]
  | single (s : St) (h : s.running = false) :
      Tr s { s with queue := [], running := true,
                    frames := s.frames ++ [some ⟨true, some s.queue, []⟩] }
        [.started s.frames.length true]
  | loop (s : St) (h : s.running = false) :
      Tr s { s with running := true, frames := s.frames ++ [some ⟨false, none, []⟩] }
        [.started s.frames.length false]
  | wake (s : St) (i : Nat) (b : Bool) (k : List Item) (h : s.frames[i]? = some (some ⟨b, none, k⟩)) :
      Tr s { s with queue := [], frames := s.frames.set i (some ⟨b, some s.queue, k⟩) } []
  | exec (s : St) (i : Nat) (b : Bool) (x : Item) (r k : List Item) (a : Bool)
      (h : s.frames[i]? = some (some ⟨b, some (x :: r), k⟩)) :
      Tr s { s with running := if x.kind = .stop then false else s.running,
                    frames := s.frames.set i (some ⟨b, some r,
                      if x.kind = .repeating ∧ a = true then k ++ [x] else k⟩) }
        [.ran i x a]
  | again (s : St) (i : Nat) (k : List Item) (h : s.frames[i]? = some (some ⟨false, some [], k⟩))
      (hr : s.running = true) :
      Tr s { s with queue := s.queue ++ k, frames := s.frames.set i (some ⟨false, none, []⟩) } []
  | ret (s : St) (i : Nat) (b : Bool) (k : List Item) (h : s.frames[i]? = some (some ⟨b, some [], k⟩))
      (hr : b = true ∨ s.running = false) :
      Tr s { s with queue := s.queue ++ k, running := false, frames := s.frames.set i none }
        [.returned i]

theorem frame_some {s : St} {i : Nat} {f : Frame} (h : s.frame i = some f) :
    s.frames[i]? = some (some f) := by
  unfold St.frame at h
  cases e : s.frames[i]? with
  | none => simp [e] at h
  | some o => simp [e] at h; rw [h]

theorem frame_of {s : St} {i : Nat} {f : Frame} (h : s.frames[i]? = some (some f)) :
    s.frame i = some f := by simp [St.frame, h]

theorem tr (s : St) (op : Op) : Tr s (s.step op).1 (s.step op).2 := by
  cases op with
  | post k => exact .post s k
  | start b =>
    change Tr s (s.start b).1 (s.start b).2
    unfold St.start
    by_cases h : s.running = true
    · rw [if_pos h]; exact .refused s h
    · have h' : s.running = false := by simpa using h
      rw [if_neg h]
      cases b with
      | true => exact .single s h'
      | false => exact .loop s h'
  | wake i =>
    change Tr s (s.wake i).1 (s.wake i).2
    unfold St.wake
    split
    · rename_i b k h; exact .wake s i b k (frame_some h)
    · exact .none s
  | exec i a =>
    change Tr s (s.exec i a).1 (s.exec i a).2
    unfold St.exec
    split
    · rename_i b x r k h; exact .exec s i b x r k a (frame_some h)
    · exact .none s
  | finish i =>
    change Tr s (s.finish i).1 (s.finish i).2
    unfold St.finish
    split
    · rename_i b k h
      have h := frame_some h
      cases b with
      | true => exact .ret s i true k h (.inl rfl)
      | false =>
        rw [if_neg (by simp)]
        by_cases hr : s.running = true
        · rw [if_pos hr]; exact .again s i k h hr
        · rw [if_neg hr]; exact .ret s i false k h (.inr (by simpa using hr))
    · exact .none s

theorem run_inv (P : St → List Ev → Prop)
    (hstep : ∀ s s' l e, Tr s s' e → P s l → P s' (l ++ e)) :
    ∀ (ops : List Op) (s : St) (l : List Ev), P s l → P (s.run ops).1 (l ++ (s.run ops).2)
  | [], s, l, h => by simpa [St.run] using h
  | op :: ops, s, l, h => by
    have h1 := hstep _ _ l _ (tr s op) h
    have := run_inv P hstep ops _ _ h1
    simpa [St.run, List.append_assoc] using this

theorem run_append (s : St) (a b : List Op) :
    s.run (a ++ b) = (((s.run a).1.run b).1, (s.run a).2 ++ ((s.run a).1.run b).2) := by
  induction a generalizing s with
  | nil => simp [St.run]
  | cons op a ih => simp [St.run, ih, List.append_assoc]

/-! ### Events -/

@[simp] theorem posted_append (a b : List Ev) : posted (a ++ b) = posted a ++ posted b := by
  induction a with
  | nil => rfl
  | cons e a ih => cases e <;> simp [posted, ih]

@[simp] theorem ran_append (a b : List Ev) : ran (a ++ b) = ran a ++ ran b := by
  induction a with
  | nil => rfl
  | cons e a ih => cases e <;> simp [ran, ih]

@[simp] theorem ranBy_append (i : Nat) (a b : List Ev) : ranBy i (a ++ b) = ranBy i a ++ ranBy i b := by
  induction a with
  | nil => rfl
  | cons e a ih =>
    cases e <;> simp [ranBy, ih]
    split <;> simp

@[simp] theorem asked_append (i : Nat) (a b : List Ev) : asked i (a ++ b) = asked i a ++ asked i b := by
  induction a with
  | nil => rfl
  | cons e a ih =>
    cases e <;> simp [asked, ih]
    split <;> simp

theorem ran_mem {l : List Ev} {x : Item} : x ∈ ran l ↔ ∃ i b, .ran i x b ∈ l := by
  induction l with
  | nil => simp [ran]
  | cons e l ih =>
    cases e with
    | ran j y c =>
      simp only [ran, List.mem_cons, ih, Ev.ran.injEq]
      constructor
      · rintro (rfl | ⟨i, b, h⟩)
        · exact ⟨j, c, .inl ⟨rfl, rfl, rfl⟩⟩
        · exact ⟨i, b, .inr h⟩
      · rintro ⟨i, b, ⟨_, h, _⟩ | h⟩
        · exact .inl h
        · exact .inr ⟨i, b, h⟩
    | _ => simp [ran, ih]

theorem ranBy_mem {l : List Ev} {i : Nat} {x : Item} : x ∈ ranBy i l ↔ ∃ b, .ran i x b ∈ l := by
  induction l with
  | nil => simp [ranBy]
  | cons e l ih =>
    cases e with
    | ran j y c =>
      by_cases h : j = i
      · subst h
        simp only [ranBy, if_true, List.mem_cons, ih, Ev.ran.injEq, true_and]
        constructor
        · rintro (rfl | ⟨b, h⟩)
          · exact ⟨c, .inl ⟨rfl, rfl⟩⟩
          · exact ⟨b, .inr h⟩
        · rintro ⟨b, ⟨h, _⟩ | h⟩
          · exact .inl h
          · exact .inr ⟨b, h⟩
      · simp only [ranBy, if_neg h, ih, List.mem_cons, Ev.ran.injEq]
        constructor
        · rintro ⟨b, h⟩; exact ⟨b, .inr h⟩
        · rintro ⟨b, ⟨h', _⟩ | h'⟩
          · exact absurd h'.symm h
          · exact ⟨b, h'⟩
    | _ => simp [ranBy, ih]

/-! ### Calls -/

theorem get_set_self {l : List (Option Frame)} {i : Nat} {f : Option Frame} (o : Option Frame)
    (h : l[i]? = some f) : (l.set i o)[i]? = some o := by
  have hi : i < l.length := (List.getElem?_eq_some_iff.mp h).1
  simp [hi]

theorem get_set_ne {l : List (Option Frame)} {i j : Nat} (o : Option Frame) (h : i ≠ j) :
    (l.set i o)[j]? = l[j]? := by simp [List.getElem?_set, h]

theorem set_active {l : List (Option Frame)} {i j : Nat} {f g : Frame} {o : Option Frame}
    (h : l[i]? = some (some f)) (hj : (l.set i o)[j]? = some (some g)) :
    (i = j ∧ o = some g) ∨ (i ≠ j ∧ l[j]? = some (some g)) := by
  by_cases e : i = j
  · subst e; rw [get_set_self o h] at hj; exact .inl ⟨rfl, by simpa using hj⟩
  · rw [get_set_ne o e] at hj; exact .inr ⟨e, hj⟩

theorem snoc_get {α : Type} {l : List α} {x y : α} {j : Nat} (h : (l ++ [x])[j]? = some y) :
    (j = l.length ∧ x = y) ∨ l[j]? = some y := by
  by_cases hj : j < l.length
  · rw [List.getElem?_append_left hj] at h; exact .inr h
  · rw [List.getElem?_append_right (by omega)] at h
    by_cases e : j = l.length
    · subst e; simp at h; exact .inl ⟨rfl, h⟩
    · have : 1 ≤ j - l.length := by omega
      rw [List.getElem?_eq_none (by simpa using this)] at h; cases h

/-- Which calls began and returned. -/
def Calls (s : St) (l : List Ev) : Prop :=
  (∀ i, (∃ b, .started i b ∈ l) ↔ i < s.frames.length) ∧
  (∀ i, .returned i ∈ l ↔ s.frames[i]? = some none)

theorem calls_step (s s' : St) (l e : List Ev) (t : Tr s s' e) (h : Calls s l) : Calls s' (l ++ e) := by
  obtain ⟨h1, h2⟩ := h
  cases t with
  | none => simpa using ⟨h1, h2⟩
  | refused h => exact ⟨fun i => by simpa using h1 i, fun i => by simpa using h2 i⟩
  | post k => exact ⟨fun i => by simpa using h1 i, fun i => by simpa using h2 i⟩
  | single h =>
    refine ⟨fun i => ?_, fun i => ?_⟩
    · have := h1 i
      simp only [List.mem_append, List.mem_singleton, Ev.started.injEq, List.length_append,
        List.length_singleton]
      constructor
      · rintro ⟨b, h | ⟨h, _⟩⟩
        · have := (this.mp ⟨b, h⟩); omega
        · omega
      · intro hi
        by_cases e : i = s.frames.length
        · exact ⟨true, .inr ⟨e, rfl⟩⟩
        · obtain ⟨b, hb⟩ := this.mpr (by omega); exact ⟨b, .inl hb⟩
    · have := h2 i
      simp only [List.mem_append, List.mem_singleton, reduceCtorEq, or_false]
      rw [this]
      constructor
      · intro h; rw [List.getElem?_append_left (List.getElem?_eq_some_iff.mp h).1]; exact h
      · intro h; rcases snoc_get h with ⟨_, h⟩ | h
        · cases h
        · exact h
  | loop h =>
    refine ⟨fun i => ?_, fun i => ?_⟩
    · have := h1 i
      simp only [List.mem_append, List.mem_singleton, Ev.started.injEq, List.length_append,
        List.length_singleton]
      constructor
      · rintro ⟨b, h | ⟨h, _⟩⟩
        · have := (this.mp ⟨b, h⟩); omega
        · omega
      · intro hi
        by_cases e : i = s.frames.length
        · exact ⟨false, .inr ⟨e, rfl⟩⟩
        · obtain ⟨b, hb⟩ := this.mpr (by omega); exact ⟨b, .inl hb⟩
    · have := h2 i
      simp only [List.mem_append, List.mem_singleton, reduceCtorEq, or_false]
      rw [this]
      constructor
      · intro h; rw [List.getElem?_append_left (List.getElem?_eq_some_iff.mp h).1]; exact h
      · intro h; rcases snoc_get h with ⟨_, h⟩ | h
        · cases h
        · exact h
  | wake i b k h =>
    refine ⟨fun j => by simpa using h1 j, fun j => ?_⟩
    have := h2 j
    simp only [List.append_nil]
    rw [this]
    by_cases e : i = j
    · subst e; rw [get_set_self _ h, h]; simp
    · rw [get_set_ne _ e]
  | exec i b x r k a h =>
    refine ⟨fun j => by simpa using h1 j, fun j => ?_⟩
    have := h2 j
    simp only [List.mem_append, List.mem_singleton, reduceCtorEq, or_false]
    rw [this]
    by_cases e : i = j
    · subst e; rw [get_set_self _ h, h]; simp
    · rw [get_set_ne _ e]
  | again i k h hr =>
    refine ⟨fun j => by simpa using h1 j, fun j => ?_⟩
    have := h2 j
    simp only [List.append_nil]
    rw [this]
    by_cases e : i = j
    · subst e; rw [get_set_self _ h, h]; simp
    · rw [get_set_ne _ e]
  | ret i b k h hr =>
    refine ⟨fun j => by simpa using h1 j, fun j => ?_⟩
    have := h2 j
    simp only [List.mem_append, List.mem_singleton, Ev.returned.injEq]
    rw [this]
    by_cases e : i = j
    · subst e; rw [get_set_self _ h]; simp
    · rw [get_set_ne _ e]; constructor
      · rintro (h | h)
        · exact h
        · exact absurd h.symm e
      · exact .inl

theorem calls (ops : List Op) : Calls (St.init.run ops).1 (St.init.run ops).2 := by
  have := run_inv Calls calls_step ops St.init [] ⟨by simp [St.init], by simp [St.init]⟩
  simpa using this

/-- No call is in progress. -/
def Idle (s : St) : Prop := ∀ (i : Nat) (f : Frame), s.frames[i]? ≠ some (some f)

theorem quiet_idle {s : St} {l : List Ev} (h : Calls s l) : Quiet l ↔ Idle s := by
  constructor
  · intro q i f hf
    obtain ⟨b, hb⟩ := (h.1 i).mpr (List.getElem?_eq_some_iff.mp hf).1
    have := (h.2 i).mp (q i b hb)
    rw [hf] at this; simp at this
  · intro q i b hb
    have hi := (h.1 i).mp ⟨b, hb⟩
    rw [h.2]
    cases e : s.frames[i]? with
    | none => rw [List.getElem?_eq_none_iff] at e; omega
    | some o =>
      cases o with
      | none => rfl
      | some f => exact absurd e (q i f)

/-- While it counts as running, some call is in progress. -/
def Live (s : St) : Prop := s.running = true → ∃ (i : Nat) (f : Frame), s.frames[i]? = some (some f)

theorem live_step (s s' : St) (e : List Ev) (t : Tr s s' e) (h : Live s) : Live s' := by
  cases t with
  | none => exact h
  | refused => exact h
  | post => exact h
  | single => intro _; exact ⟨s.frames.length, _, by simp; rfl⟩
  | loop => intro _; exact ⟨s.frames.length, _, by simp; rfl⟩
  | wake i b k hi => intro _; exact ⟨i, _, get_set_self _ hi⟩
  | exec i b x r k a hi => intro _; exact ⟨i, _, get_set_self _ hi⟩
  | again i k hi hr => intro _; exact ⟨i, _, get_set_self _ hi⟩
  | ret i b k hi hr => intro h; cases h

theorem live (ops : List Op) : Live (St.init.run ops).1 := by
  have := run_inv (fun s _ => Live s) (fun s s' l e t h => live_step s s' e t h) ops St.init []
    (by intro h; cases h)
  simpa using this

end Verif.Sched
