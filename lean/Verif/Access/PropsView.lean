import Verif.Access.View
import Verif.Access.Demo

/-!
# C135, C136: clients that may only look

A client connected for viewing only changes nothing, whatever it asks for and whatever the components do,
except through the requests for the operation mode and for the streaming source of a port (C136).
-/

namespace Verif.Access.Props

open Verif.Access Spec

variable {W : Type} (A : Api W) (x : Ctx)

theorem Only.liftBind {α β : Type} {A : Api W} {P : W → Call → Prop} {r : Except Err α} {f : α → M W β}
    (h : ∀ a, r = .ok a → Only A P (f a)) : Only A P (lift r >>= f) := by
  cases r with
  | error e => exact Only.fail (A := A) e
  | ok a => exact h a rfl

theorem Only.protectCall {P : W → Call → Prop} (o : Obj) (c : Bool) : Only A P (protectCall A x o c) := by
  unfold Access.protectCall
  refine Only.ite (Only.pure _) (Only.bind ?_ fun _ => Only.protectViewOnly A _)
  exact Only.bind (Only.ask _) fun _ => Only.bind (Only.require _ _) fun _ => Only.protectLocked A _

theorem callAt_look (hx : x.type = .viewOnly) (t : Obj × Name) (k : Obj → Name → Except Err Bool) (args : Val) :
    Only A (Look k) (callAt A x t (k t.1 t.2) args) := by
  have hp : ∀ (m : M W Val), Only A (Look k) (protectCall A x t.1 false >>= fun _ => m) := by
    intro m s
    have e : ((protectCall A x t.1 false >>= fun _ => m) s).1 = s := by
      rw [bind_eq, protectCall_eq, hx]
      cases A.supports s.1 t.1 .component with
      | false => rfl
      | true => cases (parentDevice A s.1 t.1).any (A.locked s.1) <;> rfl
    rw [e]
    exact ⟨[], by simp, by simp, rfl⟩
  unfold callAt
  refine Only.bind (Only.call A fun _ => Look.read rfl) fun v => ?_
  refine Only.bind (Only.firstParent A (fun _ _ _ => Look.read rfl) _ _) fun h => ?_
  refine Only.bind (Only.protect A _ _ _) fun _ => ?_
  split
  · refine Only.liftBind fun c hc => ?_
    cases c with
    | true =>
      exact Only.bind (Only.protectCall A x _ _) fun _ => Only.call A fun _ _ => ⟨_, _, _, _, rfl, hc⟩
    | false => exact hp _
  · refine Only.liftBind fun c hc => ?_
    cases c with
    | true =>
      exact Only.bind (Only.protectCall A x _ _) fun _ =>
        Only.bind (Only.call A fun _ _ => ⟨_, _, _, _, rfl, hc⟩) fun _ => Only.pure _
    | false => exact hp _
  · exact Only.fail _
  · exact Only.fail _

/-- A function called by a client that may only look is one declared constant. -/
theorem callProperty_look (hx : x.type = .viewOnly) (o : Obj) (p : Params) (w : W) :
    ∀ e ∈ (callProperty A x o p (w, [])).1.2, Look (A.constant w) e.1 e.2 := by
  unfold callProperty
  rw [bind_eq, parseInfo_eq]
  generalize parsed A (w, ([] : List (W × Call))).1 o p.property = r
  cases r with
  | error e => intro e he; simp at he
  | ok t =>
    obtain ⟨l, hl, hp, _⟩ := callAt_look A x hx t (A.constant w) p.value (w, [])
    intro e he
    refine hp e ?_
    rw [List.nil_append] at hl
    rw [← hl]
    exact he

theorem mem_table {name : String} {h : Ctx → Params → M W Val} (e : List.lookup name (table A) = some h) :
    (name, h) ∈ table A := by
  generalize table A = l at e
  induction l with
  | nil => cases e
  | cons a l ih =>
    obtain ⟨n, g⟩ := a
    rw [List.lookup_cons] at e
    split at e
    · rename_i hb
      cases e
      rw [beq_iff_eq.mp hb]
      exact List.mem_cons_self ..
    · exact List.mem_cons_of_mem _ (ih e)

theorem known (name : String) (h : Ctx → Params → M W Val) (e : (name, h) ∈ table A) :
    name ∈ Changing ∨ name ∈ Reading ∨ name = "CallProperty" := by
  have : ∀ e ∈ table A, e.1 ∈ Changing ∨ e.1 ∈ Reading ∨ e.1 = "CallProperty" := by
    simp only [table, List.forall_mem_cons, List.forall_mem_nil]
    exact ⟨by decide, by decide, by decide, by decide, by decide, by decide, by decide, by decide, by decide, by decide, by decide, by decide, by decide, by decide, by decide, by decide, by decide, by decide, by decide, by decide, by decide, by decide, by decide, by decide, by decide, by decide, by decide, by decide, by decide, by decide, by decide, by decide, by decide, by decide, by decide, by decide, by decide, by decide, by decide, by decide, by decide, by decide, by decide, by decide, by decide, by decide, by decide, by decide, by decide, by decide, by decide, by decide, by decide, by decide,
      fun _ h => by simp at h⟩
  exact this _ e

theorem request_cases (name : String) (p : Params) (w : W) :
    request A x name p w = ((w, []), .error .invalidCall) ∨
    ∃ h, List.lookup name (table A) = some h ∧ (name, h) ∈ table A ∧ request A x name p w = h x p (w, []) := by
  unfold request callRpc
  cases e : List.lookup name (table A) with
  | none => exact .inl rfl
  | some h => exact .inr ⟨h, rfl, mem_table A e, rfl⟩

/-- **C135.** Whatever a client that may only look asks for, and whatever the components do, the server
makes no changing call for it, except calling a function that its property declares constant. Left out are
the three requests of C136. -/
theorem C135_view_only (hx : x.type = .viewOnly) (name : String) (hn : name ∉ Unguarded) (p : Params) (w : W) :
    ∀ e ∈ (request A x name p w).1.2, Modifies e.2 = true →
      ∃ o n f a, e.2 = .invoke o n f a ∧ A.constant w o n = .ok true := by
  rcases request_cases A x name p w with e | ⟨h, eq, hm, e⟩ <;> rw [e]
  · intro e he
    cases he
  · clear e
    rcases known A name h hm with hc | hr | rfl
    · obtain ⟨l, hl, hp, _⟩ := (changing_refused A x hx p _ hm hc hn).1 (w, [])
      intro e he hmod
      dsimp only at hl
      rw [hl] at he
      exact absurd ((hp e he).symm.trans hmod) (by decide)
    · obtain ⟨l, hl, hp, _⟩ := reading_only A x p _ hm hr (w, [])
      intro e he hmod
      dsimp only at hl
      rw [hl] at he
      exact absurd ((hp e he).symm.trans hmod) (by decide)
    · have : h = handler A .component (callProperty A) := by
        have : List.lookup "CallProperty" (table A) = some (handler A .component (callProperty A)) := rfl
        exact Option.some.inj (eq.symm.trans this)
      subst this
      unfold handler
      rw [bind_eq, findComponent_eq]
      generalize found A (w, ([] : List (W × Call))).1 p.id = r
      cases r with
      | error e => intro e he; cases he
      | ok r =>
        cases r with
        | none => intro e he; cases he
        | some o =>
          dsimp only
          rw [bind_eq]
          show ∀ e ∈ ((require (A.supports w o .component) .noInterface >>= fun _ =>
            callProperty A x o p) (w, [])).1.2, _
          rw [bind_eq]
          cases A.supports w o .component with
          | false => intro e he; cases he
          | true => exact fun e he hmod => callProperty_look A x hx o p w e he hmod

/-- **C135.** The changing requests are answered with an error. -/
theorem C135_refused (hx : x.type = .viewOnly) (name : String) (hc : name ∈ Changing) (hn : name ∉ Unguarded)
    (p : Params) (w : W) : ∃ e, (request A x name p w).2 = .error e := by
  rcases request_cases A x name p w with e | ⟨h, eq, hm, e⟩ <;> rw [e]
  · exact ⟨_, rfl⟩
  · exact (changing_refused A x hx p _ hm hc hn).2 (w, [])

/-- **C135.** If reading changes nothing, nothing changes. -/
theorem C135_unchanged (hs : Steady A) (hx : x.type = .viewOnly) (name : String) (hc : name ∈ Changing ∨ name ∈ Reading)
    (hn : name ∉ Unguarded) (p : Params) (w : W) : (request A x name p w).1.1 = w := by
  have ran : ∀ (l : List (W × Call)) (v : W), (∀ e ∈ l, Modifies e.2 = false) → Ran A w l v → v = w := by
    intro l
    induction l with
    | nil => exact fun _ _ h => h
    | cons e l ih =>
      intro v hp hr
      have := hs w e.2 (hp e (List.mem_cons_self ..))
      refine ih v (fun e he => hp e (List.mem_cons_of_mem _ he)) ?_
      have hr2 := hr.2
      rw [this] at hr2
      exact hr2
  rcases request_cases A x name p w with e | ⟨h, eq, hm, e⟩ <;> rw [e]
  · rcases hc with hc | hc
    · obtain ⟨l, _, hp, hr⟩ := (changing_refused A x hx p _ hm hc hn).1 (w, [])
      exact ran l _ hp hr
    · obtain ⟨l, _, hp, hr⟩ := reading_only A x p _ hm hc (w, [])
      exact ran l _ hp hr

/-- A viewer sets a property: refused, and nothing is called. A control client with the same request gets
through. -/
example : request (Demo.demo Demo.free Demo.all) ⟨24, 1, .viewOnly⟩ "SetPropertyValue"
      { id := "/dev".toList, property := "a".toList, value := .int 5 } [] = (([], []), .error .accessDenied) ∧
    request (Demo.demo Demo.free Demo.all) ⟨24, 1, .control⟩ "SetPropertyValue"
      { id := "/dev".toList, property := "a".toList, value := .int 5 } [] =
      (([.setValue 0 "a".toList (.int 5)], [([], .setValue 0 "a".toList (.int 5))]), .ok .null) := by
  decide +kernel

/-- A viewer may call a function declared constant, and no other. -/
example : (request (Demo.demo Demo.free Demo.all) ⟨24, 1, .viewOnly⟩ "CallProperty"
      { id := "/dev".toList, property := "f".toList, value := .null } []).1.1 =
      [.invoke 0 "f".toList (.func 1) .null] ∧
    (request (Demo.demo Demo.free Demo.all) ⟨24, 1, .viewOnly⟩ "CallProperty"
      { id := "/dev".toList, property := "g".toList, value := .null } []).1.1 = [] := by
  decide +kernel

/-- The example's reading calls change nothing, as C135_unchanged asks. -/
theorem demo_steady (l : Obj → Bool) (a : User → Obj → Perm → Bool) : Steady (Demo.demo l a) := by
  intro w c h
  simp [Demo.demo, h]

/-- **C136.** A client that may only look and has the permission to write switches the operation mode of a
device, and of the devices below it, and selects the streaming of an external signal connected to a port. -/
theorem C136_violation_view_only :
    (request (Demo.demo Demo.free Demo.all) ⟨24, 1, .viewOnly⟩ "SetOperationMode"
      { id := "//root".toList, mode := "Idle".toList } []) =
      (([.setMode 0 "Idle".toList], [([], .setMode 0 "Idle".toList)]), .ok .null) ∧
    (request (Demo.demo Demo.free Demo.all) ⟨24, 1, .viewOnly⟩ "SetOperationModeRecursive"
      { id := "//root".toList, mode := "Idle".toList } []).1.1 =
      [.setMode 0 "Idle".toList, .setMode 6 "Idle".toList] ∧
    (request (Demo.demo Demo.free fun _ _ _ => false) ⟨24, 1, .viewOnly⟩ "ChangeInputPortStreamingSource"
      { id := "/dev/fb/ip".toList, protocol := some "p".toList } []) =
      (([.setSource 7 "p".toList], [([], .setSource 7 "p".toList)]), .ok .null) := by
  decide +kernel

end Verif.Access.Props
