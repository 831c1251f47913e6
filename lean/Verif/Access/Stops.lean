import Verif.Access.Find

/-! Requests that end at a check, before anything is called. -/

namespace Verif.Access.Props

open Verif.Access Spec

variable {W : Type}

/-- A part that fails at once: no call is made. -/
def Stops {α : Type} (w : W) (m : M W α) : Prop := ∃ e, m (w, []) = ((w, []), .error e)

/-- A part that makes no call. -/
def Quiet {α : Type} (m : M W α) : Prop := ∀ s, (m s).1 = s

theorem Stops.fail {α : Type} (w : W) (e : Err) : Stops w (Access.fail e : M W α) := ⟨e, rfl⟩

theorem Stops.first {α β : Type} {w : W} {m : M W α} {f : α → M W β} (h : Stops w m) : Stops w (m >>= f) := by
  obtain ⟨e, h⟩ := h
  exact ⟨e, by rw [bind_eq, h]⟩

theorem Stops.later {α β : Type} {w : W} {m : M W α} {f : α → M W β} (hq : Quiet m)
    (h : ∀ a, Stops w (f a)) : Stops w (m >>= f) := by
  have e := hq (w, [])
  unfold Stops
  rw [bind_eq]
  revert e
  rcases m (w, []) with ⟨s, r⟩
  rintro rfl
  cases r with
  | error e => exact ⟨e, rfl⟩
  | ok a => exact h a

theorem Quiet.ask {α : Type} (q : W → α) : Quiet (Access.ask q) := fun _ => rfl
theorem Quiet.pure {α : Type} (a : α) : Quiet (Pure.pure a : M W α) := fun _ => rfl
theorem Quiet.fail {α : Type} (e : Err) : Quiet (Access.fail e : M W α) := fun _ => rfl
theorem Quiet.require (b : Bool) (e : Err) : Quiet (Access.require b e : M W Unit) := by
  cases b <;> exact fun _ => rfl
theorem Quiet.bind {α β : Type} {m : M W α} {f : α → M W β} (hm : Quiet m) (hf : ∀ a, Quiet (f a)) :
    Quiet (m >>= f) := by
  intro s
  have e := hm s
  rw [bind_eq]
  revert e
  rcases m s with ⟨s', r⟩
  rintro rfl
  cases r with
  | error e => rfl
  | ok a => exact hf a _

variable (A : Api W)

theorem Quiet.protect (u : User) (o : Obj) (ps : List Perm) : Quiet (Access.protect A u o ps) := fun s => by
  rw [protect_eq]
theorem Quiet.protectLocked (o : Obj) : Quiet (Access.protectLocked A o) := fun s => by rw [protectLocked_eq]
theorem Quiet.protectViewOnly (t : ClientType) : Quiet (Access.protectViewOnly t : M W Unit) :=
  Quiet.require _ _
theorem Quiet.parseInfo (o : Obj) (n : Name) : Quiet (Access.parseInfo A o n) := fun s => by rw [parseInfo_eq]
theorem Quiet.findComponent (id : Name) : Quiet (Access.findComponent A id) := fun s => by rw [findComponent_eq]
theorem Quiet.asText (v : Val) : Quiet (Access.asText A v) := by
  unfold Access.asText
  split
  · exact Quiet.fail _
  · exact Quiet.pure _
theorem Quiet.findSignal (id : Name) : Quiet (Access.findSignal A id) := by
  unfold Access.findSignal
  refine Quiet.bind (Quiet.findComponent A _) fun s => ?_
  split
  · exact Quiet.pure _
  · exact Quiet.bind (Quiet.ask _) fun _ => Quiet.bind (Quiet.require _ _) fun _ => Quiet.pure _

variable {A}

theorem Stops.locked {w : W} {o : Obj} (h : BelongsToLocked A w o) : Stops w (Access.protectLocked A o) :=
  ⟨_, protectLocked_stop A h []⟩

theorem Stops.denied {w : W} {u : User} {o : Obj} {ps : List Perm} (h : ¬ May A w u o ps) :
    Stops w (Access.protect A u o ps) := ⟨_, protect_stop A h []⟩

variable (A)

theorem handler_stops {w : W} {x : Ctx} {p : Params} {o : Obj} (hn : Names A w p.id o) {i : Intf}
    {f : Ctx → Obj → Params → M W Val} (h : Stops w (f x o p)) : Stops w (handler A i f x p) := by
  unfold Stops
  rw [handler_at A hn]
  split
  · exact h
  · exact ⟨_, rfl⟩

/-- The checks of a request up to the one that fails. -/
macro "stops" t:term : tactic => `(tactic| (
  repeat first
    | exact Stops.first $t
    | exact Stops.fail _ _
    | (refine Stops.later (Quiet.protectLocked _ _) fun _ => ?_)
    | (refine Stops.later (Quiet.protectViewOnly _) fun _ => ?_)
    | (refine Stops.later (Quiet.protect _ _ _ _) fun _ => ?_)
    | (refine Stops.later (Quiet.ask _) fun _ => ?_)
    | (refine Stops.later (Quiet.require _ _) fun _ => ?_)
    | (refine Stops.later (Quiet.findSignal _ _) fun _ => ?_)))

theorem connectPort_locked {w : W} {o : Obj} (h : BelongsToLocked A w o) (x : Ctx) (s : Option Obj) :
    Stops w (connectPort A x o s) := by
  unfold connectPort
  split
  · exact Stops.fail _ _
  · stops (Stops.locked h)

end Verif.Access.Props
