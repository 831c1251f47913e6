import Verif.Access.Wp

/-! Requests that are refused to a client that may only look, and requests that only read. -/

namespace Verif.Access.Props

open Verif.Access Spec

variable {W : Type} (A : Api W)

/-- What a client that may only look can make the server call. -/
def Look (k : Obj → Name → Except Err Bool) (_ : W) (c : Call) : Prop :=
  Modifies c = true → ∃ o n f a, c = .invoke o n f a ∧ k o n = .ok true

theorem Look.read {k : Obj → Name → Except Err Bool} {w : W} {c : Call} (h : Modifies c = false) : Look k w c :=
  fun hm => absurd (h.symm.trans hm) (by decide)

/-- Only reading calls are made, and the request fails. -/
def Refused {α : Type} (m : M W α) : Prop :=
  Only A (fun _ c => Modifies c = false) m ∧ ∀ s, ∃ e, (m s).2 = .error e

variable {A}

theorem Refused.fail {α : Type} (e : Err) : Refused A (Access.fail e : M W α) :=
  ⟨Only.fail e, fun _ => ⟨e, rfl⟩⟩

theorem Refused.bind {α β : Type} {m : M W α} {f : α → M W β} (hm : Only A (fun _ c => Modifies c = false) m)
    (hf : ∀ a, Refused A (f a)) : Refused A (m >>= f) := by
  refine ⟨Only.bind hm fun a => (hf a).1, fun s => ?_⟩
  rw [bind_eq]
  rcases m s with ⟨s', r⟩
  cases r with
  | error e => exact ⟨e, rfl⟩
  | ok a => exact (hf a).2 s'

theorem Refused.viewOnly {β : Type} {t : ClientType} (h : t = .viewOnly) (f : Unit → M W β) :
    Refused A (protectViewOnly t >>= f) := by
  subst h
  exact Refused.fail (W := W) .accessDenied

theorem Only.weaken {α : Type} {P Q : W → Call → Prop} {m : M W α} (h : Only A P m) (hq : ∀ w c, P w c → Q w c) :
    Only A Q m := fun s => by
  obtain ⟨l, hl, hp, hr⟩ := h s
  exact ⟨l, hl, fun e he => hq _ _ (hp e he), hr⟩

/-- The pieces of a request's handling, up to the point where the kind of client is looked at. -/
macro "refused" h:term : tactic => `(tactic| (
  repeat first
    | exact Refused.viewOnly $h _
    | exact Refused.fail _
    | (refine Refused.bind (Only.protectLocked _ _) fun _ => ?_)
    | (refine Refused.bind (Only.protect _ _ _ _) fun _ => ?_)
    | (refine Refused.bind (Only.ask _) fun _ => ?_)
    | (refine Refused.bind (Only.require _ _) fun _ => ?_)
    | (refine Refused.bind (Only.findSignal _ _) fun _ => ?_)))

variable (A) (x : Ctx)

theorem handler_refused {i : Intf} {f : Ctx → Obj → Params → M W Val} {p : Params}
    (h : ∀ o, Refused A (f x o p)) : Refused A (handler A i f x p) := by
  unfold handler
  refine Refused.bind (Only.findComponent A _) fun o => ?_
  split
  · exact Refused.fail _
  · exact Refused.bind (Only.ask _) fun _ => Refused.bind (Only.require _ _) fun _ => h _

theorem handler_only {P : W → Call → Prop} {i : Intf} {f : Ctx → Obj → Params → M W Val} {p : Params}
    (h : ∀ o, Only A P (f x o p)) : Only A P (handler A i f x p) := by
  unfold handler
  refine Only.bind (Only.findComponent A _) fun o => ?_
  split
  · exact Only.fail _
  · exact Only.bind (Only.ask _) fun _ => Only.bind (Only.require _ _) fun _ => h _

theorem connectPort_refused (hx : x.type = .viewOnly) (o : Obj) (s : Option Obj) :
    Refused A (connectPort A x o s) := by
  unfold connectPort
  split
  · exact Refused.fail _
  · refused hx

/-- Every changing request but the unguarded ones is refused. -/
theorem changing_refused (hx : x.type = .viewOnly) (p : Params) (e : String × (Ctx → Params → M W Val))
    (he : e ∈ table A) (hc : e.1 ∈ Changing) (hu : e.1 ∉ Unguarded) : Refused A (e.2 x p) := by
  revert e
  simp only [table, List.forall_mem_cons, List.forall_mem_nil]
  refine ⟨?_, ?_, ?_, ?_, ?_, ?_, ?_, ?_, ?_, ?_, ?_, ?_, ?_, ?_, ?_, ?_, ?_, ?_, ?_, ?_, ?_, ?_, ?_, ?_, ?_,
    ?_, ?_, ?_, ?_, ?_, ?_, ?_, ?_, ?_, ?_, ?_, ?_, ?_, ?_, ?_, ?_, ?_, ?_, ?_, ?_, ?_, ?_, ?_, ?_, ?_, ?_,
    ?_, ?_, ?_, fun _ h => by simp at h⟩ <;>
    intro hc hu <;> first
    | exact absurd hc (by decide)
    | exact absurd (by decide) hu
    | (refine handler_refused A x fun o => ?_
       first
       | (unfold setPropertyValue; refused hx) | (unfold setProtectedPropertyValue; refused hx)
       | (unfold setPropertySelectionValue; refused hx) | (unfold clearPropertyValue; refused hx)
       | (unfold clearProtectedPropertyValue; refused hx) | (unfold clearPropertyValues; refused hx)
       | (unfold beginUpdate; refused hx) | (unfold endUpdate; refused hx)
       | (unfold setAttributeValue; refused hx) | (unfold update; refused hx)
       | (unfold addFunctionBlock; refused hx) | (unfold removeFunctionBlock; refused hx)
       | (unfold lockDevice; refused hx) | (unfold unlockDevice; refused hx)
       | (unfold forceUnlockDevice; refused hx) | (unfold addDevice; refused hx)
       | (unfold addDevices; refused hx) | (unfold removeDevice; refused hx)
       | (unfold connectExternalSignal; refused hx) | (unfold disconnectSignal; refused hx)
       | (unfold switch; refused hx)
       | (unfold connectSignal; refused hx; exact connectPort_refused A x hx _ _)
       | refused hx)
    | (unfold removeExternalSignals; refused hx)

/-- The pieces of a request that only reads. -/
macro "reads" : tactic => `(tactic| (
  repeat first
    | exact Only.pure _
    | exact Only.fail _
    | exact Only.call _ (fun _ => rfl)
    | exact Only.findSignal _ _
    | (refine Only.bind (Only.protect _ _ _ _) fun _ => ?_)
    | (refine Only.bind (Only.ask _) fun _ => ?_)
    | (refine Only.bind (Only.require _ _) fun _ => ?_)
    | (refine Only.bind (Only.parseInfo _ _ _) fun _ => ?_)
    | (refine Only.bind (Only.firstParent _ (fun _ _ _ => rfl) _ _) fun _ => ?_)
    | (refine Only.bind (Only.call _ (fun _ => rfl)) fun _ => ?_)
    | (refine Only.bind (Only.findComponent _ _) fun _ => ?_)
    | (refine Only.bind (Only.findSignal _ _) fun _ => ?_)))

theorem acceptsOne_reads (o : Obj) (s : Option Obj) :
    Only A (fun _ c => Modifies c = false) (acceptsOne A x o s) := by
  unfold acceptsOne
  split <;> reads

theorem acceptsAll_reads (o : Obj) (l : List Name) :
    Only A (fun _ c => Modifies c = false) (acceptsAll A x o l) := by
  induction l with
  | nil => exact Only.pure _
  | cons n l ih =>
    unfold acceptsAll
    reads
    refine Only.bind (acceptsOne_reads A x o _) fun _ => Only.bind ih fun _ => Only.pure _

/-- The reading requests only read, for every client. -/
theorem reading_only (p : Params) (e : String × (Ctx → Params → M W Val))
    (he : e ∈ table A) (hr : e.1 ∈ Reading) : Only A (fun _ c => Modifies c = false) (e.2 x p) := by
  revert e
  simp only [table, List.forall_mem_cons, List.forall_mem_nil]
  refine ⟨?_, ?_, ?_, ?_, ?_, ?_, ?_, ?_, ?_, ?_, ?_, ?_, ?_, ?_, ?_, ?_, ?_, ?_, ?_, ?_, ?_, ?_, ?_, ?_, ?_,
    ?_, ?_, ?_, ?_, ?_, ?_, ?_, ?_, ?_, ?_, ?_, ?_, ?_, ?_, ?_, ?_, ?_, ?_, ?_, ?_, ?_, ?_, ?_, ?_, ?_, ?_,
    ?_, ?_, ?_, fun _ h => by simp at h⟩ <;>
    intro hr <;> first
    | exact absurd hr (by decide)
    | (refine handler_only A x fun o => ?_
       first
       | (unfold readOne; reads) | (unfold getPropertyValue; reads) | (unfold getSuggestedValues; reads)
       | (unfold getSelectionValues; reads) | (unfold getAvailableFunctionBlockTypes; reads)
       | (unfold getComponentConfig; reads)
       | (unfold acceptsSignal; refine Only.bind (Only.findSignal _ _) fun _ => acceptsOne_reads A x o _)
       | (unfold acceptsSignals; refine Only.bind (acceptsAll_reads A x o _) fun _ => Only.pure _))
    | (unfold getRoot readOne; reads)
    | (unfold getTypeManager readOne; reads)
    | (unfold getComponent; reads; split; · exact Only.fail _
       · unfold readOne; reads)

end Verif.Access.Props
