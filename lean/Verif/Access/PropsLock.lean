import Verif.Access.Stops
import Verif.Access.PropsView

/-!
# C137, C138: locked devices

A component of a locked device is not changed through the server, whatever the request, except for the
requests that ask for no lock (C138).
-/

namespace Verif.Access.Props

open Verif.Access Spec

variable {W : Type} (A : Api W) (x : Ctx)

theorem changing_locked (w : W) (p : Params) (o : Obj) (ho : Names A w p.id o) (hl : BelongsToLocked A w o)
    (e : String × (Ctx → Params → M W Val))
    (he : e ∈ table A) (hc : e.1 ∈ Changing) (hu : e.1 ∉ Unguarded) (hk : e.1 ∉ LockRequests)
    (hr : e.1 ≠ "RemoveExternalSignals") : Stops w (e.2 x p) := by
  revert e
  simp only [table, List.forall_mem_cons, List.forall_mem_nil]
  refine ⟨?_, ?_, ?_, ?_, ?_, ?_, ?_, ?_, ?_, ?_, ?_, ?_, ?_, ?_, ?_, ?_, ?_, ?_, ?_, ?_, ?_, ?_, ?_, ?_, ?_,
    ?_, ?_, ?_, ?_, ?_, ?_, ?_, ?_, ?_, ?_, ?_, ?_, ?_, ?_, ?_, ?_, ?_, ?_, ?_, ?_, ?_, ?_, ?_, ?_, ?_, ?_,
    ?_, ?_, ?_, fun _ h => by simp at h⟩ <;>
    intro hc hu hk hr <;> first
    | exact absurd hc (by decide)
    | exact absurd (by decide) hu
    | exact absurd (by decide) hk
    | exact absurd rfl hr
    | (refine handler_stops A ho ?_
       first
       | (unfold setPropertyValue; stops (Stops.locked hl))
       | (unfold setProtectedPropertyValue; stops (Stops.locked hl))
       | (unfold setPropertySelectionValue; stops (Stops.locked hl))
       | (unfold clearPropertyValue; stops (Stops.locked hl))
       | (unfold clearProtectedPropertyValue; stops (Stops.locked hl))
       | (unfold clearPropertyValues; stops (Stops.locked hl))
       | (unfold beginUpdate; stops (Stops.locked hl)) | (unfold endUpdate; stops (Stops.locked hl))
       | (unfold setAttributeValue; stops (Stops.locked hl)) | (unfold update; stops (Stops.locked hl))
       | (unfold addFunctionBlock; stops (Stops.locked hl))
       | (unfold removeFunctionBlock; stops (Stops.locked hl))
       | (unfold addDevice; stops (Stops.locked hl)) | (unfold addDevices; stops (Stops.locked hl))
       | (unfold removeDevice; stops (Stops.locked hl))
       | (unfold connectExternalSignal; stops (Stops.locked hl))
       | (unfold disconnectSignal; stops (Stops.locked hl))
       | (unfold switch; stops (Stops.locked hl))
       | (unfold connectSignal; stops (Stops.locked hl); exact connectPort_locked A hl x _)
       | stops (Stops.locked hl))

/-- **C137.** A request that changes something and is about a component of a locked device is refused before
any call is made, for every client and every user, the one that locked the device included. -/
theorem C137_locked (w : W) (name : String) (hc : name ∈ Changing) (hu : name ∉ Unguarded)
    (hk : name ∉ LockRequests) (hr : name ≠ "RemoveExternalSignals") (p : Params) (o : Obj)
    (ho : Names A w p.id o) (hl : BelongsToLocked A w o) :
    ∃ e, request A x name p w = ((w, []), .error e) := by
  rcases request_cases A x name p w with e | ⟨h, _, hm, e⟩ <;> rw [e]
  · exact ⟨_, rfl⟩
  · exact changing_locked A x w p o ho hl _ hm hc hu hk hr

/-- Removing external signals asks for the lock of the root device. -/
theorem C137_root (w : W) (p : Params) (hl : BelongsToLocked A w A.root) :
    request A x "RemoveExternalSignals" p w = ((w, []), .error .locked) := by
  show removeExternalSignals A x p (w, []) = _
  unfold removeExternalSignals
  rw [bind_eq, protectLocked_stop A hl]

theorem callAt_locked {A : Api W} (hs : Steady A) (w : W) (t : Obj × Name) (hl : BelongsToLocked A w t.1)
    (k : Except Err Bool) (hk : k ≠ .ok true) (args : Val) (tr : List (W × Call)) :
    (callAt A x t k args (w, tr)).1.1 = w ∧ (∃ e, (callAt A x t k args (w, tr)).2 = .error e) ∧
    ∀ c ∈ (callAt A x t k args (w, tr)).1.2, c ∈ tr ∨ Modifies c.2 = false := by
  have hp : ∀ {α : Type} (m : M W α), Only A (fun _ c => Modifies c = false) m → ∀ tr, (m (w, tr)).1.1 = w ∧
      ∀ c ∈ (m (w, tr)).1.2, c ∈ tr ∨ Modifies c.2 = false := by
    intro α m hm tr
    obtain ⟨l, h1, h2, h3⟩ := hm (w, tr)
    refine ⟨?_, fun c hc => ?_⟩
    · have : ∀ (l : List (W × Call)) (v u : W), (∀ e ∈ l, Modifies e.2 = false) → Ran A v l u → u = v := by
        intro l
        induction l with
        | nil => intro v u _ h; exact h
        | cons e l ih =>
          intro v u hm h
          have h2 := h.2
          rw [hs v e.2 (hm e (by simp))] at h2
          exact ih v u (fun e he => hm e (by simp [he])) h2
      exact this l w _ h2 h3
    · rw [h1] at hc
      rcases List.mem_append.mp hc with h | h
      · exact .inl h
      · exact .inr (h2 _ h)
  have hc : ∀ (m : M W Val) (tr : List (W × Call)), ∃ e,
      (lift k >>= fun c => protectCall A x t.1 c >>= fun _ => m) (w, tr) = ((w, tr), .error e) := by
    intro m tr
    cases k with
    | error e => exact ⟨e, rfl⟩
    | ok c =>
      cases c with
      | true => exact absurd rfl hk
      | false =>
        show ∃ e, (protectCall A x t.1 false >>= fun _ => m) (w, tr) = _
        rw [bind_eq, protectCall_eq]
        dsimp only
        rw [if_neg (by decide)]
        cases A.supports w t.1 .component with
        | false => exact ⟨_, rfl⟩
        | true =>
          rw [if_neg (by decide), if_pos ((locked_iff A w t.1).mpr hl)]
          exact ⟨_, rfl⟩
  unfold callAt
  rw [bind_eq]
  have h1 := hp (call A (.getValue t.1 t.2)) (Only.call A fun _ => rfl) tr
  revert h1
  rcases call A (.getValue t.1 t.2) (w, tr) with ⟨⟨w1, t1⟩, r1⟩
  rintro ⟨e1, c1⟩
  dsimp only at e1 c1
  subst e1
  cases r1 with
  | error e => exact ⟨rfl, ⟨e, rfl⟩, c1⟩
  | ok v =>
    dsimp only
    rw [bind_eq]
    have h2 := hp (firstParent A t.1 t.2) (Only.firstParent A (fun _ _ _ => rfl) _ _) t1
    revert h2
    rcases firstParent A t.1 t.2 (w1, t1) with ⟨⟨w2, t2⟩, r2⟩
    rintro ⟨e2, c2⟩
    dsimp only at e2 c2
    subst e2
    have c3 : ∀ c ∈ t2, c ∈ tr ∨ Modifies c.2 = false := fun c hc => by
      rcases c2 c hc with h | h
      · exact c1 c h
      · exact .inr h
    cases r2 with
    | error e => exact ⟨rfl, ⟨e, rfl⟩, c3⟩
    | ok h =>
      dsimp only
      rw [bind_eq, protect_eq]
      split
      · rename_i s' a heq
        rw [Prod.mk.injEq] at heq
        obtain ⟨rfl, _⟩ := heq
        have fin : ∀ m : M W Val, (∃ e, m (w2, t2) = ((w2, t2), .error e)) →
            (m (w2, t2)).1.1 = w2 ∧ (∃ e, (m (w2, t2)).2 = .error e) ∧
            ∀ c ∈ (m (w2, t2)).1.2, c ∈ tr ∨ Modifies c.2 = false := by
          rintro m ⟨e, he⟩
          rw [he]
          exact ⟨rfl, ⟨e, rfl⟩, c3⟩
        cases v with
        | func f => exact fin _ (hc _ t2)
        | proc f => exact fin _ (hc _ t2)
        | _ => exact fin _ ⟨_, rfl⟩
      · rename_i s' e heq
        rw [Prod.mk.injEq] at heq
        obtain ⟨rfl, _⟩ := heq
        exact ⟨rfl, ⟨e, rfl⟩, c3⟩

/-- A function of a component of a locked device is called only if its property declares it constant;
otherwise nothing changes and the client is told. -/
theorem C137_call (hs : Steady A) (w : W) (p : Params) (o : Obj) (ho : Names A w p.id o)
    (hd : ¬ "DaqDeviceInfo".toList <:+: p.property) (hl : BelongsToLocked A w o)
    (hk : A.constant w o p.property ≠ .ok true) :
    (request A x "CallProperty" p w).1.1 = w ∧ (∃ e, (request A x "CallProperty" p w).2 = .error e) ∧
    ∀ c ∈ (request A x "CallProperty" p w).1.2, Modifies c.2 = false := by
  have e : request A x "CallProperty" p w = handler A .component (callProperty A) x p (w, []) := rfl
  rw [e, handler_at A ho]
  split
  · have e : callProperty A x o p (w, []) = callAt A x (o, p.property) (A.constant w o p.property) p.value (w, []) := by
      unfold callProperty
      rw [bind_eq, parseInfo_eq]
      unfold parsed infoPrefix
      rw [if_pos (Bool.eq_false_iff.mpr fun h => hd ((occurs_iff _ _).mp h))]
      rfl
    rw [e]
    obtain ⟨h1, h2, h3⟩ := callAt_locked x hs w (o, p.property) hl _ hk p.value []
    exact ⟨h1, h2, fun c hc => (h3 c hc).resolve_left (by simp)⟩
  · exact ⟨rfl, ⟨_, rfl⟩, fun c hc => by simp at hc⟩

/-- A locked device takes no property and no signal, not even from the user who locked it, but can be
unlocked. -/
example : request (Demo.demo (· == 0) Demo.all) ⟨24, 1, .control⟩ "SetPropertyValue"
      { id := "/dev/fb/ip".toList, property := "a".toList, value := .int 5 } [] = (([], []), .error .locked) ∧
    request (Demo.demo (· == 0) Demo.all) ⟨24, 1, .exclusive⟩ "ConnectSignal"
      { id := "/dev/fb/ip".toList, signal := "/dev/sig".toList } [] = (([], []), .error .locked) ∧
    (request (Demo.demo (· == 0) Demo.all) ⟨24, 1, .control⟩ "Unlock" { id := "//root".toList } []).1.1 =
      [.unlock 0 1] := by
  decide +kernel

example : BelongsToLocked (Demo.demo (· == 0) Demo.all) [] 2 ∧
    Names (Demo.demo (· == 0) Demo.all) [] "/dev/fb/ip".toList 2 :=
  ⟨⟨[2, 1], 0, [], rfl, by decide, rfl, rfl⟩,
   .inr ⟨by decide, ["fb".toList, "ip".toList], by decide, by decide, rfl, .down rfl rfl (.down rfl rfl (.here 2))⟩⟩

/-- **C138.** The operation mode of a locked device is switched; the streaming source of a signal connected
to a port of a locked device is selected; and a locked device is removed from the device above it. -/
theorem C138_violation_lock :
    (request (Demo.demo (· == 0) Demo.all) ⟨24, 1, .control⟩ "SetOperationMode"
      { id := "//root".toList, mode := "Idle".toList } []).1.1 = [.setMode 0 "Idle".toList] ∧
    (request (Demo.demo (fun _ => true) Demo.all) ⟨24, 1, .control⟩ "SetOperationModeRecursive"
      { id := "//root".toList, mode := "Idle".toList } []).1.1 =
      [.setMode 0 "Idle".toList, .setMode 6 "Idle".toList] ∧
    (request (Demo.demo (· == 0) Demo.all) ⟨24, 1, .control⟩ "ChangeInputPortStreamingSource"
      { id := "/dev/fb/ip".toList, protocol := some "p".toList } []).1.1 = [.setSource 7 "p".toList] ∧
    BelongsToLocked (Demo.demo (· == 6) Demo.all) [] 6 ∧
    (request (Demo.demo (· == 6) Demo.all) ⟨24, 1, .control⟩ "RemoveDevice"
      { id := "//root".toList, localId := "sub".toList } []).1.1 = [.removeDevice 0 6] := by
  refine ⟨by decide +kernel, by decide +kernel, by decide +kernel, ⟨[], 6, [0], rfl, by decide, rfl, rfl⟩,
    by decide +kernel⟩

end Verif.Access.Props
