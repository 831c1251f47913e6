import Verif.Access.Entitled
import Verif.Access.PropsLock

/-!
# C139, C140, C142, C143: the permissions of the user

A request is refused to a user without the permissions it needs, before anything is called (C139, C142);
the requests that reach further than the object whose permissions are asked for are in C140 and C143.
-/

namespace Verif.Access.Props

open Verif.Access Spec

variable {W : Type} (A : Api W) (x : Ctx)

theorem connectPort_denied {w : W} {o : Obj} (h : ¬ May A w x.user o [.read, .write]) (s : Option Obj) :
    Stops w (connectPort A x o s) := by
  unfold connectPort
  split
  · exact Stops.fail _ _
  · stops (Stops.denied h)

theorem acceptsOne_denied {w : W} {o : Obj} (h : ¬ May A w x.user o [.read]) (s : Option Obj) :
    Stops w (acceptsOne A x o s) := by
  unfold acceptsOne
  split
  · exact Stops.fail _ _
  · stops (Stops.denied h)

theorem getComponent_denied {w : W} {p : Params} {o : Obj} (ho : Names A w p.id o) (h : ¬ May A w x.user o [.read]) :
    Stops w (getComponent A x p) := by
  unfold Stops getComponent
  rw [bind_eq, findComponent_eq, (found_iff A w p.id o).mpr ho]
  show ∃ e, readOne A x o (.tree o) (w, []) = _
  unfold readOne
  exact Stops.first (Stops.denied h)

theorem needs_denied (w : W) (p : Params) (o : Obj) (ho : Names A w p.id o) (ps : List Perm)
    (hm : ¬ May A w x.user o ps) (e : String × (Ctx → Params → M W Val))
    (he : e ∈ table A) (hn : (e.1, ps) ∈ Needs) : Stops w (e.2 x p) := by
  have key : ∀ e ∈ table A, ∀ qs, List.lookup e.1 Needs = some qs → ¬ May A w x.user o qs → Stops w (e.2 x p) := by
    simp only [table, List.forall_mem_cons, List.forall_mem_nil]
    refine ⟨?_, ?_, ?_, ?_, ?_, ?_, ?_, ?_, ?_, ?_, ?_, ?_, ?_, ?_, ?_, ?_, ?_, ?_, ?_, ?_, ?_, ?_, ?_, ?_, ?_,
      ?_, ?_, ?_, ?_, ?_, ?_, ?_, ?_, ?_, ?_, ?_, ?_, ?_, ?_, ?_, ?_, ?_, ?_, ?_, ?_, ?_, ?_, ?_, ?_, ?_, ?_,
      ?_, ?_, ?_, fun _ h => by simp at h⟩ <;>
      intro qs hq hm <;> first
      | (cases hq; done)
      | (cases hq
         first
         | exact getComponent_denied A x ho hm
         | (refine handler_stops A ho ?_
            first
            | (unfold clearPropertyValues; stops (Stops.denied hm))
            | (unfold beginUpdate; stops (Stops.denied hm)) | (unfold endUpdate; stops (Stops.denied hm))
            | (unfold setAttributeValue; stops (Stops.denied hm)) | (unfold update; stops (Stops.denied hm))
            | (unfold addFunctionBlock; stops (Stops.denied hm))
            | (unfold removeFunctionBlock; stops (Stops.denied hm))
            | (unfold getAvailableFunctionBlockTypes; stops (Stops.denied hm))
            | (unfold getComponentConfig; stops (Stops.denied hm))
            | (unfold lockDevice; stops (Stops.denied hm)) | (unfold unlockDevice; stops (Stops.denied hm))
            | (unfold forceUnlockDevice; stops (Stops.denied hm))
            | (unfold addDevice; stops (Stops.denied hm)) | (unfold addDevices; stops (Stops.denied hm))
            | (unfold removeDevice; stops (Stops.denied hm))
            | (unfold setOperationMode; stops (Stops.denied hm))
            | (unfold setOperationModeRecursive; stops (Stops.denied hm))
            | (unfold connectExternalSignal; stops (Stops.denied hm))
            | (unfold disconnectSignal; stops (Stops.denied hm))
            | (unfold switch; stops (Stops.denied hm))
            | (unfold readOne; stops (Stops.denied hm))
            | (unfold connectSignal; stops (Stops.denied hm); exact connectPort_denied A x hm _)
            | (unfold acceptsSignal; stops (Stops.denied hm); exact acceptsOne_denied A x hm _)))
  refine key e he ps ?_ hm
  have : ∀ q ∈ Needs, List.lookup q.1 Needs = some q.2 := by decide
  exact this _ hn

/-- **C139.** A request about a component, made by a user without the permissions on this component that the
request needs, is refused before any call is made. -/
theorem C139_denied (w : W) (name : String) (ps : List Perm) (hn : (name, ps) ∈ Needs) (p : Params) (o : Obj)
    (ho : Names A w p.id o) (hm : ¬ May A w x.user o ps) :
    ∃ e, request A x name p w = ((w, []), .error e) := by
  rcases request_cases A x name p w with e | ⟨h, _, hm', e⟩ <;> rw [e]
  · exact ⟨_, rfl⟩
  · exact needs_denied A x w p o ho ps hm _ hm' hn

/-- The root device and the types are handed out to users who may read the root device. -/
theorem C139_root (w : W) (p : Params) (hm : ¬ May A w x.user A.root [.read]) :
    request A x "GetSerializedRootDevice" p w = ((w, []), .error .accessDenied) ∧
    request A x "GetTypeManager" p w = ((w, []), .error .accessDenied) := by
  constructor
  · show readOne A x A.root (.tree A.root) (w, []) = _
    unfold readOne
    rw [bind_eq, protect_stop A hm]
  · show readOne A x A.root .typeManager (w, []) = _
    unfold readOne
    rw [bind_eq, protect_stop A hm]

/-- A signal is connected, and a port asked whether it takes it, only for a user who may read the signal. -/
theorem C139_signal (w : W) (p : Params) (s : Obj) (hs : Names A w p.signal s) (hm : ¬ May A w x.user s [.read]) :
    (∃ e, request A x "ConnectSignal" p w = ((w, []), .error e)) ∧
    (∃ e, request A x "AcceptsSignal" p w = ((w, []), .error e)) := by
  have hf : ∀ tr, findSignal A p.signal (w, tr) =
      ((w, tr), if A.supports w s .signal then .ok (some s) else .error .noInterface) := by
    intro tr
    unfold findSignal
    rw [bind_eq, findComponent_eq, (found_iff A w p.signal s).mpr hs]
    show (ask (fun w => A.supports w s .signal) >>= fun b => require b .noInterface >>= fun _ => pure (some s))
      (w, tr) = _
    rw [bind_eq]
    show (require (A.supports w s .signal) .noInterface >>= fun _ => pure (some s)) (w, tr) = _
    cases A.supports w s .signal <;> rfl
  have hh : ∀ f : Ctx → Obj → Params → M W Val, (∀ o, Stops w (f x o p)) → Stops w (handler A .port f x p) := by
    intro f h
    by_cases hn : ∃ o, Names A w p.id o
    · obtain ⟨o, ho⟩ := hn
      exact handler_stops A ho (h o)
    · exact handler_none A (fun o ho => hn ⟨o, ho⟩) .port f x []
  constructor
  · refine hh _ fun o => ?_
    unfold Stops connectSignal
    rw [bind_eq, hf]
    cases A.supports w s .signal with
    | false => exact ⟨_, rfl⟩
    | true =>
      refine Stops.later (Quiet.ask _) fun _ => Stops.later (Quiet.require _ _) fun _ => ?_
      show Stops w (connectPort A x o (some s))
      unfold connectPort
      refine Stops.later (Quiet.protectViewOnly _) fun _ => Stops.later (Quiet.protectLocked A _) fun _ =>
        Stops.later (Quiet.protect A _ _ _) fun _ => Stops.first (Stops.denied hm)
  · refine hh _ fun o => ?_
    unfold Stops acceptsSignal
    rw [bind_eq, hf]
    cases A.supports w s .signal with
    | false => exact ⟨_, rfl⟩
    | true =>
      show Stops w (acceptsOne A x o (some s))
      unfold acceptsOne
      exact Stops.later (Quiet.protect A _ _ _) fun _ => Stops.first (Stops.denied hm)

theorem keeps_call (t : Obj × Name) (k : Except Err Bool) (args : Val) : Keeps A x.user (callAt A x t k args) := by
  unfold callAt
  refine Keeps.bind (Keeps.read rfl) fun v => ?_
  refine keeps_checked _ _ _ _ fun s h hs hh hm => ?_
  have hc : ∀ (f : Val) (m : M W Val),
      (∀ s, Good A x.user s.2 → Entitled A s.2 s.1 x.user (.invoke t.1 t.2 f args) → Good A x.user (m s).1.2) →
      Good A x.user ((lift k >>= fun c => protectCall A x t.1 c >>= fun _ => m) s).1.2 := by
    intro f m hm'
    cases k with
    | error e => exact hs
    | ok c =>
      show Good A x.user ((protectCall A x t.1 c >>= fun _ => m) s).1.2
      rw [bind_eq]
      have hq := quiet_protectCall A x t.1 c s
      revert hq
      rcases protectCall A x t.1 c s with ⟨s', r⟩
      rintro rfl
      cases r with
      | error e => exact hs
      | ok _ => exact hm' _ hs ⟨h, hh, hm⟩
  cases v with
  | func f => exact hc (.func f) _ fun s h1 h2 => good_call h1 h2
  | proc f => exact hc (.proc f) _ fun s h1 h2 => good_callVoid h1 h2
  | _ => exact hs

theorem property_keeps (p : Params) (e : String × (Ctx → Params → M W Val))
    (he : e ∈ table A) (hn : e.1 ∈ PropertyRequests) : Keeps A x.user (e.2 x p) := by
  revert e
  simp only [table, List.forall_mem_cons, List.forall_mem_nil]
  refine ⟨?_, ?_, ?_, ?_, ?_, ?_, ?_, ?_, ?_, ?_, ?_, ?_, ?_, ?_, ?_, ?_, ?_, ?_, ?_, ?_, ?_, ?_, ?_, ?_, ?_,
    ?_, ?_, ?_, ?_, ?_, ?_, ?_, ?_, ?_, ?_, ?_, ?_, ?_, ?_, ?_, ?_, ?_, ?_, ?_, ?_, ?_, ?_, ?_, ?_, ?_, ?_,
    ?_, ?_, ?_, fun _ h => by simp at h⟩ <;>
    intro hn <;> first
    | exact absurd hn (by decide)
    | (refine keeps_handler A fun o => ?_
       first
       | (unfold callProperty
          exact Keeps.bind (Keeps.quiet (Quiet.parseInfo A _ _)) fun _ => Keeps.bind (Keeps.quiet (Quiet.ask _))
            fun _ => keeps_call A x _ _ _)
       | (first
          | unfold setPropertyValue | unfold setPropertySelectionValue | unfold clearPropertyValue
          | unfold clearProtectedPropertyValue
          exact Keeps.bind (Keeps.quiet (Quiet.protectLocked A _)) fun _ =>
            Keeps.bind (Keeps.quiet (Quiet.protectViewOnly _)) fun _ =>
            Keeps.bind (Keeps.quiet (Quiet.parseInfo A _ _)) fun _ =>
            keeps_checked _ _ _ _ fun s h hs hh hm => good_callVoid hs ⟨h, hh, hm⟩)
       | (unfold setProtectedPropertyValue
          exact Keeps.bind (Keeps.quiet (Quiet.protectLocked A _)) fun _ =>
            Keeps.bind (Keeps.quiet (Quiet.protectViewOnly _)) fun _ =>
            Keeps.bind (Keeps.quiet (Quiet.asText A _)) fun _ =>
            Keeps.bind (Keeps.quiet (Quiet.parseInfo A _ _)) fun _ =>
            keeps_checked _ _ _ _ fun s h hs hh hm => good_callVoid hs ⟨h, hh, hm⟩)
       | exact Keeps.bind (Keeps.quiet (Quiet.protectLocked A _)) fun _ =>
            Keeps.bind (Keeps.quiet (Quiet.protectViewOnly _)) fun _ =>
            keeps_checked _ _ _ _ fun s h hs hh hm => good_callVoid hs ⟨h, hh, hm⟩
       | exact Keeps.bind (Keeps.quiet (Quiet.protectLocked A _)) fun _ =>
            Keeps.bind (Keeps.quiet (Quiet.protectViewOnly _)) fun _ =>
            Keeps.bind (Keeps.quiet (Quiet.asText A _)) fun _ =>
            keeps_checked _ _ _ _ fun s h hs hh hm => good_callVoid hs ⟨h, hh, hm⟩)

/-- A property is set, cleared or called only for a user who may read and write, or call, the object that
holds it, in the state in which the call is made. For a property of a nested object that is the nested
object. -/
theorem C139_property (w : W) (name : String) (hn : name ∈ PropertyRequests) (p : Params) :
    ∀ past e later, (request A x name p w).1.2 = past ++ e :: later → Modifies e.2 = true →
      Entitled A past e.1 x.user e.2 := by
  have : Good A x.user (request A x name p w).1.2 := by
    rcases request_cases A x name p w with e | ⟨h, _, hm, e⟩ <;> rw [e]
    · exact Good.nil
    · exact property_keeps A x p _ hm hn (w, []) Good.nil
  exact this

/-- A user who may write the component and not the nested object sets a property of the component, and is
refused one of the nested object, whichever way it is asked for. -/
example : (request (Demo.demo Demo.free fun _ o _ => o != 4) ⟨24, 1, .control⟩ "SetPropertyValue"
      { id := "//root".toList, property := "a".toList, value := .int 5 } []).1.1 = [.setValue 0 "a".toList (.int 5)] ∧
    (request (Demo.demo Demo.free fun _ o _ => o != 4) ⟨24, 1, .control⟩ "SetPropertyValue"
      { id := "//root".toList, property := "child.a".toList, value := .int 5 } []) =
      (([], [([], .getValue 0 "child".toList)]), .error .accessDenied) ∧
    (request (Demo.demo Demo.free fun _ o _ => o != 4) ⟨24, 1, .control⟩ "ClearPropertyValue"
      { id := "//root".toList, property := "child.deep.a".toList } []).1.1 =
      [] := by
  decide +kernel

example : ("Lock", [.read, .write]) ∈ Needs ∧
    ¬ May (Demo.demo Demo.free fun _ _ q => q == .read) [] 1 0 [.read, .write] ∧
    request (Demo.demo Demo.free fun _ _ q => q == .read) ⟨24, 1, .control⟩ "Lock" { id := "//root".toList } [] =
      (([], []), .error .accessDenied) :=
  ⟨by decide, fun h => absurd (h .write (by decide)) (by decide), by decide +kernel⟩

theorem only_steady {A : Api W} (hs : Steady A) {α : Type} {m : M W α}
    (hm : Only A (fun _ c => Modifies c = false) m) (s : S W) : (m s).1.1 = s.1 := by
  obtain ⟨l, _, h2, h3⟩ := hm s
  have : ∀ (l : List (W × Call)) (v u : W), (∀ e ∈ l, Modifies e.2 = false) → Ran A v l u → u = v := by
    intro l
    induction l with
    | nil => intro v u _ h; exact h
    | cons e l ih =>
      intro v u hm h
      have h2 := h.2
      rw [hs v e.2 (hm e (by simp))] at h2
      exact ih v u (fun e he => hm e (by simp [he])) h2
  exact this l s.1 _ h2 h3

theorem firstParent_now {A : Api W} (hs : Steady A) (w : W) (o : Obj) (n : Name) (h : Obj) (hh : HoldsNow A w o n h)
    (tr : List (W × Call)) :
    ∃ tr', (∀ c ∈ tr', c ∈ tr ∨ ∃ o n, c.2 = .getValue o n) ∧
      (firstParent A o n (w, tr) = ((w, tr'), .ok h) ∨ ∃ e, firstParent A o n (w, tr) = ((w, tr'), .error e)) := by
  unfold firstParent
  rcases hh with ⟨hd, rfl⟩ | ⟨pre, lst, rfl, hl, hv⟩
  · rw [beforeLastDot_plain hd]
    exact ⟨tr, fun c hc => .inl hc, .inl rfl⟩
  · rw [beforeLastDot_dot hl]
    show ∃ tr', _ ∧ ((call A (.getValue o pre) >>= fun v => asObject A v) (w, tr) = _ ∨
      ∃ e, (call A (.getValue o pre) >>= fun v => asObject A v) (w, tr) = _)
    refine ⟨tr ++ [(w, .getValue o pre)], fun c hc => ?_, ?_⟩
    · rcases List.mem_append.mp hc with hc | hc
      · exact .inl hc
      · rw [List.mem_singleton.mp hc]
        exact .inr ⟨o, pre, rfl⟩
    · rw [bind_eq]
      have hc : call A (.getValue o pre) (w, tr) = ((w, tr ++ [(w, .getValue o pre)]), .ok (.obj h)) := by
        show (((A.exec w (.getValue o pre)).1, _), (A.exec w (.getValue o pre)).2) = _
        rw [hs w _ rfl, hv]
      rw [hc]
      show (require (A.supports w h .propertyObject) .noInterface >>= fun _ => pure h) (w, tr ++ [(w, .getValue o pre)]) = _ ∨
        ∃ e, (require (A.supports w h .propertyObject) .noInterface >>= fun _ => pure h) (w, tr ++ [(w, .getValue o pre)]) = _
      cases A.supports w h .propertyObject with
      | true => exact .inl rfl
      | false => exact .inr ⟨_, rfl⟩

/-- **C142.** The value, the suggested values and the selection values of a property are not handed out to a
user who may not read the object that holds the property. -/
theorem C142_unreadable (hs : Steady A) (w : W) (name : String)
    (hn : name ∈ ["GetPropertyValue", "GetSuggestedValues", "GetSelectionValues"]) (p : Params) (o h : Obj)
    (ho : Names A w p.id o) (hd : ¬ "DaqDeviceInfo".toList <:+: p.property) (hh : HoldsNow A w o p.property h)
    (hm : ¬ May A w x.user h [.read]) :
    (∃ e, (request A x name p w).2 = .error e) ∧ (request A x name p w).1.1 = w ∧
    ∀ c ∈ (request A x name p w).1.2, ∃ o n, c.2 = .getValue o n := by
  have hp : ∀ tr, parseInfo A o p.property (w, tr) = ((w, tr), .ok (o, p.property)) := by
    intro tr
    rw [parseInfo_eq]
    unfold parsed infoPrefix
    rw [if_pos (Bool.eq_false_iff.mpr fun h => hd ((occurs_iff _ _).mp h))]
  have key : ∀ (m : M W Val) (tr : List (W × Call)), (∀ c ∈ tr, ∃ o n, c.2 = .getValue o n) →
      let r := (firstParent A o p.property >>= fun h => protect A x.user h [.read] >>= fun _ => m) (w, tr)
      (∃ e, r.2 = .error e) ∧ r.1.1 = w ∧ ∀ c ∈ r.1.2, ∃ o n, c.2 = .getValue o n := by
    intro m tr ht
    obtain ⟨tr', h1, h2⟩ := firstParent_now hs w o p.property h hh tr
    have h3 : ∀ c ∈ tr', ∃ o n, c.2 = .getValue o n := fun c hc => (h1 c hc).elim (ht c) fun k => k
    dsimp only
    rw [bind_eq]
    rcases h2 with h2 | ⟨e, h2⟩ <;> rw [h2]
    · show (∃ e, ((protect A x.user h [.read] >>= fun _ => m) (w, tr')).2 = .error e) ∧
        ((protect A x.user h [.read] >>= fun _ => m) (w, tr')).1.1 = w ∧
        ∀ c ∈ ((protect A x.user h [.read] >>= fun _ => m) (w, tr')).1.2, ∃ o n, c.2 = .getValue o n
      rw [bind_eq, protect_stop A hm]
      exact ⟨⟨_, rfl⟩, rfl, h3⟩
    · exact ⟨⟨e, rfl⟩, rfl, h3⟩
  have hq : ∀ f : Ctx → Obj → Params → M W Val,
      ((∃ e, (f x o p (w, [])).2 = .error e) ∧ (f x o p (w, [])).1.1 = w ∧
        ∀ c ∈ (f x o p (w, [])).1.2, ∃ o n, c.2 = .getValue o n) →
      ((∃ e, (handler A .component f x p (w, [])).2 = .error e) ∧ (handler A .component f x p (w, [])).1.1 = w ∧
        ∀ c ∈ (handler A .component f x p (w, [])).1.2, ∃ o n, c.2 = .getValue o n) := by
    intro f hf
    rw [handler_at A ho]
    split
    · exact hf
    · exact ⟨⟨_, rfl⟩, rfl, fun c hc => by simp at hc⟩
  simp only [List.mem_cons, List.not_mem_nil, or_false] at hn
  rcases hn with rfl | rfl | rfl
  · refine hq (getPropertyValue A) ?_
    unfold getPropertyValue
    rw [bind_eq, hp]
    dsimp only
    rw [bind_eq]
    have hc : call A (.getValue o p.property) (w, []) = ((w, [(w, .getValue o p.property)]),
        (A.exec w (.getValue o p.property)).2) := by
      show (((A.exec w (.getValue o p.property)).1, _), (A.exec w (.getValue o p.property)).2) = _
      rw [hs w _ rfl]
      rfl
    rw [hc]
    cases (A.exec w (.getValue o p.property)).2 with
    | error e => exact ⟨⟨e, rfl⟩, rfl, fun c hc => ⟨o, p.property, by rw [List.mem_singleton.mp hc]⟩⟩
    | ok v => exact key _ _ fun c hc => ⟨o, p.property, by rw [List.mem_singleton.mp hc]⟩
  · refine hq (getSuggestedValues A) ?_
    unfold getSuggestedValues
    rw [bind_eq, hp]
    exact key _ _ fun c hc => by simp at hc
  · refine hq (getSelectionValues A) ?_
    unfold getSelectionValues
    rw [bind_eq, hp]
    exact key _ _ fun c hc => by simp at hc

example : HoldsNow (Demo.demo Demo.free fun _ o _ => o != 4) [] 0 "child.a".toList 4 ∧
    (request (Demo.demo Demo.free fun _ o _ => o != 4) ⟨24, 1, .control⟩ "GetPropertyValue"
      { id := "//root".toList, property := "child.a".toList } []).2 = .error .accessDenied ∧
    (request (Demo.demo Demo.free Demo.all) ⟨24, 1, .control⟩ "GetPropertyValue"
      { id := "//root".toList, property := "child.a".toList } []).2 = .ok (.int 7) :=
  ⟨.inr ⟨"child".toList, "a".toList, by decide, by decide, rfl⟩, by decide +kernel, by decide +kernel⟩

/-- **C143.** A refused reading of a property, and a refused call of a function, has already read the
property: the code behind it has run. -/
theorem C143_violation_getter_runs :
    request (Demo.demo Demo.free fun _ _ _ => false) ⟨24, 1, .viewOnly⟩ "GetPropertyValue"
      { id := "//root".toList, property := "a".toList } [] =
      (([], [([], .getValue 0 "a".toList)]), .error .accessDenied) ∧
    request (Demo.demo Demo.free fun _ _ _ => false) ⟨24, 1, .viewOnly⟩ "CallProperty"
      { id := "//root".toList, property := "g".toList } [] =
      (([], [([], .getValue 0 "g".toList)]), .error .accessDenied) := by
  decide +kernel

/-- What does hold: a refused request has only read. -/
theorem C143_only_read_partial (w : W) (name : String) (hn : name ∈ Reading) (p : Params) :
    ∀ c ∈ (request A x name p w).1.2, Modifies c.2 = false := by
  rcases request_cases A x name p w with e | ⟨h, _, hm, e⟩ <;> rw [e]
  · intro c hc; simp at hc
  · obtain ⟨l, hl, hp, _⟩ := reading_only A x p _ hm hn (w, [])
    intro c hc
    rw [hl, List.nil_append] at hc
    exact hp c hc

/-- **C140.** A user without any permission on a nested object clears it, starts, ends and loads an update
of it, and sets its properties with the end of an update of the object above it, though a plain set is
refused. A user without any permission removes external signals and selects streaming sources. A mirrored
device below a device takes the operation mode from a user who may not write it, and the mode of a device
stays switched when a device below refuses it. -/
theorem C140_violation_permissions :
    let A := Demo.demo Demo.free fun _ o _ => o != 4
    let none := Demo.demo Demo.free fun _ _ _ => false
    (request A ⟨24, 1, .control⟩ "ClearPropertyValues" { id := "//root".toList, path := some "child".toList } []).1.1 =
      [.clearAll 4] ∧
    (request A ⟨24, 1, .control⟩ "BeginUpdate" { id := "//root".toList, path := some "child".toList } []).1.1 =
      [.beginUpdate 4] ∧
    (request A ⟨24, 1, .control⟩ "EndUpdate"
      { id := "//root".toList, path := some "child".toList, props := some [⟨true, "a".toList, .int 5, true⟩] } []).1.1 =
      [.setProtected 4 "a".toList (.int 5), .endUpdate 4] ∧
    (request A ⟨24, 1, .control⟩ "Update" { id := "//root".toList, path := some "child".toList, value := .blob 1 } []).1.1 =
      [.update 4 (.blob 1)] ∧
    (request A ⟨24, 1, .control⟩ "EndUpdate"
      { id := "//root".toList, props := some [⟨true, "child.a".toList, .int 5, false⟩] } []).1.1 =
      [.setValue 0 "child.a".toList (.int 5), .endUpdate 0] ∧
    (request A ⟨24, 1, .control⟩ "SetPropertyValue"
      { id := "//root".toList, property := "child.a".toList, value := .int 5 } []).2 = .error .accessDenied ∧
    (request none ⟨24, 1, .control⟩ "RemoveExternalSignals" { value := .blob 2 } []).1.1 = [.removeExternal (.blob 2)] ∧
    (request none ⟨24, 1, .control⟩ "ChangeInputPortStreamingSource"
      { id := "/dev/fb/ip".toList, protocol := some "p".toList } []).1.1 = [.setSource 7 "p".toList] ∧
    (request (Demo.demo Demo.free fun _ o _ => o == 6) ⟨24, 1, .control⟩ "SetOperationModeRecursive"
      { id := "/dev/sub".toList, mode := "Idle".toList } []).1.1 =
      [.setMode 6 "Idle".toList, .setModeRecursive 11 "Idle".toList] ∧
    request (Demo.demo Demo.free fun _ o _ => o == 0) ⟨24, 1, .control⟩ "SetOperationModeRecursive"
      { id := "//root".toList, mode := "Idle".toList } [] =
      (([.setMode 0 "Idle".toList], [([], .setMode 0 "Idle".toList)]), .error .accessDenied) := by
  decide +kernel

theorem Only.applyProps (o : Obj) (l : List Edit) :
    Only A (fun _ c => Modifies c = true → on c = some o) (applyProps A o l) := by
  induction l with
  | nil => exact Only.pure _
  | cons e l ih =>
    unfold Access.applyProps
    refine Only.bind (Only.call A fun w => ?_) fun _ => ih
    intro _
    cases e.set
    · rfl
    · cases e.protect <;> rfl

/-- What does hold: without a path, these requests touch no object but the component they name, on which the
user has both permissions (C139). -/
theorem C140_no_path_partial (w : W) (name : String)
    (hn : name ∈ ["ClearPropertyValues", "BeginUpdate", "EndUpdate", "Update"]) (p : Params) (hp : p.path = none)
    (o : Obj) (ho : Names A w p.id o) :
    ∀ c ∈ (request A x name p w).1.2, Modifies c.2 = true → on c.2 = some o ∧ May A w x.user o [.read, .write] := by
  intro c hc hmod
  have hmay : May A w x.user o [.read, .write] := by
    by_cases h : May A w x.user o [.read, .write]
    · exact h
    · have hx : (name, [Perm.read, Perm.write]) ∈ Needs := by
        simp only [List.mem_cons, List.not_mem_nil, or_false] at hn
        rcases hn with rfl | rfl | rfl | rfl <;> decide
      obtain ⟨e, he⟩ := C139_denied A x w name _ hx p o ho h
      rw [he] at hc
      simp at hc
  refine ⟨?_, hmay⟩
  have hq : ∀ f : Ctx → Obj → Params → M W Val, Only A (fun _ c => Modifies c = true → on c = some o) (f x o p) →
      c ∈ (handler A .component f x p (w, [])).1.2 → on c.2 = some o := by
    intro f hf hc
    rw [handler_at A ho] at hc
    split at hc
    · obtain ⟨l, hl, hp, _⟩ := hf (w, [])
      rw [hl, List.nil_append] at hc
      exact hp c hc hmod
    · simp at hc
  have hv : ∀ c : Call, on c = some o → Only A (fun _ c => Modifies c = true → on c = some o) (callVoid A c) :=
    fun c h => Only.bind (Only.call A fun _ _ => h) fun _ => Only.pure _
  simp only [List.mem_cons, List.not_mem_nil, or_false] at hn
  rcases hn with rfl | rfl | rfl | rfl
  · refine hq (clearPropertyValues A) ?_ hc
    unfold clearPropertyValues
    rw [hp]
    exact Only.bind (Only.protectLocked A _) fun _ => Only.bind (Only.protect A _ _ _) fun _ =>
      Only.bind (Only.protectViewOnly A _) fun _ => hv _ rfl
  · refine hq (beginUpdate A) ?_ hc
    unfold beginUpdate
    rw [hp]
    exact Only.bind (Only.protectLocked A _) fun _ => Only.bind (Only.protect A _ _ _) fun _ =>
      Only.bind (Only.protectViewOnly A _) fun _ => hv _ rfl
  · refine hq (endUpdate A) ?_ hc
    unfold endUpdate
    rw [hp]
    refine Only.bind (Only.protectLocked A _) fun _ => Only.bind (Only.protect A _ _ _) fun _ =>
      Only.bind (Only.protectViewOnly A _) fun _ => ?_
    show Only A _ (match p.props with
      | none => _
      | some l => _)
    cases p.props with
    | none => exact hv _ rfl
    | some l =>
      exact Only.bind (Only.require _ _) fun _ => Only.bind (Only.applyProps A o l) fun _ => hv _ rfl
  · refine hq (update A) ?_ hc
    unfold update
    rw [hp]
    exact Only.bind (Only.protectLocked A _) fun _ => Only.bind (Only.protect A _ _ _) fun _ =>
      Only.bind (Only.protectViewOnly A _) fun _ => hv _ rfl

/-- What does hold for C136 and C138: the operation mode of a device is switched only for a user who may
write it. -/
theorem C136_mode_partial (w : W) (name : String) (hn : name ∈ ["SetOperationMode", "SetOperationModeRecursive"])
    (p : Params) (o : Obj) (ho : Names A w p.id o) (hm : ¬ May A w x.user o [.write]) :
    ∃ e, request A x name p w = ((w, []), .error e) := by
  refine C139_denied A x w name [.write] ?_ p o ho hm
  simp only [List.mem_cons, List.not_mem_nil, or_false] at hn
  rcases hn with rfl | rfl <;> decide

theorem C138_mode_partial (w : W) (name : String) (hn : name ∈ ["SetOperationMode", "SetOperationModeRecursive"])
    (p : Params) (o : Obj) (ho : Names A w p.id o) (hm : ¬ May A w x.user o [.write]) :
    ∃ e, request A x name p w = ((w, []), .error e) := C136_mode_partial A x w name hn p o ho hm

end Verif.Access.Props
