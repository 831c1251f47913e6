import Verif.Access.PropsThrough
import Mathlib.Data.List.Forall2

/-! # C141, C144: what an allowed request does, for the requests that need more than one question or call -/

namespace Verif.Access.Props

open Verif.Access Spec

variable {W : Type} {A : Api W} (x : Ctx) {w : W} {p : Params} {o : Obj}

theorem callVoid_eq (c : Call) (w : W) (tr : List (W × Call)) :
    callVoid A c (w, tr) = (((A.exec w c).1, tr ++ [(w, c)]), reply false (A.exec w c).2) := by
  unfold callVoid
  rw [bind_eq, call_eq]
  cases (A.exec w c).2 <;> rfl

theorem ask_eq {α : Type} (q : W → α) (s : S W) : ask q s = (s, .ok (q s.1)) := rfl

theorem require_true (e : Err) (s : S W) : require true e s = (s, .ok ()) := rfl

theorem single_eq (b : Obj) (s : S W) : single [b] s = (s, .ok b) := rfl

/-- The user locks and unlocks a device in their own name, also while it is locked. -/
theorem C141_lock (ho : Names A w p.id o) (hi : A.supports w o .device = true) (hu : Free A x.user o)
    (hx : x.type ≠ .viewOnly) :
    request A x "Lock" p w = once A w (.lock o x.user) false ∧
    request A x "Unlock" p w = once A w (.unlock o x.user) false ∧
    request A x "ForceUnlock" p w = once A w (.forceUnlock o) false := by
  have hP : ∀ w ps tr, protect A x.user o ps (w, tr) = ((w, tr), .ok ()) := fun w ps tr =>
    protect_pass A (may_of_free hu w ps) tr
  have hV := viewOnly_pass (W := W) hx
  refine ⟨?_, ?_, ?_⟩ <;> rw [handled x rfl ho hi] <;>
    (first | unfold lockDevice | unfold unlockDevice | unfold forceUnlockDevice) <;>
    simp only [bind_eq, hP, hV] <;> exact callVoid_once _ _

/-- The name, the description and the active state are set; other attributes are refused. -/
theorem C141_attribute (ho : Names A w p.id o) (hi : A.supports w o .component = true) (hu : Free A x.user o)
    (hl : ¬ BelongsToLocked A w o) (hx : x.type ≠ .viewOnly) :
    request A x "SetAttributeValue" p w =
      if p.attr = "Name".toList then once A w (.setAttr o .name p.value) false
      else if p.attr = "Description".toList then once A w (.setAttr o .description p.value) false
      else if p.attr = "Active".toList then once A w (.setAttr o .active p.value) false
      else ((w, []), .error .invalidParameter) := by
  rw [handled x rfl ho hi]
  unfold setAttributeValue
  simp only [bind_eq, protectLocked_pass A hl, protect_pass A (may_of_free hu _ _), viewOnly_pass (W := W) hx]
  split
  · exact callVoid_once _ _
  split
  · exact callVoid_once _ _
  split
  · exact callVoid_once _ _
  · rfl

/-- Function blocks are listed and added on devices and function blocks; other components refuse. -/
theorem C141_blocks (ho : Names A w p.id o) (hi : A.supports w o .component = true) (hu : Free A x.user o)
    (hl : ¬ BelongsToLocked A w o) (hx : x.type ≠ .viewOnly) :
    (request A x "GetAvailableFunctionBlockTypes" p w =
      if A.supports w o .device = true ∨ A.supports w o .block = true then once A w (.blockTypes o) true
      else ((w, []), .error .invalidState)) ∧
    (request A x "AddFunctionBlock" p w =
      if A.supports w o .device = true ∨ A.supports w o .block = true then once A w (.addBlock o p.typeId p.value) true
      else ((w, []), .error .invalidState)) := by
  have h : ∀ (m : M W Val), (ask (fun w => A.supports w o .device || A.supports w o .block) >>= fun b =>
      require b .invalidState >>= fun _ => m) (w, []) =
      if A.supports w o .device = true ∨ A.supports w o .block = true then m (w, [])
      else ((w, []), .error .invalidState) := by
    intro m
    rw [bind_eq]
    show (require (A.supports w o .device || A.supports w o .block) .invalidState >>= fun _ => m) (w, []) = _
    cases A.supports w o .device <;> cases A.supports w o .block <;> rfl
  constructor
  · rw [handled x rfl ho hi]
    unfold getAvailableFunctionBlockTypes
    rw [bind_eq, protect_pass A (may_of_free hu _ _)]
    exact (h _).trans (by rw [call_once])
  · rw [handled x rfl ho hi]
    unfold addFunctionBlock
    rw [bind_eq, protectLocked_pass A hl]
    dsimp only
    rw [bind_eq, protect_pass A (may_of_free hu _ _)]
    dsimp only
    rw [bind_eq, viewOnly_pass (W := W) hx]
    exact (h _).trans (by rw [call_once])

/-- The one function block and the one device with a local id are removed. -/
theorem C141_remove (ho : Names A w p.id o) (hu : Free A x.user o)
    (hl : ¬ BelongsToLocked A w o) (hx : x.type ≠ .viewOnly) (b : Obj) :
    (A.supports w o .component = true → A.supports w o .device = true ∨ A.supports w o .block = true →
      A.blocks w o p.localId = [b] → request A x "RemoveFunctionBlock" p w = once A w (.removeBlock o b) false) ∧
    (A.supports w o .device = true → A.devices w o p.localId = [b] →
      request A x "RemoveDevice" p w = once A w (.removeDevice o b) false) := by
  constructor
  · intro hi hk hb
    rw [handled x rfl ho hi]
    unfold removeFunctionBlock
    have hb' : (A.supports w o .device || A.supports w o .block) = true := by simpa using hk
    simp only [bind_eq, protectLocked_pass A hl, protect_pass A (may_of_free hu _ _), viewOnly_pass (W := W) hx,
      ask_eq, hb', require_true, hb, single_eq]
    exact callVoid_once _ _
  · intro hi hb
    rw [handled x rfl ho hi]
    unfold removeDevice
    simp only [bind_eq, protectLocked_pass A hl, protect_pass A (may_of_free hu _ _), viewOnly_pass (W := W) hx,
      ask_eq, hb, single_eq]
    exact callVoid_once _ _

/-- A function is read and then called with the arguments; its result is the reply. A procedure is called the
same way, and the reply is empty. -/
theorem C141_call (hs : Steady A) (ho : Names A w p.id o) (hi : A.supports w o .component = true)
    (hu : Free A x.user o)
    (hl : ¬ BelongsToLocked A w o) (hx : x.type ≠ .viewOnly) (hd : ¬ "DaqDeviceInfo".toList <:+: p.property)
    (hdot : '.' ∉ p.property) (k : Bool) (hk : A.constant w o p.property = .ok k) (n : Nat) :
    ((A.exec w (.getValue o p.property)).2 = .ok (.func n) →
      request A x "CallProperty" p w = (((A.exec w (.invoke o p.property (.func n) p.value)).1,
        [(w, .getValue o p.property), (w, .invoke o p.property (.func n) p.value)]),
        (A.exec w (.invoke o p.property (.func n) p.value)).2)) ∧
    ((A.exec w (.getValue o p.property)).2 = .ok (.proc n) →
      request A x "CallProperty" p w = (((A.exec w (.invoke o p.property (.proc n) p.value)).1,
        [(w, .getValue o p.property), (w, .invoke o p.property (.proc n) p.value)]),
        reply false (A.exec w (.invoke o p.property (.proc n) p.value)).2)) := by
  have hq : ∀ tr, protectCall A x o k (w, tr) = ((w, tr), .ok ()) := by
    intro tr
    rw [protectCall_eq]
    cases k with
    | true => rfl
    | false =>
      rw [if_neg (by decide), if_neg (by rw [hi]; decide), if_neg (fun h => hl ((locked_iff A w o).mp h)), if_neg hx]
  have e : request A x "CallProperty" p w = callAt A x (o, p.property) (.ok k) p.value (w, []) := by
    rw [handled x rfl ho hi]
    unfold callProperty
    rw [bind_eq, parseInfo_plain hd]
    dsimp only
    rw [bind_eq]
    show callAt A x (o, p.property) (A.constant w o p.property) p.value (w, []) = _
    rw [hk]
  constructor
  · intro hv
    rw [e]
    unfold callAt
    simp only [bind_eq, call_eq, hv, firstParent_plain hdot, hs w _ (rfl : Modifies (.getValue o p.property) = false),
      protect_pass A (may_of_free hu _ _), lift, hq]
    rfl
  · intro hv
    rw [e]
    unfold callAt
    simp only [bind_eq, call_eq, hv, firstParent_plain hdot, hs w _ (rfl : Modifies (.getValue o p.property) = false),
      protect_pass A (may_of_free hu _ _), lift, hq, callVoid_eq]
    rfl

theorem findSignal_at {s : Obj} {id : Name} (hs : Names A w id s) (hi : A.supports w s .signal = true)
    (tr : List (W × Call)) : findSignal A id (w, tr) = ((w, tr), .ok (some s)) := by
  unfold findSignal
  rw [bind_eq, findComponent_eq, (found_iff A w id s).mpr hs]
  show (ask (fun w => A.supports w s .signal) >>= fun b => require b .noInterface >>= fun _ => pure (some s)) (w, tr) = _
  rw [bind_eq]
  show (require (A.supports w s .signal) .noInterface >>= fun _ => pure (some s)) (w, tr) = _
  rw [hi]
  rfl

theorem connectPort_pass {s : Obj} (hu : Free A x.user o) (hv : Free A x.user s) (hl : ¬ BelongsToLocked A w o)
    (hx : x.type ≠ .viewOnly) (tr : List (W × Call)) :
    connectPort A x o (some s) (w, tr) = callVoid A (.connect o s) (w, tr) := by
  unfold connectPort
  simp only [bind_eq, protectLocked_pass A hl, protect_pass A (may_of_free hu _ _),
    protect_pass A (may_of_free hv _ _), viewOnly_pass (W := W) hx]

/-- The signal with the id is connected to the port; a signal that stands for one of the client is not. -/
theorem C141_connect (ho : Names A w p.id o) (hi : A.supports w o .port = true) (hu : Free A x.user o)
    (hl : ¬ BelongsToLocked A w o) (hx : x.type ≠ .viewOnly) (s : Obj) (hs : Names A w p.signal s)
    (hsi : A.supports w s .signal = true) (hv : Free A x.user s) :
    request A x "ConnectSignal" p w =
      if A.supports w s .external = true then ((w, []), .error .invalidParameter)
      else once A w (.connect o s) false := by
  rw [handled x rfl ho hi]
  unfold connectSignal
  rw [bind_eq, findSignal_at hs hsi]
  dsimp only
  rw [bind_eq]
  show (require (!((some s).any fun i => A.supports w i .external)) .invalidParameter >>= fun _ =>
    connectPort A x o (some s)) (w, []) = _
  cases h : A.supports w s .external with
  | true => simp [h, require, bind_eq, fail]
  | false =>
    simp only [Option.any_some, h, Bool.not_false, require_true, bind_eq]
    rw [connectPort_pass x hu hv hl hx, callVoid_once]
    rfl

/-- The port is asked about the signal with the id. -/
theorem C141_accepts (ho : Names A w p.id o) (hi : A.supports w o .port = true) (hu : Free A x.user o)
    (s : Obj) (hs : Names A w p.signal s) (hsi : A.supports w s .signal = true) (hv : Free A x.user s) :
    request A x "AcceptsSignal" p w = once A w (.accepts o s) true := by
  rw [handled x rfl ho hi]
  unfold acceptsSignal
  rw [bind_eq, findSignal_at hs hsi]
  show acceptsOne A x o (some s) (w, []) = _
  unfold acceptsOne
  simp only [bind_eq, protect_pass A (may_of_free hu _ _), protect_pass A (may_of_free hv _ _)]
  exact call_once _ _

/-- The whole tree of a component, of the root device, and the types. -/
theorem C141_trees (hu : Free A x.user A.root) :
    request A x "GetSerializedRootDevice" p w = once A w (.tree A.root) true ∧
    request A x "GetTypeManager" p w = once A w .typeManager true ∧
    (∀ o, Names A w p.id o → Free A x.user o → request A x "GetComponent" p w = once A w (.tree o) true) := by
  refine ⟨?_, ?_, ?_⟩
  · show readOne A x A.root (.tree A.root) (w, []) = _
    unfold readOne
    rw [bind_eq, protect_pass A (may_of_free hu _ _)]
    exact call_once _ _
  · show readOne A x A.root .typeManager (w, []) = _
    unfold readOne
    rw [bind_eq, protect_pass A (may_of_free hu _ _)]
    exact call_once _ _
  · intro o ho hv
    show getComponent A x p (w, []) = _
    unfold getComponent
    rw [bind_eq, findComponent_eq, (found_iff A w p.id o).mpr ho]
    show readOne A x o (.tree o) (w, []) = _
    unfold readOne
    rw [bind_eq, protect_pass A (may_of_free hv _ _)]
    exact call_once _ _

theorem C141_remove_external (hl : ¬ BelongsToLocked A w A.root) (hx : x.type ≠ .viewOnly) :
    request A x "RemoveExternalSignals" p w = once A w (.removeExternal p.value) false := by
  show removeExternalSignals A x p (w, []) = _
  unfold removeExternalSignals
  simp only [bind_eq, protectLocked_pass A hl, viewOnly_pass (W := W) hx]
  exact callVoid_once _ _

/-- Calls made one after the other, put after the calls already made. -/
def after (tr : List (W × Call)) (r : (W × List (W × Call)) × Except Err Val) : S W × Except Err Val :=
  ((r.1.1, tr ++ r.1.2), r.2)

theorem inOrder_cons (w : W) (c : Call) (cs : List Call) (tr : List (W × Call)) :
    after tr (inOrder A w (c :: cs)) = (match (A.exec w c).2 with
      | .error e => (((A.exec w c).1, tr ++ [(w, c)]), .error e)
      | .ok _ => after (tr ++ [(w, c)]) (inOrder A (A.exec w c).1 cs)) := by
  unfold after
  rw [inOrder]
  rcases A.exec w c with ⟨w', r⟩
  cases r <;> simp

/-- A part that makes calls one after the other and then goes on. -/
theorem inOrder_append (w : W) (cs ds : List Call) (tr : List (W × Call)) :
    after tr (inOrder A w (cs ++ ds)) = (match after tr (inOrder A w cs) with
      | (s, .error e) => (s, .error e)
      | (s, .ok _) => after s.2 (inOrder A s.1 ds)) := by
  induction cs generalizing w tr with
  | nil => simp [inOrder, after]
  | cons c cs ih =>
    rw [List.cons_append, inOrder_cons, inOrder_cons]
    cases (A.exec w c).2 with
    | error e => rfl
    | ok v => exact ih _ _

/-- A loop makes its calls in order. -/
def Loops (A : Api W) (m : M W Unit) (cs : List Call) : Prop :=
  ∀ w tr, m (w, tr) = ((after tr (inOrder A w cs)).1, (after tr (inOrder A w cs)).2.map fun _ => ())

theorem Loops.then {m : M W Unit} {cs ds : List Call} {f : M W Unit} (hm : Loops A m cs) (hf : Loops A f ds) :
    Loops A (m >>= fun _ => f) (cs ++ ds) := by
  intro w tr
  rw [bind_eq, hm w tr, inOrder_append]
  rcases after tr (inOrder A w cs) with ⟨⟨w', t'⟩, r⟩
  cases r with
  | error e => rfl
  | ok v => exact hf w' t'

theorem Loops.nil : Loops A (pure ()) [] := fun w tr => by simp [after, inOrder, pure, Except.map]

theorem Loops.cons {c : Call} {cs : List Call} {f : M W Unit} (hf : Loops A f cs) :
    Loops A (call A c >>= fun _ => f) (c :: cs) := by
  intro w tr
  rw [bind_eq, call_eq, inOrder_cons]
  cases (A.exec w c).2 with
  | error e => rfl
  | ok v => exact hf _ _

theorem loops_callEach (f : Obj → Call) (l : List Obj) : Loops A (callEach A f l) (l.map f) := by
  induction l with
  | nil => exact Loops.nil
  | cons o l ih => exact Loops.cons ih

theorem loops_applyProps (o : Obj) (l : List Edit) : Loops A (applyProps A o l) (l.map (editCall o)) := by
  induction l with
  | nil => exact Loops.nil
  | cons e l ih =>
    have : (if e.set then (if e.protect then Call.setProtected o e.name e.value else .setValue o e.name e.value)
      else .clearValue o e.name) = editCall o e := by
      unfold editCall
      cases e.set <;> cases e.protect <;> rfl
    unfold applyProps
    rw [this]
    exact Loops.cons ih

/-- A loop, then one more call with an empty reply. -/
theorem Loops.void {m : M W Unit} {cs : List Call} (hm : Loops A m cs) (c : Call) (w : W) (tr : List (W × Call)) :
    (m >>= fun _ => callVoid A c) (w, tr) = after tr (inOrder A w (cs ++ [c])) := by
  rw [bind_eq, hm w tr, inOrder_append]
  rcases after tr (inOrder A w cs) with ⟨⟨w', t'⟩, r⟩
  cases r with
  | error e => rfl
  | ok v =>
    show callVoid A c (w', t') = after t' (inOrder A w' [c])
    rw [callVoid_eq, inOrder_cons]
    unfold reply
    cases (A.exec w' c).2 <;> simp [after, inOrder]

theorem after_nil (r : (W × List (W × Call)) × Except Err Val) : after [] r = r := by
  unfold after
  simp

/-- The end of an update applies the edits sent with it in order and then ends the update; an edit that fails
stops it, with the edits before it applied and the update still open. -/
theorem C141_end_update (ho : Names A w p.id o) (hi : A.supports w o .component = true) (hu : Free A x.user o)
    (hl : ¬ BelongsToLocked A w o) (hx : x.type ≠ .viewOnly) (hp : p.path = none) (hv : 1 ≤ x.version) :
    request A x "EndUpdate" p w = inOrder A w ((p.props.getD []).map (editCall o) ++ [.endUpdate o]) := by
  rw [handled x rfl ho hi]
  unfold endUpdate
  rw [bind_eq, protectLocked_pass A hl]
  dsimp only
  rw [bind_eq, protect_pass A (may_of_free hu _ _)]
  dsimp only
  rw [bind_eq, viewOnly_pass (W := W) hx]
  dsimp only
  rw [hp, bind_eq]
  show (match p.props with
    | none => callVoid A (.endUpdate o)
    | some l => require (decide (1 ≤ x.version)) .notSupported >>= fun _ => applyProps A o l >>= fun _ =>
        callVoid A (.endUpdate o)) (w, []) = _
  cases p.props with
  | none =>
    rw [← after_nil (inOrder A w _)]
    show callVoid A (.endUpdate o) (w, []) = after [] (inOrder A w [.endUpdate o])
    rw [callVoid_eq, inOrder_cons]
    unfold reply
    cases (A.exec w (.endUpdate o)).2 <;> simp [after, inOrder]
  | some l =>
    show (require (decide (1 ≤ x.version)) .notSupported >>= fun _ => applyProps A o l >>= fun _ =>
        callVoid A (.endUpdate o)) (w, []) = _
    rw [bind_eq, decide_eq_true hv]
    show (applyProps A o l >>= fun _ => callVoid A (.endUpdate o)) (w, []) = _
    rw [(loops_applyProps o l).void]
    exact after_nil _

theorem loops_setModes (m : Name) (l : List (Obj × Bool)) (h : ∀ d ∈ l, d.2 = false → Free A x.user d.1) :
    Loops A (setModes A x m l) (l.map fun d => if d.2 then .setModeRecursive d.1 m else .setMode d.1 m) := by
  induction l with
  | nil => exact Loops.nil
  | cons d l ih =>
    obtain ⟨d, b⟩ := d
    have ih := ih fun d hd => h d (by simp [hd])
    cases b with
    | true => exact Loops.cons ih
    | false =>
      have hd := h (d, false) (by simp) rfl
      intro w tr
      show ((protect A x.user d [.write] >>= fun _ => call A (.setMode d m) >>= fun _ => setModes A x m l)) (w, tr) = _
      rw [bind_eq, protect_pass A (may_of_free hd _ _)]
      exact Loops.cons ih w tr

/-- The operation mode is given to the device and then to the devices below it, in order, up to the first
that fails. -/
theorem C141_mode_recursive (ho : Names A w p.id o) (hi : A.supports w o .device = true) (hu : Free A x.user o)
    (l : List (Obj × Bool)) (hl : A.plan (A.exec w (.setMode o p.mode)).1 o = l)
    (hm : ∀ d ∈ l, d.2 = false → Free A x.user d.1) :
    request A x "SetOperationModeRecursive" p w = inOrder A w (.setMode o p.mode ::
      l.map fun d => if d.2 then .setModeRecursive d.1 p.mode else .setMode d.1 p.mode) := by
  rw [handled x rfl ho hi]
  unfold setOperationModeRecursive
  rw [bind_eq, protect_pass A (may_of_free hu _ _)]
  dsimp only
  rw [bind_eq, call_eq, ← after_nil (inOrder A w _), inOrder_cons]
  cases (A.exec w (.setMode o p.mode)).2 with
  | error e => rfl
  | ok v =>
    dsimp only
    rw [bind_eq]
    show (setModes A x p.mode (A.plan (A.exec w (.setMode o p.mode)).1 o) >>= fun _ => pure Val.null)
      ((A.exec w (.setMode o p.mode)).1, [] ++ [(w, .setMode o p.mode)]) = _
    rw [hl, bind_eq, loops_setModes x p.mode l hm]
    have key : ∀ cs w tr, (inOrder A w cs).2.map (fun _ => ()) = .ok () → (after tr (inOrder A w cs)).2 = .ok .null := by
      intro cs
      induction cs with
      | nil => intro w tr _; rfl
      | cons c cs ih =>
        intro w tr h
        rw [inOrder_cons]
        rw [inOrder] at h
        revert h
        rcases A.exec w c with ⟨w', r⟩
        cases r with
        | error e => intro h; cases h
        | ok v => exact ih w' _
    generalize (A.exec w (.setMode o p.mode)).1 = w'
    generalize [] ++ [(w, Call.setMode o p.mode)] = tr
    generalize List.map (fun d : Obj × Bool => if d.2 then Call.setModeRecursive d.1 p.mode else .setMode d.1 p.mode) l = cs
    have hk := key cs w' tr
    unfold after at hk ⊢
    revert hk
    rcases inOrder A w' cs with ⟨⟨w2, t2⟩, r⟩
    cases r with
    | error e => intro _; rfl
    | ok v => intro hk; rw [hk rfl]; rfl

/-- The streaming source of the external signal at a port, and of its domain signal, is selected. -/
theorem C141_source (ho : Names A w p.id o) (hi : A.supports w o .port = true) (s : Obj) (n : Name)
    (hs : A.portSignal w o = some s) (he : A.supports w s .external = true) (hn : p.protocol = some n) :
    (request A x "ChangeInputPortStreamingSource" p w).1 =
      (inOrder A w (((A.domain w s).toList ++ [s]).map fun s => .setSource s n)).1 := by
  rw [handled x rfl ho hi]
  unfold changeInputPortStreamingSource
  rw [bind_eq]
  have : ((A.portSignal w o).filter fun s => A.supports w s .external) = some s := by
    rw [hs]
    simp [Option.filter, he]
  rw [ask_eq]
  dsimp only
  rw [this, hn]
  show ((ask (fun w => (A.domain w s).toList ++ [s]) >>= fun sigs => callEach A (fun s => .setSource s n) sigs >>= fun _ =>
    pure Val.null) (w, [])).1 = _
  rw [bind_eq, ask_eq]
  dsimp only
  rw [bind_eq, loops_callEach]
  rw [after_nil]
  generalize inOrder A w _ = r
  rcases r with ⟨s', e⟩
  cases e <;> rfl

theorem loops_attachAll (sigs : List Obj) (q : Option Name) (l : List Obj) :
    Loops A (attachAll A sigs q l)
      (l.flatMap fun st => sigs.map (.attach st) ++ (q.elim [] fun n => sigs.map fun s => .setSource s n)) := by
  induction l with
  | nil => exact Loops.nil
  | cons st l ih =>
    rw [List.flatMap_cons, List.append_assoc]
    unfold attachAll
    refine Loops.then (loops_callEach _ _) ?_
    cases q with
    | none => exact ih
    | some n => exact Loops.then (loops_callEach _ _) ih

/-- A signal of the client is mirrored, attached with its domain signal to every streaming, the streaming is
selected if the client names one, and the signal is connected to the port. Before version 18 nothing is
attached. -/
theorem C141_connect_external (ho : Names A w p.id o) (hi : A.supports w o .port = true) (hu : Free A x.user o)
    (hl : ∀ w, ¬ BelongsToLocked A w o) (hx : x.type ≠ .viewOnly) (s : Obj) (hv : Free A x.user s) (w' : W)
    (ha : A.exec w (.addExternal p.value) = (w', .ok (.obj s))) :
    request A x "ConnectExternalSignal" p w = after [(w, .addExternal p.value)] (inOrder A w'
      ((if 18 ≤ x.version then (A.streamings w').flatMap fun st => ((A.domain w' s).toList ++ [s]).map (.attach st) ++
          (p.protocol.elim [] fun n => ((A.domain w' s).toList ++ [s]).map fun s => .setSource s n) else [])
        ++ [.connect o s])) := by
  rw [handled x rfl ho hi]
  unfold connectExternalSignal
  rw [bind_eq, viewOnly_pass (W := W) hx]
  dsimp only
  rw [bind_eq, protectLocked_pass A (hl w)]
  dsimp only
  rw [bind_eq, protect_pass A (may_of_free hu _ _)]
  dsimp only
  rw [bind_eq, call_eq, ha]
  have hc : ∀ w tr, connectPort A x o (some s) (w, tr) = callVoid A (.connect o s) (w, tr) := fun w tr =>
    connectPort_pass x hu hv (hl w) hx tr
  have hloop : ∀ (m : M W Unit) cs, Loops A m cs → ∀ tr, (m >>= fun _ => connectPort A x o (some s)) (w', tr) =
      after tr (inOrder A w' (cs ++ [.connect o s])) := by
    intro m cs hm tr
    rw [← hm.void, bind_eq, bind_eq]
    rcases m (w', tr) with ⟨⟨w2, t2⟩, r⟩
    cases r with
    | error e => rfl
    | ok v => exact hc w2 t2
  by_cases h18 : 18 ≤ x.version
  · dsimp only
    rw [if_pos h18, if_pos h18]
    exact hloop (attachAll A ((A.domain w' s).toList ++ [s]) p.protocol (A.streamings w')) _ (loops_attachAll _ _ _) _
  · dsimp only
    rw [if_neg h18, if_neg h18]
    exact hloop (pure ()) [] Loops.nil _

/-- A port is asked about every signal of a list, and the answers come back in order. -/
theorem C141_accepts_all (hst : Steady A) (ho : Names A w p.id o) (hi : A.supports w o .port = true)
    (hu : Free A x.user o) (sigs : List Obj) (r : Obj → Int)
    (hs : List.Forall₂ (fun id s => Names A w id s ∧ A.supports w s .signal = true ∧ Free A x.user s ∧
      (A.exec w (.accepts o s)).2 = .ok (.int (r s))) p.signals sigs) :
    request A x "AcceptsSignals" p w =
      ((w, sigs.map fun s => (w, .accepts o s)), .ok (.list (sigs.map fun s => if r s = 0 then 0 else 1))) := by
  rw [handled x rfl ho hi]
  unfold acceptsSignals
  have key : ∀ (ids : List Name) (sigs : List Obj), List.Forall₂ (fun id s => Names A w id s ∧
      A.supports w s .signal = true ∧ Free A x.user s ∧ (A.exec w (.accepts o s)).2 = .ok (.int (r s))) ids sigs →
      ∀ tr, acceptsAll A x o ids (w, tr) = ((w, tr ++ sigs.map fun s => (w, .accepts o s)),
        .ok (sigs.map fun s => if r s = 0 then 0 else 1)) := by
    intro ids sigs h
    induction h with
    | nil => intro tr; simp [acceptsAll, pure]
    | cons hd _ ih =>
      rename_i id s ids sigs _
      intro tr
      obtain ⟨h1, h2, h3, h4⟩ := hd
      unfold acceptsAll
      rw [bind_eq, findSignal_at h1 h2]
      dsimp only
      rw [bind_eq]
      have e : acceptsOne A x o (some s) (w, tr) = ((w, tr ++ [(w, .accepts o s)]), .ok (.int (r s))) := by
        unfold acceptsOne
        simp only [bind_eq, protect_pass A (may_of_free hu _ _), protect_pass A (may_of_free h3 _ _), call_eq, h4,
          hst w _ (rfl : Modifies (.accepts o s) = false)]
      rw [e]
      dsimp only
      rw [bind_eq, ih]
      simp [pure]
  rw [bind_eq, key _ _ hs]
  simp [pure]

end Verif.Access.Props
