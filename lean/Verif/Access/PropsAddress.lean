import Verif.Access.PropsThrough2

/-!
# C144, C145: names of properties and addresses of components
-/

namespace Verif.Access.Props

open Verif.Access Spec

variable {W : Type} {A : Api W} (x : Ctx) {w : W} {p : Params} {o : Obj}

/-- A request about a component of the demo device, made by a user with all permissions. -/
example : Free (Demo.demo Demo.free Demo.all) 1 2 ∧ ¬ BelongsToLocked (Demo.demo Demo.free Demo.all) [] 2 ∧
    Names (Demo.demo Demo.free Demo.all) [] "/dev/fb/ip".toList 2 ∧
    request (Demo.demo Demo.free Demo.all) ⟨24, 1, .control⟩ "DisconnectSignal" { id := "/dev/fb/ip".toList } [] =
      once (Demo.demo Demo.free Demo.all) [] (.disconnect 2) false :=
  ⟨fun _ _ => rfl, fun ⟨_, _, _, _, _, _, h⟩ => absurd h Bool.false_ne_true,
   .inr ⟨by decide, ["fb".toList, "ip".toList], by decide, by decide, rfl, .down rfl rfl (.down rfl rfl (.here 2))⟩,
   by decide +kernel⟩

example : request (Demo.demo Demo.free Demo.all) ⟨24, 1, .control⟩ "EndUpdate"
      { id := "//root".toList, props := some [⟨true, "a".toList, .int 5, false⟩, ⟨false, "b".toList, .null, false⟩] } [] =
      inOrder (Demo.demo Demo.free Demo.all) []
        [.setValue 0 "a".toList (.int 5), .clearValue 0 "b".toList, .endUpdate 0] ∧
    (request (Demo.demo Demo.free Demo.all) ⟨24, 1, .control⟩ "SetOperationModeRecursive"
      { id := "//root".toList, mode := "Idle".toList } []) =
      inOrder (Demo.demo Demo.free Demo.all) [] [.setMode 0 "Idle".toList, .setMode 6 "Idle".toList] := by
  decide +kernel

/-- **C144.** A protected value sent by a client arrives as text. A property whose name has "DaqDeviceInfo"
anywhere in it cannot be reached: on a device another property is read, of the device info, and on another
component the request fails. A function of the device info that is not declared constant cannot be called
even by a control client with all permissions. -/
theorem C144_violation_names :
    let A := Demo.demo Demo.free Demo.all
    (request A ⟨24, 1, .control⟩ "SetProtectedPropertyValue"
      { id := "//root".toList, property := "a".toList, value := .int 5 } []).1.1 =
      [.setProtected 0 "a".toList (.str "5".toList)] ∧
    (request A ⟨24, 1, .control⟩ "GetPropertyValue"
      { id := "//root".toList, property := "MyDaqDeviceInfoTag".toList } []).1.2 = [([], .getValue 5 "oTag".toList)] ∧
    (request A ⟨24, 1, .control⟩ "GetPropertyValue"
      { id := "/dev/fb".toList, property := "MyDaqDeviceInfoTag".toList } []) = (([], []), .error .noInterface) ∧
    (request { A with exec := fun w _ => (w, .ok (.func 2)) } ⟨24, 1, .control⟩ "CallProperty"
      { id := "//root".toList, property := "DaqDeviceInfo.g".toList } []).2 = .error .noInterface := by
  decide +kernel

/-- What does hold: text passes unchanged as a protected value, if the text form of a text is the text. -/
theorem C144_text_partial (ho : Names A w p.id o) (hi : A.supports w o .component = true) (hu : Free A x.user o)
    (hl : ¬ BelongsToLocked A w o) (hx : x.type ≠ .viewOnly) (hd : ¬ "DaqDeviceInfo".toList <:+: p.property)
    (hdot : '.' ∉ p.property) (t : Name) (hv : p.value = .str t) (ht : A.shown (.str t) = t) :
    request A x "SetProtectedPropertyValue" p w = once A w (.setProtected o p.property p.value) false := by
  rw [handled x rfl ho hi]
  unfold setProtectedPropertyValue
  have hA : ∀ s, asText A p.value s = (s, .ok t) := by
    intro s
    rw [hv]
    unfold asText
    rw [if_neg (by simp), ht]
    rfl
  simp only [bind_eq, protectLocked_pass A hl, protect_pass A (may_of_free hu _ _), viewOnly_pass (W := W) hx, hA,
    parseInfo_plain hd, firstParent_plain hdot]
  rw [hv]
  exact callVoid_once _ _

/-- What does hold: `DaqDeviceInfo.` and a name reach the property of that name of the device info. -/
theorem C144_info_partial (n : Name) (ho : Names A w p.id o) (hi : A.supports w o .component = true)
    (hdev : A.supports w o .device = true) (hu : Free A x.user (A.info w o)) (hl : ¬ BelongsToLocked A w o)
    (hx : x.type ≠ .viewOnly) (hn : p.property = "DaqDeviceInfo.".toList ++ n) (hdot : '.' ∉ n) :
    request A x "SetPropertyValue" p w = once A w (.setValue (A.info w o) n p.value) false ∧
    request A x "ClearPropertyValue" p w = once A w (.clearValue (A.info w o) n) false ∧
    request A x "GetPropertyValue" p w = once A w (.getValue (A.info w o) n) true := by
  have hI : ∀ tr, parseInfo A o p.property (w, tr) = ((w, tr), .ok (A.info w o, n)) := by
    intro tr
    rw [parseInfo_eq]
    unfold parsed infoPrefix
    have h1 : occurs "DaqDeviceInfo".toList p.property = true := by
      rw [occurs_iff, hn]
      exact ⟨[], '.' :: n, by simp⟩
    have h2 : ¬ p.property.length < "DaqDeviceInfo".toList.length + 1 := by
      rw [hn, List.length_append]
      have : "DaqDeviceInfo.".toList.length = 14 := by decide
      have : "DaqDeviceInfo".toList.length = 13 := by decide
      omega
    rw [if_neg (by rw [h1]; decide), if_neg h2, if_neg (by rw [hdev]; decide)]
    have : p.property.drop ("DaqDeviceInfo".toList.length + 1) = n := by
      rw [hn]
      exact List.drop_left' (by decide)
    rw [this]
  have hP : ∀ w' ps tr, protect A x.user (A.info w o) ps (w', tr) = ((w', tr), .ok ()) := fun w' ps tr =>
    protect_pass A (may_of_free hu w' ps) tr
  refine ⟨?_, ?_, ?_⟩ <;> rw [handled x rfl ho hi]
  · unfold setPropertyValue
    simp only [bind_eq, protectLocked_pass A hl, viewOnly_pass (W := W) hx, hI, firstParent_plain hdot, hP]
    exact callVoid_once _ _
  · unfold clearPropertyValue
    simp only [bind_eq, protectLocked_pass A hl, viewOnly_pass (W := W) hx, hI, firstParent_plain hdot, hP]
    exact callVoid_once _ _
  · unfold getPropertyValue
    simp only [bind_eq, hI, call_eq]
    unfold once
    cases (A.exec w (.getValue (A.info w o) n)).2 with
    | error e => rfl
    | ok v => simp only [bind_eq, firstParent_plain hdot, hP]; rfl

/-- **C145.** An address names at most one component. -/
theorem C145_unique {id : Name} {o t : Obj} (h : Names A w id o) (k : Names A w id t) : o = t := by
  have := (found_iff A w id o).mpr h
  rw [(found_iff A w id t).mpr k] at this
  injection this with e
  injection e with e
  exact e.symm

/-- The requests that are not about a component. -/
theorem component_request (name : String) (hn : name ∉ ["GetTypeManager", "GetSerializedRootDevice",
    "RemoveExternalSignals"]) (hp : ∀ o, ¬ Names A w p.id o) :
    ∃ e, request A x name p w = ((w, []), .error e) := by
  have key : ∀ e ∈ table A, e.1 ∉ ["GetTypeManager", "GetSerializedRootDevice", "RemoveExternalSignals"] →
      Stops w (e.2 x p) := by
    simp only [table, List.forall_mem_cons, List.forall_mem_nil]
    refine ⟨?_, ?_, ?_, ?_, ?_, ?_, ?_, ?_, ?_, ?_, ?_, ?_, ?_, ?_, ?_, ?_, ?_, ?_, ?_, ?_, ?_, ?_, ?_, ?_, ?_,
      ?_, ?_, ?_, ?_, ?_, ?_, ?_, ?_, ?_, ?_, ?_, ?_, ?_, ?_, ?_, ?_, ?_, ?_, ?_, ?_, ?_, ?_, ?_, ?_, ?_, ?_,
      ?_, ?_, ?_, fun _ h => by simp at h⟩ <;>
      intro hn <;> first
      | exact handler_none A hp _ _ x []
      | exact absurd (by decide) hn
      | skip
    unfold Stops getComponent
    rw [bind_eq, findComponent_eq]
    cases h : found A w p.id with
    | error e => exact ⟨e, by simp [h]⟩
    | ok r =>
      cases r with
      | none => exact ⟨.notFound, by simp [h, fail]⟩
      | some o => exact absurd ((found_iff A w p.id o).mp h) (hp o)
  rcases request_cases A x name p w with e | ⟨h, _, hm, e⟩ <;> rw [e]
  · exact ⟨_, rfl⟩
  · exact key _ hm hn

/-- A request whose address names no component is refused before any call is made. -/
theorem C145_nowhere (name : String) (hn : name ∉ ["GetTypeManager", "GetSerializedRootDevice",
    "RemoveExternalSignals"]) (hp : ∀ o, ¬ Names A w p.id o) :
    ∃ e, request A x name p w = ((w, []), .error e) := component_request x name hn hp

/-- A request that is not among those the server knows is refused. -/
theorem C145_unknown (name : String) (hn : name ∉ Changing) (hr : name ∉ Reading) (hc : name ≠ "CallProperty") :
    request A x name p w = ((w, []), .error .invalidCall) := by
  rcases request_cases A x name p w with e | ⟨h, _, hm, _⟩
  · exact e
  · rcases known A name h hm with k | k | k
    · exact absurd k hn
    · exact absurd k hr
    · exact absurd k hc

example : (∀ o, ¬ Names (Demo.demo Demo.free Demo.all) [] "/dev/fb/".toList o) ∧
    request (Demo.demo Demo.free Demo.all) ⟨24, 1, .control⟩ "GetComponent" { id := "/dev/fb/".toList } [] =
      (([], []), .error .notFound) := by
  refine ⟨fun o h => ?_, by decide +kernel⟩
  have := (found_iff _ _ _ _).mpr h
  have e : found (Demo.demo Demo.free Demo.all) [] "/dev/fb/".toList = .ok none := by decide +kernel
  rw [e] at this
  cases this

end Verif.Access.Props
