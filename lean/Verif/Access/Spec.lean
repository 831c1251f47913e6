import Verif.Access.Model

/-!
# What a client may expect of the server's access control

Stated over the calls the server makes on the components and over its reply.
-/

namespace Verif.Access.Spec

open Verif.Access

/-- The calls that change something: everything except the ones listed here, which only read. -/
def Modifies : Call → Bool
  | .getValue .. | .suggested .. | .selections .. | .blockTypes .. | .componentConfig .. | .deviceInfo ..
  | .ticks .. | .logInfos .. | .log .. | .availableDevices .. | .deviceTypes .. | .modes .. | .mode ..
  | .addDeviceConfig .. | .lastValue .. | .lastValueTimed .. | .accepts .. | .isRecording .. | .tree ..
  | .typeManager => false
  | _ => true

/-- The requests that are meant to change something. -/
def Changing : List String :=
  ["RemoveExternalSignals", "SetPropertyValue", "SetProtectedPropertyValue", "SetPropertySelectionValue",
   "ClearPropertyValue", "ClearProtectedPropertyValue", "BeginUpdate", "EndUpdate", "SetAttributeValue",
   "Update", "ClearPropertyValues", "AddFunctionBlock", "RemoveFunctionBlock", "Lock", "Unlock",
   "ForceUnlock", "AddDevice", "AddDevices", "RemoveDevice", "SetOperationMode",
   "SetOperationModeRecursive", "ConnectSignal", "ConnectExternalSignal",
   "ChangeInputPortStreamingSource", "DisconnectSignal", "StartRecording", "StopRecording",
   "EnableDiscovery", "DisableDiscovery"]

/-- The requests that only read. -/
def Reading : List String :=
  ["GetComponent", "GetTypeManager", "GetSerializedRootDevice", "GetPropertyValue", "GetSuggestedValues",
   "GetSelectionValues", "GetAvailableFunctionBlockTypes", "GetComponentConfig", "GetInfo",
   "GetTicksSinceOrigin", "getLogFileInfos", "GetAvailableDeviceTypes", "GetLog", "GetAvailableDevices",
   "GetAvailableOperationModes", "GetOperationMode", "GetDefaultAddDeviceConfig", "GetLastValue",
   "GetLastValueWithTimestamp", "AcceptsSignal", "AcceptsSignals", "GetIsRecording"]

/-- The requests that the code lets through without asking for the kind of client or the lock. -/
def Unguarded : List String :=
  ["SetOperationMode", "SetOperationModeRecursive", "ChangeInputPortStreamingSource"]

/-- The requests a locked device still takes: those about the lock itself. -/
def LockRequests : List String := ["Lock", "Unlock", "ForceUnlock"]

/-- Reading leaves everything as it is. -/
def Steady {W : Type} (A : Api W) : Prop := ∀ w c, Modifies c = false → (A.exec w c).1 = w

/-- The address `//root`, or the local id of the root device followed by the local ids on the way down,
each after a slash, leads to a component; every step is an item of a folder. -/
inductive Leads {W : Type} (A : Api W) (w : W) : Obj → List Name → Obj → Prop
  | here (o : Obj) : Leads A w o [] o
  | down {o i t : Obj} {n : Name} {ns : List Name} (hf : A.supports w o .folder = true)
      (hi : A.item w o n = some i) (h : Leads A w i ns t) : Leads A w o (n :: ns) t

/-- An address written out. -/
def written : List Name → Name
  | [] => []
  | n :: ns => '/' :: n ++ written ns

/-- A request is about a component. -/
def Names {W : Type} (A : Api W) (w : W) (id : Name) (o : Obj) : Prop :=
  id = "//root".toList ∧ o = A.root ∨
  id ≠ "//root".toList ∧ ∃ ns, (∀ n ∈ ns, '/' ∉ n) ∧ '/' ∉ A.localId w A.root ∧
    id = written (A.localId w A.root :: ns) ∧ Leads A w A.root ns o

/-- The device a component belongs to is locked: the first device among the component and its parents. -/
def BelongsToLocked {W : Type} (A : Api W) (w : W) (o : Obj) : Prop :=
  ∃ above d below, A.chain w o = above ++ d :: below ∧ (∀ x ∈ above, A.supports w x .device = false) ∧
    A.supports w d .device = true ∧ A.locked w d = true

/-- The user has all these permissions on an object. -/
def May {W : Type} (A : Api W) (w : W) (u : User) (o : Obj) (ps : List Perm) : Prop :=
  ∀ p ∈ ps, A.auth w u o p = true

/-- The object that holds a property, by the property's name: the object asked, or, for a name with dots,
the object that reading the text before the last dot gave in an earlier state of this request. -/
def Holds {W : Type} (A : Api W) (past : List (W × Call)) (o : Obj) (n : Name) (h : Obj) : Prop :=
  ('.' ∉ n ∧ h = o) ∨
  ∃ pre lst w, n = pre ++ '.' :: lst ∧ '.' ∉ lst ∧ (w, Call.getValue o pre) ∈ past ∧
    (A.exec w (.getValue o pre)).2 = .ok (.obj h)

/-- What a changing call needs. -/
def Entitled {W : Type} (A : Api W) (past : List (W × Call)) (w : W) (u : User) : Call → Prop
  | .setValue o n _ | .setProtected o n _ | .setSelection o n _ | .clearValue o n | .clearProtected o n =>
      ∃ h, Holds A past o n h ∧ May A w u h [.read, .write]
  | .invoke o n _ _ => ∃ h, Holds A past o n h ∧ May A w u h [.read, .execute]
  | .clearAll o | .beginUpdate o | .endUpdate o | .setAttr o _ _ | .update o _ | .addBlock o _ _
  | .removeBlock o _ | .lock o _ | .unlock o _ | .forceUnlock o | .addDevice o _ _ | .addDevices o _
  | .removeDevice o _ | .disconnect o | .startRecording o | .stopRecording o | .enableDiscovery o
  | .disableDiscovery o => May A w u o [.read, .write]
  | .setMode o _ | .setModeRecursive o _ => May A w u o [.write]
  | .connect p s => May A w u p [.read, .write] ∧ May A w u s [.read]
  | _ => False

/-- The permissions on the component itself that a request needs; the requests about properties are not
listed, nor are those that ask for none. -/
def Needs : List (String × List Perm) :=
  [("BeginUpdate", [.read, .write]), ("EndUpdate", [.read, .write]), ("SetAttributeValue", [.read, .write]),
   ("Update", [.read, .write]), ("ClearPropertyValues", [.read, .write]), ("AddFunctionBlock", [.read, .write]),
   ("RemoveFunctionBlock", [.read, .write]), ("Lock", [.read, .write]), ("Unlock", [.read, .write]),
   ("ForceUnlock", [.read, .write]), ("AddDevice", [.read, .write]), ("AddDevices", [.read, .write]),
   ("RemoveDevice", [.read, .write]), ("SetOperationMode", [.write]), ("SetOperationModeRecursive", [.write]),
   ("ConnectSignal", [.read, .write]), ("ConnectExternalSignal", [.read, .write]),
   ("DisconnectSignal", [.read, .write]), ("StartRecording", [.read, .write]),
   ("StopRecording", [.read, .write]), ("EnableDiscovery", [.read, .write]), ("DisableDiscovery", [.read, .write]),
   ("GetComponent", [.read]), ("GetAvailableFunctionBlockTypes", [.read]), ("GetComponentConfig", [.read]),
   ("GetInfo", [.read]), ("GetTicksSinceOrigin", [.read]), ("getLogFileInfos", [.read]),
   ("GetAvailableDeviceTypes", [.read]), ("GetLog", [.read]), ("GetAvailableDevices", [.read]),
   ("GetAvailableOperationModes", [.read]), ("GetOperationMode", [.read]), ("GetDefaultAddDeviceConfig", [.read]),
   ("GetLastValue", [.read]), ("GetLastValueWithTimestamp", [.read]), ("AcceptsSignal", [.read]),
   ("GetIsRecording", [.read])]

/-- The requests that change or call one property. -/
def PropertyRequests : List String :=
  ["SetPropertyValue", "SetProtectedPropertyValue", "SetPropertySelectionValue", "ClearPropertyValue",
   "ClearProtectedPropertyValue", "CallProperty"]

/-- The object that holds a property, in one state. -/
def HoldsNow {W : Type} (A : Api W) (w : W) (o : Obj) (n : Name) (h : Obj) : Prop :=
  ('.' ∉ n ∧ h = o) ∨
  ∃ pre lst, n = pre ++ '.' :: lst ∧ '.' ∉ lst ∧ (A.exec w (.getValue o pre)).2 = .ok (.obj h)

/-- The object a change is made on, for the requests that update an object. -/
def on : Call → Option Obj
  | .clearAll o | .beginUpdate o | .endUpdate o | .update o _ | .setValue o _ _ | .setProtected o _ _
  | .clearValue o _ => some o
  | _ => none

/-- What a request means: the interface its component has to have, the call it stands for, and whether the
reply carries the result of the call. -/
def Meant : List (String × Intf × (Obj → Params → Call) × Bool) :=
  [("GetPropertyValue", .component, fun o p => .getValue o p.property, true),
   ("SetPropertyValue", .component, fun o p => .setValue o p.property p.value, false),
   ("SetPropertySelectionValue", .component, fun o p => .setSelection o p.property p.value, false),
   ("ClearPropertyValue", .component, fun o p => .clearValue o p.property, false),
   ("ClearProtectedPropertyValue", .component, fun o p => .clearProtected o p.property, false),
   ("GetSuggestedValues", .component, fun o p => .suggested o p.property, true),
   ("GetSelectionValues", .component, fun o p => .selections o p.property, true),
   ("BeginUpdate", .component, fun o _ => .beginUpdate o, false),
   ("Update", .component, fun o p => .update o p.value, false),
   ("ClearPropertyValues", .component, fun o _ => .clearAll o, false),
   ("GetComponentConfig", .component, fun o _ => .componentConfig o, true),
   ("GetInfo", .device, fun o _ => .deviceInfo o, true),
   ("GetTicksSinceOrigin", .device, fun o _ => .ticks o, true),
   ("getLogFileInfos", .device, fun o _ => .logInfos o, true),
   ("AddDevice", .device, fun o p => .addDevice o p.typeId p.value, true),
   ("AddDevices", .device, fun o p => .addDevices o p.value, true),
   ("GetAvailableDeviceTypes", .device, fun o _ => .deviceTypes o, true),
   ("GetLog", .device, fun o p => .log o p.localId, true),
   ("GetAvailableDevices", .device, fun o _ => .availableDevices o, true),
   ("GetAvailableOperationModes", .device, fun o _ => .modes o, true),
   ("SetOperationMode", .device, fun o p => .setMode o p.mode, false),
   ("GetOperationMode", .device, fun o _ => .mode o, true),
   ("GetDefaultAddDeviceConfig", .device, fun o _ => .addDeviceConfig o, true),
   ("ForceUnlock", .device, fun o _ => .forceUnlock o, false),
   ("GetLastValue", .signal, fun o _ => .lastValue o, true),
   ("GetLastValueWithTimestamp", .signal, fun o _ => .lastValueTimed o, true),
   ("DisconnectSignal", .port, fun o _ => .disconnect o, false),
   ("StartRecording", .recorder, fun o _ => .startRecording o, false),
   ("StopRecording", .recorder, fun o _ => .stopRecording o, false),
   ("GetIsRecording", .recorder, fun o _ => .isRecording o, true),
   ("EnableDiscovery", .server, fun o _ => .enableDiscovery o, false),
   ("DisableDiscovery", .server, fun o _ => .disableDiscovery o, false)]

/-- The user has every permission on an object, whatever happens. -/
def Free {W : Type} (A : Api W) (u : User) (o : Obj) : Prop := ∀ w p, A.auth w u o p = true

/-- The reply to a call: its result or nothing, or its error. -/
def reply (carries : Bool) (r : Except Err Val) : Except Err Val :=
  match r with
  | .ok v => .ok (if carries then v else .null)
  | .error e => .error e

/-- One call. -/
def once {W : Type} (A : Api W) (w : W) (c : Call) (carries : Bool) : (W × List (W × Call)) × Except Err Val :=
  (((A.exec w c).1, [(w, c)]), reply carries (A.exec w c).2)

/-- Calls one after the other, up to the first that fails. -/
def inOrder {W : Type} (A : Api W) : W → List Call → (W × List (W × Call)) × Except Err Val
  | w, [] => ((w, []), .ok .null)
  | w, c :: cs =>
    match A.exec w c with
    | (w', .error e) => ((w', [(w, c)]), .error e)
    | (w', .ok _) => (((inOrder A w' cs).1.1, (w, c) :: (inOrder A w' cs).1.2), (inOrder A w' cs).2)

/-- The call an entry of the edits sent with the end of an update stands for. -/
def editCall (o : Obj) (e : Edit) : Call :=
  match e.set, e.protect with
  | true, true => .setProtected o e.name e.value
  | true, false => .setValue o e.name e.value
  | false, _ => .clearValue o e.name

end Verif.Access.Spec
