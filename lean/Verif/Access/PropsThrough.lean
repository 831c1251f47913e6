import Verif.Access.PropsPerm

/-!
# C141: what an allowed request does

A request that passes every check makes exactly the call it stands for, once, and the reply carries its
result.
-/

namespace Verif.Access.Props

open Verif.Access Spec

variable {W : Type} {A : Api W} (x : Ctx)

theorem call_eq (c : Call) (w : W) (tr : List (W × Call)) :
    call A c (w, tr) = (((A.exec w c).1, tr ++ [(w, c)]), (A.exec w c).2) := rfl

theorem call_once (c : Call) (w : W) : call A c (w, []) = once A w c true := by
  rw [call_eq]
  unfold once reply
  rw [List.nil_append]
  cases (A.exec w c).2 <;> rfl

theorem callVoid_once (c : Call) (w : W) : callVoid A c (w, []) = once A w c false := by
  unfold callVoid
  rw [bind_eq, call_eq]
  unfold once reply
  cases (A.exec w c).2 <;> rfl

theorem may_of_free {u : User} {o : Obj} (h : Free A u o) (w : W) (ps : List Perm) : May A w u o ps :=
  fun p _ => h w p

theorem viewOnly_pass {t : ClientType} (h : t ≠ .viewOnly) (s : S W) : protectViewOnly t s = (s, .ok ()) := by
  rw [protectViewOnly_eq, if_neg h]

theorem parseInfo_plain {n : Name} (hd : ¬ "DaqDeviceInfo".toList <:+: n) (o : Obj) (s : S W) :
    parseInfo A o n s = (s, .ok (o, n)) := by
  rw [parseInfo_eq]
  unfold parsed infoPrefix
  rw [if_pos (Bool.eq_false_iff.mpr fun h => hd ((occurs_iff _ _).mp h))]

theorem firstParent_plain {n : Name} (hd : '.' ∉ n) (o : Obj) (s : S W) : firstParent A o n s = (s, .ok o) := by
  unfold firstParent
  rw [beforeLastDot_plain hd]
  rfl

theorem request_eq {name : String} {h : Ctx → Params → M W Val} (e : List.lookup name (table A) = some h) (p : Params)
    (w : W) : request A x name p w = h x p (w, []) := by
  unfold request callRpc
  rw [e]

theorem handled {name : String} {i : Intf} {f : Ctx → Obj → Params → M W Val}
    (e : List.lookup name (table A) = some (handler A i f)) {p : Params} {w : W} {o : Obj} (ho : Names A w p.id o)
    (hi : A.supports w o i = true) : request A x name p w = f x o p (w, []) := by
  rw [request_eq x e, handler_at A ho, if_pos hi]

/-- **C141.** A request by a client that may do more than look, about a component of a device that is not
locked, made by a user with all permissions on the component, makes exactly the call it stands for, once, in
the state the request found, and the reply is the result of the call. (Here for requests about properties of
the component itself; see below for the others.) -/
theorem C141_direct (w : W) (name : String) (i : Intf) (c : Obj → Params → Call) (r : Bool)
    (hn : (name, i, c, r) ∈ Meant) (p : Params) (o : Obj) (ho : Names A w p.id o) (hi : A.supports w o i = true)
    (hu : Free A x.user o) (hl : ¬ BelongsToLocked A w o) (hx : x.type ≠ .viewOnly)
    (hd : ¬ "DaqDeviceInfo".toList <:+: p.property) (hdot : '.' ∉ p.property) (hp : p.path = none) :
    request A x name p w = once A w (c o p) r := by
  have hL := protectLocked_pass A hl
  have hP : ∀ w ps tr, protect A x.user o ps (w, tr) = ((w, tr), .ok ()) := fun w ps tr =>
    protect_pass A (may_of_free hu w ps) tr
  have hV := viewOnly_pass (W := W) hx
  have hI := parseInfo_plain (A := A) hd o
  have hF := firstParent_plain (A := A) hdot o
  have hA : ∀ s, atPath A o p.path s = (s, .ok o) := fun s => by rw [hp]; rfl
  simp only [Meant, List.mem_cons, List.not_mem_nil, or_false, Prod.mk.injEq] at hn
  rcases hn with ⟨rfl, rfl, rfl, rfl⟩ | ⟨rfl, rfl, rfl, rfl⟩ | ⟨rfl, rfl, rfl, rfl⟩ | ⟨rfl, rfl, rfl, rfl⟩ |
    ⟨rfl, rfl, rfl, rfl⟩ | ⟨rfl, rfl, rfl, rfl⟩ | ⟨rfl, rfl, rfl, rfl⟩ | ⟨rfl, rfl, rfl, rfl⟩ |
    ⟨rfl, rfl, rfl, rfl⟩ | ⟨rfl, rfl, rfl, rfl⟩ | ⟨rfl, rfl, rfl, rfl⟩ | ⟨rfl, rfl, rfl, rfl⟩ |
    ⟨rfl, rfl, rfl, rfl⟩ | ⟨rfl, rfl, rfl, rfl⟩ | ⟨rfl, rfl, rfl, rfl⟩ | ⟨rfl, rfl, rfl, rfl⟩ |
    ⟨rfl, rfl, rfl, rfl⟩ | ⟨rfl, rfl, rfl, rfl⟩ | ⟨rfl, rfl, rfl, rfl⟩ | ⟨rfl, rfl, rfl, rfl⟩ |
    ⟨rfl, rfl, rfl, rfl⟩ | ⟨rfl, rfl, rfl, rfl⟩ | ⟨rfl, rfl, rfl, rfl⟩ | ⟨rfl, rfl, rfl, rfl⟩ |
    ⟨rfl, rfl, rfl, rfl⟩ | ⟨rfl, rfl, rfl, rfl⟩ | ⟨rfl, rfl, rfl, rfl⟩ | ⟨rfl, rfl, rfl, rfl⟩ |
    ⟨rfl, rfl, rfl, rfl⟩ | ⟨rfl, rfl, rfl, rfl⟩ | ⟨rfl, rfl, rfl, rfl⟩ | ⟨rfl, rfl, rfl, rfl⟩ <;>
    rw [handled x rfl ho hi]
  · unfold getPropertyValue
    simp only [bind_eq, hI, call_eq]
    unfold once
    cases (A.exec w (.getValue o p.property)).2 with
    | error e => rfl
    | ok v => simp only [bind_eq, hF, hP]; rfl
  all_goals first
    | (unfold readOne; simp only [bind_eq, hP]; exact call_once _ _)
    | (unfold switch; simp only [bind_eq, hP, hL, hV]; exact callVoid_once _ _)
    | (first
       | unfold setPropertyValue | unfold setPropertySelectionValue | unfold clearPropertyValue
       | unfold clearProtectedPropertyValue | unfold getSuggestedValues | unfold getSelectionValues
       | unfold beginUpdate | unfold update | unfold clearPropertyValues | unfold getComponentConfig
       | unfold addDevice | unfold addDevices | unfold setOperationMode | unfold forceUnlockDevice
       | unfold disconnectSignal
       simp only [bind_eq, hP, hL, hV, hI, hF, hA]
       first
       | exact callVoid_once _ _
       | exact call_once _ _)

end Verif.Access.Props
