import Verif.PropObj.PropsAccess

/-! # Calls when no handler does anything -/

namespace Verif.PropObj

variable {V : Type} [DecidableEq V] {env : Env V}

theorem del_absent {β : Type} {s : AList Name β} {n : Name} (h : AList.get s n = none) : AList.del s n = s := by
  unfold AList.del
  rw [List.filter_eq_self]
  rintro ⟨k, b⟩ hm
  have : k ≠ n := fun e => (get_none_iff s n).mp h b (e ▸ hm)
  simpa using this

theorem del_put {β : Type} (s : AList Name β) (n : Name) (b : β) : AList.del (AList.put s n b) n = AList.del s n := by
  unfold AList.put AList.del
  rw [List.filter_cons]
  simp

theorem register_fresh {s : AList Name (Item V)} {n : Name} (h : AList.get s n = none) (v : Option V) :
    register s n v = some (AList.put s n ⟨v, 1, true⟩) := by
  unfold register; rw [h]

theorem isBase_fresh (s : AList Name (Item V)) (n : Name) (v : Option V) : isBase (AList.put s n ⟨v, 1, true⟩) n = true := by
  unfold isBase; rw [AList.get_put, if_pos rfl]; rfl

theorem unregister_fresh {s : AList Name (Item V)} {n : Name} (h : AList.get s n = none) (v : Option V) :
    unregister (AList.put s n ⟨v, 1, true⟩) n = (s, true) := by
  unfold unregister
  rw [AList.get_put, if_pos rfl]
  simp [del_put, del_absent h]

theorem runHandlers_quiet (hq : Quiet env) (rec : Obj V → Call V → Ret V) (o : Obj V) (n : Name) (a old : V) (ic upd : Bool) :
    runHandlers env rec o n a old ic upd = some (o, a, false, false, []) := by
  unfold runHandlers
  simp [hq.1, hq.2.1, hq.2.2, runActs]

theorem callWrite_quiet (hq : Quiet env) (rec : Obj V → Call V → Ret V) {o : Obj V} {n : Name} (hs : AList.get o.stack n = none)
    (p : PropDef V) (nv : Option V) (upd : Bool) :
    callWrite env rec o n p nv upd = some (o, if redundant o n p nv then .ignored else .done nv, []) := by
  unfold callWrite
  rw [register_fresh hs]
  dsimp only
  rw [isBase_fresh, Bool.true_and, unregister_fresh hs]
  by_cases h : redundant o n p nv = true
  · rw [if_pos h, if_pos h]
  · rw [if_neg h, if_neg h, runHandlers_quiet hq]
    simp only [finish, unregister_fresh hs, Bool.false_eq_true, if_false, if_true]
    cases nv with
    | none => simp
    | some v => simp

theorem writeWith_quiet_some (hq : Quiet env) (rec : Obj V → Call V → Ret V) {o : Obj V} {n : Name} (hs : AList.get o.stack n = none)
    (p : PropDef V) (w : V) (upd : Bool) :
    writeWith env rec o n p (some w) upd =
      if current o n p = w then some (o, .ok, [])
      else some ({ o with values := AList.put o.values n w }, .ok, if upd then [] else [.changed n (some w)]) := by
  unfold writeWith
  rw [callWrite_quiet hq rec hs]
  by_cases h : current o n p = w
  · simp [redundant, shouldWrite, h, applyWrite]
  · simp [redundant, shouldWrite, h, applyWrite, writeLocal]

theorem writeWith_quiet_none (hq : Quiet env) (rec : Obj V → Call V → Ret V) {o : Obj V} {n : Name} (hs : AList.get o.stack n = none)
    (p : PropDef V) (upd : Bool) (hst : (AList.get o.values n).isNone = false) :
    writeWith env rec o n p none upd =
      some ({ o with values := AList.del o.values n }, .ok, if upd then [] else [.changed n none]) := by
  unfold writeWith
  rw [callWrite_quiet hq rec hs]
  simp [redundant, applyWrite, hst]

/-- A set when no handler does anything. -/
theorem set_quiet (hq : Quiet env) (fuel : Nat) {o : Obj V} {n : Name} (hs : AList.get o.stack n = none) (hf : o.frozen = false)
    (v : V) (prot upd : Bool) :
    call env (fuel + 1) o ⟨n, some v, prot, false, upd⟩ = match lookup env o n with
      | none => some (o, .err .notFound, [])
      | some p =>
        if !prot && p.readOnly then some (o, .err .accessDenied, [])
        else match process env p v with
          | .error e => some (o, .err e, [])
          | .ok w => if current o n p = w then some (o, .ok, [])
            else some ({ o with values := AList.put o.values n w }, .ok, if upd then [] else [.changed n (some w)]) := by
  rw [call, callStep, if_neg (by rw [hf]; simp), if_neg (by simp)]
  cases hl : lookup env o n with
  | none => rfl
  | some p =>
    dsimp only
    split
    · rfl
    · split
      · rename_i e he; rw [he]
      · rename_i w hw; rw [hw]; exact writeWith_quiet_some hq _ hs p w upd

theorem clear_quiet (hq : Quiet env) (fuel : Nat) {o : Obj V} {n : Name} (hs : AList.get o.stack n = none) (hf : o.frozen = false)
    (prot upd : Bool) :
    call env (fuel + 1) o ⟨n, none, prot, false, upd⟩ = match lookup env o n with
      | none => some (o, .err .notFound, [])
      | some p =>
        if !prot && p.readOnly then some (o, .err .accessDenied, [])
        else if (AList.get o.values n).isNone then some (o, .ignored, [])
        else some ({ o with values := AList.del o.values n }, .ok, if upd then [] else [.changed n none]) := by
  rw [call, callStep, if_neg (by rw [hf]; simp), if_neg (by simp)]
  cases hl : lookup env o n with
  | none => rfl
  | some p =>
    dsimp only
    split
    · rfl
    · split
      · rfl
      · rename_i h; exact writeWith_quiet_none hq _ hs p upd (by cases hg : AList.get o.values n <;> simp_all)

end Verif.PropObj
