import Verif.PropObj.PropsRead

/-! # C42: updates -/

namespace Verif.PropObj

variable {V : Type} [DecidableEq V] {env : Env V}

/-- What is recorded for a call. -/
def toAction : Op V → List (Action V)
  | .set n v => [⟨n, some v, false⟩]
  | .setProtected n v => [⟨n, some v, true⟩]
  | .clear n => [⟨n, none, false⟩]
  | .clearProtected n => [⟨n, none, true⟩]
  | _ => []

theorem step_batch (env : Env V) (fuel : Nat) {o : Obj V} (hf : o.frozen = false) (hc : o.count > 0) {op : Op V} (hw : isWrite op = true) :
    step env (fuel + 1) o op = some ({ o with pending := o.pending ++ toAction op }, .ok, []) := by
  cases op <;> simp [isWrite] at hw <;> simp [step, call, callStep, hf, hc, toAction]

theorem run_body (env : Env V) (fuel : Nat) : ∀ (body : List (Op V)) (o : Obj V) (d d' : Nat), o.frozen = false → o.count = d + 1 →
    depth d body = some d' →
    ∃ rs, run env (fuel + 1) o body = some ({ o with count := d' + 1, pending := o.pending ++ body.flatMap toAction }, rs) ∧
      ∀ r ∈ rs, r = .ok := by
  intro body
  induction body with
  | nil =>
    intro o d d' hf hc hd
    simp only [depth, Option.some.injEq] at hd
    subst hd
    refine ⟨[], ?_, fun r h => by cases h⟩
    simp only [run, List.flatMap_nil, List.append_nil, ← hc]
  | cons op body ih =>
    intro o d d' hf hc hd
    have one : ∀ o1 d1, step env (fuel + 1) o op = some (o1, .ok, []) → o1.frozen = false → o1.count = d1 + 1 → depth d1 body = some d' →
        { o1 with count := d' + 1, pending := o1.pending ++ body.flatMap toAction } =
          { o with count := d' + 1, pending := o.pending ++ (op :: body).flatMap toAction } →
        ∃ rs, run env (fuel + 1) o (op :: body) =
            some ({ o with count := d' + 1, pending := o.pending ++ (op :: body).flatMap toAction }, rs) ∧ ∀ r ∈ rs, r = .ok := by
      intro o1 d1 hs hf1 hc1 hd1 he
      obtain ⟨rs, h1, h2⟩ := ih o1 d1 d' hf1 hc1 hd1
      refine ⟨.ok :: rs, ?_, ?_⟩
      · rw [run, hs]
        dsimp only
        rw [h1, ← he]
        rfl
      · intro r hr
        rcases List.mem_cons.mp hr with h | h
        · exact h
        · exact h2 r h
    have wr : isWrite op = true → depth d body = some d' →
        ∃ rs, run env (fuel + 1) o (op :: body) =
            some ({ o with count := d' + 1, pending := o.pending ++ (op :: body).flatMap toAction }, rs) ∧ ∀ r ∈ rs, r = .ok := by
      intro hw hd
      refine one _ d (step_batch env fuel hf (by omega) hw) hf hc hd ?_
      simp
    cases op with
    | set n v => exact wr rfl (by simpa [depth, isWrite] using hd)
    | setProtected n v => exact wr rfl (by simpa [depth, isWrite] using hd)
    | clear n => exact wr rfl (by simpa [depth, isWrite] using hd)
    | clearProtected n => exact wr rfl (by simpa [depth, isWrite] using hd)
    | beginUpdate =>
      refine one { o with count := o.count + 1 } (d + 1) (by simp [step, hf]) hf (by simp [hc]) (by simpa [depth] using hd) ?_
      simp [toAction]
    | endUpdate =>
      cases d with
      | zero => simp [depth] at hd
      | succ d =>
        refine one { o with count := o.count - 1 } d ?_ hf (by simp [hc]) (by simpa [depth] using hd) ?_
        · simp [step, endUpdate, hc]
        · simp [toAction]
    | clearAll => simp [depth, isWrite] at hd
    | addProperty n p => simp [depth, isWrite] at hd
    | removeProperty n => simp [depth, isWrite] at hd
    | setOrder l => simp [depth, isWrite] at hd
    | freeze => simp [depth, isWrite] at hd

/-! ## Calls within and outside of an update -/

theorem callWrite_blind (hb : UpdateBlind env) (rec : Obj V → Call V → Ret V) (o : Obj V) (n : Name) (p : PropDef V) (nv : Option V)
    (upd upd' : Bool) : callWrite env rec o n p nv upd = callWrite env rec o n p nv upd' := by
  unfold callWrite runHandlers
  simp only [hb.1 _ _ _ _ upd upd', hb.2.1 _ _ _ _ upd upd', hb.2.2 _ _ _ _ upd upd']

theorem writeWith_blind (hb : UpdateBlind env) (rec : Obj V → Call V → Ret V) (o : Obj V) (n : Name) (p : PropDef V) (nv : Option V)
    (upd upd' : Bool) : (writeWith env rec o n p nv upd).map (fun r => (r.1, r.2.1)) =
      (writeWith env rec o n p nv upd').map (fun r => (r.1, r.2.1)) := by
  unfold writeWith
  rw [callWrite_blind hb rec o n p nv upd upd']
  split
  · rfl
  · rename_i o1 w ev _
    cases w with
    | err e => rfl
    | ignored => rfl
    | done w =>
      cases w with
      | some w => rfl
      | none => simp only [applyWrite]; split <;> rfl

theorem call_blind (hb : UpdateBlind env) (fuel : Nat) (o : Obj V) (n : Name) (v : Option V) (prot : Bool) (upd upd' : Bool) :
    (call env fuel o ⟨n, v, prot, false, upd⟩).map (fun r => (r.1, r.2.1)) =
      (call env fuel o ⟨n, v, prot, false, upd'⟩).map (fun r => (r.1, r.2.1)) := by
  cases fuel with
  | zero => rfl
  | succ k =>
    rw [call, call, callStep, callStep]
    dsimp only
    split
    · rfl
    · split
      · rfl
      · split
        · rfl
        · split
          · rfl
          · split
            · split
              · rfl
              · exact writeWith_blind hb _ _ _ _ _ _ _
            · split
              · rfl
              · exact writeWith_blind hb _ _ _ _ _ _ _

/-- The recorded call, outside of an update. -/
theorem step_toAction (env : Env V) (fuel : Nat) {o : Obj V} (hc : o.count = 0) {op : Op V} (hw : isWrite op = true) :
    ∃ a, toAction op = [a] ∧ step env fuel o op = call env fuel o ⟨a.name, a.value, a.prot, false, false⟩ := by
  cases op <;> simp [isWrite] at hw <;> exact ⟨_, rfl, by simp [step, hc]⟩

theorem fixed_call (env : Env V) (fuel : Nat) {o o' : Obj V} {c : Call V} {r ev} (hb : c.batch = false)
    (h : call env fuel o c = some (o', r, ev)) : Fixed o o' :=
  (good_call (closed_true env o.locals) fuel o c o' r ev rfl (fun h => by rw [hb] at h; cases h) (fun _ => trivial) h).2

theorem apply_until (hb : UpdateBlind env) (fuel : Nat) : ∀ (ops : List (Op V)) (o : Obj V), o.count = 0 → (∀ op ∈ ops, isWrite op = true) →
    (apply env fuel o (ops.flatMap toAction)).map (fun r => (r.1, r.2.1)) = runUntil env fuel o ops := by
  intro ops
  induction ops with
  | nil => intro o _ _; rfl
  | cons op ops ih =>
    intro o hc hw
    obtain ⟨a, ha, hs⟩ := step_toAction env fuel hc (hw op List.mem_cons_self)
    rw [List.flatMap_cons, ha, List.singleton_append, runUntil, apply, hs]
    have hbl := call_blind hb fuel o a.name a.value a.prot true false
    have ih' := fun o1 hc => ih o1 hc (fun op h => hw op (List.mem_cons_of_mem _ h))
    cases h1 : call env fuel o ⟨a.name, a.value, a.prot, false, true⟩ with
    | none =>
      rw [h1] at hbl
      have h2 : call env fuel o ⟨a.name, a.value, a.prot, false, false⟩ = none := by
        cases h2 : call env fuel o ⟨a.name, a.value, a.prot, false, false⟩ with
        | none => rfl
        | some x => rw [h2] at hbl; cases hbl
      rw [h2]; rfl
    | some x =>
      obtain ⟨o1, r1, ev1⟩ := x
      rw [h1] at hbl
      have hc1 : o1.count = 0 := (fixed_call env fuel rfl h1).count.trans hc
      cases h2 : call env fuel o ⟨a.name, a.value, a.prot, false, false⟩ with
      | none => rw [h2] at hbl; cases hbl
      | some y =>
        obtain ⟨o2, r2, ev2⟩ := y
        rw [h2] at hbl
        simp only [Option.map_some, Option.some.injEq, Prod.mk.injEq] at hbl
        obtain ⟨rfl, rfl⟩ := hbl
        have ih1 := ih' o1 hc1
        cases r1 with
        | err e => rfl
        | ignored =>
          dsimp only
          rw [← ih1, Option.map_map]
          rfl
        | ok =>
          dsimp only
          rw [← ih1, Option.map_map]
          rfl

theorem flatMap_writes (body : List (Op V)) : body.flatMap toAction = (body.filter isWrite).flatMap toAction := by
  induction body with
  | nil => rfl
  | cons op body ih =>
    rw [List.flatMap_cons, List.filter_cons, ih]
    cases op <;> simp [isWrite, toAction]

/-! ## C42 -/

/-- **C42** Between `beginUpdate` and the matching `endUpdate` all sets and clears succeed and no property value changes,
however the updates are nested. -/
theorem C42_deferred (env : Env V) (fuel : Nat) (o : Obj V) (hf : o.frozen = false) (body : List (Op V)) (d d' : Nat)
    (hc : o.count = d + 1) (hd : depth d body = some d') :
    ∃ o' rs, run env (fuel + 1) o body = some (o', rs) ∧ (∀ r ∈ rs, r = .ok) ∧ o'.values = o.values ∧
      ∀ n, read env o' n = read env o n := by
  obtain ⟨rs, h1, h2⟩ := run_body env fuel body o d d' hf hc hd
  exact ⟨_, rs, h1, h2, rfl, fun n => rfl⟩

theorem run_append (env : Env V) (fuel : Nat) : ∀ (a b : List (Op V)) (o1 : Obj V) o2 rs1, run env fuel o1 a = some (o2, rs1) →
    run env fuel o1 (a ++ b) = (run env fuel o2 b).map (fun x => (x.1, rs1 ++ x.2)) := by
  intro a b
  induction a with
  | nil =>
    intro o1 o2 rs1 h
    simp only [run, Option.some.injEq, Prod.mk.injEq] at h
    obtain ⟨rfl, rfl⟩ := h
    simp
  | cons op a ih =>
    intro o1 o2 rs1 h
    cases h3 : step env fuel o1 op with
    | none => simp [run, h3] at h
    | some x =>
      obtain ⟨o3, r3, ev3⟩ := x
      simp only [run, h3] at h
      obtain ⟨⟨o4, rs4⟩, h4, h5⟩ := Option.map_eq_some_iff.mp h
      simp only [Prod.mk.injEq] at h5
      obtain ⟨rfl, rfl⟩ := h5
      rw [List.cons_append, run, h3]
      dsimp only
      rw [ih _ _ _ h4, Option.map_map]
      rfl

theorem runUntil_result (env : Env V) (fuel : Nat) : ∀ (l : List (Op V)) (o o' : Obj V), runUntil env fuel o l ≠ some (o', .ignored) := by
  intro l
  induction l with
  | nil => intro o o' h; simp [runUntil] at h
  | cons op l ih =>
    intro o o' h
    rw [runUntil] at h
    split at h
    · cases h
    · cases h
    · exact ih _ _ h

theorem idle_eq {o : Obj V} (hc : o.count = 0) (hp : o.pending = []) : { o with count := 0, pending := [] } = o := by
  cases o; simp_all

theorem endUpdate_until (hb : UpdateBlind env) (fuel : Nat) {o : Obj V} (hc : o.count = 0) (hp : o.pending = []) (l : List (Op V))
    (hl : ∀ op ∈ l, isWrite op = true) {o' : Obj V} {r : Res} (h : runUntil env fuel o l = some (o', r)) :
    ∃ ev, endUpdate env fuel { o with count := 1, pending := l.flatMap toAction } = some (o', r, ev) := by
  have hun := apply_until hb fuel l o hc hl
  rw [h] at hun
  obtain ⟨⟨o2, r2, ap, ev⟩, ha, he⟩ := Option.map_eq_some_iff.mp hun
  simp only [Prod.mk.injEq] at he
  obtain ⟨rfl, rfl⟩ := he
  have hi := idle_eq hc hp
  unfold endUpdate
  dsimp only
  rw [if_neg (by simp), if_neg (by simp), hi, ha]
  cases r2 with
  | err e => exact ⟨_, rfl⟩
  | ok => exact ⟨_, rfl⟩
  | ignored => exact absurd h (runUntil_result env fuel l o o2)

/-- **C42** The outermost `endUpdate` leaves the object as if the recorded sets and clears were called one after the other
at that moment, up to the first that fails, whose error it returns. -/
theorem C42_atEnd (env : Env V) (hb : UpdateBlind env) (fuel : Nat) (o : Obj V) (hf : o.frozen = false) (hc : o.count = 0)
    (hp : o.pending = []) (body : List (Op V)) (hd : depth 0 body = some 0) (o' : Obj V) (r : Res)
    (h : runUntil env (fuel + 1) o (body.filter isWrite) = some (o', r)) :
    ∃ rs, run env (fuel + 1) o (.beginUpdate :: body ++ [.endUpdate]) = some (o', rs ++ [r]) ∧ ∀ x ∈ rs, x = .ok := by
  obtain ⟨rs, h1, h2⟩ := run_body env fuel body { o with count := o.count + 1 } 0 0 hf (by simp [hc]) hd
  obtain ⟨ev, he⟩ := endUpdate_until hb (fuel + 1) hc hp (body.filter isWrite) (fun op h => (List.mem_filter.mp h).2) h
  refine ⟨.ok :: rs, ?_, ?_⟩
  · have hbeg : step env (fuel + 1) o .beginUpdate = some ({ o with count := o.count + 1 }, .ok, []) := by simp [step, hf]
    rw [List.cons_append, run, hbeg]
    dsimp only at h1 ⊢
    rw [run_append _ _ _ _ _ _ _ h1, run, step, hp, List.nil_append, flatMap_writes, he]
    rfl
  · intro x hx
    rcases List.mem_cons.mp hx with h | h
    · exact h
    · exact h2 x h

/-- What a call changes when no handler does anything. -/
theorem call_shape (hq : Quiet env) (fuel : Nat) {o o' : Obj V} {n : Name} {v : Option V} {prot : Bool} {r : Res} {ev : List (Core V)}
    (hs : o.stack = []) (hf : o.frozen = false) (h : call env (fuel + 1) o ⟨n, v, prot, false, true⟩ = some (o', r, ev)) :
    (∃ vs, o' = { o with values := vs } ∧ ∀ m, m ≠ n → AList.get vs m = AList.get o.values m) ∧ ev = [] ∧ (r = .ignored → o' = o) ∧
    (r = .ok → ∃ p, lookup env o n = some p) := by
  have hs' : AList.get o.stack n = none := by rw [hs]; rfl
  have same : ∀ r', r' ≠ .ok → some (o, r', ([] : List (Core V))) = some (o', r, ev) →
      (∃ vs, o' = { o with values := vs } ∧ ∀ m, m ≠ n → AList.get vs m = AList.get o.values m) ∧ ev = [] ∧ (r = .ignored → o' = o) ∧
      (r = .ok → ∃ p, lookup env o n = some p) := by
    intro r' hr' e
    simp only [Option.some.injEq, Prod.mk.injEq] at e
    obtain ⟨rfl, rfl, rfl⟩ := e
    exact ⟨⟨o.values, rfl, fun _ _ => rfl⟩, rfl, fun _ => rfl, fun e => absurd e hr'⟩
  cases v with
  | some v =>
    rw [set_quiet hq fuel hs' hf] at h
    split at h
    · exact same _ (by simp) h
    · rename_i p hp
      split at h
      · exact same _ (by simp) h
      · split at h
        · exact same _ (by simp) h
        · split at h
          · simp only [Option.some.injEq, Prod.mk.injEq] at h
            obtain ⟨rfl, rfl, rfl⟩ := h
            exact ⟨⟨o.values, rfl, fun _ _ => rfl⟩, rfl, fun _ => rfl, fun _ => ⟨p, hp⟩⟩
          · simp only [if_true, Option.some.injEq, Prod.mk.injEq] at h
            obtain ⟨rfl, rfl, rfl⟩ := h
            refine ⟨⟨_, rfl, fun m hm => by rw [AList.get_put, if_neg hm]⟩, rfl, (fun e => by cases e), fun _ => ⟨p, hp⟩⟩
  | none =>
    rw [clear_quiet hq fuel hs' hf] at h
    split at h
    · exact same _ (by simp) h
    · rename_i p hp
      split at h
      · exact same _ (by simp) h
      · split at h
        · exact same _ (by simp) h
        · simp only [if_true, Option.some.injEq, Prod.mk.injEq] at h
          obtain ⟨rfl, rfl, rfl⟩ := h
          refine ⟨⟨_, rfl, fun m hm => by rw [AList.get_del, if_neg hm]⟩, rfl, (fun e => by cases e), fun _ => ⟨p, hp⟩⟩

theorem read_values {o : Obj V} {vs : AList Name V} {n m : Name} (h : ∀ m, m ≠ n → AList.get vs m = AList.get o.values m) (hm : m ≠ n) :
    read env { o with values := vs } m = read env o m := by
  unfold read current
  have : lookup env { o with values := vs } m = lookup env o m := rfl
  rw [this]
  dsimp only
  rw [h m hm]

theorem apply_events (hq : Quiet env) (fuel : Nat) : ∀ (l : List (Action V)) (o o' : Obj V) (ap : List (Name × V)) (ev : List (Core V)),
    o.stack = [] → o.frozen = false → apply env (fuel + 1) o l = some (o', .ok, ap, ev) →
    ev = [] ∧ (∀ n, (∀ v, (n, v) ∉ ap) → read env o' n = read env o n) ∧
    ∀ n l1 v l2, ap = l1 ++ (n, v) :: l2 → (∀ w, (n, w) ∉ l2) → read env o' n = some v := by
  intro l
  induction l with
  | nil =>
    intro o o' ap ev _ _ h
    simp only [apply, Option.some.injEq, Prod.mk.injEq] at h
    obtain ⟨rfl, -, rfl, rfl⟩ := h
    exact ⟨rfl, fun _ _ => rfl, fun n l1 v l2 e => by simp at e⟩
  | cons a l ih =>
    intro o o' ap ev hs hf h
    rw [apply] at h
    split at h
    · cases h
    · simp at h
    · rename_i o1 ev1 h1
      obtain ⟨-, rfl, h3, -⟩ := call_shape hq fuel hs hf h1
      have h3 := h3 rfl
      subst h3
      obtain ⟨⟨o2, r2, ap2, ev2⟩, h4, h5⟩ := Option.map_eq_some_iff.mp h
      simp only [Prod.mk.injEq] at h5
      obtain ⟨rfl, rfl, rfl, rfl⟩ := h5
      obtain ⟨rfl, e2, e3⟩ := ih _ _ _ _ hs hf h4
      exact ⟨rfl, e2, e3⟩
    · rename_i o1 ev1 h1
      obtain ⟨⟨vs, rfl, hvs⟩, rfl, -, h3⟩ := call_shape hq fuel hs hf h1
      obtain ⟨p, hp⟩ := h3 rfl
      obtain ⟨⟨o2, r2, ap2, ev2⟩, h4, h5⟩ := Option.map_eq_some_iff.mp h
      have hrd : ∃ w, read env { o with values := vs } a.name = some w := by
        unfold read
        have : lookup env { o with values := vs } a.name = some p := hp
        rw [this]
        dsimp only
        rw [hs]
        exact ⟨_, rfl⟩
      obtain ⟨w, hw⟩ := hrd
      simp only [Prod.mk.injEq, hw] at h5
      obtain ⟨rfl, rfl, rfl, rfl⟩ := h5
      obtain ⟨rfl, e2, e3⟩ := ih { o with values := vs } _ _ _ hs hf h4
      refine ⟨rfl, ?_, ?_⟩
      · intro n hn
        have hne : n ≠ a.name := fun e => hn w (by rw [e]; exact List.mem_cons_self)
        rw [e2 n (fun v hv => hn v (List.mem_cons_of_mem _ hv)), read_values hvs hne]
      · intro n l1 v l2 e hl2
        cases l1 with
        | nil =>
          simp only [List.nil_append, List.cons.injEq, Prod.mk.injEq] at e
          obtain ⟨⟨rfl, rfl⟩, rfl⟩ := e
          rw [e2 _ hl2]; exact hw
        | cons x l1 =>
          rw [List.cons_append] at e
          exact e3 n l1 v l2 (List.cons.inj e).2 hl2

/-- **C42** When no handler interferes, a successful outermost `endUpdate` raises at most one event; it lists every property
whose value has changed, and the last entry for a name has its value. -/
theorem C42_event (env : Env V) (hq : Quiet env) (fuel : Nat) (o o' : Obj V) (ev : List (Core V)) (hs : o.stack = [])
    (hf : o.frozen = false) (hc : o.count = 1) (h : step env (fuel + 1) o .endUpdate = some (o', .ok, ev)) :
    (ev = [] ∧ ∀ n, read env o' n = read env o n) ∨
    ∃ l, ev = [.updateEnd l] ∧ (∀ n, read env o' n ≠ read env o n → ∃ v, (n, v) ∈ l) ∧
      ∀ n l1 v l2, l = l1 ++ (n, v) :: l2 → (∀ w, (n, w) ∉ l2) → read env o' n = some v := by
  rw [step, endUpdate, if_neg (by omega), if_neg (by omega)] at h
  split at h
  · cases h
  · simp at h
  · rename_i o1 r1 ap ev1 hne h1
    simp only [Option.some.injEq, Prod.mk.injEq, true_and] at h
    obtain ⟨rfl, rfl⟩ := h
    cases r1 with
    | err e => exact absurd rfl (hne e)
    | ignored =>
      exfalso
      have : ∀ (l : List (Action V)) (o o' : Obj V) ap ev, apply env (fuel + 1) o l ≠ some (o', .ignored, ap, ev) := by
        intro l
        induction l with
        | nil => intro o o' ap ev h; simp [apply] at h
        | cons a l ih =>
          intro o o' ap ev h
          rw [apply] at h
          split at h
          · cases h
          · simp at h
          · obtain ⟨⟨o2, r2, ap2, ev2⟩, h4, h5⟩ := Option.map_eq_some_iff.mp h
            simp only [Prod.mk.injEq] at h5
            obtain ⟨rfl, rfl, rfl, rfl⟩ := h5
            exact ih _ _ _ _ h4
          · obtain ⟨⟨o2, r2, ap2, ev2⟩, h4, h5⟩ := Option.map_eq_some_iff.mp h
            simp only [Prod.mk.injEq] at h5
            obtain ⟨rfl, rfl, -, rfl⟩ := h5
            exact ih _ _ _ _ h4
      exact this _ _ _ _ _ h1
    | ok =>
      obtain ⟨rfl, e2, e3⟩ := apply_events hq fuel o.pending { o with count := 0, pending := [] } _ _ _ hs hf h1
      by_cases hap : ap = []
      · left
        subst hap
        exact ⟨by simp, fun n => e2 n (fun v hv => by cases hv)⟩
      · right
        refine ⟨ap, by simp [hap], fun n hn => ?_, e3⟩
        by_cases hex : ∃ v, (n, v) ∈ ap
        · exact hex
        · exact absurd (e2 n (fun v hv => hex ⟨v, hv⟩)) hn

example : UpdateBlind sampleEnv ∧ depth 0 [Op.set 0 2, .beginUpdate, .set 7 5, .clear 0, .endUpdate, .set 0 4] = some 0 ∧
    (run sampleEnv 10 { locals := [(0, evenUpTo5)] } [.beginUpdate, .set 0 2, .beginUpdate, .set 7 5, .clear 0, .endUpdate, .set 0 4,
      .endUpdate]).map (fun r => (r.1.values, r.2.getLast?)) = some ([(0, 4), (7, 9)], some .ok) := by
  refine ⟨⟨fun _ _ _ _ _ _ => rfl, fun _ _ _ _ _ _ => rfl, fun _ _ _ _ _ _ => rfl⟩, by decide, by decide⟩

example : (step quietEnv 3 { count := 1, pending := [⟨7, some 5, false⟩, ⟨7, some 30, false⟩, ⟨7, none, true⟩, ⟨7, some 20, false⟩] } .endUpdate).map
    (fun r => (read quietEnv r.1 7, r.2.1, r.2.2.map (fun e => match e with | .updateEnd l => l | .changed _ _ => []))) =
    some (some 9, .ok, [[(7, 5), (7, 9), (7, 1), (7, 9)]]) := by decide

/-- **C42 (violation)** When a recorded call fails, the recorded calls after it are lost, although each of them was
accepted. -/
theorem C42_violation_lost :
    (run quietEnv 10 { locals := [(0, evenUpTo5)] } [.beginUpdate, .set 0 3, .set 7 5, .endUpdate]).map
      (fun r => (r.1.values, r.1.pending.length, r.2)) = some ([], 0, [.ok, .ok, .ok, .err .validateFailed]) := by
  decide

end Verif.PropObj
