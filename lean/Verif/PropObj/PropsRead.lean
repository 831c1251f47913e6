import Verif.PropObj.Quiet

/-! # C39: reading -/

namespace Verif.PropObj

variable {V : Type} [DecidableEq V] {env : Env V}

/-- The object is as the user knows it. -/
structure Agrees (env : Env V) (o : Obj V) (r : Ref V) : Prop where
  declared : Declared env o
  sensible : AllSensible env o
  sensibleOwn : ∀ n p, AList.get o.locals n = some p → Sensible env.lt p
  idle : o.count = 0
  stack : o.stack = []
  frozen : o.frozen = r.frozen
  own : ∀ n, r.own n = AList.get o.locals n
  value : ∀ n p, lookup env o n = some p → current o n p = (r.written n).getD p.dflt
  unwritten : ∀ n, lookup env o n = none → r.written n = none

theorem Agrees.isProp {o : Obj V} {r : Ref V} (h : Agrees env o r) (n : Name) (p : PropDef V) :
    r.IsProp env n p ↔ lookup env o n = some p := by
  unfold Ref.IsProp lookup
  rw [h.own]
  cases hg : AList.get o.locals n with
  | some q => simp
  | none => simp [get_reverse_iff]

theorem Agrees.noProp {o : Obj V} {r : Ref V} (h : Agrees env o r) (n : Name) :
    (∀ p, ¬ r.IsProp env n p) ↔ lookup env o n = none := by
  constructor
  · intro hn
    cases hl : lookup env o n with
    | none => rfl
    | some p => exact absurd ((h.isProp n p).mpr hl) (hn p)
  · intro hl p hp
    rw [h.isProp, hl] at hp; cases hp

theorem current_put (o : Obj V) (n m : Name) (p : PropDef V) (w : V) :
    current { o with values := AList.put o.values n w } m p = if m = n then w else current o m p := by
  unfold current
  dsimp only
  rw [AList.get_put]
  by_cases e : m = n <;> simp [e]

theorem current_del (o : Obj V) (n m : Name) (p : PropDef V) :
    current { o with values := AList.del o.values n } m p = if m = n then p.dflt else current o m p := by
  unfold current
  dsimp only
  rw [AList.get_del]
  by_cases e : m = n <;> simp [e]

/-- Values change, and the rest stays. -/
theorem Agrees.values {o : Obj V} {r : Ref V} (h : Agrees env o r) {vs : AList Name V} {wr : Name → Option V}
    (hd : Declared env { o with values := vs })
    (hv : ∀ n p, lookup env o n = some p → current { o with values := vs } n p = (wr n).getD p.dflt)
    (hu : ∀ n, lookup env o n = none → wr n = none) : Agrees env { o with values := vs } { r with written := wr } :=
  ⟨hd, h.sensible, h.sensibleOwn, h.idle, h.stack, h.frozen, h.own, hv, hu⟩

theorem agrees_set {o : Obj V} {r : Ref V} (hq : Quiet env) (h : Agrees env o r) (hf : o.frozen = false) (n : Name) (v : V) (prot : Bool)
    (hd : ∀ o' res ev, call env 1 o ⟨n, some v, prot, false, false⟩ = some (o', res, ev) → Declared env o') (fuel : Nat) :
    ∃ o' res ev r', call env (fuel + 1) o ⟨n, some v, prot, false, false⟩ = some (o', res, ev) ∧ r.SetTo env n v prot res r' ∧
      Agrees env o' r' := by
  have hs : AList.get o.stack n = none := by rw [h.stack]; rfl
  rw [set_quiet hq 0 hs hf] at hd
  rw [set_quiet hq fuel hs hf]
  cases hl : lookup env o n with
  | none =>
    refine ⟨o, _, _, r, rfl, ⟨fun _ => ⟨rfl, rfl⟩, fun p hp => ?_⟩, h⟩
    rw [h.isProp, hl] at hp; cases hp
  | some p =>
    rw [hl] at hd
    dsimp only at hd ⊢
    have only : ∀ q, r.IsProp env n q → q = p := fun q hp => by rw [h.isProp, hl] at hp; exact (Option.some.inj hp).symm
    have some' : ¬ ∀ q, ¬ r.IsProp env n q := by rw [h.noProp, hl]; simp
    by_cases hro : (!prot && p.readOnly) = true
    · rw [if_pos hro]
      refine ⟨o, _, _, r, rfl, ⟨fun hn => absurd hn some', fun q hq' => ?_⟩, h⟩
      rw [only q hq']
      simp only [Bool.and_eq_true, Bool.not_eq_true'] at hro
      refine ⟨fun _ _ => ⟨rfl, rfl⟩, ?_⟩
      rintro (h1 | h1)
      · rw [hro.2] at h1; cases h1
      · rw [hro.1] at h1; cases h1
    · rw [if_neg hro] at hd ⊢
      have hno : ¬ (p.readOnly = true ∧ prot = false) := by
        rintro ⟨h1, h2⟩; apply hro; rw [h1, h2]; rfl
      cases hp : process env p v with
      | error e =>
        dsimp only
        refine ⟨o, _, _, r, rfl, ⟨fun hn => absurd hn some', fun q hq' => ?_⟩, h⟩
        rw [only q hq']
        refine ⟨fun h1 h2 => absurd ⟨h1, h2⟩ hno, fun _ => ⟨fun w hw => ?_, fun _ => ⟨⟨_, rfl⟩, rfl⟩⟩⟩
        rw [← process_iff (h.sensible n p hl), hp] at hw; cases hw
      | ok w =>
        rw [hp] at hd
        dsimp only at hd ⊢
        have hset : r.SetTo env n v prot .ok (r.write n (some w)) := by
          refine ⟨fun hn => absurd hn some', fun q hq' => ?_⟩
          rw [only q hq']
          refine ⟨fun h1 h2 => absurd ⟨h1, h2⟩ hno, fun _ => ⟨fun w' hw => ?_, fun hn => ?_⟩⟩
          · rw [← process_iff (h.sensible n p hl), hp] at hw
            cases hw
            exact ⟨rfl, rfl⟩
          · exact absurd ((process_iff (h.sensible n p hl) v w).mp hp) (hn w)
        have hu : ∀ m, lookup env o m = none → (if m = n then some w else r.written m) = none := by
          intro m hm
          by_cases e : m = n
          · rw [e, hl] at hm; cases hm
          · rw [if_neg e]; exact h.unwritten m hm
        by_cases hc : current o n p = w
        · rw [if_pos hc]
          refine ⟨o, _, _, _, rfl, hset, ?_⟩
          refine Agrees.values (o := o) (vs := o.values) h h.declared (fun m q hm => ?_) hu
          by_cases e : m = n
          · subst e
            rw [hl] at hm
            cases hm
            simpa using hc
          · simpa [e] using h.value m q hm
        · rw [if_neg hc] at hd ⊢
          refine ⟨_, _, _, _, rfl, hset, ?_⟩
          refine Agrees.values h (hd _ _ _ rfl) (fun m q hm => ?_) hu
          rw [current_put]
          by_cases e : m = n
          · simp [e]
          · simpa [e] using h.value m q hm

theorem agrees_clear {o : Obj V} {r : Ref V} (hq : Quiet env) (h : Agrees env o r) (hf : o.frozen = false) (n : Name) (prot : Bool)
    (hd : ∀ o' res ev, call env 1 o ⟨n, none, prot, false, false⟩ = some (o', res, ev) → Declared env o') (fuel : Nat) :
    ∃ o' res ev r', call env (fuel + 1) o ⟨n, none, prot, false, false⟩ = some (o', res, ev) ∧ r.Cleared env n prot res r' ∧
      Agrees env o' r' := by
  have hs : AList.get o.stack n = none := by rw [h.stack]; rfl
  rw [clear_quiet hq 0 hs hf] at hd
  rw [clear_quiet hq fuel hs hf]
  cases hl : lookup env o n with
  | none =>
    refine ⟨o, _, _, r, rfl, ⟨fun _ => ⟨rfl, rfl⟩, fun p hp => ?_⟩, h⟩
    rw [h.isProp, hl] at hp; cases hp
  | some p =>
    rw [hl] at hd
    dsimp only at hd ⊢
    have only : ∀ q, r.IsProp env n q → q = p := fun q hp => by rw [h.isProp, hl] at hp; exact (Option.some.inj hp).symm
    have some' : ¬ ∀ q, ¬ r.IsProp env n q := by rw [h.noProp, hl]; simp
    by_cases hro : (!prot && p.readOnly) = true
    · rw [if_pos hro]
      refine ⟨o, _, _, r, rfl, ⟨fun hn => absurd hn some', fun q hq' => ?_⟩, h⟩
      rw [only q hq']
      simp only [Bool.and_eq_true, Bool.not_eq_true'] at hro
      refine ⟨fun _ _ => ⟨rfl, rfl⟩, ?_⟩
      rintro (h1 | h1)
      · rw [hro.2] at h1; cases h1
      · rw [hro.1] at h1; cases h1
    · rw [if_neg hro] at hd ⊢
      have hno : ¬ (p.readOnly = true ∧ prot = false) := by
        rintro ⟨h1, h2⟩; apply hro; rw [h1, h2]; rfl
      have hu : ∀ m, lookup env o m = none → (if m = n then none else r.written m) = none := by
        intro m hm
        by_cases e : m = n
        · rw [if_pos e]
        · rw [if_neg e]; exact h.unwritten m hm
      by_cases hc : (AList.get o.values n).isNone = true
      · rw [if_pos hc]
        refine ⟨o, _, _, _, rfl, ⟨fun hn => absurd hn some', fun q hq' => ?_⟩,
          Agrees.values (o := o) (vs := o.values) h h.declared (fun m q hm => ?_) hu⟩
        · rw [only q hq']
          exact ⟨fun h1 h2 => absurd ⟨h1, h2⟩ hno, fun _ => ⟨.inr rfl, rfl⟩⟩
        · by_cases e : m = n
          · subst e
            have : AList.get o.values m = none := by simpa using hc
            simp [current, this]
          · simpa [e] using h.value m q hm
      · rw [if_neg hc] at hd ⊢
        refine ⟨_, _, _, _, rfl, ⟨fun hn => absurd hn some', fun q hq' => ?_⟩,
          Agrees.values h (hd _ _ _ rfl) (fun m q hm => ?_) hu⟩
        · rw [only q hq']
          exact ⟨fun h1 h2 => absurd ⟨h1, h2⟩ hno, fun _ => ⟨.inl rfl, rfl⟩⟩
        · rw [current_del]
          by_cases e : m = n
          · simp [e]
          · simpa [e] using h.value m q hm

theorem agrees_step {o : Obj V} {r : Ref V} (hq : Quiet env) (h : Agrees env o r) (op : Op V) (hsi : IsSingle op)
    (hsh : NoShadow env op) (hse : AddsSensible env op) (fuel : Nat) :
    ∃ o' res ev r', step env (fuel + 1) o op = some (o', res, ev) ∧ r.Step env op res r' ∧ Agrees env o' r' := by
  by_cases hf : o.frozen = true
  · have hr : r.frozen = true := h.frozen ▸ hf
    have : ∃ res ev, step env (fuel + 1) o op = some (o, res, ev) ∧ (res = .err .frozen ∨ op = .freeze) := by
      cases op <;> simp [step, call, callStep, hf, IsSingle] at hsi ⊢
    obtain ⟨res, ev, h1, h2⟩ := this
    exact ⟨o, res, ev, r, h1, by unfold Ref.Step; rw [if_pos hr]; exact ⟨rfl, h2⟩, h⟩
  · have hf : o.frozen = false := by simpa using hf
    have hr : ¬ r.frozen = true := by rw [← h.frozen, hf]; simp
    have hcount : decide (o.count > 0) = false := by rw [h.idle]; rfl
    unfold Ref.Step
    simp only [if_neg hr]
    cases op with
    | set n v =>
      simp only [step, hcount]
      exact agrees_set hq h hf n v false (fun o' res ev hh =>
        declared_step (fuel := 1) (op := .set n v) h.declared trivial (by simp only [step, hcount]; exact hh)) fuel
    | setProtected n v =>
      simp only [step, hcount]
      exact agrees_set hq h hf n v true (fun o' res ev hh =>
        declared_step (fuel := 1) (op := .setProtected n v) h.declared trivial (by simp only [step, hcount]; exact hh)) fuel
    | clear n =>
      simp only [step, hcount]
      exact agrees_clear hq h hf n false (fun o' res ev hh =>
        declared_step (fuel := 1) (op := .clear n) h.declared trivial (by simp only [step, hcount]; exact hh)) fuel
    | clearProtected n =>
      simp only [step, hcount]
      exact agrees_clear hq h hf n true (fun o' res ev hh =>
        declared_step (fuel := 1) (op := .clearProtected n) h.declared trivial (by simp only [step, hcount]; exact hh)) fuel
    | clearAll => exact absurd hsi (fun h => h)
    | beginUpdate => exact absurd hsi (fun h => h)
    | endUpdate => exact absurd hsi (fun h => h)
    | addProperty n p =>
      have hdd : ∀ o' res ev, step env 1 o (.addProperty n p) = some (o', res, ev) → Declared env o' :=
        fun o' res ev hh => declared_step h.declared hsh hh
      rw [step, if_neg (by rw [hf]; simp)] at hdd
      rw [step, if_neg (by rw [hf]; simp)]
      dsimp only
      rw [h.own]
      by_cases hg : (AList.get o.locals n).isSome = true
      · rw [if_pos hg]; exact ⟨o, _, _, r, rfl, by rw [if_pos hg]; exact ⟨rfl, rfl⟩, h⟩
      · rw [if_neg hg] at hdd ⊢
        have hg' : AList.get o.locals n = none := by simpa using hg
        have hln : lookup env o n = none := by
          unfold lookup; rw [hg']; exact (get_reverse_none env.cls n).mpr hsh
        have hget : ∀ m, AList.get (o.locals ++ [(n, p)]) m = if m = n then some p else AList.get o.locals m := by
          intro m
          unfold AList.get at hg' ⊢
          rw [List.lookup_append]
          by_cases e : m = n
          · subst e; rw [hg']; simp [List.lookup_cons]
          · cases List.lookup m o.locals <;> simp [e, List.lookup_cons, beq_false_of_ne e]
        refine ⟨_, _, _, { r with own := fun m => if m = n then some p else r.own m }, rfl, by rw [if_neg hg]; exact ⟨rfl, rfl⟩,
          hdd _ _ _ rfl, ?_, ?_, h.idle, h.stack, h.frozen, ?_, ?_, ?_⟩
        · intro m q hm
          by_cases e : m = n
          · subst e
            unfold lookup at hm
            rw [hget, if_pos rfl] at hm
            cases hm
            exact hse
          · rw [lookup_add e] at hm; exact h.sensible m q hm
        · intro m q hm
          rw [hget] at hm
          by_cases e : m = n
          · rw [if_pos e] at hm; cases hm; exact hse
          · rw [if_neg e] at hm; exact h.sensibleOwn m q hm
        · intro m
          rw [hget, ← h.own]
        · intro m q hm
          by_cases e : m = n
          · subst e
            unfold lookup at hm
            rw [hget, if_pos rfl] at hm
            cases hm
            have hv : AList.get o.values m = none := by
              cases hv : AList.get o.values m with
              | none => rfl
              | some w =>
                obtain ⟨p', v', hp', -⟩ := h.declared.stored m w hv
                rw [hln] at hp'; cases hp'
            dsimp only
            rw [h.unwritten m hln]
            unfold current
            dsimp only
            rw [hv]
          · rw [lookup_add e] at hm; exact h.value m q hm
        · intro m hm
          by_cases e : m = n
          · subst e; exact h.unwritten m hln
          · rw [lookup_add e] at hm; exact h.unwritten m hm
    | removeProperty n =>
      have hdd : ∀ o' res ev, step env 1 o (.removeProperty n) = some (o', res, ev) → Declared env o' :=
        fun o' res ev hh => declared_step h.declared hsh hh
      rw [step, if_neg (by rw [hf]; simp)] at hdd
      rw [step, if_neg (by rw [hf]; simp)]
      dsimp only
      rw [h.own]
      by_cases hg : (AList.get o.locals n).isNone = true
      · rw [if_pos hg]; exact ⟨o, _, _, r, rfl, by rw [if_pos hg]; exact ⟨rfl, rfl⟩, h⟩
      · rw [if_neg hg] at hdd ⊢
        have hcls : ∀ p, (n, p) ∉ env.cls := h.declared.apart n (by
          cases hx : AList.get o.locals n with
          | none => rw [hx] at hg; simp at hg
          | some q => rfl)
        have hlk : ∀ m, lookup env { o with locals := AList.del o.locals n, values := AList.del o.values n } m =
            if m = n then none else lookup env o m := by
          intro m
          unfold lookup
          dsimp only
          rw [AList.get_del]
          by_cases e : m = n
          · subst e; simp [(get_reverse_none env.cls m).mpr hcls]
          · simp [e]
        refine ⟨_, _, _, { r with own := fun m => if m = n then none else r.own m, written := (r.write n none).written }, rfl,
          by rw [if_neg hg]; exact ⟨rfl, rfl⟩, hdd _ _ _ rfl, ?_, ?_, h.idle, h.stack, h.frozen, ?_, ?_, ?_⟩
        · intro m q hm
          rw [hlk] at hm
          by_cases e : m = n
          · rw [if_pos e] at hm; cases hm
          · rw [if_neg e] at hm; exact h.sensible m q hm
        · intro m q hm
          dsimp only at hm
          rw [AList.get_del] at hm
          by_cases e : m = n
          · rw [if_pos e] at hm; cases hm
          · rw [if_neg e] at hm; exact h.sensibleOwn m q hm
        · intro m
          dsimp only
          rw [AList.get_del, ← h.own]
        · intro m q hm
          rw [hlk] at hm
          by_cases e : m = n
          · rw [if_pos e] at hm; cases hm
          · rw [if_neg e] at hm
            have hv := h.value m q hm
            unfold current at hv ⊢
            dsimp only [Ref.write]
            rw [AList.get_del, if_neg e, if_neg e, hv]
        · intro m hm
          dsimp only [Ref.write]
          by_cases e : m = n
          · rw [if_pos e]
          · rw [hlk, if_neg e] at hm; rw [if_neg e]; exact h.unwritten m hm
    | setOrder l =>
      rw [step, if_neg (by rw [hf]; simp)]
      exact ⟨_, _, _, r, rfl, ⟨rfl, rfl⟩, ⟨⟨h.declared.distinct, h.declared.apart, h.declared.stored⟩, h.sensible, h.sensibleOwn, h.idle, h.stack,
        h.frozen, h.own, h.value, h.unwritten⟩⟩
    | freeze =>
      rw [step, if_neg (by rw [hf]; simp)]
      exact ⟨_, _, _, _, rfl, ⟨rfl, rfl⟩, ⟨⟨h.declared.distinct, h.declared.apart, h.declared.stored⟩, h.sensible, h.sensibleOwn, h.idle, h.stack,
        rfl, h.own, h.value, h.unwritten⟩⟩

theorem agrees_run (hq : Quiet env) (fuel : Nat) : ∀ (ops : List (Op V)) (o : Obj V) (r : Ref V), Agrees env o r →
    (∀ op ∈ ops, IsSingle op ∧ NoShadow env op ∧ AddsSensible env op) →
    ∃ o' rs r', run env (fuel + 1) o ops = some (o', rs) ∧ Ref.Run env r ops rs r' ∧ Agrees env o' r' := by
  intro ops
  induction ops with
  | nil => intro o r h _; exact ⟨o, [], r, rfl, .nil r, h⟩
  | cons op ops ih =>
    intro o r h hok
    obtain ⟨h1, h2, h3⟩ := hok op List.mem_cons_self
    obtain ⟨o1, res, ev, r1, hst, hrs, ha⟩ := agrees_step hq h op h1 h2 h3 fuel
    obtain ⟨o2, rs, r2, hru, hrr, ha2⟩ := ih o1 r1 ha (fun op h => hok op (List.mem_cons_of_mem _ h))
    refine ⟨o2, res :: rs, r2, ?_, .cons _ _ _ _ _ _ _ hrs hrr, ha2⟩
    rw [run, hst]
    dsimp only
    rw [hru]
    rfl

/-- **C39** When no handler interferes: every history of sets, clears, added and removed properties, custom orders and
freezing has the specified results, and reading a property returns the last value that was accepted since the last clear,
or the default value; a name that is no property cannot be read. In particular a refused call changes nothing. -/
theorem C39_read (env : Env V) (hq : Quiet env) (hcls : ∀ e ∈ env.cls, Sensible env.lt e.2) (fuel : Nat) (ops : List (Op V))
    (hok : ∀ op ∈ ops, IsSingle op ∧ NoShadow env op ∧ AddsSensible env op) :
    ∃ o rs r, run env (fuel + 1) {} ops = some (o, rs) ∧ Ref.Run env {} ops rs r ∧
      (∀ n p, r.IsProp env n p → read env o n = some ((r.written n).getD p.dflt)) ∧
      (∀ n, (∀ p, ¬ r.IsProp env n p) → read env o n = none) := by
  have h0 : Agrees env ({} : Obj V) ({} : Ref V) := by
    refine ⟨declared_init env, ?_, (fun _ _ h => by cases h), rfl, rfl, rfl, fun _ => rfl, fun _ _ _ => rfl, fun _ _ => rfl⟩
    intro n p hp
    obtain ⟨l1, l2, e, -⟩ := (get_reverse_iff _ _ _).mp hp
    exact hcls (n, p) (by rw [e]; simp)
  obtain ⟨o, rs, r, h1, h2, h3⟩ := agrees_run hq fuel ops {} {} h0 hok
  refine ⟨o, rs, r, h1, h2, fun n p hp => ?_, fun n hn => ?_⟩
  · have hl := (h3.isProp n p).mp hp
    unfold read
    rw [hl, h3.stack]
    simpa using h3.value n p hl
  · unfold read
    rw [(h3.noProp n).mp hn]

def quietEnv : Env Nat := { lt := fun a b => decide (a < b), cls := [(7, { dflt := 1, max := some 9 })] }

def quietOps : List (Op Nat) :=
  [.addProperty 0 evenUpTo5, .addProperty 1 { dflt := 3, readOnly := true }, .set 0 4, .set 0 7, .set 1 8, .setProtected 1 8,
   .set 7 20, .clear 0, .removeProperty 1, .set 1 5, .freeze, .set 7 1]

example : Quiet quietEnv ∧ (∀ op ∈ quietOps, IsSingle op ∧ NoShadow quietEnv op ∧ AddsSensible quietEnv op) ∧
    (run quietEnv 1 {} quietOps).map (fun r => (read quietEnv r.1 0, read quietEnv r.1 1, read quietEnv r.1 7, r.2)) =
      some (some 0, none, some 9, [.ok, .ok, .ok, .err .validateFailed, .err .accessDenied, .ok, .ok, .ok, .ok, .err .notFound, .ok,
        .err .frozen]) := by
  refine ⟨⟨fun _ _ _ _ _ => rfl, fun _ _ _ _ _ => rfl, fun _ _ _ _ _ => rfl⟩, ?_, by decide⟩
  simp [quietOps, IsSingle, NoShadow, AddsSensible, Sensible, quietEnv, evenUpTo5]

/-- **C39 (violation)** `clearPropertyValues` leaves the values of properties of the class. -/
theorem C39_violation_clearAll :
    (run quietEnv 10 {} [.set 7 6, .clearAll]).map (fun r => (read quietEnv r.1 7, r.2)) = some (some 6, [.ok, .ok]) := by
  decide

end Verif.PropObj
