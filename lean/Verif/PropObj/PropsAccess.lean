import Verif.PropObj.Basics

/-! # C40 and C41: stored values satisfy the constraints; read-only properties and frozen objects -/

namespace Verif.PropObj

variable {V : Type} [DecidableEq V]

/-- The names of the local properties are different. -/
def Distinct (o : Obj V) : Prop := (o.locals.map (·.1)).Nodup

/-- What holds after each call holds at the end. -/
theorem run_inv {env : Env V} {fuel : Nat} {P : Obj V → Prop} {ok : Op V → Prop}
    (hstep : ∀ o op o' r ev, P o → ok op → step env fuel o op = some (o', r, ev) → P o') :
    ∀ (ops : List (Op V)) (o o' : Obj V) (rs : List Res), (∀ op ∈ ops, ok op) → P o → run env fuel o ops = some (o', rs) → P o' := by
  intro ops
  induction ops with
  | nil => intro o o' rs _ hP h; simp only [run, Option.some.injEq, Prod.mk.injEq] at h; rw [← h.1]; exact hP
  | cons op ops ih =>
    intro o o' rs hok hP h
    rw [run] at h
    split at h
    · cases h
    · rename_i o1 r ev h1
      obtain ⟨⟨o2, rs2⟩, h2, h3⟩ := Option.map_eq_some_iff.mp h
      simp only [Prod.mk.injEq] at h3
      rw [← h3.1]
      exact ih o1 o2 rs2 (fun op h => hok op (List.mem_cons_of_mem _ h)) (hstep o op o1 r ev hP (hok op List.mem_cons_self) h1) h2

/-- A relation that a call preserves, however it is composed. -/
theorem step_cases {env : Env V} {fuel : Nat} {A : Name → Prop} {R : Obj V → Obj V → Prop} {o o' : Obj V} {op : Op V} {r ev}
    (hc : Closed env o.locals A R) (hpend : ∀ a ∈ o.pending, a.prot = true → A a.name) (hpub : ¬ IsPublic op → ∀ n, A n)
    (h : step env fuel o op = some (o', r, ev)) :
    (R o o' ∧ Fixed o o') ∨
    (∃ n p, op = .addProperty n p ∧ o.frozen = false ∧ AList.get o.locals n = none ∧ o' = { o with locals := o.locals ++ [(n, p)] }) ∨
    (∃ n, op = .removeProperty n ∧ o.frozen = false ∧ (AList.get o.locals n).isSome = true ∧
      o' = { o with locals := AList.del o.locals n, values := AList.del o.values n }) ∨
    (∃ l, o' = { o with order := l }) ∨ (∃ c, o' = { o with count := c }) ∨ o' = { o with frozen := true } ∨
    (o.count = 1 ∧ R { o with count := 0, pending := [] } o' ∧ Fixed { o with count := 0, pending := [] } o') := by
  have hcall : ∀ (n : Name) (v : Option V) (pr : Bool), (pr = true → A n) →
      call env fuel o ⟨n, v, pr, decide (o.count > 0), false⟩ = some (o', r, ev) → R o o' ∧ Fixed o o' := by
    intro n v pr hA h
    exact good_call hc fuel o _ o' r ev rfl (fun h => of_decide_eq_true h) hA h
  cases op with
  | set n v => exact .inl (hcall n (some v) false (fun h => by cases h) h)
  | setProtected n v => exact .inl (hcall n (some v) true (fun _ => hpub (fun h => h) n) h)
  | clear n => exact .inl (hcall n none false (fun h => by cases h) h)
  | clearProtected n => exact .inl (hcall n none true (fun _ => hpub (fun h => h) n) h)
  | clearAll =>
    simp only [step] at h
    split at h
    · simp only [Option.some.injEq, Prod.mk.injEq] at h
      rw [← h.1]; exact .inl ⟨hc.refl o, .refl o⟩
    · exact .inl (good_clearLoop hc fuel _ o o' r ev rfl h)
  | addProperty n p =>
    simp only [step] at h
    split at h
    · simp only [Option.some.injEq, Prod.mk.injEq] at h
      rw [← h.1]; exact .inl ⟨hc.refl o, .refl o⟩
    · rename_i hf
      split at h
      · simp only [Option.some.injEq, Prod.mk.injEq] at h
        rw [← h.1]; exact .inl ⟨hc.refl o, .refl o⟩
      · rename_i hn
        simp only [Option.some.injEq, Prod.mk.injEq] at h
        exact .inr (.inl ⟨n, p, rfl, by simpa using hf, by simpa using hn, h.1.symm⟩)
  | removeProperty n =>
    simp only [step] at h
    split at h
    · simp only [Option.some.injEq, Prod.mk.injEq] at h
      rw [← h.1]; exact .inl ⟨hc.refl o, .refl o⟩
    · rename_i hf
      split at h
      · simp only [Option.some.injEq, Prod.mk.injEq] at h
        rw [← h.1]; exact .inl ⟨hc.refl o, .refl o⟩
      · rename_i hn
        simp only [Option.some.injEq, Prod.mk.injEq] at h
        refine .inr (.inr (.inl ⟨n, rfl, by simpa using hf, ?_, h.1.symm⟩))
        cases hg : AList.get o.locals n with
        | none => rw [hg] at hn; simp at hn
        | some q => rfl
  | setOrder l =>
    simp only [step] at h
    split at h
    · simp only [Option.some.injEq, Prod.mk.injEq] at h
      rw [← h.1]; exact .inl ⟨hc.refl o, .refl o⟩
    · simp only [Option.some.injEq, Prod.mk.injEq] at h
      exact .inr (.inr (.inr (.inl ⟨l, h.1.symm⟩)))
  | beginUpdate =>
    simp only [step] at h
    split at h
    · simp only [Option.some.injEq, Prod.mk.injEq] at h
      rw [← h.1]; exact .inl ⟨hc.refl o, .refl o⟩
    · simp only [Option.some.injEq, Prod.mk.injEq] at h
      exact .inr (.inr (.inr (.inr (.inl ⟨_, h.1.symm⟩))))
  | endUpdate =>
    rcases good_endUpdate hc fuel rfl hpend h with e | e | e
    · rw [e]; exact .inl ⟨hc.refl o, .refl o⟩
    · exact .inr (.inr (.inr (.inr (.inl ⟨_, e⟩))))
    · exact .inr (.inr (.inr (.inr (.inr (.inr e)))))
  | freeze =>
    simp only [step] at h
    split at h
    · simp only [Option.some.injEq, Prod.mk.injEq] at h
      rw [← h.1]; exact .inl ⟨hc.refl o, .refl o⟩
    · simp only [Option.some.injEq, Prod.mk.injEq] at h
      exact .inr (.inr (.inr (.inr (.inr (.inl h.1.symm)))))

/-- Nothing is remembered about the change. -/
theorem closed_true (env : Env V) (L : AList Name (PropDef V)) : Closed env L (fun _ => True) (fun _ _ => True) :=
  ⟨fun _ => trivial, fun _ _ _ _ _ => trivial, fun _ _ _ _ _ => trivial, fun _ _ _ _ _ _ => trivial,
    fun _ _ _ _ _ _ _ _ _ _ => trivial, fun _ _ _ _ _ => trivial, fun _ _ _ _ _ _ => trivial⟩

theorem keys_del {β : Type} (l : AList Name β) (n : Name) (h : (l.map (·.1)).Nodup) : ((AList.del l n).map (·.1)).Nodup :=
  List.Nodup.sublist (List.Sublist.map _ List.filter_sublist) h

theorem keys_append {β : Type} {l : AList Name β} {n : Name} {b : β} (h : (l.map (·.1)).Nodup) (hn : AList.get l n = none) :
    ((l ++ [(n, b)]).map (·.1)).Nodup := by
  rw [List.map_append, List.nodup_append]
  refine ⟨h, by simp, ?_⟩
  intro a ha b' hb
  simp only [List.map_cons, List.map_nil, List.mem_singleton] at hb
  rintro rfl
  obtain ⟨⟨k, q⟩, hm, e⟩ := List.mem_map.mp ha
  dsimp only at e
  subst e; subst hb
  exact (get_none_iff l _).mp hn q hm

theorem distinct_step {env : Env V} {fuel : Nat} {o o' : Obj V} {op : Op V} {r ev} (hd : Distinct o)
    (h : step env fuel o op = some (o', r, ev)) : Distinct o' := by
  rcases step_cases (closed_true env o.locals) (fun _ _ _ => trivial) (fun _ _ => trivial) h with
    ⟨-, h⟩ | ⟨n, p, -, -, hn, rfl⟩ | ⟨n, -, -, -, rfl⟩ | ⟨l, rfl⟩ | ⟨c, rfl⟩ | rfl | ⟨-, -, h⟩
  · unfold Distinct; rw [h.locals]; exact hd
  · exact keys_append hd hn
  · exact keys_del _ _ hd
  · exact hd
  · exact hd
  · exact hd
  · unfold Distinct; rw [h.locals]; exact hd

/-! ## C40 -/

/-- Every stored value is one that writing to its property yields. -/
def Stored (env : Env V) (o : Obj V) : Prop :=
  ∀ n w, AList.get o.values n = some w → ∃ p v, lookup env o n = some p ∧ process env p v = .ok w

theorem closed_stored (env : Env V) (L : AList Name (PropDef V)) :
    Closed env L (fun _ => True) (fun o o' => (o.locals = L → Stored env o → Stored env o') ∧ (o.locals = L → o'.locals = L)) := by
  refine ⟨fun o => ⟨fun _ h => h, fun h => h⟩, fun a b c h h' => ⟨fun hl hs => h'.1 (h.2 hl) (h.1 hl hs), fun hl => h'.2 (h.2 hl)⟩,
    fun o s n _ _ => ⟨fun _ h => h, fun h => h⟩, fun o a _ _ _ _ => ⟨fun _ h => h, fun h => h⟩, ?_, ?_, fun _ _ _ _ _ _ => trivial⟩
  · intro o n p v w hL _ _ hp hw
    refine ⟨fun _ hs m x hm => ?_, fun h => h⟩
    rw [AList.get_put] at hm
    by_cases e : m = n
    · subst e
      rw [if_pos rfl] at hm
      cases hm
      exact ⟨p, v, hp, hw⟩
    · rw [if_neg e] at hm
      exact hs m x hm
  · intro o n _ _ _
    refine ⟨fun _ hs m x hm => ?_, fun h => h⟩
    rw [AList.get_del] at hm
    by_cases e : m = n
    · rw [if_pos e] at hm; cases hm
    · rw [if_neg e] at hm
      exact hs m x hm

theorem stored_step {env : Env V} {fuel : Nat} {o o' : Obj V} {op : Op V} {r ev} (hd : Distinct o) (hs : Stored env o)
    (hn : NoShadow env op) (hc : ∀ n, (AList.get o.locals n).isSome = true → ∀ p, (n, p) ∉ env.cls)
    (h : step env fuel o op = some (o', r, ev)) : Stored env o' := by
  rcases step_cases (closed_stored env o.locals) (fun _ _ _ => trivial) (fun _ _ => trivial) h with
    ⟨h, -⟩ | ⟨n, p, rfl, -, hn', rfl⟩ | ⟨n, -, -, hn', rfl⟩ | ⟨l, rfl⟩ | ⟨c, rfl⟩ | rfl | ⟨-, h, -⟩
  · exact h.1 rfl hs
  · intro m w hm
    obtain ⟨q, v, hq, hv⟩ := hs m w hm
    refine ⟨q, v, ?_, hv⟩
    unfold lookup at hq ⊢
    dsimp only
    by_cases e : m = n
    · subst e
      rw [hn'] at hq
      rw [(get_reverse_none env.cls m).mpr hn] at hq
      cases hq
    · have : AList.get (o.locals ++ [(n, p)]) m = AList.get o.locals m := by
        unfold AList.get
        rw [List.lookup_append]
        cases List.lookup m o.locals with
        | some _ => rfl
        | none => simp [List.lookup_cons, beq_false_of_ne e]
      rw [this]; exact hq
  · intro m w hm
    dsimp only at hm
    rw [AList.get_del] at hm
    by_cases e : m = n
    · rw [if_pos e] at hm; cases hm
    · rw [if_neg e] at hm
      obtain ⟨q, v, hq, hv⟩ := hs m w hm
      refine ⟨q, v, ?_, hv⟩
      unfold lookup at hq ⊢
      dsimp only
      rw [AList.get_del, if_neg e]
      exact hq
  · exact hs
  · exact hs
  · exact hs
  · exact h.1 rfl hs

/-- Locals are not properties of the class and have sensible limits. -/
structure Declared (env : Env V) (o : Obj V) : Prop where
  distinct : Distinct o
  apart : ∀ n, (AList.get o.locals n).isSome = true → ∀ p, (n, p) ∉ env.cls
  stored : Stored env o

theorem declared_step {env : Env V} {fuel : Nat} {o o' : Obj V} {op : Op V} {r ev} (hd : Declared env o) (hn : NoShadow env op)
    (h : step env fuel o op = some (o', r, ev)) : Declared env o' := by
  refine ⟨distinct_step hd.distinct h, ?_, stored_step hd.distinct hd.stored hn hd.apart h⟩
  rcases step_cases (closed_true env o.locals) (fun _ _ _ => trivial) (fun _ _ => trivial) h with
    ⟨-, h⟩ | ⟨n, p, rfl, -, hn', rfl⟩ | ⟨n, -, -, hn', rfl⟩ | ⟨l, rfl⟩ | ⟨c, rfl⟩ | rfl | ⟨-, -, h⟩
  · rw [h.locals]; exact hd.apart
  · intro m hm
    rw [AList.get_isSome_iff_mem_keys, List.map_append, List.mem_append] at hm
    rcases hm with hm | hm
    · exact hd.apart m ((AList.get_isSome_iff_mem_keys _ _).mpr hm)
    · simp at hm; subst hm; exact hn
  · intro m hm
    dsimp only at hm
    rw [AList.get_del] at hm
    by_cases e : m = n
    · rw [if_pos e] at hm; cases hm
    · rw [if_neg e] at hm; exact hd.apart m hm
  · exact hd.apart
  · exact hd.apart
  · exact hd.apart
  · rw [h.locals]; exact hd.apart

theorem declared_init (env : Env V) : Declared env {} :=
  ⟨List.nodup_nil, (fun _ h => by cases h), (fun _ _ h => by cases h)⟩

theorem declared_run {env : Env V} {fuel : Nat} {ops : List (Op V)} {o : Obj V} {rs} (hn : ∀ op ∈ ops, NoShadow env op)
    (h : run env fuel {} ops = some (o, rs)) : Declared env o :=
  run_inv (fun _ _ _ _ _ => declared_step) ops {} o rs hn (declared_init env) h

/-- The limits of all properties make sense. -/
def AllSensible (env : Env V) (o : Obj V) : Prop := ∀ n p, lookup env o n = some p → Sensible env.lt p

theorem sensible_run {env : Env V} {fuel : Nat} {ops : List (Op V)} {o : Obj V} {rs} (hcls : ∀ e ∈ env.cls, Sensible env.lt e.2)
    (hn : ∀ op ∈ ops, AddsSensible env op) (h : run env fuel {} ops = some (o, rs)) : AllSensible env o := by
  have key : ∀ e ∈ o.locals, Sensible env.lt e.2 := by
    refine run_inv (P := fun o : Obj V => ∀ e ∈ o.locals, Sensible env.lt e.2) ?_ ops {} o rs hn (fun e h => by cases h) h
    intro o op o' r ev hP hok h
    rcases step_cases (closed_true env o.locals) (fun _ _ _ => trivial) (fun _ _ => trivial) h with
      ⟨-, h⟩ | ⟨n, p, rfl, -, hn', rfl⟩ | ⟨n, -, -, hn', rfl⟩ | ⟨l, rfl⟩ | ⟨c, rfl⟩ | rfl | ⟨-, -, h⟩
    · rw [h.locals]; exact hP
    · intro e he
      rcases List.mem_append.mp he with he | he
      · exact hP e he
      · simp at he; subst he; exact hok
    · intro e he; exact hP e (List.mem_filter.mp he).1
    · exact hP
    · exact hP
    · exact hP
    · rw [h.locals]; exact hP
  intro n p hp
  unfold lookup at hp
  split at hp
  · rename_i q hq
    cases hp
    exact key _ (AList.mem_of_get hq)
  · obtain ⟨l1, l2, e, -⟩ := (get_reverse_iff _ _ _).mp hp
    exact hcls (n, p) (by rw [e]; simp)

/-- **C40** Whatever the handlers do: a stored value is one that the processing of a written value has yielded, for a
property that the object has. -/
theorem C40_accepted (env : Env V) (fuel : Nat) (ops : List (Op V)) (o : Obj V) (rs : List Res)
    (hcls : ∀ e ∈ env.cls, Sensible env.lt e.2) (hs : ∀ op ∈ ops, AddsSensible env op) (hn : ∀ op ∈ ops, NoShadow env op)
    (h : run env fuel {} ops = some (o, rs)) (n : Name) (w : V) (hw : AList.get o.values n = some w) :
    ∃ p v, HasProp env o n p ∧ Accepts env.lt p v w := by
  obtain ⟨p, v, hp, hv⟩ := (declared_run hn h).stored n w hw
  exact ⟨p, v, (lookup_iff (declared_run hn h).distinct n p).mp hp, (process_iff (sensible_run hcls hs h n p hp) v w).mp hv⟩

/-- The property of a stored value. -/
theorem stored_prop {env : Env V} {fuel : Nat} {ops : List (Op V)} {o : Obj V} {rs : List Res}
    (hcls : ∀ e ∈ env.cls, Sensible env.lt e.2) (hs : ∀ op ∈ ops, AddsSensible env op) (hn : ∀ op ∈ ops, NoShadow env op)
    (h : run env fuel {} ops = some (o, rs)) {n : Name} {p : PropDef V} (hp : HasProp env o n p) {w : V}
    (hw : AList.get o.values n = some w) : Sensible env.lt p ∧ ∃ v, Accepts env.lt p v w := by
  obtain ⟨q, v, hq, hv⟩ := (declared_run hn h).stored n w hw
  have hp' := (lookup_iff (declared_run hn h).distinct n p).mpr hp
  have e : q = p := by rw [hq] at hp'; exact Option.some.inj hp'
  subst e
  have hse := sensible_run hcls hs h n q hq
  exact ⟨hse, v, (process_iff hse v w).mp hv⟩

/-- **C40** A stored value is neither below the minimum nor above the maximum of its property. -/
theorem C40_range (env : Env V) (fuel : Nat) (ops : List (Op V)) (o : Obj V) (rs : List Res)
    (hcls : ∀ e ∈ env.cls, Sensible env.lt e.2) (hs : ∀ op ∈ ops, AddsSensible env op) (hn : ∀ op ∈ ops, NoShadow env op)
    (h : run env fuel {} ops = some (o, rs)) (n : Name) (p : PropDef V) (hp : HasProp env o n p) (w : V)
    (hw : AList.get o.values n = some w) : InRange env.lt p w := by
  obtain ⟨hse, v, c, d, -, -, -, -, hl⟩ := stored_prop hcls hs hn h hp hw
  exact limited_range hse hl

/-- **C40** A stored value passes the validator, if the limits of the property do. The validator is asked before the value
is brought into the range. -/
theorem C40_valid_partial (env : Env V) (fuel : Nat) (ops : List (Op V)) (o : Obj V) (rs : List Res)
    (hcls : ∀ e ∈ env.cls, Sensible env.lt e.2) (hs : ∀ op ∈ ops, AddsSensible env op) (hn : ∀ op ∈ ops, NoShadow env op)
    (h : run env fuel {} ops = some (o, rs)) (n : Name) (p : PropDef V) (hp : HasProp env o n p)
    (hv : ∀ m, p.min = some m ∨ p.max = some m → p.valid m = true) (w : V) (hw : AList.get o.values n = some w) :
    p.valid w = true := by
  obtain ⟨hse, v, c, d, -, -, -, hd, hl⟩ := stored_prop hcls hs hn h hp hw
  by_cases h1 : AboveMin env.lt p.min d
  · by_cases h2 : BelowMax env.lt p.max d
    · rw [hl.1 ⟨h1, h2⟩]; exact hd
    · exact hv w (.inr (hl.2.2 h1 h2))
  · exact hv w (.inl (hl.2.1 h1))

/-- **C40** A stored value is in the selection, if the property has no limits and its coercer leads from the selection into
the selection. The selection is looked at before the value is coerced and brought into the range. -/
theorem C40_selection_partial (env : Env V) (fuel : Nat) (ops : List (Op V)) (o : Obj V) (rs : List Res)
    (hcls : ∀ e ∈ env.cls, Sensible env.lt e.2) (hs : ∀ op ∈ ops, AddsSensible env op) (hn : ∀ op ∈ ops, NoShadow env op)
    (h : run env fuel {} ops = some (o, rs)) (n : Name) (p : PropDef V) (hp : HasProp env o n p) (hmin : p.min = none)
    (hmax : p.max = none) (hco : ∀ c d, p.coerce c = some d → p.selection c = true → p.selection d = true) (w : V)
    (hw : AList.get o.values n = some w) : p.selection w = true := by
  obtain ⟨hse, v, c, d, -, hsel, hd, -, hl⟩ := stored_prop hcls hs hn h hp hw
  rw [hl.1 ⟨(fun m e => by rw [hmin] at e; cases e), (fun m e => by rw [hmax] at e; cases e)⟩]
  exact hco c d hd hsel

/-- Sample object: an even number up to 5, a read-only one, and a handler that writes the second property. -/
def sampleEnv : Env Nat where
  lt a b := decide (a < b)
  cls := [(7, { dflt := 1, max := some 9 })]
  onName n a _ _ _ := if n = 0 then [.write 7 (a + 5) false] else []

def evenUpTo5 : PropDef Nat := { dflt := 0, valid := fun v => v % 2 == 0, max := some 5 }

def sampleOps : List (Op Nat) :=
  [.addProperty 0 evenUpTo5, .addProperty 1 { dflt := 3, readOnly := true }, .set 0 4, .set 0 7, .set 1 8, .beginUpdate, .set 0 2,
   .endUpdate]

example : (∀ e ∈ sampleEnv.cls, Sensible sampleEnv.lt e.2) ∧ (∀ op ∈ sampleOps, AddsSensible sampleEnv op) ∧
    (∀ op ∈ sampleOps, NoShadow sampleEnv op) ∧
    (run sampleEnv 10 {} sampleOps).map (fun r => (r.1.values, r.2)) =
      some ([(0, 2), (7, 7)], [.ok, .ok, .ok, .err .validateFailed, .err .accessDenied, .ok, .ok, .ok]) := by
  refine ⟨?_, ?_, ?_, by decide⟩
  · simp [sampleEnv, Sensible]
  · simp [sampleOps, AddsSensible, Sensible, sampleEnv, evenUpTo5]
  · simp [sampleOps, NoShadow, sampleEnv]

/-- **C40 (violation)** A value above the maximum is validated before it is replaced by the maximum: the stored value does
not pass the validator. -/
theorem C40_violation_validator :
    (run sampleEnv 10 {} [.addProperty 0 evenUpTo5, .set 0 8]).map (fun r => (AList.get r.1.values 0, r.2)) =
      some (some 5, [.ok, .ok]) ∧ evenUpTo5.valid 5 = false := by
  decide

/-- **C40 (violation)** The selection is looked at before the value is coerced. -/
theorem C40_violation_selection :
    (run sampleEnv 10 {} [.addProperty 0 { dflt := 0, selection := fun v => decide (v < 3), coerce := fun v => some (v + 5) },
      .set 0 2]).map (fun r => (AList.get r.1.values 0, r.2)) = some (some 7, [.ok, .ok]) := by
  decide

/-- **C40 (violation)** A local property added under the name of a property of the class takes over the value stored for
that one, which may be outside its range. -/
theorem C40_violation_shadow :
    (run sampleEnv 10 {} [.set 7 6, .addProperty 7 { dflt := 1, max := some 3 }]).map
      (fun r => (read sampleEnv r.1 7, r.2)) = some (some 6, [.ok, .ok]) := by
  decide

/-! ## C41 -/

/-- **C41** A set or a clear of a read-only property through the public interface is refused and changes nothing. -/
theorem C41_refused (env : Env V) (fuel : Nat) (o : Obj V) (hd : (o.locals.map (·.1)).Nodup) (hf : o.frozen = false)
    (hu : o.count = 0) (n : Name) (p : PropDef V) (hp : HasProp env o n p) (hr : p.readOnly = true) (v : V) :
    step env (fuel + 1) o (.set n v) = some (o, .err .accessDenied, []) ∧
    step env (fuel + 1) o (.clear n) = some (o, .err .accessDenied, []) := by
  have hl := (lookup_iff (env := env) hd n p).mpr hp
  simp [step, call, callStep, hf, hu, hl, hr]

/-- The value of a property that may not be written stays. -/
theorem closed_readOnly (env : Env V) (L : AList Name (PropDef V)) (n : Name)
    (hr : ∀ o : Obj V, o.locals = L → ∃ p, lookup env o n = some p ∧ p.readOnly = true) :
    Closed env L (fun m => m ≠ n) (fun o o' => AList.get o'.values n = AList.get o.values n ∧
      AList.get o'.stack n = AList.get o.stack n ∧ o'.locals = o.locals ∧
      ((∀ a ∈ o.pending, a.prot = true → a.name ≠ n) → ∀ a ∈ o'.pending, a.prot = true → a.name ≠ n)) := by
  refine ⟨fun o => ⟨rfl, rfl, rfl, fun h => h⟩, ?_, ?_, ?_, ?_, ?_, ?_⟩
  · rintro a b c ⟨h1, h2, h3, h4⟩ ⟨h1', h2', h3', h4'⟩
    exact ⟨h1'.trans h1, h2'.trans h2, h3'.trans h3, fun h => h4' (h4 h)⟩
  · intro o s m hm hs
    exact ⟨rfl, hs n (Ne.symm hm), rfl, fun h => h⟩
  · intro o a _ _ _ ha
    refine ⟨rfl, rfl, rfl, fun h b hb => ?_⟩
    rcases List.mem_append.mp hb with hb | hb
    · exact h b hb
    · rw [List.mem_singleton.mp hb]; exact ha
  · intro o m p v w _ _ hm _ _
    refine ⟨?_, rfl, rfl, fun h => h⟩
    dsimp only
    rw [AList.get_put, if_neg (Ne.symm hm)]
  · intro o m _ _ hm
    refine ⟨?_, rfl, rfl, fun h => h⟩
    dsimp only
    rw [AList.get_del, if_neg (Ne.symm hm)]
  · rintro o m p hL hp hro rfl
    obtain ⟨q, hq, hqr⟩ := hr o hL
    rw [hp] at hq
    cases hq
    rw [hro] at hqr
    cases hqr

theorem lookup_add {env : Env V} {o : Obj V} {m n : Name} {p : PropDef V} (h : n ≠ m) :
    lookup env { o with locals := o.locals ++ [(m, p)] } n = lookup env o n := by
  unfold lookup
  dsimp only
  have : AList.get (o.locals ++ [(m, p)]) n = AList.get o.locals n := by
    unfold AList.get
    rw [List.lookup_append]
    cases List.lookup n o.locals with
    | some _ => rfl
    | none => simp [List.lookup_cons, beq_false_of_ne h]
  rw [this]

theorem readOnly_step {env : Env V} {fuel : Nat} {o o' : Obj V} {op : Op V} {r ev} {n : Name} {p : PropDef V}
    (hl : lookup env o n = some p) (hr : p.readOnly = true) (hpend : ∀ a ∈ o.pending, a.prot = true → a.name ≠ n)
    (hpub : IsPublic op) (hrem : ¬ Removes n op) (hsh : NoShadow env op) (h : step env fuel o op = some (o', r, ev)) :
    AList.get o'.values n = AList.get o.values n ∧ AList.get o'.stack n = AList.get o.stack n ∧ lookup env o' n = some p ∧
    ∀ a ∈ o'.pending, a.prot = true → a.name ≠ n := by
  have hc := closed_readOnly env o.locals n (fun o1 e => ⟨p, (lookup_congr env e n).trans hl, hr⟩)
  rcases step_cases hc hpend (fun h => absurd hpub h) h with
    ⟨⟨h1, h2, h3, h4⟩, -⟩ | ⟨m, q, rfl, -, hm, rfl⟩ | ⟨m, rfl, -, -, rfl⟩ | ⟨l, rfl⟩ | ⟨c, rfl⟩ | rfl | ⟨-, ⟨h1, h2, h3, h4⟩, -⟩
  · exact ⟨h1, h2, (lookup_congr env h3 n).trans hl, h4 hpend⟩
  · refine ⟨rfl, rfl, ?_, hpend⟩
    by_cases e : n = m
    · subst e
      unfold lookup at hl
      rw [hm] at hl
      rw [(get_reverse_none env.cls n).mpr hsh] at hl
      cases hl
    · rw [lookup_add e]; exact hl
  · have hmn : m ≠ n := hrem
    refine ⟨?_, rfl, ?_, hpend⟩
    · dsimp only
      rw [AList.get_del, if_neg (Ne.symm hmn)]
    · unfold lookup at hl ⊢
      dsimp only
      rw [AList.get_del, if_neg (Ne.symm hmn)]; exact hl
  · exact ⟨rfl, rfl, hl, hpend⟩
  · exact ⟨rfl, rfl, hl, hpend⟩
  · exact ⟨rfl, rfl, hl, hpend⟩
  · exact ⟨h1, h2, (lookup_congr (o := o) env h3 n).trans hl, h4 (fun a ha => by cases ha)⟩

/-- **C41** Whatever the handlers do and whatever is batched: calls of the public interface leave the value of a read-only
property as it is. (The property is not removed and no local property takes the name of one of the class.) -/
theorem C41_readOnly (env : Env V) (fuel : Nat) (o o' : Obj V) (ops : List (Op V)) (rs : List Res)
    (hd : (o.locals.map (·.1)).Nodup) (n : Name) (p : PropDef V) (hp : HasProp env o n p) (hr : p.readOnly = true)
    (hpend : ∀ a ∈ o.pending, a.prot = true → a.name ≠ n)
    (hops : ∀ op ∈ ops, IsPublic op ∧ ¬ Removes n op ∧ NoShadow env op) (h : run env fuel o ops = some (o', rs)) :
    read env o' n = read env o n ∧ AList.get o'.values n = AList.get o.values n := by
  have hl := (lookup_iff (env := env) hd n p).mpr hp
  have := run_inv (env := env) (fuel := fuel) (P := fun o1 : Obj V => AList.get o1.values n = AList.get o.values n ∧
      AList.get o1.stack n = AList.get o.stack n ∧ lookup env o1 n = some p ∧ ∀ a ∈ o1.pending, a.prot = true → a.name ≠ n)
    (ok := fun op => IsPublic op ∧ ¬ Removes n op ∧ NoShadow env op) (fun o1 op o2 r ev hP hok h => by
      obtain ⟨h1, h2, h3, h4⟩ := hP
      obtain ⟨a, b, c, d⟩ := readOnly_step h3 hr h4 hok.1 hok.2.1 hok.2.2 h
      exact ⟨a.trans h1, b.trans h2, c, d⟩) ops o o' rs hops ⟨rfl, rfl, hl, hpend⟩ h
  obtain ⟨h1, h2, h3, -⟩ := this
  refine ⟨?_, h1⟩
  unfold read current
  rw [h3, hl, h1, h2]

example : HasProp sampleEnv ({ locals := [(0, evenUpTo5), (1, { dflt := 3, readOnly := true })] } : Obj Nat) 1 { dflt := 3, readOnly := true } ∧
    (∀ op ∈ [Op.set 1 8, .beginUpdate, .set 1 9, .set 0 4, .endUpdate, .clear 1, .clearAll],
      IsPublic op ∧ ¬ Removes 1 op ∧ NoShadow sampleEnv op) ∧
    (run sampleEnv 10 { locals := [(0, evenUpTo5), (1, { dflt := 3, readOnly := true })] }
      [.set 1 8, .beginUpdate, .set 1 9, .set 0 4, .endUpdate, .clear 1, .clearAll]).map (fun r => (r.1.values, r.2)) =
      some ([], [.err .accessDenied, .ok, .ok, .ok, .err .accessDenied, .err .accessDenied, .ok]) := by
  refine ⟨.inl (by simp), ?_, by decide⟩
  intro op h
  simp only [List.mem_cons, List.not_mem_nil, or_false] at h
  rcases h with rfl | rfl | rfl | rfl | rfl | rfl | rfl <;> exact ⟨trivial, fun h => h, trivial⟩

/-- **C41 (violation)** Within an update the public set of a read-only property is accepted. -/
theorem C41_violation_batch :
    (run sampleEnv 10 { locals := [(1, { dflt := 3, readOnly := true })] } [.beginUpdate, .set 1 9]).map (·.2) = some [.ok, .ok] := by
  decide

theorem call_frozen {env : Env V} {fuel : Nat} {o o' : Obj V} {c : Call V} {r ev} (hf : o.frozen = true)
    (h : call env fuel o c = some (o', r, ev)) : o' = o ∧ r = .err .frozen ∧ ev = [] := by
  cases fuel with
  | zero => simp [call] at h
  | succ n =>
    simp only [call, callStep, hf, if_true, Option.some.injEq, Prod.mk.injEq] at h
    exact ⟨h.1.symm, h.2.1.symm, h.2.2.symm⟩

theorem apply_frozen {env : Env V} {fuel : Nat} {o o' : Obj V} {l : List (Action V)} {r ap ev} (hf : o.frozen = true)
    (h : apply env fuel o l = some (o', r, ap, ev)) : o' = o ∧ ap = [] ∧ ev = [] ∧ (l ≠ [] → r = .err .frozen) := by
  cases l with
  | nil =>
    simp only [apply, Option.some.injEq, Prod.mk.injEq] at h
    exact ⟨h.1.symm, h.2.2.1.symm, h.2.2.2.symm, fun h => absurd rfl h⟩
  | cons a l =>
    rw [apply] at h
    split at h
    · cases h
    · rename_i o1 e ev1 h1
      obtain ⟨e1, e2, e3⟩ := call_frozen hf h1
      simp only [Option.some.injEq, Prod.mk.injEq] at h
      refine ⟨h.1.symm.trans e1, h.2.2.1.symm, h.2.2.2.symm.trans e3, fun _ => h.2.1.symm.trans e2⟩
    · rename_i o1 ev1 h1
      have := (call_frozen hf h1).2.1
      cases this
    · rename_i o1 ev1 h1
      have := (call_frozen hf h1).2.1
      cases this

/-- **C41** On a frozen object every call but `endUpdate` and `freeze` fails and changes nothing; `endUpdate` drops what
was recorded before the freeze, and reports that unless there is nothing to apply. Nothing is notified. -/
theorem C41_frozen (env : Env V) (fuel : Nat) (o o' : Obj V) (op : Op V) (r : Res) (ev : List (Core V)) (hf : o.frozen = true)
    (h : step env fuel o op = some (o', r, ev)) :
    o'.frozen = true ∧ o'.values = o.values ∧ o'.locals = o.locals ∧ o'.order = o.order ∧ o'.stack = o.stack ∧ ev = [] ∧
    (op ≠ .endUpdate → o' = o ∧ (r = .err .frozen ∨ (op = .freeze ∧ r = .ignored))) ∧
    (op = .endUpdate → o.count = 1 → o.pending ≠ [] → r = .err .frozen) := by
  have trivialCase : ∀ (r' : Res), op ≠ .endUpdate → (r' = .err .frozen ∨ (op = .freeze ∧ r' = .ignored)) →
      some (o, r', ([] : List (Core V))) = some (o', r, ev) →
      o'.frozen = true ∧ o'.values = o.values ∧ o'.locals = o.locals ∧ o'.order = o.order ∧ o'.stack = o.stack ∧ ev = [] ∧
      (op ≠ .endUpdate → o' = o ∧ (r = .err .frozen ∨ (op = .freeze ∧ r = .ignored))) ∧
      (op = .endUpdate → o.count = 1 → o.pending ≠ [] → r = .err .frozen) := by
    intro r' hne hr' e
    simp only [Option.some.injEq, Prod.mk.injEq] at e
    obtain ⟨rfl, rfl, rfl⟩ := e
    exact ⟨hf, rfl, rfl, rfl, rfl, rfl, fun _ => ⟨rfl, hr'⟩, fun e => absurd e hne⟩
  have callCase : ∀ c, op ≠ .endUpdate → call env fuel o c = some (o', r, ev) →
      o'.frozen = true ∧ o'.values = o.values ∧ o'.locals = o.locals ∧ o'.order = o.order ∧ o'.stack = o.stack ∧ ev = [] ∧
      (op ≠ .endUpdate → o' = o ∧ (r = .err .frozen ∨ (op = .freeze ∧ r = .ignored))) ∧
      (op = .endUpdate → o.count = 1 → o.pending ≠ [] → r = .err .frozen) := by
    intro c hne h
    obtain ⟨rfl, rfl, rfl⟩ := call_frozen hf h
    exact ⟨hf, rfl, rfl, rfl, rfl, rfl, fun _ => ⟨rfl, .inl rfl⟩, fun e => absurd e hne⟩
  cases op with
  | set n v => exact callCase _ (by simp) h
  | setProtected n v => exact callCase _ (by simp) h
  | clear n => exact callCase _ (by simp) h
  | clearProtected n => exact callCase _ (by simp) h
  | clearAll => simp only [step, hf, if_true] at h; exact trivialCase _ (by simp) (.inl rfl) h
  | addProperty n p => simp only [step, hf, if_true] at h; exact trivialCase _ (by simp) (.inl rfl) h
  | removeProperty n => simp only [step, hf, if_true] at h; exact trivialCase _ (by simp) (.inl rfl) h
  | setOrder l => simp only [step, hf, if_true] at h; exact trivialCase _ (by simp) (.inl rfl) h
  | beginUpdate => simp only [step, hf, if_true] at h; exact trivialCase _ (by simp) (.inl rfl) h
  | freeze => simp only [step, hf, if_true] at h; exact trivialCase _ (by simp) (.inr ⟨rfl, rfl⟩) h
  | endUpdate =>
    simp only [step, endUpdate] at h
    split at h
    · rename_i h0
      simp only [Option.some.injEq, Prod.mk.injEq] at h
      obtain ⟨rfl, rfl, rfl⟩ := h
      exact ⟨hf, rfl, rfl, rfl, rfl, rfl, fun h => absurd rfl h, fun _ h1 => by omega⟩
    · split at h
      · simp only [Option.some.injEq, Prod.mk.injEq] at h
        obtain ⟨rfl, rfl, rfl⟩ := h
        exact ⟨hf, rfl, rfl, rfl, rfl, rfl, fun h => absurd rfl h, fun _ h1 => by omega⟩
      · split at h
        · cases h
        · rename_i o1 e ap ev1 h2
          obtain ⟨rfl, rfl, rfl, h3⟩ := apply_frozen (o := { o with count := 0, pending := [] }) hf h2
          simp only [Option.some.injEq, Prod.mk.injEq] at h
          obtain ⟨rfl, rfl, rfl⟩ := h
          exact ⟨hf, rfl, rfl, rfl, rfl, rfl, fun h => absurd rfl h, fun _ _ hne => h3 hne⟩
        · rename_i o1 r1 ap ev1 hne h2
          obtain ⟨rfl, rfl, rfl, h3⟩ := apply_frozen (o := { o with count := 0, pending := [] }) hf h2
          simp only [Option.some.injEq, Prod.mk.injEq] at h
          obtain ⟨rfl, rfl, rfl⟩ := h
          exact ⟨hf, rfl, rfl, rfl, rfl, rfl, fun h => absurd rfl h, fun _ _ hp => absurd (h3 hp) (hne _)⟩

/-- **C41** No property of a frozen object changes any more. -/
theorem C41_frozenHistory (env : Env V) (fuel : Nat) (o o' : Obj V) (ops : List (Op V)) (rs : List Res) (hf : o.frozen = true)
    (h : run env fuel o ops = some (o', rs)) (n : Name) : read env o' n = read env o n ∧ getAll env o' = getAll env o := by
  have := run_inv (env := env) (fuel := fuel) (P := fun o1 : Obj V => o1.frozen = true ∧ o1.values = o.values ∧
      o1.locals = o.locals ∧ o1.order = o.order ∧ o1.stack = o.stack) (ok := fun _ => True) (fun o1 op o2 r ev hP _ h => by
      obtain ⟨h1, h2, h3, h4, h5⟩ := hP
      obtain ⟨a, b, c, d, e, -⟩ := C41_frozen env fuel o1 o2 op r ev h1 h
      exact ⟨a, b.trans h2, c.trans h3, d.trans h4, e.trans h5⟩) ops o o' rs (fun _ _ => trivial) ⟨hf, rfl, rfl, rfl, rfl⟩ h
  obtain ⟨-, h2, h3, h4, h5⟩ := this
  unfold read current getAll
  rw [lookup_congr env h3, h2, h3, h4, h5]
  exact ⟨rfl, rfl⟩

example : (run sampleEnv 10 { locals := [(0, evenUpTo5)], values := [(0, 2)] }
      [.beginUpdate, .set 0 4, .freeze, .set 0 4, .endUpdate, .clear 0, .freeze]).map (fun r => (r.1.values, r.2)) =
      some ([(0, 2)], [.ok, .ok, .ok, .err .frozen, .err .frozen, .err .frozen, .ignored]) := by
  decide

end Verif.PropObj
