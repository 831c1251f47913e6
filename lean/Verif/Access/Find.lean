import Verif.Access.Wp

/-! How addresses are taken apart, and what they lead to. -/

namespace Verif.Access

open Spec

variable {W : Type} (A : Api W)

theorem parts_ne (l : Name) : parts l ≠ [] := by
  induction l with
  | nil => simp [parts]
  | cons c l ih =>
    unfold parts
    split
    · simp
    · split <;> simp

theorem parts_plain (n : Name) (h : '/' ∉ n) : parts n = [n] := by
  induction n with
  | nil => rfl
  | cons c n ih =>
    unfold parts
    rw [if_neg (fun e => h (by simp [e])), ih (fun e => h (List.mem_cons_of_mem _ e))]

theorem parts_slash (n r : Name) (h : '/' ∉ n) : parts (n ++ '/' :: r) = n :: parts r := by
  induction n with
  | nil => simp [parts]
  | cons c n ih =>
    rw [List.cons_append, parts, if_neg (fun e => h (by simp [e])), ih (fun e => h (List.mem_cons_of_mem _ e))]

theorem parts_written (n : Name) (ns : List Name) (h : '/' ∉ n) (hs : ∀ m ∈ ns, '/' ∉ m) :
    parts (n ++ written ns) = n :: ns := by
  induction ns generalizing n with
  | nil => simpa [written] using parts_plain n h
  | cons m ns ih =>
    rw [written]
    show parts (n ++ ('/' :: (m ++ written ns))) = _
    rw [parts_slash _ _ h, ih m (hs m (by simp)) fun k hk => hs k (by simp [hk])]

/-- The parts have no slash in them, and written out again they are the text. -/
theorem parts_spec (l : Name) : (∀ m ∈ parts l, '/' ∉ m) ∧ written (parts l) = '/' :: l := by
  induction l with
  | nil => exact ⟨by simp [parts], rfl⟩
  | cons c l ih =>
    by_cases hc : c = '/'
    · subst hc
      unfold parts
      rw [if_pos rfl]
      refine ⟨fun m hm => ?_, ?_⟩
      · rcases List.mem_cons.mp hm with e | e
        · simp [e]
        · exact ih.1 m e
      · show '/' :: ([] ++ written (parts l)) = _
        rw [ih.2]
        rfl
    · unfold parts
      rw [if_neg hc]
      cases h : parts l with
      | nil => exact absurd h (parts_ne l)
      | cons p ps =>
        rw [h] at ih
        refine ⟨fun m hm => ?_, ?_⟩
        · rcases List.mem_cons.mp hm with e | e
          · subst e
            have := ih.1 p (by simp)
            simpa [Ne.symm hc] using this
          · exact ih.1 m (by simp [e])
        · have e := ih.2
          rw [written] at e ⊢
          rw [List.cons_append, List.cons.injEq] at e
          rw [List.cons_append, List.cons_append, e.2]

theorem walk_iff (w : W) (o t : Obj) (ns : List Name) : walk A w o ns = some t ↔ Leads A w o ns t := by
  induction ns generalizing o with
  | nil =>
    constructor
    · intro h
      cases h
      exact .here _
    · intro h
      cases h
      rfl
  | cons n ns ih =>
    unfold walk
    constructor
    · intro h
      split at h
      · rename_i hf
        obtain ⟨i, hi, hw⟩ := Option.bind_eq_some_iff.mp h
        exact .down hf hi ((ih i).mp hw)
      · cases h
    · intro h
      cases h with
      | down hf hi h =>
        rw [if_pos hf, hi]
        exact (ih _).mpr h

/-- The server finds a component exactly for the addresses of the component. -/
theorem found_iff (w : W) (id : Name) (o : Obj) : found A w id = .ok (some o) ↔ Names A w id o := by
  unfold found Names
  by_cases hr : id = "//root".toList
  · rw [if_pos hr]
    constructor
    · intro h
      cases h
      exact .inl ⟨hr, rfl⟩
    · rintro (⟨_, h⟩ | ⟨h, _⟩)
      · rw [h]
      · exact absurd hr h
  rw [if_neg hr]
  constructor
  · intro h
    refine .inr ⟨hr, ?_⟩
    split at h
    · rename_i rest
      have hs := parts_spec rest
      cases hp : parts rest with
      | nil => exact absurd hp (parts_ne rest)
      | cons p ps =>
        rw [hp] at h hs
        dsimp only at h
        split at h
        · rename_i hl
          subst hl
          exact ⟨ps, fun n hn => hs.1 n (by simp [hn]), hs.1 _ (by simp), hs.2.symm,
            (walk_iff A w _ _ _).mp (by injection h)⟩
        · cases h
    · cases h
  · rintro (⟨h, _⟩ | ⟨_, ns, hn, hl, e, h⟩)
    · exact absurd h hr
    · rw [e]
      show Except.ok (match parts (A.localId w A.root ++ written ns) with
        | [] => none
        | p :: ps => if p = A.localId w A.root then walk A w A.root ps else none) = _
      rw [parts_written _ _ hl hn]
      dsimp only
      rw [if_pos rfl, (walk_iff A w _ _ _).mpr h]

theorem Leads.unique {w : W} {o t u : Obj} {ns : List Name} (h : Leads A w o ns t) (k : Leads A w o ns u) :
    t = u := by
  have := (walk_iff A w o t ns).mpr h
  rw [(walk_iff A w o u ns).mpr k] at this
  injection this with e
  exact e.symm

/-- The handler of a request about a component. -/
theorem handler_at {w : W} {p : Params} {o : Obj} (hn : Names A w p.id o) (i : Intf)
    (f : Ctx → Obj → Params → M W Val) (x : Ctx) (tr : List (W × Call)) :
    handler A i f x p (w, tr) = if A.supports w o i then f x o p (w, tr) else ((w, tr), .error .noInterface) := by
  unfold handler
  rw [bind_eq, findComponent_eq, (found_iff A w p.id o).mpr hn]
  show (ask (fun w => A.supports w o i) >>= fun b => require b .noInterface >>= fun _ => f x o p) (w, tr) = _
  rw [bind_eq]
  show (require (A.supports w o i) .noInterface >>= fun _ => f x o p) (w, tr) = _
  cases A.supports w o i <;> rfl

/-- The handler of a request about no component. -/
theorem handler_none {w : W} {p : Params} (hn : ∀ o, ¬ Names A w p.id o) (i : Intf)
    (f : Ctx → Obj → Params → M W Val) (x : Ctx) (tr : List (W × Call)) :
    ∃ e, handler A i f x p (w, tr) = ((w, tr), .error e) := by
  unfold handler
  rw [bind_eq, findComponent_eq]
  cases h : found A w p.id with
  | error e => exact ⟨e, by simp [h]⟩
  | ok r =>
    cases r with
    | none => exact ⟨.notFound, by simp [h, fail]⟩
    | some o => exact absurd ((found_iff A w p.id o).mp h) (hn o)

/-- The lock the server looks at is the one of the device the component belongs to. -/
theorem locked_iff (w : W) (o : Obj) :
    (parentDevice A w o).any (A.locked w) = true ↔ BelongsToLocked A w o := by
  unfold parentDevice BelongsToLocked
  constructor
  · intro h
    cases e : (A.chain w o).find? fun x => A.supports w x .device with
    | none => rw [e] at h; cases h
    | some d =>
      rw [e] at h
      obtain ⟨hd, as, bs, hl, ha⟩ := List.find?_eq_some_iff_append.mp e
      exact ⟨as, d, bs, hl, fun x hx => by simpa using ha x hx, hd, by simpa using h⟩
  · rintro ⟨as, d, bs, hl, ha, hd, hk⟩
    have : (A.chain w o).find? (fun x => A.supports w x .device) = some d :=
      List.find?_eq_some_iff_append.mpr ⟨hd, as, bs, hl, fun x hx => by simp [ha x hx]⟩
    rw [this]
    simpa using hk

theorem protectLocked_stop {w : W} {o : Obj} (h : BelongsToLocked A w o) (tr : List (W × Call)) :
    protectLocked A o (w, tr) = ((w, tr), .error .locked) := by
  rw [protectLocked_eq, if_pos ((locked_iff A w o).mpr h)]

theorem protectLocked_pass {w : W} {o : Obj} (h : ¬ BelongsToLocked A w o) (tr : List (W × Call)) :
    protectLocked A o (w, tr) = ((w, tr), .ok ()) := by
  rw [protectLocked_eq, if_neg (fun k => h ((locked_iff A w o).mp k))]

theorem protect_pass {w : W} {u : User} {o : Obj} {ps : List Perm} (h : May A w u o ps) (tr : List (W × Call)) :
    protect A u o ps (w, tr) = ((w, tr), .ok ()) := by
  rw [protect_eq, if_pos (List.all_eq_true.mpr h)]

theorem protect_stop {w : W} {u : User} {o : Obj} {ps : List Perm} (h : ¬ May A w u o ps) (tr : List (W × Call)) :
    protect A u o ps (w, tr) = ((w, tr), .error .accessDenied) := by
  rw [protect_eq, if_neg (fun k => h (List.all_eq_true.mp k))]

theorem occurs_iff (p l : Name) : occurs p l = true ↔ p <:+: l := by
  induction l with
  | nil => cases p <;> simp [occurs]
  | cons c l ih =>
    rw [occurs, Bool.or_eq_true, ih, List.isPrefixOf_iff_prefix, List.infix_cons_iff]

end Verif.Access
