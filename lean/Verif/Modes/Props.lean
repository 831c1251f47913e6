import Verif.Modes.Evs
import Verif.Modes.Demo
/-!
# Operation modes
-/

namespace Verif.Modes.Props

open Verif.Modes Spec

/-- How a component fits where it is, to decide it. -/
instance (d e : Comp) : Decidable (Fit d e) := by unfold Fit; exact inferInstance

mutual
/-- `Shaped`, to decide it. -/
def shapedB : Comp → Bool
  | .mk i kids => shapedAll i kids
def shapedAll (i : Info) : Kids → Bool
  | .nil => true
  | .cons c l => decide (Fit (.mk i .nil) c) && shapedB c && shapedAll i l
end

mutual
theorem shaped_of_B : ∀ c : Comp, shapedB c = true → Shaped c
  | .mk i kids, h => by
    rw [shaped_iff]
    intro k e he
    have := shaped_of_all i kids (by simpa [shapedB] using h) k e he
    exact ⟨fit_kind rfl rfl this.1, this.2⟩
theorem shaped_of_all (i : Info) : ∀ l : Kids, shapedAll i l = true →
    ∀ k e, l.get k = some e → Fit (.mk i .nil) e ∧ Shaped e
  | .nil, _, k, e, he => by simp [Kids.get] at he
  | .cons c l, h, 0, e, he => by
    simp only [shapedAll, Bool.and_eq_true, decide_eq_true_eq] at h
    simp only [Kids.get, Option.some.injEq] at he
    subst he
    exact ⟨h.1.1, shaped_of_B c h.1.2⟩
  | .cons c l, h, k + 1, e, he => by
    simp only [shapedAll, Bool.and_eq_true] at h
    exact shaped_of_all i l h.2 k e he
end

theorem world_shaped : Shaped Demo.world.root := shaped_of_B _ (by decide +kernel)

/-! ## C202: setting the mode -/

/-- When the call succeeds, the device and the components that belong to it are in the mode, and
were told; all others are as before, sub-devices included. -/
theorem C202_reach (c : Comp) (m : Mode) (hs : Shaped c) (h : (setMode c m).code = .ok) (p : List Nat) :
    ((setMode c m).val.at p).map Comp.info =
      (c.at p).map fun d => if belongs c p = true then after m d.info else d.info :=
  setMode_at hs h p

/-- Everybody is told once, the device first; there is one event. -/
theorem C202_events (c : Comp) (m : Mode) (hs : Shaped c) (hd : IsDevice c)
    (h : (setMode c m).code = .ok) : (setMode c m).evs =
      .told c.info.tag m :: .changed c.info.tag m :: (members c.kids).map (Ev.told · m) :=
  setMode_evs hs hd h

/-- Who is told are those that belong to the device. -/
theorem C202_members (c : Comp) (hs : Shaped c) (hd : IsDevice c) (t : Nat) :
    (t = c.info.tag ∨ t ∈ members c.kids) ↔
      ∃ p d, c.at p = some d ∧ belongs c p = true ∧ d.info.tag = t := by
  rw [mem_members t c.kids (fun k d hk _ hx => device_noDev hs hd hk hx)]
  constructor
  · rintro (h | ⟨k, p, x, d, hk, ha, hp, hh, ht⟩)
    · exact ⟨[], c, rfl, rfl, h.symm⟩
    · exact ⟨k :: p, d, by simp [at_cons, hk, hp], by simp [belongs, hk, ha.1, ha.2, hh], ht⟩
  · rintro ⟨p, d, hp, hb, ht⟩
    cases p with
    | nil => simp [at_nil] at hp; subst hp; exact .inl ht.symm
    | cons k p =>
      rw [at_cons] at hp
      cases e : c.kids.get k with
      | none => simp [e] at hp
      | some x =>
        simp only [e, Option.bind_some] at hp
        simp only [belongs, e, Bool.and_eq_true, decide_eq_true_eq] at hb
        exact .inr ⟨k, p, x, d, e, hb.1, hp, hb.2, ht⟩

/-- A mode that is not offered is ignored. -/
theorem C202_ignored (c : Comp) (m : Mode) (h : m ∉ offers c) : setMode c m = ⟨c, .ignored, []⟩ :=
  setMode_ignored h

/-- A mode that is offered, and that nobody refuses, is entered. -/
theorem C202_succeeds (c : Comp) (m : Mode) (hs : Shaped c) (ho : m ∈ offers c)
    (hw : ∀ p d, c.at p = some d → belongs c p = true → m ∉ d.info.refuses) :
    (setMode c m).code = .ok :=
  setMode_willing hs ho hw

/-- Trees look as required when devices are created as sub-devices and nothing else is. -/
theorem C202_shaped (k : Kind) (n : Nat) (r : List Mode) (hk : k ≠ .devices) (ops : List Op)
    (h : Along Placed (World.init k n r) ops) : Shaped ((World.init k n r).run ops).root :=
  shaped_run ops _ h (shaped_create 0 n k r hk)

/-- The device, two folders, the function block and the folder in it are told; the sub-devices keep
their mode. -/
example : (setMode Demo.world.root .operation).code = .ok ∧
    (setMode Demo.world.root .operation).evs = [.told 0 .operation, .changed 0 .operation,
      .told 2 .operation, .told 4 .operation, .told 5 .operation, .told 3 .operation] ∧
    ((setMode Demo.world.root .operation).val.at [0, 0]).map (·.info.mode) = some .safe ∧
    (setMode Demo.world.root .unknown).code = .ignored := by decide +kernel

example : Shaped Demo.world.root ∧ IsDevice Demo.world.root := ⟨world_shaped, by decide +kernel⟩

/-! ## C203: setting the mode of sub-devices too -/

/-- Exactly the components that belong to a device, below, that offers the mode are changed; devices
that do not offer it are passed. -/
theorem C203_reach (c : Comp) (m : Mode) (hs : Shaped c) (hd : IsDevice c)
    (h : (setRecursive c m).code ≠ .failed) (p : List Nat) :
    ((setRecursive c m).val.at p).map Comp.info =
      (c.at p).map fun d => if reached m c p then after m d.info else d.info := by
  rw [setRecursive_device m hd] at h ⊢
  exact setRec_at m c.depth c hs hd (Nat.le_refl _) h p

/-- And these are told. -/
theorem C203_told (c : Comp) (m : Mode) (hs : Shaped c) (hd : IsDevice c)
    (h : (setRecursive c m).code ≠ .failed) (t : Nat) :
    Ev.told t m ∈ (setRecursive c m).evs ↔
      ∃ p d, c.at p = some d ∧ reached m c p = true ∧ d.info.tag = t := by
  rw [setRecursive_device m hd] at h ⊢
  exact setRec_told m t c.depth c hs hd (Nat.le_refl _) h

/-- The call succeeds when nobody refuses, whatever the devices offer. -/
theorem C203_succeeds (c : Comp) (m : Mode) (hs : Shaped c) (hd : IsDevice c)
    (hw : ∀ p d, c.at p = some d → reached m c p = true → m ∉ d.info.refuses) :
    (setRecursive c m).code = .ok := by
  rw [setRecursive_device m hd]
  exact setRec_willing m c.depth c hs hd (Nat.le_refl _) hw

/-- The sub-device does not offer the mode; the one below it does. -/
example : (setRecursive Demo.world.root .operation).code = .ok ∧
    ((setRecursive Demo.world.root .operation).val.at []).map (·.info.mode) = some .operation ∧
    ((setRecursive Demo.world.root .operation).val.at [0, 0]).map (·.info.mode) = some .safe ∧
    ((setRecursive Demo.world.root .operation).val.at [0, 0, 0, 0]).map (·.info.mode) = some .operation := by
  decide +kernel

/-! ## C204: the mode of a component -/

/-- The mode of a component is that of the last device on the way to it. -/
theorem C204_nearest (q : List Nat) : ∀ (c d : Comp) (p : List Nat) (up : Option Mode),
    c.at q = some d → IsDevice d → (∃ e, d.at p = some e) →
    (∀ r s e, p = r ++ s → r ≠ [] → d.at r = some e → ¬ IsDevice e) →
    modeAt c (q ++ p) up = some d.info.mode := by
  have hother : ∀ (p : List Nat) (c : Comp) (up : Option Mode), (∃ e, c.at p = some e) →
      (∀ r s e, p = r ++ s → c.at r = some e → ¬ IsDevice e) → modeAt c p up = up := by
    intro p
    induction p with
    | nil =>
      intro c up _ hn
      have := hn [] [] c rfl rfl
      unfold modeAt
      cases e : c.info.kind with
      | device a b => exact absurd ⟨a, b, e⟩ this
      | plain => rfl
      | folder => rfl
      | devices => rfl
    | cons k p ih =>
      intro c up ⟨x, hx⟩ hn
      have := hn [] (k :: p) c rfl rfl
      rw [at_cons] at hx
      cases ek : c.kids.get k with
      | none => simp [ek] at hx
      | some g =>
        simp only [ek, Option.bind_some] at hx
        have ih' := ih g up ⟨x, hx⟩ (fun r s e hp he =>
          hn (k :: r) s e (by simp [hp]) (by simp [at_cons, ek, he]))
        unfold modeAt
        simp only [ek]
        cases e : c.info.kind with
        | device a b => exact absurd ⟨a, b, e⟩ this
        | plain => exact ih'
        | folder => exact ih'
        | devices => exact ih'
  induction q with
  | nil =>
    intro c d p up hq hd hp hn
    simp only [at_nil, Option.some.injEq] at hq
    subst hq
    obtain ⟨a, b, e⟩ := hd
    cases p with
    | nil => unfold modeAt; simp only [e, List.nil_append]
    | cons k p =>
      obtain ⟨x, hx⟩ := hp
      rw [at_cons] at hx
      cases ek : c.kids.get k with
      | none => simp [ek] at hx
      | some g =>
        simp only [ek, Option.bind_some] at hx
        have := hother p g (some c.info.mode) ⟨x, hx⟩ (fun r s e hp he =>
          hn (k :: r) s e (by simp [hp]) (by simp) (by simp [at_cons, ek, he]))
        rw [List.nil_append]
        unfold modeAt
        simp only [e, ek]
        exact this
  | cons k q ih =>
    intro c d p up hq hd hp hn
    rw [at_cons] at hq
    cases ek : c.kids.get k with
    | none => simp [ek] at hq
    | some g =>
      simp only [ek, Option.bind_some] at hq
      rw [List.cons_append]
      unfold modeAt
      simp only [ek]
      exact ih g d p _ hq hd hp hn

/-- Without a device there is none. -/
theorem C204_none (p : List Nat) : ∀ c : Comp, (∀ r s e, p = r ++ s → c.at r = some e → ¬ IsDevice e) →
    modeAt c p none = none := by
  induction p with
  | nil =>
    intro c hn
    have := hn [] [] c rfl rfl
    unfold modeAt
    cases e : c.info.kind with
    | device a b => exact absurd ⟨a, b, e⟩ this
    | plain => rfl
    | folder => rfl
    | devices => rfl
  | cons k p ih =>
    intro c hn
    have := hn [] (k :: p) c rfl rfl
    unfold modeAt
    cases ek : c.kids.get k with
    | none => simp only [ek]
    | some g =>
      have ih' := ih g (fun r s e hp he => hn (k :: r) s e (by simp [hp]) (by simp [at_cons, ek, he]))
      simp only [ek]
      cases e : c.info.kind with
      | device a b => exact absurd ⟨a, b, e⟩ this
      | plain => exact ih'
      | folder => exact ih'
      | devices => exact ih'

example : modeAt Demo.set.root [1, 0, 0] none = some .operation ∧
    modeAt Demo.set.root [0, 0, 1] none = some .safe ∧
    modeAt (World.init .folder 1 []).root [0] none = none := by decide +kernel

/-! ## C205: components know the mode of their device -/

/-- The full statement fails: a function block that is added to a device before the device is added
is told that the mode is unknown, and not that the device entered a mode. -/
theorem C205_violation_early :
    modeAt Demo.early.root [0, 0, 1, 0] none = some .safe ∧
      (Demo.early.root.at [0, 0, 1, 0]).map (·.info.told) = some (some .unknown) := by decide +kernel

/-- It fails for those that are there when the device becomes the root. -/
theorem C205_violation_root :
    ((World.init Demo.top 1 []).run [.create [1] .plain 0 [], .add [1] 0, .asRoot]).root.info.mode = .safe ∧
      (((World.init Demo.top 1 []).run [.create [1] .plain 0 [], .add [1] 0, .asRoot]).root.at [1, 0]).map
        (·.info.told) = some (some .unknown) := by decide +kernel

/-- Missing: that nobody fails, and that the mode was set once.  Then every component that belongs
to the device was last told its mode, whatever is created, added, removed and set after that. -/
theorem C205_partial (w : World) (ops : List Op) (hd : IsDevice w.root) (hs : Shaped w.root)
    (hw : All (fun i => i.refuses = []) w.root) (hset : Settled w.root) (h : Along Usual w ops) :
    Settled (w.run ops).root :=
  (good_run ops w h ⟨hd, hs, hw, hset⟩).settled

/-- Setting the mode settles the matter. -/
theorem C205_set_partial (c : Comp) (m : Mode) (hs : Shaped c) (h : (setMode c m).code = .ok) :
    Settled (setMode c m).val :=
  settled_setMode hs h

/-- From the creation of the device on, once its mode is set. -/
theorem C205_history_partial (a : List Mode) (d m : Mode) (n : Nat) (ops ops' : List Op) (hm : m ∈ a)
    (h : Along Usual (World.init (.device a d) n []) ops)
    (h' : Along Usual (((World.init (.device a d) n []).run ops).step (.set [] m)) ops') :
    Settled ((((World.init (.device a d) n []).run ops).step (.set [] m)).run ops').root := by
  have key : ∀ (l : List Op) (w : World), Along Usual w l → Along Placed w l ∧
      (∀ op ∈ l, ∀ p k n r, op = .create p k n r → r = []) := by
    intro l
    induction l with
    | nil => intro w _; exact ⟨trivial, by simp⟩
    | cons op l ih =>
      intro w hu
      have hi := ih _ hu.2
      have hp : Placed w op := by
        have := hu.1
        cases op with
        | create p k n r => exact ⟨this.2.1, this.2.2⟩
        | _ => trivial
      refine ⟨⟨hp, hi.1⟩, fun o ho p k n r e => ?_⟩
      rcases List.mem_cons.mp ho with rfl | ho
      · subst e; exact hu.1.1
      · exact hi.2 o ho p k n r e
  have hsh := C202_shaped (.device a d) n [] (by simp) ops (key ops _ h).1
  have hall : All (fun i => i.refuses = []) ((World.init (.device a d) n []).run ops).root :=
    run_all stays_willing ops _ (fun op ho p k n r e t => (key ops _ h).2 op ho p k n r e)
      (create_all stays_willing 0 n _ [] rfl)
  have hkind : ∀ (l : List Op) (w : World), Along Usual w l → w.root.info.kind = .device a d →
      (w.run l).root.info.kind = .device a d := by
    intro l
    induction l with
    | nil => intro w _ hk; exact hk
    | cons op l ih =>
      intro w hu hk
      refine ih _ hu.2 ?_
      rw [← hk]
      cases op with
      | create p k n r =>
        exact modify_kind (f := fun c => .mk c.info (c.kids.snoc (create w.next k n r))) (fun _ => rfl) _ _
      | add p k =>
        simp only [World.step]
        split
        · split
          · exact modify_kind (attach_kind _) _ _
          · rfl
        · rfl
      | remove p k =>
        simp only [World.step]
        split
        · split
          · exact modify_kind (f := fun c => .mk { c.info with attached := false } c.kids) (fun _ => rfl) _ _
          · rfl
        · rfl
      | set p m => exact modify_kind (fun d => kind_of_erase (setMode_erase m d)) _ _
      | setRec p m => exact modify_kind (fun d => kind_of_erase (setRecursive_erase m d)) _ _
      | asRoot => exact (hu.1).elim
  have hk := hkind ops _ h rfl
  have hoff : m ∈ offers ((World.init (.device a d) n []).run ops).root := by
    unfold offers; rw [hk]; exact hm
  have hok := setMode_willing hsh hoff (fun p x hx _ => by simp [willing_all hall p x hx])
  refine C205_partial _ ops' ⟨a, d, ?_⟩ (shaped_step _ _ trivial hsh)
    (step_all stays_willing _ _ (fun p k n r e => by cases e) hall) (settled_setMode hsh hok) h'
  exact hkind [.set [] m] _ ⟨trivial, trivial⟩ hk

/-- A function block that is added later is told. -/
example : Settled (Demo.set.run [.create [2] .plain 0 [], .add [2] 0, .setRec [] .idle]).root ∧
    (((Demo.set.run [.create [2] .plain 0 [], .add [2] 0]).root.at [2, 0]).map (·.info.told)) =
      some (some .operation) := by
  refine ⟨C205_partial Demo.set _ (by decide +kernel) ?_ ?_ ?_ ?_, by decide +kernel⟩
  · exact shaped_of_B _ (by decide +kernel)
  · refine step_all stays_willing _ _ (fun p k n r e => by cases e) ?_
    refine run_all stays_willing _ _ ?_ ?_
    rotate_left
    · exact step_all stays_willing (World.init Demo.top 2 []) .asRoot (fun p k n r e => by cases e)
        (create_all stays_willing 0 2 Demo.top [] rfl)
    intro op ho p k n r e t
    subst e
    simp [Demo.build] at ho
    rcases ho with h | h | h <;> exact h.2.2.2
  · exact settled_setMode world_shaped (by decide +kernel)
  · refine ⟨⟨rfl, by simp, fun d hd => ?_⟩, trivial, trivial, trivial⟩
    have : (Demo.set.root.at [2]).map (·.info.kind) = some .folder := by decide +kernel
    rw [hd] at this
    simp only [Option.map_some, Option.some.injEq] at this
    simp [this]

/-! ## C206: the modes a device can be in -/

theorem stays_sound : Stays Sound where
  told := fun i m hk _ a d e => absurd e (hk a d)
  mode := fun i a d m hk hm _ a' d' e => by
    change i.kind = _ at e
    rw [hk] at e
    cases e
    exact .inr ⟨rfl, hm⟩
  attached := fun i b h => h
  plain := fun t b => ⟨(fun a d e => by cases e), (fun a d e => by cases e)⟩

/-- A device is, at all times, in the mode it begins with or in one it offers, and its handler was
last called with that mode; or it has never been in any. -/
theorem C206_mode (k : Kind) (n : Nat) (r : List Mode) (ops : List Op) (p : List Nat) (c : Comp)
    (h : ((World.init k n r).run ops).root.at p = some c) : Sound c.info := by
  have hf : ∀ t k r, Sound (fresh t k false r) := fun t k r a d _ => .inl ⟨rfl, rfl⟩
  refine all_at p _ c (run_all stays_sound ops _ (fun op _ p k n r _ t => hf t k r) ?_) h
  exact create_all stays_sound 0 n k r (hf 0 k r)

/-- A device that is added below another one enters the mode it begins with, whatever the mode of
the other one. -/
theorem C206_added (i : Info) (kids : Kids) (a : List Mode) (d m : Mode) (hk : i.kind = .device a d)
    (hr : d ∉ i.refuses) :
    (attach (some m) (.mk i kids)).info = { i with attached := true, mode := d, told := some d } ∧
      (attach (some m) (.mk i kids)).kids = kids := by
  unfold attach
  simp only [Comp.info, Comp.kids]
  rw [tell_device (i := { i with attached := true }) hk]
  unfold enter
  rw [if_neg (by simpa using hr)]
  exact ⟨rfl, rfl⟩

/-- So does the one that becomes the root. -/
theorem C206_root (i : Info) (kids : Kids) (a : List Mode) (d : Mode) (hk : i.kind = .device a d)
    (hr : d ∉ i.refuses) : asRoot (.mk i kids) = .mk { i with mode := d, told := some d } kids := by
  have h : asRoot (.mk i kids) = .mk (enter i d).val kids := by simp only [asRoot, hk]
  rw [h]
  unfold enter
  rw [if_neg hr]

example : (Demo.set.root.at [0, 0]).map (·.info.mode) = some .safe ∧
    Demo.set.root.info.mode = .operation ∧ (World.init Demo.top 1 []).root.info.mode = .unknown := by
  decide +kernel

/-! ## C207: all or nothing -/

/-- The full statement fails: a function block refuses the mode, the call fails, and the device and
one of its folders are in the new mode, the other folder in the old one. -/
theorem C207_violation :
    (setMode Demo.stubborn.root .idle).code = .failed ∧
      Demo.stubborn.root.info.mode = .safe ∧
      (setMode Demo.stubborn.root .idle).val.info.mode = .idle ∧
      ((setMode Demo.stubborn.root .idle).val.at [1]).map (·.info.told) = some (some .idle) ∧
      ((setMode Demo.stubborn.root .idle).val.at [1, 0]).map (·.info.told) = some (some .safe) ∧
      ((setMode Demo.stubborn.root .idle).val.at [2, 0]).map (·.info.told) = some (some .safe) := by
  decide +kernel

/-- Missing: the handlers of the components in the device.  When that of the device itself fails,
or the mode is not offered, nothing changes. -/
theorem C207_partial (c : Comp) (m : Mode) (h : m ∈ c.info.refuses ∨ m ∉ offers c) :
    (setMode c m).val = c ∧ (setMode c m).evs = [] := by
  match c with
  | .mk i kids =>
    rcases kind_cases i kids with ⟨a, b, hk⟩ | ⟨_, hk⟩
    · rw [setMode_device hk]
      rw [offers_mk hk] at h
      split
      · exact ⟨rfl, rfl⟩
      · rename_i ho
        have hr : m ∈ i.refuses := h.resolve_right ho
        have : (enter i m).code = .failed := by unfold enter; rw [if_pos hr]
        rw [if_pos this]
        exact ⟨rfl, rfl⟩
    · rw [setMode_other hk]; exact ⟨rfl, rfl⟩

example : (setMode (.mk (fresh 0 Demo.top false [.idle]) .nil) .idle).code = .failed ∧
    (setMode (.mk (fresh 0 Demo.top false [.idle]) .nil) .operation).code = .ok := by decide +kernel

/-! ## C208: sub-devices are excluded -/

/-- The full statement fails for a device that is in another folder: it goes back to the mode it
begins with when the mode of the device above is set. -/
theorem C208_violation :
    (Demo.stray.root.at [1, 0]).map (·.info.mode) = some .idle ∧
      ((setMode Demo.stray.root .operation).val.at [1, 0]).map (·.info.mode) = some .safe := by
  decide +kernel

/-- Missing: devices elsewhere than in the folder of the sub-devices.  Those in it, and all in them,
are not touched. -/
theorem C208_partial (c : Comp) (m : Mode) (hs : Shaped c) (h : (setMode c m).code = .ok)
    (k : Nat) (f : Comp) (hk : c.kids.get k = some f) (hf : f.info.kind = .devices) (p : List Nat) :
    ((setMode c m).val.at (k :: p)).map Comp.info = (c.at (k :: p)).map Comp.info := by
  rw [setMode_at hs h (k :: p)]
  have : belongs c (k :: p) = false := by simp [belongs, hk, hf]
  simp [this]

example : (Demo.set.root.at [0]).map (·.info.kind) = some .devices ∧
    (setMode Demo.set.root .idle).code = .ok ∧
    ((setMode Demo.set.root .idle).val.at [0, 0]).map (·.info.mode) = some .safe := by decide +kernel

end Verif.Modes.Props
