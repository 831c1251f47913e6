import Verif.Modes.Hist
/-!
# Trees that keep their shape, and components that keep being told
-/

namespace Verif.Modes

open Spec

theorem get_modify (f : Comp → Comp) : ∀ (l : Kids) (k j : Nat),
    (l.modify f k).get j = if j = k then (l.get j).map f else l.get j
  | .nil, k, j => by simp [Kids.modify, Kids.get]
  | .cons c l, 0, 0 => by simp [Kids.modify, Kids.get]
  | .cons c l, 0, j + 1 => by simp [Kids.modify, Kids.get]
  | .cons c l, k + 1, 0 => by simp [Kids.modify, Kids.get]
  | .cons c l, k + 1, j + 1 => by
    simp only [Kids.modify, Kids.get, get_modify f l k j, Nat.add_right_cancel_iff]

theorem get_snoc : ∀ (l : Kids) (c d : Comp) (k : Nat), (l.snoc c).get k = some d →
    l.get k = some d ∨ d = c
  | .nil, c, d, 0, h => by simp [Kids.snoc, Kids.get] at h; exact .inr h.symm
  | .nil, c, d, k + 1, h => by simp [Kids.snoc, Kids.get] at h
  | .cons e l, c, d, 0, h => by simp [Kids.snoc, Kids.get] at h ⊢; exact .inl h
  | .cons e l, c, d, k + 1, h => by
    simp only [Kids.snoc, Kids.get] at h ⊢; exact get_snoc l c d k h

/-! ## The shape -/

/-- How a component fits where it is. -/
def Fit (d e : Comp) : Prop :=
  (IsDevice e ↔ d.info.kind = .devices) ∧ (e.info.kind = .devices → IsDevice d)

theorem shaped_iff (c : Comp) : Shaped c ↔ ∀ k e, c.kids.get k = some e → Fit c e ∧ Shaped e := by
  constructor
  · intro h k e he
    exact ⟨h [] c k e rfl he, shaped_kid h he⟩
  · intro h p d k e hd he
    cases p with
    | nil => simp [at_nil] at hd; subst hd; exact (h k e he).1
    | cons j p =>
      rw [at_cons] at hd
      cases ej : c.kids.get j with
      | none => simp [ej] at hd
      | some f => simp [ej] at hd; exact (h j f ej).2 p d k e hd he

theorem fit_kind {d d' e e' : Comp} (hd : d'.info.kind = d.info.kind) (he : e'.info.kind = e.info.kind)
    (h : Fit d e) : Fit d' e' := by
  unfold Fit IsDevice at *
  rw [hd, he]; exact h

theorem modify_kind {f : Comp → Comp} (hf : ∀ d, (f d).info.kind = d.info.kind) (p : List Nat) (c : Comp) :
    (c.modify f p).info.kind = c.info.kind := by
  cases p with
  | nil => exact hf c
  | cons k p => rfl

theorem shaped_modify {f : Comp → Comp} (hk : ∀ d, (f d).info.kind = d.info.kind) (p : List Nat) :
    ∀ c : Comp, Shaped c → (∀ d, c.at p = some d → Shaped d → Shaped (f d)) → Shaped (c.modify f p) := by
  induction p with
  | nil => intro c hc h; exact h c rfl hc
  | cons k p ih =>
    intro c hc h
    rw [shaped_iff]
    intro j e he
    simp only [Comp.modify, kids_mk, get_modify] at he
    split at he
    · rename_i hj
      subst hj
      cases ej : c.kids.get j with
      | none => simp [ej] at he
      | some g =>
        simp only [ej, Option.map_some, Option.some.injEq] at he
        subst he
        have := (shaped_iff c).mp hc j g ej
        exact ⟨fit_kind rfl (modify_kind hk p g) this.1,
          ih g this.2 (fun d hd => h d (by simp [at_cons, ej, hd]))⟩
    · have := (shaped_iff c).mp hc j e he
      exact ⟨fit_kind rfl rfl this.1, this.2⟩

theorem shaped_of_erase {c d : Comp} (h : erase c = erase d) : Shaped c ↔ Shaped d := by
  rw [← shaped_erase c, h, shaped_erase]

theorem kind_of_erase {c d : Comp} (h : erase c = erase d) : c.info.kind = d.info.kind := by
  rw [← erase_kind c, h, erase_kind]

theorem attached_of_erase {c d : Comp} (h : erase c = erase d) : c.info.attached = d.info.attached := by
  rw [← erase_attached c, h, erase_attached]

theorem get_folders : ∀ (n t k : Nat) (e : Comp), (folders t n).get k = some e →
    e.info.kind = .folder ∧ e.kids = .nil
  | 0, _, _, e, h => by simp [folders, Kids.get] at h
  | n + 1, t, 0, e, h => by
    simp only [folders, Kids.get, Option.some.injEq] at h
    subst h
    exact ⟨rfl, rfl⟩
  | n + 1, t, k + 1, e, h => get_folders n (t + 1) k e (by simpa [folders, Kids.get] using h)

theorem shaped_leaf {e : Comp} (h : e.kids = .nil) : Shaped e := by
  rw [shaped_iff]
  intro k f hf
  rw [h] at hf
  simp [Kids.get] at hf

theorem not_isDevice {c : Comp} (h : ∀ a d, c.info.kind ≠ .device a d) : ¬ IsDevice c := by
  rintro ⟨a, d, e⟩
  exact h a d e

theorem fit_folder {d e : Comp} (he : e.info.kind = .folder) (hd : d.info.kind ≠ .devices) : Fit d e := by
  unfold Fit
  refine ⟨⟨fun h => ?_, fun h => absurd h hd⟩, fun h => ?_⟩
  · obtain ⟨a, b, h⟩ := h; rw [he] at h; cases h
  · rw [he] at h; cases h

theorem shaped_create (t n : Nat) (k : Kind) (r : List Mode) (h : k ≠ .devices) :
    Shaped (create t k n r) := by
  rw [shaped_iff]
  intro j e he
  have hd : (create t k n r).info.kind = k := rfl
  have hf : ∀ u, (folders u n).get j = some e → Fit (create t k n r) e ∧ Shaped e := by
    intro u hu
    have := get_folders n u j e hu
    exact ⟨fit_folder this.1 (by rw [hd]; exact h), shaped_leaf this.2⟩
  cases k with
  | plain => exact hf _ he
  | folder => exact hf _ he
  | devices => exact absurd rfl h
  | device a d =>
    cases j with
    | zero =>
      simp only [create, kids_mk, Kids.get, Option.some.injEq] at he
      subst he
      refine ⟨⟨⟨fun x => ?_, fun x => ?_⟩, fun _ => ⟨a, d, rfl⟩⟩, shaped_leaf rfl⟩
      · obtain ⟨a, b, x⟩ := x; cases x
      · cases x
    | succ j =>
      simp only [create, kids_mk, Kids.get] at he
      have := get_folders n _ j e he
      exact ⟨fit_folder this.1 (by rw [hd]; exact h), shaped_leaf this.2⟩

theorem erase_attach (up : Option Mode) (c : Comp) :
    erase (attach up c) = erase (.mk { c.info with attached := true } c.kids) := by
  unfold attach
  cases up with
  | none => rfl
  | some m => exact tell_erase m _

theorem attach_kind (up : Option Mode) (c : Comp) : (attach up c).info.kind = c.info.kind := by
  rw [kind_of_erase (erase_attach up c)]; rfl

theorem shaped_mk {c : Comp} {i : Info} (hi : i.kind = c.info.kind) (h : Shaped c) : Shaped (.mk i c.kids) := by
  rw [shaped_iff] at h ⊢
  intro k e he
  have := h k e he
  exact ⟨fit_kind hi rfl this.1, this.2⟩

theorem asRoot_kind (c : Comp) : (asRoot c).info.kind = c.info.kind ∧ (asRoot c).kids = c.kids := by
  match c with
  | .mk i kids =>
    have : ∀ d, (enter i d).val.kind = i.kind := by intro d; unfold enter; split <;> rfl
    cases e : i.kind with
    | device a d => simp only [asRoot, e, Comp.info, Comp.kids, this]; exact ⟨trivial, trivial⟩
    | plain => simp only [asRoot, e, Comp.info, Comp.kids]; exact ⟨trivial, trivial⟩
    | folder => simp only [asRoot, e, Comp.info, Comp.kids]; exact ⟨trivial, trivial⟩
    | devices => simp only [asRoot, e, Comp.info, Comp.kids]; exact ⟨trivial, trivial⟩

theorem shaped_step (w : World) (op : Op) (ho : Placed w op) (hw : Shaped w.root) :
    Shaped (w.step op).root := by
  cases op with
  | create p k n r =>
    refine shaped_modify (f := fun c => .mk c.info (c.kids.snoc (create w.next k n r))) (fun _ => rfl) p _ hw
      (fun d hd hs => ?_)
    rw [shaped_iff] at hs ⊢
    intro j e he
    rcases get_snoc _ _ _ _ he with h | h
    · have := hs j e h
      exact ⟨fit_kind rfl rfl this.1, this.2⟩
    · subst h
      refine ⟨⟨?_, fun h => absurd h ho.1⟩, shaped_create _ n k r ho.1⟩
      exact ho.2 d hd
  | add p k =>
    simp only [World.step]
    split
    · split
      · refine shaped_modify (attach_kind _) _ _ hw (fun d _ hs => ?_)
        rw [shaped_of_erase (erase_attach _ d)]
        exact shaped_mk rfl hs
      · exact hw
    · exact hw
  | remove p k =>
    simp only [World.step]
    split
    · split
      · exact shaped_modify (f := fun c => .mk { c.info with attached := false } c.kids) (fun _ => rfl) _ _ hw
          (fun d _ hs => shaped_mk rfl hs)
      · exact hw
    · exact hw
  | set p m =>
    exact shaped_modify (fun d => kind_of_erase (setMode_erase m d)) _ _ hw
      (fun d _ hs => (shaped_of_erase (setMode_erase m d)).mpr hs)
  | setRec p m =>
    exact shaped_modify (fun d => kind_of_erase (setRecursive_erase m d)) _ _ hw
      (fun d _ hs => (shaped_of_erase (setRecursive_erase m d)).mpr hs)
  | asRoot =>
    have h := asRoot_kind w.root
    have : asRoot w.root = .mk (asRoot w.root).info w.root.kids := by
      rw [← h.2]
      match asRoot w.root with
      | .mk i kids => rfl
    change Shaped (asRoot w.root)
    rw [this]
    exact shaped_mk h.1 hw

theorem shaped_run (ops : List Op) : ∀ w : World, Along Placed w ops → Shaped w.root →
    Shaped (w.run ops).root := by
  induction ops with
  | nil => intro w _ hw; exact hw
  | cons op ops ih => intro w ho hw; exact ih _ ho.2 (shaped_step w op ho.1 hw)

/-! ## Being told -/

/-- Everybody that hears was last told this. -/
def HT (m : Mode) (c : Comp) : Prop :=
  ∀ p d, c.at p = some d → hears c p = true → d.info.told = some m

/-- As `hears`, but the last need not be an item. -/
def link (c : Comp) : List Nat → Bool
  | [] => true
  | [_] => !decide (IsDevice c)
  | k :: p =>
    !decide (IsDevice c) &&
      match c.kids.get k with
      | some d => d.info.attached && link d p
      | none => false

theorem ht_kid {m : Mode} {c d : Comp} (h : HT m c) (hn : ¬ IsDevice c) {k : Nat}
    (hk : c.kids.get k = some d) (ha : d.info.attached = true) : HT m d := by
  intro p e he hp
  exact h (k :: p) e (by simp [at_cons, hk, he]) (by simp [hears, hn, hk, ha, hp])

theorem link_cons {c d : Comp} (hn : ¬ IsDevice c) {k : Nat} {p : List Nat}
    (hk : c.kids.get k = some d) (ha : p ≠ [] → d.info.attached = true) (h : link d p = true) :
    link c (k :: p) = true := by
  cases p with
  | nil => simp [link, hn]
  | cons j p => simp [link, hn, hk, ha (by simp), h]

theorem ht_modify {m : Mode} {f : Comp → Comp} (hf : ∀ d, (f d).info.kind = d.info.kind) (p : List Nat) :
    ∀ c : Comp, HT m c →
      (∀ d, c.at p = some d → link c p = true → (p = [] ∨ (f d).info.attached = true) →
        (p ≠ [] → d.info.attached = true → HT m d) → HT m (f d)) →
      HT m (c.modify f p) := by
  induction p with
  | nil => intro c hc h; exact h c rfl rfl (.inl rfl) (fun h => absurd rfl h)
  | cons k p ih =>
    intro c hc h q e he hq
    cases q with
    | nil =>
      simp only [Comp.modify, at_nil, Option.some.injEq] at he
      subst he
      exact hc [] c rfl rfl
    | cons j q =>
      have hn : ¬ IsDevice c := by
        intro hd
        have : IsDevice (c.modify f (k :: p)) := hd
        simp [hears, this] at hq
      have hn' : ¬ IsDevice (c.modify f (k :: p)) := hn
      simp only [Comp.modify, at_cons, kids_mk, get_modify] at he
      simp only [hears, hn', decide_false, Bool.not_false, Bool.true_and] at hq
      simp only [Comp.modify, kids_mk, get_modify] at hq
      by_cases hj : j = k
      · subst hj
        simp only [if_true] at he hq
        cases ej : c.kids.get j with
        | none => simp [ej] at he
        | some g =>
          simp only [ej, Option.map_some, Option.bind_some, Bool.and_eq_true] at he hq
          refine ?_
          have hg : g.info.attached = true → HT m g := ht_kid hc hn ej
          cases p with
          | nil =>
            refine h g (by simp [at_cons, ej, at_nil]) (link_cons hn ej (fun x => absurd rfl x) rfl) (.inr hq.1)
              (fun _ => hg) q e he hq.2
          | cons l p =>
            have ha : g.info.attached = true := hq.1
            refine ih g (hg ha) (fun d hd hl hx hy => ?_) q e he hq.2
            exact h d (by simp [at_cons, ej] at hd ⊢; exact hd) (link_cons hn ej (fun _ => ha) hl)
              (.inr (hx.resolve_left (by simp))) (fun _ => hy (by simp))
      · simp only [hj, if_false] at he hq
        refine hc (j :: q) e (by simpa [at_cons] using he) ?_
        simpa [hears, hn] using hq

/-- Settled, by the children. -/
theorem settled_iff {c : Comp} : Settled c ↔ c.info.told = some c.info.mode ∧
    ∀ k d, c.kids.get k = some d → d.info.attached = true → d.info.kind ≠ .devices → HT c.info.mode d := by
  constructor
  · intro h
    refine ⟨h [] c rfl rfl, fun k d hk ha hd p e he hp => ?_⟩
    exact h (k :: p) e (by simp [at_cons, hk, he]) (by simp [belongs, hk, ha, hd, hp])
  · intro ⟨h1, h2⟩ p e he hp
    cases p with
    | nil => simp [at_nil] at he; subst he; exact h1
    | cons k p =>
      rw [at_cons] at he
      cases ek : c.kids.get k with
      | none => simp [ek] at he
      | some d =>
        simp only [ek, Option.bind_some] at he
        simp only [belongs, ek, Bool.and_eq_true, decide_eq_true_eq] at hp
        exact h2 k d ek hp.1.1 hp.1.2 p e he hp.2

/-- Changes below the first level. -/
theorem settled_modify {f : Comp → Comp} (hf : ∀ d, (f d).info.kind = d.info.kind) {c : Comp} (k : Nat)
    (p : List Nat) (hc : Settled c)
    (h : ∀ g d, c.kids.get k = some g → g.info.kind ≠ .devices → g.at p = some d → link g p = true →
      (p ≠ [] → g.info.attached = true) →
      (f d).info.attached = true → (d.info.attached = true → HT c.info.mode d) → HT c.info.mode (f d)) :
    Settled (c.modify f (k :: p)) := by
  rw [settled_iff] at hc ⊢
  refine ⟨hc.1, fun j e he ha hd => ?_⟩
  change HT c.info.mode e
  simp only [Comp.modify, kids_mk, get_modify] at he
  split at he
  · rename_i hj
    subst hj
    cases ej : c.kids.get j with
    | none => simp [ej] at he
    | some g =>
      simp only [ej, Option.map_some, Option.some.injEq] at he
      subst he
      rw [modify_kind hf] at hd
      cases p with
      | nil => exact h g g ej hd rfl rfl (fun x => absurd rfl x) ha (fun x => hc.2 j g ej x hd)
      | cons l p =>
        have hg : g.info.attached = true := ha
        refine ht_modify hf _ g (hc.2 j g ej hg hd) (fun d hdd hl hx hy => ?_)
        exact h g d ej hd hdd hl (fun _ => hg) (hx.resolve_left (by simp)) (hy (by simp))
  · exact hc.2 j e he ha hd

/-! ## What the steps do -/

theorem ht_of_tell {m : Mode} {c : Comp} (hn : NoDev c) (h : (tell c m).code = .ok) :
    HT m (tell c m).val := by
  intro p d hd hp
  rw [← erase_hears p, tell_erase, erase_hears] at hp
  have := tell_at m p c h hn
  rw [hd, hp] at this
  cases e : c.at p with
  | none => simp [e] at this
  | some x =>
    simp only [e, Option.map_some, Option.some.injEq, if_true] at this
    rw [this]
    unfold after
    split <;> rfl

/-- Where the link leads there are neither devices nor folders of sub-devices. -/
theorem link_noDev (p : List Nat) : ∀ {c d : Comp}, Shaped c → ¬ IsDevice c → c.info.kind ≠ .devices →
    c.at p = some d → ¬ IsDevice d ∧ d.info.kind ≠ .devices ∧ Shaped d := by
  induction p with
  | nil => intro c d hs h1 h2 hd; simp [at_nil] at hd; subst hd; exact ⟨h1, h2, hs⟩
  | cons k p ih =>
    intro c d hs h1 h2 hd
    rw [at_cons] at hd
    cases ek : c.kids.get k with
    | none => simp [ek] at hd
    | some g =>
      simp only [ek, Option.bind_some] at hd
      have := (shaped_iff c).mp hs k g ek
      exact ih this.2 (fun x => h2 (this.1.1.mp x)) (fun x => h1 (this.1.2 x)) hd

theorem modeAt_plain (p : List Nat) : ∀ {c d : Comp} {up : Option Mode}, Shaped c → ¬ IsDevice c →
    c.info.kind ≠ .devices → c.at p = some d → modeAt c p up = up := by
  induction p with
  | nil =>
    intro c d up hs h1 h2 hd
    unfold modeAt
    cases e : c.info.kind with
    | device a b => exact absurd ⟨a, b, e⟩ h1
    | plain => rfl
    | folder => rfl
    | devices => rfl
  | cons k p ih =>
    intro c d up hs h1 h2 hd
    rw [at_cons] at hd
    cases ek : c.kids.get k with
    | none => simp [ek] at hd
    | some g =>
      simp only [ek, Option.bind_some] at hd
      have := (shaped_iff c).mp hs k g ek
      have ih' := ih (up := up) this.2 (fun x => h2 (this.1.1.mp x)) (fun x => h1 (this.1.2 x)) hd
      unfold modeAt
      simp only [ek]
      cases e : c.info.kind with
      | device a b => exact absurd ⟨a, b, e⟩ h1
      | plain => exact ih'
      | folder => exact ih'
      | devices => exact ih'

theorem modeAt_device {c d : Comp} (hs : Shaped c) (hc : IsDevice c) {p : List Nat} {up : Option Mode}
    (hd : c.at p = some d) (hp : ∀ k g q, p = k :: q → c.kids.get k = some g → g.info.kind ≠ .devices) :
    modeAt c p up = some c.info.mode := by
  obtain ⟨a, b, e⟩ := hc
  cases p with
  | nil => unfold modeAt; simp only [e]
  | cons k p =>
    rw [at_cons] at hd
    cases ek : c.kids.get k with
    | none => simp [ek] at hd
    | some g =>
      simp only [ek, Option.bind_some] at hd
      have h1 := (shaped_iff c).mp hs k g ek
      unfold modeAt
      simp only [e, ek]
      refine modeAt_plain p h1.2 (fun x => ?_) (hp k g p rfl ek) hd
      rw [h1.1.1.mp x] at e
      cases e

theorem willing_all {c : Comp} (h : All (fun i => i.refuses = []) c) : Willing c :=
  fun p d hd => all_at p c d h hd

theorem attach_ht {m : Mode} {c : Comp} (hs : Shaped c) (h1 : ¬ IsDevice c) (h2 : c.info.kind ≠ .devices)
    (hw : Willing c) : HT m (attach (some m) c) := by
  have hs' : Shaped (.mk { c.info with attached := true } c.kids) := shaped_mk rfl hs
  have hn := shaped_noDev hs' h1 h2
  refine ht_of_tell hn (tell_willing m _ hn (fun p d hd _ => ?_))
  cases p with
  | nil =>
    simp only [at_nil, Option.some.injEq] at hd
    subst hd
    have := hw [] c rfl
    change m ∉ c.info.refuses
    simp [this]
  | cons k p =>
    have hd' : c.at (k :: p) = some d := by
      rw [at_cons] at hd ⊢; exact hd
    simp [hw _ _ hd']

/-- What holds at all times. -/
structure Good (c : Comp) : Prop where
  device : IsDevice c
  shaped : Shaped c
  willing : All (fun i => i.refuses = []) c
  settled : Settled c

theorem stays_willing : Stays (fun i => i.refuses = []) where
  told := fun _ _ _ h => h
  mode := fun _ _ _ _ _ _ h => h
  attached := fun _ _ h => h
  plain := fun _ _ => ⟨rfl, rfl⟩

theorem settled_setMode {c : Comp} {m : Mode} (hs : Shaped c) (h : (setMode c m).code = .ok) :
    Settled (setMode c m).val := by
  have h0 := setMode_at hs h
  have hm : (setMode c m).val.info.mode = m := by
    obtain ⟨i, kids, a, b, _, _, _, _, _, e⟩ := setMode_ok h
    rw [e]; rfl
  intro p d hd hp
  rw [← erase_belongs p, setMode_erase, erase_belongs] at hp
  have := h0 p
  rw [hd, hp] at this
  cases e : c.at p with
  | none => simp [e] at this
  | some x =>
    simp only [e, Option.map_some, Option.some.injEq, if_true] at this
    rw [this, hm]
    unfold after
    split <;> rfl

theorem reached_belongs {c : Comp} {m : Mode} {p : List Nat} (h : belongs c p = true) :
    reached m c p = decide (m ∈ offers c) := by
  match p with
  | [] => simp [reached]
  | [k] => simp [reached, h]
  | k :: j :: p =>
    unfold reached
    cases ek : c.kids.get k with
    | none => simp [belongs, ek] at h
    | some d =>
      simp only
      rw [if_neg]
      · simp [h]
      · intro hk
        simp [belongs, ek, hk] at h

theorem settled_setRec {c : Comp} {m : Mode} (hs : Shaped c) (hd : IsDevice c)
    (h : (setRec c.depth c m).code ≠ .failed) (hc : Settled c ∨ m ∈ offers c) :
    Settled (setRec c.depth c m).val := by
  have h0 := setRec_at m c.depth c hs hd (Nat.le_refl _) h
  have hr := h0 []
  simp only [at_nil, Option.map_some, Option.some.injEq, reached] at hr
  intro p d hp hb
  rw [← erase_belongs p, setRec_erase, erase_belongs] at hb
  have := h0 p
  rw [hp, reached_belongs hb] at this
  cases e : c.at p with
  | none => simp [e] at this
  | some x =>
    simp only [e, Option.map_some, Option.some.injEq] at this
    rw [this, hr]
    by_cases ho : m ∈ offers c
    · simp only [ho, decide_true, if_true]
      obtain ⟨a, b, hk⟩ := hd
      rw [after_device m hk]
      unfold after
      split <;> rfl
    · simp only [ho, decide_false, Bool.false_eq_true, if_false]
      exact hc.resolve_right ho p x e hb

theorem settled_set {c : Comp} {m : Mode} (hs : Shaped c)
    (h : (setMode c m).code ≠ .failed) (hc : Settled c) : Settled (setMode c m).val := by
  by_cases ho : m ∈ offers c
  · exact settled_setMode hs (setMode_code_of_offers ho h)
  · rw [setMode_ignored ho]; exact hc

theorem setMode_noDevice {c : Comp} (m : Mode) (h : ¬ IsDevice c) : (setMode c m).val = c := by
  match c with
  | .mk i kids => rw [setMode_other (i := i) (fun a d e => h ⟨a, d, e⟩)]

theorem setRecursive_noDevice {c : Comp} (m : Mode) (h : ¬ IsDevice c) : (setRecursive c m).val = c := by
  unfold setRecursive
  cases e : c.info.kind with
  | device a b => exact absurd ⟨a, b, e⟩ h
  | plain => rfl
  | folder => rfl
  | devices => rfl

theorem setRecursive_device {c : Comp} (m : Mode) (h : IsDevice c) : setRecursive c m = setRec c.depth c m := by
  obtain ⟨a, b, e⟩ := h
  unfold setRecursive
  rw [e]

theorem device_kid {c g : Comp} (hs : Shaped c) (hc : IsDevice c) {k : Nat} (hk : c.kids.get k = some g) :
    ¬ IsDevice g ∧ Shaped g := by
  have h1 := (shaped_iff c).mp hs k g hk
  obtain ⟨a, b, e⟩ := hc
  exact ⟨(fun x => by rw [h1.1.1.mp x] at e; cases e), h1.2⟩

/-- A call on a component other than the device itself. -/
theorem settled_other {f : Comp → Comp} (hf : ∀ d, (f d).info.kind = d.info.kind)
    (hn : ∀ d, ¬ IsDevice d → f d = d) {c : Comp} (hs : Shaped c) (hd : IsDevice c) (hc : Settled c)
    (k : Nat) (p : List Nat) : Settled (c.modify f (k :: p)) := by
  refine settled_modify hf k p hc (fun g d hg hk hp _ _ ha ht => ?_)
  have h1 := device_kid hs hd hg
  have h2 := link_noDev p h1.2 h1.1 hk hp
  rw [hn d h2.1] at ha ⊢
  exact ht ha

theorem at_append (p q : List Nat) : ∀ c : Comp, c.at (p ++ q) = (c.at p).bind (·.at q) := by
  induction p with
  | nil => intro c; rfl
  | cons k p ih =>
    intro c
    rw [List.cons_append, at_cons, at_cons]
    cases c.kids.get k with
    | none => rfl
    | some d => simpa using ih d

theorem good_step (w : World) (op : Op) (ho : Usual w op) (hw : Good w.root) : Good (w.step op).root := by
  have hpl : Placed w op := by
    cases op with
    | create p k n r => exact ⟨ho.2.1, ho.2.2⟩
    | _ => trivial
  have hall : All (fun i => i.refuses = []) (w.step op).root := by
    refine step_all stays_willing w op ?_ hw.willing
    intro p k n r e t
    subst e
    exact ho.1
  have hwi := willing_all hw.willing
  have hsh := shaped_step w op hpl hw.shaped
  obtain ⟨a, b, hdev⟩ := hw.device
  cases op with
  | asRoot => exact ho.elim
  | create p k n r =>
    refine ⟨⟨a, b, ?_⟩, hsh, hall, ?_⟩
    · rw [← hdev]
      exact modify_kind (f := fun c => .mk c.info (c.kids.snoc (create w.next k n r))) (fun _ => rfl) p w.root
    · cases p with
      | nil =>
        have h1 := settled_iff.mp hw.settled
        refine settled_iff.mpr ⟨h1.1, fun j e he ha hk => ?_⟩
        rcases get_snoc _ _ _ _ he with h | h
        · exact h1.2 j e h ha hk
        · subst h; cases ha
      | cons j p =>
        refine settled_modify (f := fun c => .mk c.info (c.kids.snoc (create w.next k n r)))
          (fun _ => rfl) j p hw.settled (fun g d hg hk hp _ _ ha ht => ?_)
        have h0 := ht ha
        have h1 := device_kid hw.shaped hw.device hg
        have h2 := link_noDev p h1.2 h1.1 hk hp
        intro q e he hq
        cases q with
        | nil =>
          simp only [at_nil, Option.some.injEq] at he
          subst he
          exact h0 [] d rfl rfl
        | cons l q =>
          simp only [at_cons, kids_mk] at he
          cases el : (d.kids.snoc (create w.next k n r)).get l with
          | none => simp [el] at he
          | some x =>
            simp only [hears, kids_mk, el, Bool.and_eq_true] at hq
            simp only [el, Option.bind_some] at he
            rcases get_snoc _ _ _ _ el with h | h
            · exact h0 (l :: q) e (by simp [at_cons, h, he]) (by simp [hears, h2.1, h, hq.2.1, hq.2.2])
            · subst h
              have := hq.2.1
              cases this
  | add p k =>
    simp only [World.step] at hsh hall ⊢
    cases e1 : w.root.at p with
    | none => simp only [e1] at hsh hall ⊢; exact hw
    | some f =>
      cases e2 : w.root.at (p ++ [k]) with
      | none => simp only [e1, e2] at hsh hall ⊢; exact hw
      | some c =>
        simp only [e1, e2] at hsh hall ⊢
        split at hsh
        · rename_i hfit
          rw [if_pos hfit] at hall ⊢
          refine ⟨⟨a, b, ?_⟩, hsh, hall, ?_⟩
          · rw [← hdev]; exact modify_kind (attach_kind _) _ _
          · cases hpk : p ++ [k] with
            | nil => simp at hpk
            | cons j q =>
              refine settled_modify (attach_kind _) j q hw.settled (fun g d hg hk hq _ _ _ _ => ?_)
              have h1 := device_kid hw.shaped hw.device hg
              have h2 := link_noDev q h1.2 h1.1 hk hq
              have hd : w.root.at (j :: q) = some d := by simp [at_cons, hg, hq]
              have hm : modeAt w.root p none = some w.root.info.mode := by
                refine modeAt_device hw.shaped hw.device e1 (fun j' g' q' hp' hg' => ?_)
                subst hp'
                simp only [List.cons_append, List.cons.injEq] at hpk
                rw [hpk.1, hg] at hg'
                cases hg'
                exact hk
              rw [hm]
              refine attach_ht h2.2.2 h2.1 h2.2.1 (fun r e he => hwi ((j :: q) ++ r) e ?_)
              rw [at_append, hd]
              exact he
        · rename_i hfit
          rw [if_neg hfit]
          exact hw
  | remove p k =>
    simp only [World.step] at hsh hall ⊢
    cases e1 : w.root.at p with
    | none => simp only [e1] at hsh hall ⊢; exact hw
    | some f =>
      simp only [e1] at hsh hall ⊢
      split at hsh
      · rename_i hk
        rw [if_pos hk] at hall ⊢
        refine ⟨⟨a, b, ?_⟩, hsh, hall, ?_⟩
        · rw [← hdev]
          exact modify_kind (f := fun c => .mk { c.info with attached := false } c.kids) (fun _ => rfl) _ _
        · cases hpk : p ++ [k] with
          | nil => simp at hpk
          | cons j q =>
            refine settled_modify (f := fun c => .mk { c.info with attached := false } c.kids)
              (fun _ => rfl) j q hw.settled (fun g d _ _ _ _ _ ha _ => ?_)
            cases ha
      · rename_i hk
        rw [if_neg hk]
        exact hw
  | set p m =>
    refine ⟨⟨a, b, ?_⟩, hsh, hall, ?_⟩
    · rw [← hdev]; exact modify_kind (fun d => kind_of_erase (setMode_erase m d)) p w.root
    · cases p with
      | nil =>
        refine settled_set hw.shaped ?_ hw.settled
        by_cases ho : m ∈ offers w.root
        · rw [setMode_willing hw.shaped ho (fun p d hd _ => by simp [hwi p d hd])]; simp
        · rw [setMode_ignored ho]; simp
      | cons k p =>
        exact settled_other (fun d => kind_of_erase (setMode_erase m d)) (fun d => setMode_noDevice m)
          hw.shaped hw.device hw.settled k p
  | setRec p m =>
    refine ⟨⟨a, b, ?_⟩, hsh, hall, ?_⟩
    · rw [← hdev]; exact modify_kind (fun d => kind_of_erase (setRecursive_erase m d)) p w.root
    · cases p with
      | nil =>
        change Settled (setRecursive w.root m).val
        rw [setRecursive_device m hw.device]
        refine settled_setRec hw.shaped hw.device ?_ (.inl hw.settled)
        rw [setRec_willing m _ _ hw.shaped hw.device (Nat.le_refl _) (fun p d hd _ => by simp [hwi p d hd])]
        simp
      | cons k p =>
        exact settled_other (fun d => kind_of_erase (setRecursive_erase m d)) (fun d => setRecursive_noDevice m)
          hw.shaped hw.device hw.settled k p

theorem good_run (ops : List Op) : ∀ w : World, Along Usual w ops → Good w.root → Good (w.run ops).root := by
  induction ops with
  | nil => intro w _ hw; exact hw
  | cons op ops ih => intro w ho hw; exact ih _ ho.2 (good_step w op ho.1 hw)

end Verif.Modes
