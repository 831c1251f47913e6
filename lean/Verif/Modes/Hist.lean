import Verif.Modes.Set
/-!
# Histories
-/

namespace Verif.Modes

open Spec

/-! ## What no call changes -/

/-- The kind of a component, and whether it is an item. -/
def bare (i : Info) : Info := fresh 0 i.kind i.attached []

mutual
/-- The tree with nothing but that. -/
def erase : Comp → Comp
  | .mk i kids => .mk (bare i) (eraseAll kids)
def eraseAll : Kids → Kids
  | .nil => .nil
  | .cons c l => .cons (erase c) (eraseAll l)
end

theorem erase_info (c : Comp) : (erase c).info = bare c.info := by
  match c with
  | .mk i kids => simp [erase, Comp.info]

theorem erase_kids (c : Comp) : (erase c).kids = eraseAll c.kids := by
  match c with
  | .mk i kids => simp [erase, Comp.kids]

theorem erase_mk {c : Comp} {i : Info} {l : Kids} (hi : bare i = bare c.info)
    (hl : eraseAll l = eraseAll c.kids) : erase (.mk i l) = erase c := by
  match c with
  | .mk j kids =>
    simp only [Comp.info] at hi
    simp only [Comp.kids] at hl
    simp [erase, hi, hl]

theorem eraseAll_get (l : Kids) (k : Nat) : (eraseAll l).get k = (l.get k).map erase := by
  induction k generalizing l with
  | zero => cases l <;> simp [eraseAll, Kids.get]
  | succ k ih =>
    cases l with
    | nil => simp [eraseAll, Kids.get]
    | cons c l => simpa [eraseAll, Kids.get] using ih l

theorem erase_at (p : List Nat) : ∀ c : Comp, (erase c).at p = (c.at p).map erase := by
  induction p with
  | nil => intro c; rfl
  | cons k p ih =>
    intro c
    rw [at_cons, at_cons, erase_kids, eraseAll_get]
    cases c.kids.get k with
    | none => rfl
    | some d => simpa using ih d

theorem erase_kind (c : Comp) : (erase c).info.kind = c.info.kind := by rw [erase_info]; rfl

theorem erase_attached (c : Comp) : (erase c).info.attached = c.info.attached := by rw [erase_info]; rfl

theorem erase_isDevice (c : Comp) : IsDevice (erase c) ↔ IsDevice c := by
  unfold IsDevice; rw [erase_kind]

theorem erase_hears (p : List Nat) : ∀ c : Comp, hears (erase c) p = hears c p := by
  induction p with
  | nil => intro c; rfl
  | cons k p ih =>
    intro c
    simp only [hears, erase_kids, eraseAll_get]
    cases c.kids.get k with
    | none => simp
    | some d => simp [erase_attached, ih d, erase_isDevice]

theorem erase_belongs (p : List Nat) (c : Comp) : belongs (erase c) p = belongs c p := by
  cases p with
  | nil => rfl
  | cons k p =>
    simp only [belongs, erase_kids, eraseAll_get]
    cases c.kids.get k with
    | none => simp
    | some d => simp [erase_attached, erase_kind, erase_hears]

theorem shaped_erase (c : Comp) : Shaped (erase c) ↔ Shaped c := by
  constructor
  · intro h p d k e hd he
    have := h p (erase d) k (erase e) (by rw [erase_at, hd]; rfl) (by rw [erase_kids, eraseAll_get, he]; rfl)
    rw [erase_isDevice, erase_isDevice, erase_kind, erase_kind] at this
    exact this
  · intro h p d k e hd he
    rw [erase_at] at hd
    cases hd' : c.at p with
    | none => simp [hd'] at hd
    | some d' =>
      simp only [hd', Option.map_some, Option.some.injEq] at hd
      subst hd
      rw [erase_kids, eraseAll_get] at he
      cases he' : d'.kids.get k with
      | none => simp [he'] at he
      | some e' =>
        simp only [he', Option.map_some, Option.some.injEq] at he
        subst he
        rw [erase_isDevice, erase_isDevice, erase_kind, erase_kind]
        exact h p d' k e' hd' he'

theorem bare_enter (i : Info) (m : Mode) : bare (enter i m).val = bare i := by
  unfold enter; split <;> rfl

mutual
theorem tell_erase (m : Mode) : ∀ c : Comp, erase (tell c m).val = erase c
  | .mk i kids => by
    rcases kind_cases i kids with ⟨a, d, h⟩ | ⟨_, h⟩
    · rw [tell_device h]
      simp only [erase, bare_enter]
    · rw [tell_other h]
      split
      · rfl
      · simp only [erase, tellAll_erase m kids]
        rfl
theorem tellAll_erase (m : Mode) : ∀ l : Kids, eraseAll (tellAll l m).val = eraseAll l
  | .nil => by simp [tellAll]
  | .cons c l => by
    unfold tellAll
    split
    · split
      · simp only [eraseAll, tell_erase m c]
      · simp only [eraseAll, tell_erase m c, tellAll_erase m l]
    · simp only [eraseAll, tellAll_erase m l]
end

theorem setAll_erase (m : Mode) : ∀ l : Kids, eraseAll (setAll l m).val = eraseAll l
  | .nil => by simp [setAll]
  | .cons c l => by
    unfold setAll
    split
    · split
      · simp only [eraseAll, tell_erase m c]
      · simp only [eraseAll, tell_erase m c, setAll_erase m l]
    · simp only [eraseAll, setAll_erase m l]

theorem setMode_erase (m : Mode) (c : Comp) : erase (setMode c m).val = erase c := by
  match c with
  | .mk i kids =>
    rcases kind_cases i kids with ⟨a, b, hk⟩ | ⟨_, hk⟩
    · rw [setMode_device hk]
      split
      · rfl
      · split
        · rfl
        · simp only [erase, bare_enter, setAll_erase]
    · rw [setMode_other hk]

theorem each_erase {f : Comp → Res Comp} (hf : ∀ c, erase (f c).val = erase c) :
    ∀ l : Kids, eraseAll (l.each f).val = eraseAll l
  | .nil => by simp [Kids.each]
  | .cons c l => by
    unfold Kids.each
    split
    · split
      · simp only [eraseAll, hf]
      · simp only [eraseAll, hf, each_erase hf l]
    · simp only [eraseAll, each_erase hf l]

theorem subs_erase {f : Comp → Res Comp} (hf : ∀ c, erase (f c).val = erase c) :
    ∀ l : Kids, eraseAll (l.subs f).val = eraseAll l
  | .nil => by simp [Kids.subs]
  | .cons c l => by
    have h1 : erase (.mk c.info (c.kids.each f).val) = erase c := erase_mk rfl (each_erase hf c.kids)
    unfold Kids.subs
    split
    · split
      · simp only [eraseAll, h1]
      · simp only [eraseAll, h1, subs_erase hf l]
    · simp only [eraseAll, subs_erase hf l]

theorem setRec_erase (m : Mode) (n : Nat) : ∀ c : Comp, erase (setRec n c m).val = erase c := by
  induction n with
  | zero => intro c; rfl
  | succ n ih =>
    intro c
    unfold setRec
    split
    · exact setMode_erase m c
    · rw [← setMode_erase m c]
      exact erase_mk rfl (subs_erase ih _)

theorem setRecursive_erase (m : Mode) (c : Comp) : erase (setRecursive c m).val = erase c := by
  unfold setRecursive
  split
  · exact setRec_erase m _ c
  · rfl

/-! ## What holds for every component -/

mutual
def All (P : Info → Prop) : Comp → Prop
  | .mk i kids => P i ∧ AllK P kids
def AllK (P : Info → Prop) : Kids → Prop
  | .nil => True
  | .cons c l => All P c ∧ AllK P l
end

/-- What the calls may do to a component. -/
structure Kept (P : Info → Prop) : Prop where
  told : ∀ i m, (∀ a d, i.kind ≠ .device a d) → P i → P { i with told := some m }
  mode : ∀ i a d m, i.kind = .device a d → (m = d ∨ m ∈ a) → P i → P { i with mode := m, told := some m }

theorem enter_all {P : Info → Prop} (h : Kept P) {i : Info} {a : List Mode} {d m : Mode}
    (hk : i.kind = .device a d) (hm : m = d ∨ m ∈ a) (hi : P i) : P (enter i m).val := by
  unfold enter
  split
  · exact hi
  · exact h.mode i a d m hk hm hi

mutual
theorem tell_all {P : Info → Prop} (h : Kept P) (m : Mode) : ∀ c : Comp, All P c → All P (tell c m).val
  | .mk i kids, hc => by
    simp only [All] at hc
    rcases kind_cases i kids with ⟨a, d, hk⟩ | ⟨_, hk⟩
    · rw [tell_device hk]
      simp only [All]
      exact ⟨enter_all h hk (.inl rfl) hc.1, hc.2⟩
    · rw [tell_other hk]
      split
      · simpa only [All] using hc
      · simp only [All]
        exact ⟨h.told i m hk hc.1, tellAll_all h m kids hc.2⟩
theorem tellAll_all {P : Info → Prop} (h : Kept P) (m : Mode) : ∀ l : Kids, AllK P l → AllK P (tellAll l m).val
  | .nil, _ => by simp [tellAll, AllK]
  | .cons c l, hl => by
    simp only [AllK] at hl
    unfold tellAll
    split
    · split
      · simp only [AllK]; exact ⟨tell_all h m c hl.1, hl.2⟩
      · simp only [AllK]; exact ⟨tell_all h m c hl.1, tellAll_all h m l hl.2⟩
    · simp only [AllK]; exact ⟨hl.1, tellAll_all h m l hl.2⟩
end

theorem setAll_all {P : Info → Prop} (h : Kept P) (m : Mode) : ∀ l : Kids, AllK P l → AllK P (setAll l m).val
  | .nil, _ => by simp [setAll, AllK]
  | .cons c l, hl => by
    simp only [AllK] at hl
    unfold setAll
    split
    · split
      · simp only [AllK]; exact ⟨tell_all h m c hl.1, hl.2⟩
      · simp only [AllK]; exact ⟨tell_all h m c hl.1, setAll_all h m l hl.2⟩
    · simp only [AllK]; exact ⟨hl.1, setAll_all h m l hl.2⟩

theorem setMode_all {P : Info → Prop} (h : Kept P) (m : Mode) (c : Comp) (hc : All P c) :
    All P (setMode c m).val := by
  match c with
  | .mk i kids =>
    rcases kind_cases i kids with ⟨a, b, hk⟩ | ⟨_, hk⟩
    · rw [setMode_device hk]
      split
      · exact hc
      · rename_i hm
        split
        · exact hc
        · simp only [All] at hc ⊢
          exact ⟨enter_all h hk (.inr (Decidable.not_not.mp hm)) hc.1, setAll_all h m kids hc.2⟩
    · rw [setMode_other hk]; exact hc

theorem each_all {P : Info → Prop} {f : Comp → Res Comp} (hf : ∀ c, All P c → All P (f c).val) :
    ∀ l : Kids, AllK P l → AllK P (l.each f).val
  | .nil, _ => by simp [Kids.each, AllK]
  | .cons c l, hl => by
    simp only [AllK] at hl
    unfold Kids.each
    split
    · split
      · simp only [AllK]; exact ⟨hf c hl.1, hl.2⟩
      · simp only [AllK]; exact ⟨hf c hl.1, each_all hf l hl.2⟩
    · simp only [AllK]; exact ⟨hl.1, each_all hf l hl.2⟩

theorem all_iff {P : Info → Prop} (c : Comp) : All P c ↔ P c.info ∧ AllK P c.kids := by
  match c with
  | .mk i kids => simp [All, Comp.info, Comp.kids]

theorem subs_all {P : Info → Prop} {f : Comp → Res Comp} (hf : ∀ c, All P c → All P (f c).val) :
    ∀ l : Kids, AllK P l → AllK P (l.subs f).val
  | .nil, _ => by simp [Kids.subs, AllK]
  | .cons c l, hl => by
    simp only [AllK] at hl
    have h1 : All P (.mk c.info (c.kids.each f).val) := by
      have := (all_iff c).mp hl.1
      simp only [All]
      exact ⟨this.1, each_all hf _ this.2⟩
    unfold Kids.subs
    split
    · split
      · simp only [AllK]; exact ⟨h1, hl.2⟩
      · simp only [AllK]; exact ⟨h1, subs_all hf l hl.2⟩
    · simp only [AllK]; exact ⟨hl.1, subs_all hf l hl.2⟩

theorem setRec_all {P : Info → Prop} (h : Kept P) (m : Mode) (n : Nat) :
    ∀ c : Comp, All P c → All P (setRec n c m).val := by
  induction n with
  | zero => intro c hc; exact hc
  | succ n ih =>
    intro c hc
    unfold setRec
    have h1 := setMode_all h m c hc
    split
    · exact h1
    · have h2 := (all_iff _).mp h1
      simp only [All]
      exact ⟨h2.1, subs_all ih _ h2.2⟩

theorem setRecursive_all {P : Info → Prop} (h : Kept P) (m : Mode) (c : Comp) (hc : All P c) :
    All P (setRecursive c m).val := by
  unfold setRecursive
  split
  · exact setRec_all h m _ c hc
  · exact hc

theorem modifyK_all {P : Info → Prop} {f : Comp → Comp} (hf : ∀ c, All P c → All P (f c)) :
    ∀ (l : Kids) (k : Nat), AllK P l → AllK P (l.modify f k)
  | .nil, _, _ => by simp [Kids.modify, AllK]
  | .cons c l, 0, h => by
    simp only [AllK, Kids.modify] at h ⊢; exact ⟨hf c h.1, h.2⟩
  | .cons c l, k + 1, h => by
    simp only [AllK, Kids.modify] at h ⊢; exact ⟨h.1, modifyK_all hf l k h.2⟩

theorem modify_all {P : Info → Prop} {f : Comp → Comp} (hf : ∀ c, All P c → All P (f c)) (p : List Nat) :
    ∀ c : Comp, All P c → All P (c.modify f p) := by
  induction p with
  | nil => intro c h; exact hf c h
  | cons k p ih =>
    intro c h
    have := (all_iff c).mp h
    simp only [Comp.modify, All]
    exact ⟨this.1, modifyK_all ih _ k this.2⟩

theorem snoc_all {P : Info → Prop} : ∀ (l : Kids) (c : Comp), AllK P l → All P c → AllK P (l.snoc c)
  | .nil, c, _, hc => by simp [Kids.snoc, AllK, hc]
  | .cons d l, c, h, hc => by
    simp only [AllK, Kids.snoc] at h ⊢; exact ⟨h.1, snoc_all l c h.2 hc⟩

theorem kid_all {P : Info → Prop} : ∀ (l : Kids) (k : Nat) (d : Comp), AllK P l → l.get k = some d → All P d
  | .nil, _, _, _, h => by simp [Kids.get] at h
  | .cons c l, 0, d, hl, h => by
    simp only [Kids.get, Option.some.injEq] at h
    simp only [AllK] at hl
    exact h ▸ hl.1
  | .cons c l, k + 1, d, hl, h => by
    simp only [AllK] at hl
    exact kid_all l k d hl.2 (by simpa [Kids.get] using h)

theorem all_at {P : Info → Prop} (p : List Nat) : ∀ (c d : Comp), All P c → c.at p = some d → P d.info := by
  induction p with
  | nil => intro c d hc h; simp [at_nil] at h; exact h ▸ ((all_iff c).mp hc).1
  | cons k p ih =>
    intro c d hc h
    rw [at_cons] at h
    cases e : c.kids.get k with
    | none => simp [e] at h
    | some f =>
      simp [e] at h
      exact ih f d (kid_all _ k f ((all_iff c).mp hc).2 e) h

/-- What holds for every component that is created, and is kept, holds for ever. -/
structure Stays (P : Info → Prop) : Prop extends Kept P where
  attached : ∀ i b, P i → P { i with attached := b }
  plain : ∀ t b, P (fresh t .folder b []) ∧ P (fresh t .devices b [])

theorem folders_all {P : Info → Prop} (h : Stays P) : ∀ (n t : Nat), AllK P (folders t n)
  | 0, _ => by simp [folders, AllK]
  | n + 1, t => by
    simp only [folders, AllK, All]
    exact ⟨⟨(h.plain t true).1, trivial⟩, folders_all h n (t + 1)⟩

theorem create_all {P : Info → Prop} (h : Stays P) (t n : Nat) (k : Kind) (r : List Mode)
    (hf : P (fresh t k false r)) : All P (create t k n r) := by
  unfold create
  simp only [All]
  refine ⟨hf, ?_⟩
  split
  · simp only [AllK, All]
    exact ⟨⟨(h.plain _ true).2, trivial⟩, folders_all h n _⟩
  · exact folders_all h n _

theorem attach_all {P : Info → Prop} (h : Stays P) (up : Option Mode) (c : Comp) (hc : All P c) :
    All P (attach up c) := by
  have h1 : All P (.mk { c.info with attached := true } c.kids) := by
    have := (all_iff c).mp hc
    simp only [All]
    exact ⟨h.attached _ true this.1, this.2⟩
  unfold attach
  cases up with
  | none => exact h1
  | some m => exact tell_all h.toKept m _ h1

theorem asRoot_all {P : Info → Prop} (h : Stays P) (c : Comp) (hc : All P c) : All P (asRoot c) := by
  match c with
  | .mk i kids =>
    simp only [All] at hc
    cases e : i.kind with
    | device a d => simp only [asRoot, e, All]; exact ⟨enter_all h.toKept e (.inl rfl) hc.1, hc.2⟩
    | plain => simp only [asRoot, e, All]; exact hc
    | folder => simp only [asRoot, e, All]; exact hc
    | devices => simp only [asRoot, e, All]; exact hc

theorem step_all {P : Info → Prop} (h : Stays P) (w : World) (op : Op)
    (ho : ∀ p k n r, op = .create p k n r → ∀ t, P (fresh t k false r)) (hw : All P w.root) :
    All P (w.step op).root := by
  cases op with
  | create p k n r =>
    refine modify_all (fun c hc => ?_) p _ hw
    have := (all_iff c).mp hc
    simp only [All]
    exact ⟨this.1, snoc_all _ _ this.2 (create_all h _ n k r (ho p k n r rfl _))⟩
  | add p k =>
    simp only [World.step]
    split
    · split
      · exact modify_all (fun c hc => attach_all h _ c hc) _ _ hw
      · exact hw
    · exact hw
  | remove p k =>
    simp only [World.step]
    split
    · split
      · refine modify_all (fun c hc => ?_) _ _ hw
        have := (all_iff c).mp hc
        simp only [All]
        exact ⟨h.attached _ false this.1, this.2⟩
      · exact hw
    · exact hw
  | set p m => exact modify_all (fun c hc => setMode_all h.toKept m c hc) _ _ hw
  | setRec p m => exact modify_all (fun c hc => setRecursive_all h.toKept m c hc) _ _ hw
  | asRoot => exact asRoot_all h _ hw

theorem run_all {P : Info → Prop} (h : Stays P) (ops : List Op) : ∀ w : World,
    (∀ op ∈ ops, ∀ p k n r, op = .create p k n r → ∀ t, P (fresh t k false r)) → All P w.root →
    All P (w.run ops).root := by
  induction ops with
  | nil => intro w _ hw; exact hw
  | cons op ops ih =>
    intro w ho hw
    exact ih _ (fun o hm => ho o (by simp [hm])) (step_all h w op (ho op (by simp)) hw)

end Verif.Modes
