import Verif.Info.Lemmas

/-!
# What calls keep
-/

namespace Verif.Info

/-- Properties of the information are kept, of the device too, and so is belonging to it. -/
def Keeps (w w' : World) : Prop :=
  (∀ n f, w.info.props.get n = some f → w'.info.props.get n = some f) ∧ w'.dev.props = w.dev.props ∧ w'.attached = w.attached ∧
    w'.mirrored = w.mirrored ∧ w'.info.frozen = w.info.frozen ∧ w'.dev.frozen = w.dev.frozen ∧ w'.nameLocked = w.nameLocked

theorem Keeps.refl (w : World) : Keeps w w := ⟨fun _ _ h => h, rfl, rfl, rfl, rfl, rfl, rfl⟩

theorem Keeps.trans {a b c : World} (h : Keeps a b) (k : Keeps b c) : Keeps a c :=
  ⟨fun n f x => k.1 n f (h.1 n f x), k.2.1.trans h.2.1, k.2.2.1.trans h.2.2.1, k.2.2.2.1.trans h.2.2.2.1,
    k.2.2.2.2.1.trans h.2.2.2.2.1, k.2.2.2.2.2.1.trans h.2.2.2.2.2.1, k.2.2.2.2.2.2.trans h.2.2.2.2.2.2⟩

theorem keeps_set {w w' : World} {p : Bool} {n : String} {v : Val} (h : set w p n v = .ok w') : Keeps w w' := by
  obtain ⟨h1, h2, h3, h4, h5, h6, _, h8⟩ := set_kept h
  exact ⟨fun n f x => by rw [h1]; exact x, h2, h3, h4, h5, h6, h8⟩

theorem keeps_renameComponent (w : World) (s : String) : Keeps w (renameComponent w s).1 := by
  unfold renameComponent
  by_cases h1 : w.dev.frozen = true
  · rw [if_pos h1]; exact Keeps.refl w
  rw [if_neg h1]
  by_cases h2 : w.devName = s
  · rw [if_pos h2]; exact Keeps.refl w
  rw [if_neg h2]
  by_cases h3 : w.nameLocked = true
  · rw [if_pos h3]; exact Keeps.refl w
  rw [if_neg h3]
  exact ⟨fun _ _ h => h, rfl, rfl, rfl, rfl, rfl, rfl⟩

theorem keeps_renameDevice (w : World) (s : String) : Keeps w (renameDevice w s).1 := by
  unfold renameDevice
  cases h : set w true "name" (.text s) with
  | error e => exact Keeps.refl w
  | ok w' => exact (keeps_set h).trans (keeps_renameComponent w' s)

theorem keeps_rename (w : World) (s : String) : Keeps w (rename w s).1 := by
  unfold rename
  by_cases h : w.attached = true
  · rw [if_pos h]; exact keeps_renameDevice w s
  · rw [if_neg h]
    cases hs : setField w "name" (.text s) with
    | error e => exact Keeps.refl w
    | ok w' => exact keeps_set hs

theorem restoreProp_kept (doc : AList String Val) (o : Obj) (n : String) :
    (restoreProp doc o n).props = o.props ∧ (restoreProp doc o n).frozen = o.frozen := by
  unfold restoreProp
  cases doc.get n with
  | none =>
    dsimp only
    cases h : o.clear true n with
    | error e => exact ⟨rfl, rfl⟩
    | ok o' =>
      obtain ⟨f, _, _, rfl, _⟩ := clear_ok h
      exact ⟨rfl, rfl⟩
  | some v =>
    dsimp only
    cases h : o.write true n v with
    | error e => exact ⟨rfl, rfl⟩
    | ok o' => exact ⟨write_props h, write_frozen h⟩

theorem restoreProps_kept (doc : AList String Val) (l : List String) : ∀ o : Obj,
    (l.foldl (restoreProp doc) o).props = o.props ∧ (l.foldl (restoreProp doc) o).frozen = o.frozen := by
  induction l with
  | nil => exact fun _ => ⟨rfl, rfl⟩
  | cons n l ih =>
    intro o
    have h1 := restoreProp_kept doc o n
    have h2 := ih (restoreProp doc o n)
    exact ⟨h2.1.trans h1.1, h2.2.trans h1.2⟩

theorem restoreObj_kept (doc : AList String Val) (o : Obj) :
    (restoreObj doc o).props = o.props ∧ (restoreObj doc o).frozen = o.frozen := by
  unfold restoreObj
  by_cases h : o.frozen = true
  · rw [if_pos h]; exact ⟨rfl, rfl⟩
  · rw [if_neg h]; exact restoreProps_kept doc _ o

theorem keeps_restoreField (w : World) (e : String × Val) : Keeps w (restoreField w e) := by
  unfold restoreField
  cases w.info.props.get e.1 with
  | none => exact Keeps.refl w
  | some f =>
    dsimp only
    by_cases h : f.readOnly = true
    · rw [if_pos h]; exact Keeps.refl w
    · rw [if_neg h]
      cases hs : set w true e.1 e.2 with
      | error _ => exact Keeps.refl w
      | ok w' => exact keeps_set hs

theorem keeps_restoreFields (doc : AList String Val) : ∀ w : World, Keeps w (doc.foldl restoreField w) := by
  induction doc with
  | nil => exact Keeps.refl
  | cons e doc ih => exact fun w => (keeps_restoreField w e).trans (ih _)

theorem keeps_restoreInfo (doc : AList String Val) (w : World) : Keeps w (restoreInfo doc w) := by
  unfold restoreInfo
  by_cases h : w.info.frozen = true
  · rw [if_pos h]; exact Keeps.refl w
  · rw [if_neg h]; exact keeps_restoreFields doc w

theorem attach_attached {w : World} (h : w.attached = true) : attach w = (w, none) := if_pos h

theorem restoreName_kept (s : String) (w : World) : Keeps w (restoreName s w) := by
  unfold restoreName
  by_cases h : w.nameLocked = true
  · rw [if_pos h]; exact Keeps.refl w
  · rw [if_neg h]; exact ⟨fun _ _ h => h, rfl, rfl, rfl, rfl, rfl, rfl⟩

theorem restoreName_parts (s : String) (w : World) :
    (restoreName s w).info = w.info ∧ (restoreName s w).dev = w.dev ∧ (restoreName s w).attached = w.attached := by
  unfold restoreName
  by_cases h : w.nameLocked = true
  · rw [if_pos h]; exact ⟨rfl, rfl, rfl⟩
  · rw [if_neg h]; exact ⟨rfl, rfl, rfl⟩

/-- Restoring a device that is the owner of its information. -/
theorem restore_attached {w : World} (doc : Doc) (h : w.attached = true) :
    restore doc w = restoreInfo doc.info (restoreName doc.name { w with dev := restoreObj doc.dev w.dev }) := by
  unfold restore
  dsimp only
  rw [attach_attached]
  exact (restoreName_parts doc.name _).2.2.trans h

theorem keeps_restore {w : World} (doc : Doc) (h : w.attached = true) : Keeps w (restore doc w) := by
  rw [restore_attached doc h]
  refine Keeps.trans ?_ (keeps_restoreInfo _ _)
  refine Keeps.trans ?_ (restoreName_kept _ _)
  exact ⟨fun _ _ x => x, (restoreObj_kept _ _).1, rfl, rfl, rfl, (restoreObj_kept _ _).2, rfl⟩

theorem keeps_addField {w : World} {n : String} {f : Field} {o : Obj} (h : addField w.info n f = .ok o) :
    Keeps w { w with info := o } := by
  obtain ⟨_, _, ha⟩ := addField_ok h
  obtain ⟨hn, _, rfl⟩ := addProp_ok ha
  refine ⟨fun m g hm => ?_, rfl, rfl, rfl, rfl, rfl, rfl⟩
  dsimp only
  rw [get_append, hm]

/-- A call on a device that is the owner of its information. -/
theorem keeps_step {w : World} (h : w.attached = true) (x : Op) : Keeps w (step w x) := by
  cases x with
  | getInfo =>
    dsimp only [step]
    rw [attach_attached h]
    exact Keeps.refl w
  | set n v =>
    dsimp only [step]
    cases hs : set w false n v with
    | error _ => exact Keeps.refl w
    | ok w' => exact keeps_set hs
  | setField n v =>
    dsimp only [step]
    cases hs : setField w n v with
    | error _ => exact Keeps.refl w
    | ok w' => exact keeps_set hs
  | clear n =>
    dsimp only [step]
    unfold clear
    cases hs : w.info.clear false n with
    | error _ => exact Keeps.refl w
    | ok o =>
      obtain ⟨f, _, _, rfl, _⟩ := clear_ok hs
      exact ⟨fun _ _ x => x, rfl, rfl, rfl, rfl, rfl, rfl⟩
  | devSet n v =>
    dsimp only [step]
    cases hs : w.dev.write false n v with
    | error _ => exact Keeps.refl w
    | ok d => exact ⟨fun _ _ x => x, write_props hs, rfl, rfl, rfl, write_frozen hs, rfl⟩
  | devClear n =>
    dsimp only [step]
    cases hs : w.dev.clear false n with
    | error _ => exact Keeps.refl w
    | ok d =>
      obtain ⟨f, _, _, rfl, _⟩ := clear_ok hs
      exact ⟨fun _ _ x => x, rfl, rfl, rfl, rfl, rfl, rfl⟩
  | rename s => exact keeps_rename w s
  | renameDevice s => exact keeps_renameDevice w s
  | addField n f =>
    dsimp only [step]
    cases hs : addField w.info n f with
    | error _ => exact Keeps.refl w
    | ok o => exact keeps_addField hs
  | restore doc => exact keeps_restore doc h

theorem keeps_run {w : World} (h : w.attached = true) (xs : List Op) : Keeps w (xs.foldl step w) := by
  induction xs generalizing w with
  | nil => exact Keeps.refl w
  | cons x xs ih =>
    have h1 := keeps_step h x
    exact h1.trans (ih (h1.2.2.1.trans h))

/-! ## The first time the information is asked for -/

theorem adopt_there {w : World} {n : String} {f g : Field} (hi : w.info.props.get n = some f) (hd : w.dev.props.get n = some g)
    (hf : w.dev.frozen = false) : adopt w n = (w, none) := by
  unfold adopt
  simp only [hi]
  by_cases hr : f.readOnly = true
  · rw [if_pos hr]
  · rw [if_neg hr]
    have : w.dev.addProp n {} = .error .alreadyExists := by
      unfold Obj.addProp
      rw [if_neg (by simp [hf]), if_pos ((AList.has_iff _ _).2 ⟨g, hd⟩)]
    simp only [this]

theorem adopt_readOnly {w : World} {n : String} {f : Field} (hi : w.info.props.get n = some f) (hr : f.readOnly = true) :
    adopt w n = (w, none) := by
  unfold adopt
  simp only [hi]
  rw [if_pos hr]

theorem adopt_absent {w : World} {n : String} {f : Field} (hi : w.info.props.get n = some f) (hr : f.readOnly = false)
    (hd : w.dev.props.get n = none) (hf : w.dev.frozen = false) :
    adopt w n = ({ w with
      dev := Obj.store { w.dev with props := w.dev.props ++ [(n, {})] } n (.text "") ((w.info.vals.get n).getD f.dflt) }, none) := by
  unfold adopt
  simp only [hi]
  rw [if_neg (by simp [hr])]
  have ha : w.dev.addProp n {} = .ok { w.dev with props := w.dev.props ++ [(n, {})] } := by
    unfold Obj.addProp
    rw [if_neg (by simp [hf]), if_neg]
    intro h
    obtain ⟨x, hx⟩ := (AList.has_iff _ _).1 h
    rw [hd] at hx
    cases hx
  have hg : AList.get (w.dev.props ++ [(n, ({} : Field))]) n = some {} := by rw [get_append, hd]; simp
  simp only [ha, read_of hi]
  rw [write_of (o := { w.dev with props := w.dev.props ++ [(n, {})] }) (f := {}) hg hf fun _ => ⟨rfl, by decide⟩]

/-- What adopting a field keeps. -/
theorem adopt_kept {w : World} {n : String} {f : Field} (hi : w.info.props.get n = some f) (hf : w.dev.frozen = false) :
    (adopt w n).2 = none ∧ (adopt w n).1.info = w.info ∧ (adopt w n).1.attached = w.attached ∧ (adopt w n).1.dev.frozen = false ∧
      (∀ m, m ≠ n → (adopt w n).1.dev.read m = w.dev.read m ∧ (adopt w n).1.dev.props.get m = w.dev.props.get m) ∧
      (f.readOnly = false → w.dev.props.get n = none → (adopt w n).1.dev.read n = w.info.read n) ∧
      (∀ g, w.dev.props.get n = some g → (adopt w n).1.dev = w.dev) := by
  cases hd : w.dev.props.get n with
  | some g =>
    rw [adopt_there hi hd hf]
    exact ⟨rfl, rfl, rfl, hf, fun m _ => ⟨rfl, rfl⟩, (fun _ h => nomatch h), fun _ _ => rfl⟩
  | none =>
    cases hr : f.readOnly with
    | true =>
      rw [adopt_readOnly hi hr]
      exact ⟨rfl, rfl, rfl, hf, fun m _ => ⟨rfl, rfl⟩, (fun h => nomatch h), fun _ _ => rfl⟩
    | false =>
      rw [adopt_absent hi hr hd hf]
      refine ⟨rfl, rfl, rfl, by rw [store_frozen]; exact hf, fun m hm => ?_, fun _ _ => ?_, (fun _ h => nomatch h)⟩
      · have hp : AList.get (w.dev.props ++ [(n, ({} : Field))]) m = w.dev.props.get m := by
          rw [get_append]
          cases w.dev.props.get m with
          | some _ => rfl
          | none => simp [hm]
        refine ⟨?_, by rw [store_props]; exact hp⟩
        simp only [Obj.read, store_props, store_other _ _ _ _ _ hm, hp]
      · have hg : AList.get (w.dev.props ++ [(n, ({} : Field))]) n = some {} := by rw [get_append, hd]; simp
        have hg' : (Obj.store { w.dev with props := w.dev.props ++ [(n, {})] } n (.text "")
            ((w.info.vals.get n).getD f.dflt)).props.get n = some {} := by rw [store_props]; exact hg
        rw [read_of hg', read_of hi, store_getD]

end Verif.Info
