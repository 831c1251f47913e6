import Verif.Info.Steps

/-!
# Saving and restoring device information

Violated: C280, C281.
-/

namespace Verif.Info

/-! ## C280: user name and location -/

/-- The user name the information had before it belonged to the device comes back when a configuration is restored. -/
theorem C280_violation_old :
    get (step demo2 (.devSet "userName" (.text "new"))) "userName" = .ok (.text "new") ∧
      get (restore (save (step demo2 (.devSet "userName" (.text "new")))).2 (step demo2 (.devSet "userName" (.text "new"))))
        "userName" = .ok (.text "old") ∧
      (restore (save (step demo2 (.devSet "userName" (.text "new")))).2 (step demo2 (.devSet "userName" (.text "new")))).dev.read
        "userName" = .ok (.text "old") := ⟨rfl, rfl, rfl⟩

/-- The user name is lost when the information was not asked for before a configuration is restored. -/
theorem C280_violation_new :
    get (restore (save (step demo1 (.devSet "userName" (.text "new")))).2 demo) "userName" = .ok (.text "") ∧
      get (restore (save (step demo1 (.devSet "userName" (.text "new")))).2 demo1) "userName" = .ok (.text "new") := ⟨rfl, rfl⟩

theorem restoreProp_other (doc : AList String Val) (o : Obj) {n m : String} (h : n ≠ m) :
    (restoreProp doc o m).read n = o.read n := by
  unfold restoreProp
  cases doc.get m with
  | none =>
    dsimp only
    cases hc : o.clear true m with
    | error e => rfl
    | ok o' =>
      obtain ⟨f, _, _, rfl, _⟩ := clear_ok hc
      simp only [Obj.read, AList.get_del, if_neg h]
  | some v =>
    dsimp only
    cases hw : o.write true m v with
    | error e => rfl
    | ok o' => exact write_other hw h

theorem restoreProp_self (doc : AList String Val) (o : Obj) {n : String} {g : Field} (hg : o.props.get n = some g)
    (hf : o.frozen = false) : (restoreProp doc o n).read n = .ok ((doc.get n).getD g.dflt) := by
  unfold restoreProp
  cases doc.get n with
  | none =>
    dsimp only
    rw [clear_of (p := true) hg hf (fun h => nomatch h)]
    dsimp only
    rw [read_of (o := { o with vals := o.vals.del n }) hg]
    simp only [AList.get_del, if_true, Option.getD_none]
  | some v =>
    dsimp only
    have hw : o.write true n v = .ok (o.store n g.dflt v) := write_of hg hf (fun h => nomatch h)
    rw [hw]
    exact write_read hw

theorem restoreProps_read (doc : AList String Val) {n : String} {g : Field} (l : List String) : ∀ o : Obj,
    o.props.get n = some g → o.frozen = false →
      (l.foldl (restoreProp doc) o).read n = if n ∈ l then .ok ((doc.get n).getD g.dflt) else o.read n := by
  induction l with
  | nil => exact fun o _ _ => by simp
  | cons m l ih =>
    intro o hg hf
    have hk := restoreProp_kept doc o m
    have hi := ih (restoreProp doc o m) (by rw [hk.1]; exact hg) (by rw [hk.2]; exact hf)
    rw [List.foldl_cons, hi]
    by_cases hl : n ∈ l
    · rw [if_pos hl, if_pos (List.mem_cons_of_mem _ hl)]
    · rw [if_neg hl]
      by_cases hm : n = m
      · subst hm
        rw [if_pos (List.mem_cons_self ..)]
        exact restoreProp_self doc o hg hf
      · rw [if_neg (by simp [hm, hl])]
        exact restoreProp_other doc o hm

/-- After restoring a property object, a property has the value of the document or its default value. -/
theorem restoreObj_read (doc : AList String Val) {o : Obj} {n : String} {g : Field} (hg : o.props.get n = some g)
    (hf : o.frozen = false) : (restoreObj doc o).read n = .ok ((doc.get n).getD g.dflt) := by
  unfold restoreObj
  rw [if_neg (by simp [hf]), restoreProps_read doc _ o hg hf,
    if_pos ((AList.get_isSome_iff_mem_keys _ _).1 (by rw [hg]; rfl))]

theorem restoreField_dev {w : World} {n : String} {e : String × Val} (h : e.1 ≠ n) :
    (restoreField w e).dev.read n = w.dev.read n := by
  unfold restoreField
  cases w.info.props.get e.1 with
  | none => rfl
  | some f =>
    dsimp only
    by_cases hr : f.readOnly = true
    · rw [if_pos hr]
    · rw [if_neg hr]
      cases hs : set w true e.1 e.2 with
      | error _ => rfl
      | ok w' =>
        rcases set_ok hs with ⟨_, d, hw, rfl⟩ | ⟨_, o, hw, rfl⟩
        · exact write_other hw (Ne.symm h)
        · rfl

theorem restoreFields_dev {n : String} (doc : AList String Val) : ∀ w : World, (∀ e ∈ doc, e.1 ≠ n) →
    (doc.foldl restoreField w).dev.read n = w.dev.read n := by
  induction doc with
  | nil => exact fun _ _ => rfl
  | cons e doc ih =>
    intro w h
    rw [List.foldl_cons, ih _ fun x hx => h x (List.mem_cons_of_mem _ hx)]
    exact restoreField_dev (h e (List.mem_cons_self ..))

theorem restoreInfo_dev {n : String} (doc : AList String Val) (w : World) (h : ∀ e ∈ doc, e.1 ≠ n) :
    (restoreInfo doc w).dev.read n = w.dev.read n := by
  unfold restoreInfo
  by_cases hf : w.info.frozen = true
  · rw [if_pos hf]
  · rw [if_neg hf]; exact restoreFields_dev doc w h

/-- When the information had no value of its own, and both devices are the owners of their information, the value is
restored. -/
theorem C280_restored_partial (w w' : World) (n : String) (f f' g g' : Field) (ha : w.attached = true) (ha' : w'.attached = true)
    (hn : n = "userName" ∨ n = "location") (hf : w.info.props.get n = some f) (hr : f.readOnly = false)
    (hf' : w'.info.props.get n = some f') (hr' : f'.readOnly = false)
    (hg : w.dev.props.get n = some g) (hg' : w'.dev.props.get n = some g') (hd : g'.dflt = g.dflt) (hz : w'.dev.frozen = false)
    (hv : w.info.vals.get n = none) : get (restore (save w).2 w') n = get w n := by
  have hs : shared n = true := by simpa [shared] using hn
  have hw : get w n = .ok ((w.dev.vals.get n).getD g.dflt) := by
    unfold get
    rw [owned_shared hs hf, hr, ha]
    exact read_of hg
  have hdoc : (save w).2 = { name := w.devName, dev := w.dev.vals, info := saved w.info } := by
    unfold save
    dsimp only
    rw [attach_attached ha]
  rw [hw, hdoc]
  have k := keeps_restore (w := w') { name := w.devName, dev := w.dev.vals, info := saved w.info } ha'
  unfold get
  rw [owned_shared hs (k.1 n f' hf'), hr', k.2.2.1, ha']
  change (restore _ w').dev.read n = _
  rw [restore_attached _ ha', restoreInfo_dev, (restoreName_parts _ _).2.1]
  · dsimp only
    rw [restoreObj_read _ hg' hz, hd]
  · intro e he hen
    have hmem : n ∈ w.info.vals.map Prod.fst := hen ▸ List.mem_map_of_mem (f := Prod.fst) (List.mem_filter.1 he).1
    have := (AList.get_isSome_iff_mem_keys _ _).2 hmem
    rw [hv] at this
    cases this

example : get (restore (save (step demo1 (.devSet "userName" (.text "new")))).2
    (step demo1 (.setField "location" (.text "here")))) "userName" = .ok (.text "new") ∧
    get (restore (save (step demo1 (.devSet "userName" (.text "new")))).2
      (step demo1 (.setField "location" (.text "here")))) "location" = .ok (.text "") := ⟨rfl, rfl⟩

/-! ## C281: other fields -/

/-- A custom property that had its default value when a configuration was saved keeps its value when it is restored. -/
theorem C281_violation :
    get (step demo1 (.addField "Rack" {})) "Rack" = .ok (.text "") ∧
      get (restore (save (step demo1 (.addField "Rack" {}))).2
        (step (step demo1 (.addField "Rack" {})) (.set "Rack" (.text "7")))) "Rack" = .ok (.text "7") := ⟨rfl, rfl⟩

theorem restoreField_info {w : World} {n : String} {e : String × Val} (h : e.1 ≠ n) :
    (restoreField w e).info.read n = w.info.read n := by
  unfold restoreField
  cases w.info.props.get e.1 with
  | none => rfl
  | some f =>
    dsimp only
    by_cases hr : f.readOnly = true
    · rw [if_pos hr]
    · rw [if_neg hr]
      cases hs : set w true e.1 e.2 with
      | error _ => rfl
      | ok w' =>
        rcases set_ok hs with ⟨_, d, hw, rfl⟩ | ⟨_, o, hw, rfl⟩
        · rfl
        · exact write_other hw (Ne.symm h)

theorem restoreFields_info {n : String} (doc : AList String Val) : ∀ w : World, (∀ e ∈ doc, e.1 ≠ n) →
    (doc.foldl restoreField w).info.read n = w.info.read n := by
  induction doc with
  | nil => exact fun _ _ => rfl
  | cons e doc ih =>
    intro w h
    rw [List.foldl_cons, ih _ fun x hx => h x (List.mem_cons_of_mem _ hx)]
    exact restoreField_info (h e (List.mem_cons_self ..))

theorem restoreFields_value {n : String} {v : Val} {f : Field} (doc : AList String Val) (hs : shared n = false) : ∀ w : World,
    (doc.map Prod.fst).Nodup → (n, v) ∈ doc → w.info.props.get n = some f → f.readOnly = false → w.info.frozen = false →
      (doc.foldl restoreField w).info.read n = .ok v := by
  induction doc with
  | nil => exact fun _ _ h => absurd h (List.not_mem_nil)
  | cons e doc ih =>
    intro w hnd hm hf hr hz
    rw [List.map_cons, List.nodup_cons] at hnd
    rw [List.foldl_cons]
    have k := keeps_restoreField w e
    rcases List.mem_cons.1 hm with rfl | hm
    · rw [restoreFields_info]
      · unfold restoreField
        simp only [hf]
        rw [if_neg (by simp [hr])]
        have hw : w.info.write true n v = .ok (w.info.store n f.dflt v) := write_of hf hz (fun h => nomatch h)
        rw [set_info (owned_plain hs) hw]
        exact write_read hw
      · intro x hx hxn
        have hmem := List.mem_map_of_mem (f := Prod.fst) hx
        rw [hxn] at hmem
        exact hnd.1 hmem
    · exact ih _ hnd.2 hm (k.1 n f hf) hr (k.2.2.2.2.1.trans hz)

/-- A changeable field with a value other than the default value is restored. -/
theorem C281_restored_partial (w w' : World) (n : String) (v : Val) (f f' : Field) (ha : w.attached = true)
    (ha' : w'.attached = true) (hn : n ≠ "userName" ∧ n ≠ "location") (hf : w.info.props.get n = some f) (hr : f.readOnly = false)
    (hv : w.info.vals.get n = some v) (hnd : (w.info.vals.map Prod.fst).Nodup)
    (hf' : w'.info.props.get n = some f') (hr' : f'.readOnly = false) (hz : w'.info.frozen = false) :
    get w n = .ok v ∧ get (restore (save w).2 w') n = .ok v := by
  have hs : shared n = false := by simp [shared, hn.1, hn.2]
  have hdoc : (save w).2 = { name := w.devName, dev := w.dev.vals, info := saved w.info } := by
    unfold save
    dsimp only
    rw [attach_attached ha]
  constructor
  · unfold get
    rw [owned_plain hs]
    dsimp only
    rw [read_of hf, hv]
    rfl
  · rw [hdoc, restore_attached _ ha']
    unfold get
    rw [owned_plain hs]
    dsimp only
    have hp := restoreName_parts w.devName { w' with dev := restoreObj w.dev.vals w'.dev }
    have hz' : (restoreName w.devName { w' with dev := restoreObj w.dev.vals w'.dev }).info.frozen = false := by
      rw [hp.1]; exact hz
    unfold restoreInfo
    rw [if_neg (by simp [hz'])]
    refine restoreFields_value _ hs _ ?_ ?_ (f := f') (by rw [hp.1]; exact hf') hr' hz'
    · exact hnd.sublist (List.Sublist.map _ List.filter_sublist)
    · refine List.mem_filter.2 ⟨AList.mem_of_get hv, ?_⟩
      simp only [hf, hr]
      rfl

example : get (restore (save (step (step demo1 (.addField "Rack" {})) (.set "Rack" (.text "7")))).2
    (step demo1 (.addField "Rack" {}))) "Rack" = .ok (.text "7") := rfl

end Verif.Info
