import Verif.Loading.Conn
import Verif.Loading.Demo

/-! # Replacing devices -/

namespace Verif.Loading

variable {α C : Type}

/-! ## Which connected device is used -/

theorem findConnected_some (i : Info) (f : Forest (Dev C)) (hn : f.ids.Nodup) (t : String) (h : findConnected i f = some t) :
    ∃ e, f.find t = some e ∧ (Spec.SameSerial i e.1.info ∨ Spec.SameConn i e.1.info) := by
  induction f with
  | nil => cases h
  | cons id e below rest _ ih =>
    unfold findConnected at h
    split at h
    · rename_i hc
      cases h
      exact ⟨(e, below), by simp [Forest.find], hc⟩
    · obtain ⟨e', he', hm⟩ := ih (List.nodup_cons.1 hn).2 h
      refine ⟨e', ?_, hm⟩
      rw [Forest.find, if_neg]
      · exact he'
      · intro heq
        subst heq
        rw [(find_none_iff rest t).2 (List.nodup_cons.1 hn).1] at he'
        cases he'

theorem findConnected_none (i : Info) (f : Forest (Dev C)) (h : findConnected i f = none) (x : String) (e : Dev C × Forest (Dev C))
    (he : f.find x = some e) : ¬ (Spec.SameSerial i e.1.info ∨ Spec.SameConn i e.1.info) := by
  induction f with
  | nil => cases he
  | cons id e' below rest _ ih =>
    unfold findConnected at h
    split at h
    · cases h
    · rename_i hc
      unfold Forest.find at he
      split at he
      · cases he
        exact hc
      · exact ih h he

/-- **C298.** The connected device with the connection string is used although another one has the manufacturer and serial number:
the configuration of `z` goes to `a`, not to `b`. -/
theorem C298_violation_priority :
    let c : Ctx Nat := { opts := [("z", { mode := .remap, new := { man := "m", ser := "b", conn := "t://a" } })] }
    let r := load c (.cons "z" (Demo.saved 21 "z") .nil .nil) true Demo.devs []
    Spec.SameSerial { man := "m", ser := "b", conn := "t://a" } (Demo.dev 2 "b").info ∧ r.2 = [("z", "a")] ∧
      Demo.confs r.1 = [("a", 21), ("b", 2), ("f", 3)] := by
  refine ⟨⟨?_, ?_, ?_, ?_⟩, ?_, ?_⟩ <;> decide +kernel

/-- **C298.** A connected device is used only if it has the chosen manufacturer and serial number or the connection string. -/
theorem C298_match_partial (i : Info) (f : Forest (Dev C)) (hn : f.ids.Nodup) (t : String) (h : findConnected i f = some t) :
    ∃ e, f.find t = some e ∧ (Spec.SameSerial i e.1.info ∨ Spec.SameConn i e.1.info) := findConnected_some i f hn t h

/-- **C298.** The connected device with the chosen manufacturer and serial number is used, if none of the others has the connection
string. -/
theorem C298_serial_partial (i : Info) (f : Forest (Dev C)) (hn : f.ids.Nodup) (x : String) (e : Dev C × Forest (Dev C))
    (he : f.find x = some e) (hs : Spec.SameSerial i e.1.info)
    (hothers : ∀ y e', y ≠ x → f.find y = some e' → ¬ Spec.SameSerial i e'.1.info ∧ ¬ Spec.SameConn i e'.1.info) :
    findConnected i f = some x := by
  cases h : findConnected i f with
  | none => exact absurd (Or.inl hs) (findConnected_none i f h x e he)
  | some t =>
    obtain ⟨e', he', hm⟩ := findConnected_some i f hn t h
    by_cases ht : t = x
    · rw [ht]
    · have := hothers t e' ht he'
      rcases hm with hm | hm
      · exact absurd hm this.1
      · exact absurd hm this.2

example : findConnected { man := "m", ser := "b", conn := "t://q" } Demo.devs = some "b" := by decide +kernel
example : findConnected { man := "m", ser := "b", conn := "t://q" } (.cons "b" (Demo.dev 2 "b") .nil .nil) = some "b" :=
  C298_serial_partial _ _ (by decide +kernel) "b" (Demo.dev 2 "b", .nil) (by decide +kernel)
    ⟨by decide +kernel, by decide +kernel, by decide +kernel, by decide +kernel⟩
    (fun y e' hy h => by simp [Forest.find, hy] at h)

/-! ## Replacing several devices -/

theorem ids_set (f : Forest α) (x : String) (b : α) (g : Forest α) : (f.set x b g).ids = f.ids := by
  induction f with
  | nil => rfl
  | cons id a below rest _ ih =>
    unfold Forest.set
    split <;> simp [Forest.ids, ih]

theorem ids_snoc (f : Forest α) (x : String) (b : α) (g : Forest α) : (f.snoc x b g).ids = f.ids ++ [x] := by
  induction f with
  | nil => rfl
  | cons id a below rest _ ih => simp [Forest.snoc, Forest.ids, ih]

theorem ids_erase (f : Forest α) (x : String) : (f.erase x).ids = f.ids.filter (fun y => y ≠ x) := by
  induction f with
  | nil => rfl
  | cons id a below rest _ ih =>
    unfold Forest.erase
    by_cases h : id = x
    · rw [if_pos h, ih, Forest.ids, List.filter_cons_of_neg (by simp [h])]
    · rw [if_neg h, Forest.ids, Forest.ids, ih, List.filter_cons_of_pos (by simp [h])]

theorem nodup_removeRemapped (c : Ctx C) (l : List String) (f : Forest (Dev C)) (hn : f.ids.Nodup) : (removeRemapped c l f).ids.Nodup := by
  induction l generalizing f with
  | nil => exact hn
  | cons x l ih =>
    unfold removeRemapped
    refine ih _ ?_
    split
    · unfold removeDev
      split
      · exact hn
      · split
        · exact hn
        · rw [ids_erase]
          exact hn.filter _
    · exact hn

theorem find_removeRemapped (c : Ctx C) (l : List String) (f : Forest (Dev C)) (hm : ∀ x ∈ l, c.mode x = .remap)
    (hfix : ∀ x ∈ l, ∀ e, f.find x = some e → e.1.fixed = false) (y : String) :
    (removeRemapped c l f).find y = if y ∈ l then none else f.find y := by
  induction l generalizing f with
  | nil => simp [removeRemapped]
  | cons x l ih =>
    unfold removeRemapped
    rw [if_pos (hm x (List.mem_cons_self ..))]
    have hd : ∀ z, (removeDev f x).find z = if z = x then none else f.find z := by
      intro z
      rw [find_removeDev]
      by_cases hz : z = x
      · rw [if_pos hz, if_pos ⟨hz, fun e he => hfix z (by rw [hz]; exact List.mem_cons_self ..) e he⟩]
      · rw [if_neg hz, if_neg (fun h => hz h.1)]
    rw [ih _ (fun z hz => hm z (List.mem_cons_of_mem _ hz))]
    · rw [hd]
      by_cases hy : y = x
      · simp [hy]
      · simp [hy]
    · intro z hz e he
      rw [hd] at he
      split at he
      · cases he
      · exact hfix z (List.mem_cons_of_mem _ hz) e he

theorem load_nil (c : Ctx C) (adds : Bool) (f : Forest (Dev C)) (m : AList String String) : load c .nil adds f m = (f, m) := rfl

theorem unref_loadOne (c : Ctx C) (adds : Bool) (id : String) (d : Saved C) (u : Upd C) (s : St C) :
    (loadOne c adds id d u s).unref = s.unref := by
  unfold loadOne
  cases c.mode id with
  | skip => rfl
  | remove => rfl
  | updateOnly => exact unref_apply u id s
  | load =>
    dsimp only
    split
    · exact unref_apply u id s
    · cases create c adds (target c id d).conn s.devs with
      | none => rfl
      | some r => exact unref_apply u _ _
  | remap =>
    dsimp only
    split
    · rfl
    · cases findConnected (target c id d) (removeDev s.devs id) with
      | some t => exact unref_apply u _ _
      | none =>
        dsimp only
        cases create c adds (target c id d).conn (removeDev s.devs id) with
        | none => rfl
        | some r => exact unref_apply u _ _

theorem unref_loadAll (c : Ctx C) (docs : Forest (Saved C)) (adds : Bool) (s : St C) (x : String)
    (h : x ∈ (loadAll c docs adds s).unref) : x ∈ s.unref := by
  induction docs generalizing s with
  | nil => exact h
  | cons id d below rest _ ih =>
    rw [loadAll_cons] at h
    have := ih _ h
    unfold refer at this
    dsimp only at this
    rw [unref_loadOne] at this
    exact (List.mem_filter.1 (List.mem_filter.1 this).1).1

/-- Devices of a document that are replaced by new ones, where none of these is connected and none has a local id in the document. -/
structure Fresh (c : Ctx C) (docs : Forest (Saved C)) (devs : Forest (Dev C)) (goal : String → Info)
    (made : String → String × Dev C × Forest (Dev C)) : Prop where
  goals : ∀ id ∈ docs.ids, Spec.Goal c.opts c.avail id (goal id) ∧ (goal id).conn ≠ ""
  makes : ∀ id ∈ docs.ids, c.make (goal id).conn = some (made id)
  apart : ∀ id ∈ docs.ids, (made id).1 ∉ docs.ids ∧ devs.find (made id).1 = none
  differ : ∀ id ∈ docs.ids, ∀ id' ∈ docs.ids, id ≠ id' → (made id).1 ≠ (made id').1 ∧
    ¬ Spec.SameSerial (goal id) (made id').2.1.info ∧ ¬ Spec.SameConn (goal id) (made id').2.1.info
  away : ∀ id ∈ docs.ids, ∀ x e, x ∉ docs.ids → devs.find x = some e →
    ¬ Spec.SameSerial (goal id) e.1.info ∧ ¬ Spec.SameConn (goal id) e.1.info

theorem mode_goal (c : Ctx C) (id : String) (i : Info) (h : Spec.Goal c.opts c.avail id i) : c.mode id = .remap := by
  obtain ⟨o, ho, hm, _⟩ := h
  unfold Ctx.mode
  rw [ho]
  exact hm

theorem loadOne_fresh (c : Ctx C) (id : String) (d : Saved C) (s : St C) (i : Info) (r : String × Dev C × Forest (Dev C))
    (hn : s.devs.ids.Nodup) (hid : s.devs.find id = none) (hg : Spec.Goal c.opts c.avail id i) (hc : i.conn ≠ "")
    (hr : c.make i.conn = some r) (ht : s.devs.find r.1 = none)
    (hno : ∀ x e, s.devs.find x = some e → ¬ Spec.SameSerial i e.1.info ∧ ¬ Spec.SameConn i e.1.info) :
    (∀ x, (loadOne c true id d (upd c d .nil) s).devs.find x =
      if x = r.1 then some ({ r.2.1 with conf := d.conf }, r.2.2) else s.devs.find x) ∧
    (loadOne c true id d (upd c d .nil) s).map = s.map.put id r.1 ∧ (loadOne c true id d (upd c d .nil) s).devs.ids.Nodup := by
  have hrem : removeDev s.devs id = s.devs := by
    unfold removeDev
    rw [hid]
  have hfc : findConnected i s.devs = none := by
    cases h : findConnected i s.devs with
    | none => rfl
    | some t =>
      obtain ⟨e, he, hm⟩ := findConnected_some i s.devs hn t h
      rcases hm with hm | hm
      · exact absurd hm (hno t e he).1
      · exact absurd hm (hno t e he).2
  have hcr : create c true i.conn s.devs = some r := by
    unfold create
    rw [if_neg (by simp [hc]), hr]
    dsimp only
    rw [if_neg (by rw [ht]; simp)]
  have hstep : loadOne c true id d (upd c d .nil) s =
      apply (upd c d .nil) r.1 { s with devs := s.devs.snoc r.1 r.2.1 r.2.2, map := s.map.put id r.1 } := by
    unfold loadOne
    rw [mode_goal c id i hg]
    dsimp only
    rw [target_goal c id d i hg, hrem, if_neg hc, hfc]
    dsimp only
    rw [hcr]
  have hfind : (s.devs.snoc r.1 r.2.1 r.2.2).find r.1 = some (r.2.1, r.2.2) := by
    rw [find_snoc _ _ _ _ _ ht, if_pos rfl]
  rw [hstep]
  refine ⟨fun x => ?_, ?_, ?_⟩
  · rw [find_apply]
    dsimp only
    rw [hfind, find_snoc _ _ _ _ _ ht]
    by_cases hx : x = r.1
    · rw [if_pos hx, if_pos hx]
      rfl
    · rw [if_neg hx, if_neg hx, if_neg hx]
  · unfold apply
    dsimp only
    rw [hfind]
    rfl
  · unfold apply
    dsimp only
    rw [hfind]
    dsimp only
    rw [ids_set, ids_snoc]
    refine List.nodup_append.2 ⟨hn, by simp, ?_⟩
    rintro a ha b hb rfl
    rw [List.mem_singleton.1 hb] at ha
    exact (find_none_iff _ _).1 ht ha

theorem loadAll_fresh (c : Ctx C) (goal : String → Info) (made : String → String × Dev C × Forest (Dev C)) (docs : Forest (Saved C))
    (hflat : ∀ id d, docs.find id = some d → d.2 = .nil) (s : St C) (hnd : docs.ids.Nodup) (hn : s.devs.ids.Nodup)
    (hgoals : ∀ id ∈ docs.ids, Spec.Goal c.opts c.avail id (goal id) ∧ (goal id).conn ≠ "")
    (hmakes : ∀ id ∈ docs.ids, c.make (goal id).conn = some (made id))
    (hids : ∀ id ∈ docs.ids, s.devs.find id = none ∧ (made id).1 ∉ docs.ids ∧ s.devs.find (made id).1 = none)
    (hdiff : ∀ id ∈ docs.ids, ∀ id' ∈ docs.ids, id ≠ id' → (made id).1 ≠ (made id').1 ∧
      ¬ Spec.SameSerial (goal id) (made id').2.1.info ∧ ¬ Spec.SameConn (goal id) (made id').2.1.info)
    (hno : ∀ id ∈ docs.ids, ∀ x e, s.devs.find x = some e → ¬ Spec.SameSerial (goal id) e.1.info ∧ ¬ Spec.SameConn (goal id) e.1.info) :
    (∀ id d, docs.find id = some d → (loadAll c docs true s).devs.find (made id).1 =
      some ({ (made id).2.1 with conf := d.1.conf }, (made id).2.2) ∧ (loadAll c docs true s).map.get id = some (made id).1) ∧
    (∀ x, (∀ id ∈ docs.ids, x ≠ (made id).1) → (loadAll c docs true s).devs.find x = s.devs.find x) ∧
    (∀ x, x ∉ docs.ids → (loadAll c docs true s).map.get x = s.map.get x) := by
  induction docs generalizing s with
  | nil => exact ⟨(fun id d h => nomatch h), fun x _ => rfl, fun x _ => rfl⟩
  | cons id d below rest _ ih =>
    have hb : below = .nil := hflat id (d, below) (by simp [Forest.find])
    subst hb
    rw [loadAll_cons]
    have hself : id ∈ (Forest.cons id d .nil rest).ids := List.mem_cons_self ..
    have hsub : ∀ x ∈ rest.ids, x ∈ (Forest.cons id d .nil rest).ids := fun x hx => List.mem_cons_of_mem _ hx
    have hne : ∀ x ∈ rest.ids, x ≠ id := fun x hx he => (List.nodup_cons.1 hnd).1 (he ▸ hx)
    obtain ⟨h1, h2, h3⟩ := loadOne_fresh c id d s (goal id) (made id) hn (hids id hself).1 (hgoals id hself).1 (hgoals id hself).2
      (hmakes id hself) (hids id hself).2.2 (hno id hself)
    have ih' := ih (fun x e he => hflat x e (by
        rw [Forest.find, if_neg]
        · exact he
        · rintro rfl
          rw [(find_none_iff rest x).2 (List.nodup_cons.1 hnd).1] at he
          cases he))
      (refer id (loadOne c true id d (upd c d .nil) s)) (List.nodup_cons.1 hnd).2 h3
      (fun x hx => hgoals x (hsub x hx)) (fun x hx => hmakes x (hsub x hx))
      (by
        intro x hx
        have hd1 : (refer id (loadOne c true id d (upd c d .nil) s)).devs = (loadOne c true id d (upd c d .nil) s).devs := rfl
        rw [hd1, h1, h1]
        have hx1 : x ≠ (made id).1 := fun he => (hids id hself).2.1 (he ▸ hsub x hx)
        have hx2 : (made x).1 ≠ (made id).1 := (hdiff x (hsub x hx) id hself (hne x hx)).1
        rw [if_neg hx1, if_neg hx2]
        exact ⟨(hids x (hsub x hx)).1, fun h => (hids x (hsub x hx)).2.1 (hsub _ h), (hids x (hsub x hx)).2.2⟩)
      (fun x hx y hy => hdiff x (hsub x hx) y (hsub y hy))
      (by
        intro x hx y e he
        have hd1 : (refer id (loadOne c true id d (upd c d .nil) s)).devs = (loadOne c true id d (upd c d .nil) s).devs := rfl
        rw [hd1, h1] at he
        split at he
        · cases he
          exact (hdiff x (hsub x hx) id hself (hne x hx)).2
        · exact hno x (hsub x hx) y e he)
    obtain ⟨i1, i2, i3⟩ := ih'
    refine ⟨fun x e he => ?_, fun x hx => ?_, fun x hx => ?_⟩
    · by_cases hx : x = id
      · subst hx
        rw [Forest.find, if_pos rfl] at he
        cases he
        constructor
        · rw [i2 _ (fun y hy he => (hdiff y (hsub y hy) x hself (hne y hy)).1 he.symm)]
          exact (h1 _).trans (if_pos rfl)
        · rw [i3 x (List.nodup_cons.1 hnd).1]
          show (loadOne c true x d (upd c d .nil) s).map.get x = _
          rw [h2, AList.get_put, if_pos rfl]
      · rw [Forest.find, if_neg hx] at he
        exact i1 x e he
    · rw [i2 x (fun y hy => hx y (hsub y hy))]
      exact (h1 x).trans (if_neg (hx id hself))
    · have hx' : x ≠ id ∧ x ∉ rest.ids := ⟨fun he => hx (he ▸ hself), fun h => hx (hsub x h)⟩
      rw [i3 x hx'.2]
      show (loadOne c true id d (upd c d .nil) s).map.get x = _
      rw [h2, AList.get_put, if_neg hx'.1]

/-- **C299.** Two devices cannot be swapped: each is to be replaced by the other one, and only one of them is there afterwards. -/
theorem C299_violation_swap :
    let r := load Demo.swap (.cons "a" (Demo.saved 11 "a") .nil (.cons "b" (Demo.saved 12 "b") .nil .nil)) true Demo.devs []
    Demo.confs r.1 = [("f", 3), ("a", 12)] ∧ r.2.get "a" = some "b" ∧ r.2.get "b" = some "a" := by
  decide +kernel

/-- **C299.** Each device of a configuration that is to be replaced is replaced by the chosen one, which gets its configuration: if
the chosen devices are not connected yet, differ, and none of them has the local id of a device in the configuration. The devices have
no sub-devices in the configuration. -/
theorem C299_replaced_partial (c : Ctx C) (docs : Forest (Saved C)) (devs : Forest (Dev C)) (goal : String → Info)
    (made : String → String × Dev C × Forest (Dev C)) (h : Fresh c docs devs goal made) (hflat : ∀ id d, docs.find id = some d → d.2 = .nil)
    (hnd : docs.ids.Nodup) (hn : devs.ids.Nodup) (hfix : ∀ id ∈ docs.ids, ∀ e, devs.find id = some e → e.1.fixed = false)
    (id : String) (d : Saved C × Forest (Saved C)) (hd : docs.find id = some d) :
    (load c docs true devs []).1.find (made id).1 = some ({ (made id).2.1 with conf := d.1.conf }, (made id).2.2) ∧
    (load c docs true devs []).1.find id = none ∧ (load c docs true devs []).2.get id = some (made id).1 := by
  have hid : id ∈ docs.ids := Classical.byContradiction fun hne => by
    rw [(find_none_iff docs id).2 hne] at hd
    cases hd
  have hfind := find_removeRemapped c docs.ids devs (fun x hx => mode_goal c x (goal x) (h.goals x hx).1) hfix
  have hall := loadAll_fresh c goal made docs hflat
    { devs := removeRemapped c docs.ids devs, map := [], unref := (removeRemapped c docs.ids devs).ids } hnd
    (nodup_removeRemapped c _ _ hn) h.goals h.makes
    (by
      intro x hx
      dsimp only
      rw [hfind, hfind, if_pos hx, if_neg (h.apart x hx).1]
      exact ⟨rfl, h.apart x hx⟩)
    h.differ
    (by
      intro x hx y e he
      dsimp only at he
      rw [hfind] at he
      split at he
      · cases he
      · rename_i hy
        exact h.away x hx y e hy he)
  have hnil : ¬ docs.isNil = true := by
    cases docs with
    | nil => cases hd
    | cons => exact Bool.false_ne_true
  have hnotun : ∀ x, (removeRemapped c docs.ids devs).find x = none →
      x ∉ (loadAll c docs true { devs := removeRemapped c docs.ids devs, map := [], unref := (removeRemapped c docs.ids devs).ids }).unref :=
    fun x hx hm => (find_none_iff _ _).1 hx (unref_loadAll c docs true _ x hm)
  have hkeep : ∀ x, (removeRemapped c docs.ids devs).find x = none → (load c docs true devs []).1.find x =
      (loadAll c docs true { devs := removeRemapped c docs.ids devs, map := [], unref := (removeRemapped c docs.ids devs).ids }).devs.find x := by
    intro x hx
    unfold load
    rw [if_neg hnil]
    dsimp only
    split
    · rw [find_removeAll, if_neg (fun hh => hnotun x hx hh.1)]
    · rfl
  refine ⟨?_, ?_, ?_⟩
  · rw [hkeep _ (by rw [hfind, if_neg (h.apart id hid).1]; exact (h.apart id hid).2)]
    exact (hall.1 id d hd).1
  · have hnone : (removeRemapped c docs.ids devs).find id = none := by rw [hfind, if_pos hid]
    rw [hkeep _ hnone, hall.2.1 id (fun y hy he => (h.apart y hy).1 (he ▸ hid))]
    exact hnone
  · unfold load
    rw [if_neg hnil]
    exact (hall.1 id d hd).2

/-- `a` is to be replaced by `c`. -/
def single : Ctx Nat := { make := Demo.make, opts := [("a", { mode := .remap, new := { conn := "t://c" } })], removeUnused := true }

/-- **C299.** A device can be replaced by one that is connected already: that one gets the configuration, is noted for connections
and stays, also if unused devices are removed. -/
theorem C299_connected_partial (c : Ctx C) (id : String) (d : Saved C) (adds : Bool) (devs : Forest (Dev C)) (i : Info)
    (hn : devs.ids.Nodup) (hid : ∀ e, devs.find id = some e → e.1.fixed = false)
    (hg : Spec.Goal c.opts c.avail id i) (hc : i.conn ≠ "") (t : String) (ht : t ≠ id) (e : Dev C × Forest (Dev C)) (he : devs.find t = some e)
    (hs : Spec.SameSerial i e.1.info ∨ Spec.SameConn i e.1.info)
    (hno : ∀ x e', x ≠ t → x ≠ id → devs.find x = some e' → ¬ Spec.SameSerial i e'.1.info ∧ ¬ Spec.SameConn i e'.1.info) :
    (load c (.cons id d .nil .nil) adds devs []).1.find t = some ({ e.1 with conf := d.conf }, e.2) ∧
    (load c (.cons id d .nil .nil) adds devs []).1.find id = none ∧
    (load c (.cons id d .nil .nil) adds devs []).2.get id = some t := by
  have hmode := mode_goal c id i hg
  have hfind := find_removeRemapped c [id] devs (by simpa using hmode) (by simpa using hid)
  have hnd := nodup_removeRemapped c [id] devs hn
  have hids : (Forest.cons id d .nil .nil).ids = [id] := rfl
  generalize hf : removeRemapped c [id] devs = f at hfind hnd
  have hfid : f.find id = none := by rw [hfind]; simp
  have hft : f.find t = some e := by rw [hfind, if_neg (by simpa using ht)]; exact he
  have hrem : removeDev f id = f := by
    unfold removeDev
    rw [hfid]
  have hfc : findConnected i f = some t := by
    cases h : findConnected i f with
    | none => exact absurd hs (findConnected_none i f h t e hft)
    | some t' =>
      obtain ⟨e', he', hm⟩ := findConnected_some i f hnd t' h
      by_cases htt : t' = t
      · rw [htt]
      · exfalso
        rw [hfind] at he'
        split at he'
        · cases he'
        · rename_i hni
          have := hno t' e' htt (by simpa using hni) he'
          rcases hm with hm | hm
          · exact this.1 hm
          · exact this.2 hm
  have hone : loadOne c adds id d (upd c d .nil) { devs := f, map := [], unref := f.ids } =
      { devs := f.set t { e.1 with conf := d.conf } e.2, map := AList.put [] id t, unref := f.ids } := by
    unfold loadOne
    rw [hmode]
    dsimp only
    rw [target_goal c id d i hg, hrem, if_neg hc, hfc]
    dsimp only
    unfold apply
    dsimp only
    rw [hft]
    rfl
  have hset : ∀ x, (f.set t { e.1 with conf := d.conf } e.2).find x = if x = t then some ({ e.1 with conf := d.conf }, e.2) else f.find x :=
    fun x => find_set f t x _ _ (by rw [hft]; rfl)
  have hload : load c (.cons id d .nil .nil) adds devs [] =
      (if c.removeUnused = true then removeAll (refer id (⟨f.set t { e.1 with conf := d.conf } e.2,
          AList.put [] id t, f.ids⟩ : St C)).unref (f.set t { e.1 with conf := d.conf } e.2)
        else f.set t { e.1 with conf := d.conf } e.2, AList.put [] id t) := by
    unfold load
    rw [if_neg (show ¬ (Forest.cons id d .nil .nil).isNil = true from Bool.false_ne_true)]
    dsimp only
    rw [hids, hf, loadAll_cons, hone]
    rfl
  rw [hload]
  refine ⟨?_, ?_, ?_⟩
  · dsimp only
    split
    · rw [find_removeAll, if_neg, hset, if_pos rfl]
      rintro ⟨hm, _⟩
      unfold refer at hm
      dsimp only at hm
      have := (List.mem_filter.1 hm).2
      rw [AList.get_put, if_pos rfl] at this
      simp at this
    · rw [hset, if_pos rfl]
  · dsimp only
    split
    · rw [find_removeAll, hset, if_neg (Ne.symm ht), hfid]
      split <;> rfl
    · rw [hset, if_neg (Ne.symm ht)]
      exact hfid
  · dsimp only
    rw [AList.get_put, if_pos rfl]

example : (load { single with opts := [("a", { mode := .remap, new := { conn := "t://b" } })] } (.cons "a" (Demo.saved 11 "a") .nil .nil) true
    Demo.devs []).1.find "b" = some ({ Demo.dev 2 "b" with conf := 11 }, .nil) := by
  refine (C299_connected_partial _ "a" (Demo.saved 11 "a") true Demo.devs { conn := "t://b" } (by decide +kernel) (by decide +kernel)
    ⟨{ mode := .remap, new := { conn := "t://b" } }, by decide +kernel, rfl, rfl, rfl, Or.inr ⟨?_, rfl⟩⟩ (by decide +kernel) "b"
    (by decide +kernel) (Demo.dev 2 "b", .nil) (by decide +kernel) (Or.inr ⟨by decide +kernel, by decide +kernel⟩) ?_).1
  · rintro a ⟨h, _⟩
    exact h rfl
  · intro x e hx hxa he
    refine ⟨fun hs => hs.1 rfl, fun hs => ?_⟩
    have h2 := hs.2
    simp only [Demo.devs, Forest.find, if_neg hx, if_neg hxa] at he
    split at he
    · cases he
      revert h2
      decide +kernel
    · cases he

/-- **C299.** What is replaced inside a device that is updated is noted for connections. -/
theorem C299_inside_partial (c : Ctx C) (id : String) (d : Saved C) (below : Forest (Saved C)) (adds : Bool) (devs : Forest (Dev C))
    (m : AList String String) (e : Dev C × Forest (Dev C)) (he : devs.find id = some e)
    (hm : Spec.modeIn c.opts id = .load ∨ Spec.modeIn c.opts id = .updateOnly) :
    (load c (.cons id d below .nil) adds devs m).2 = (load c below e.1.adds e.2 m).2 := by
  rw [← mode_eq] at hm
  have hr : removeRemapped c [id] devs = devs := by
    unfold removeRemapped
    rw [if_neg]
    · rfl
    · rcases hm with hm | hm <;> rw [hm] <;> exact fun h => nomatch h
  have hone : (loadOne c adds id d (upd c d below) { devs := devs, map := m, unref := devs.ids }).map = (load c below e.1.adds e.2 m).2 := by
    unfold loadOne
    rcases hm with hm | hm
    · rw [hm]
      dsimp only
      rw [he, if_pos (show (some e).isSome = true from rfl)]
      unfold apply
      dsimp only
      rw [he]
      rfl
    · rw [hm]
      dsimp only
      unfold apply
      dsimp only
      rw [he]
      rfl
  conv_lhs => unfold load
  rw [if_neg (show ¬ (Forest.cons id d below .nil).isNil = true from Bool.false_ne_true)]
  dsimp only
  rw [show (Forest.cons id d below .nil).ids = [id] from rfl, hr, loadAll_cons]
  exact hone

example : (load { single with opts := [("s", { mode := .remap, new := { conn := "t://c" } })] }
    (.cons "a" (Demo.saved 11 "a") (.cons "s" (Demo.saved 12 "s") .nil .nil) .nil) true Demo.devs []).2.get "s" = some "c" := by
  rw [C299_inside_partial _ "a" (Demo.saved 11 "a") _ true Demo.devs [] (Demo.dev 1 "a", .nil) (by decide +kernel) (Or.inl (by decide +kernel))]
  decide +kernel

example : (load single (.cons "a" (Demo.saved 11 "a") .nil .nil) true Demo.devs []).1.find "c" =
    some ({ (Demo.fresh "c").1 with conf := 11 }, .nil) := by
  refine (C299_replaced_partial single (.cons "a" (Demo.saved 11 "a") .nil .nil) Demo.devs (fun _ => { conn := "t://c" })
    (fun _ => ("c", Demo.fresh "c")) ⟨?_, ?_, ?_, ?_, ?_⟩ ?_ (by decide +kernel) (by decide +kernel) (by decide +kernel) "a"
    (Demo.saved 11 "a", .nil) (by decide +kernel)).1
  · intro id hid
    have : id = "a" := by simpa [Forest.ids] using hid
    subst this
    refine ⟨⟨{ mode := .remap, new := { conn := "t://c" } }, by decide +kernel, rfl, rfl, rfl, Or.inr ⟨?_, rfl⟩⟩, by decide +kernel⟩
    rintro a ⟨h, _⟩
    exact h rfl
  · intro id hid
    decide +kernel
  · intro id hid
    decide +kernel
  · intro id hid id' hid' hne
    simp [Forest.ids] at hid hid'
    exact absurd (hid.trans hid'.symm) hne
  · intro id hid x e hx he
    refine ⟨fun hs => hs.1 rfl, fun hs => ?_⟩
    have h2 := hs.2
    simp only [Demo.devs, Forest.find] at he
    simp only [Forest.ids, List.mem_singleton] at hx
    rw [if_neg hx] at he
    split at he
    · cases he
      revert h2
      decide +kernel
    · split at he
      · cases he
        revert h2
        decide +kernel
      · cases he
  · intro id d hd
    simp only [Forest.find] at hd
    split at hd
    · cases hd
      rfl
    · cases hd

end Verif.Loading
