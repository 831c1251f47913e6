import Verif.Loading.Conn
import Verif.Loading.Demo

/-! # What update modes do -/

namespace Verif.Loading

variable {C : Type}

/-- **C294.** A connected device that the configuration describes: it stays as it is if it is skipped, it goes if it is to be
removed and can be, and otherwise gets the saved configuration, and so do its sub-devices. -/
theorem C294_connected (c : Ctx C) (h : Spec.NoRemap c.opts) (docs : Forest (Saved C)) (adds : Bool) (devs : Forest (Dev C))
    (hn : docs.ids.Nodup)
    (hmake : ∀ id d conn r, docs.find id = some d → devs.find id = none → Spec.Conn c.avail d.1.info conn → c.make conn = some r → r.1 = id)
    (x : String) (e : Dev C × Forest (Dev C)) (d : Saved C × Forest (Saved C)) (he : devs.find x = some e) (hd : docs.find x = some d) :
    (Spec.modeIn c.opts x = .skip → (load c docs adds devs []).1.find x = some e) ∧
    (Spec.modeIn c.opts x = .remove → (load c docs adds devs []).1.find x = if e.1.fixed = true then some e else none) ∧
    (Spec.modeIn c.opts x = .load ∨ Spec.modeIn c.opts x = .updateOnly →
      (load c docs adds devs []).1.find x = some ({ e.1 with conf := d.1.conf }, (load c d.2 e.1.adds e.2 []).1)) := by
  have hf := find_load c h docs adds devs hn
    (fun id d hd hnone r hr => hmake id d _ r hd hnone (target_conn c h id d.1) hr) x
  have hx : x ∈ docs.ids := Classical.byContradiction fun hne => by
    rw [(find_none_iff docs x).2 hne] at hd
    cases hd
  rw [if_neg (fun h => h.2.2.1 hx), hd, he] at hf
  rw [hf, ← mode_eq]
  unfold effect
  refine ⟨fun hm => ?_, fun hm => ?_, fun hm => ?_⟩
  · simp only [hm]
  · simp only [hm]
  · rcases hm with hm | hm <;> simp only [hm]

/-- **C294.** A device that is not connected and is not to be loaded is not added. -/
theorem C294_not_added (c : Ctx C) (h : Spec.NoRemap c.opts) (docs : Forest (Saved C)) (adds : Bool) (devs : Forest (Dev C))
    (hn : docs.ids.Nodup)
    (hmake : ∀ id d conn r, docs.find id = some d → devs.find id = none → Spec.Conn c.avail d.1.info conn → c.make conn = some r → r.1 = id)
    (x : String) (he : devs.find x = none) (hd : docs.find x = none ∨ Spec.modeIn c.opts x ≠ .load) :
    (load c docs adds devs []).1.find x = none := by
  have hf := find_load c h docs adds devs hn
    (fun id d hd hnone r hr => hmake id d _ r hd hnone (target_conn c h id d.1) hr) x
  rw [hf]
  split
  · rfl
  · rw [he]
    unfold effect
    cases hdx : docs.find x with
    | none => rfl
    | some d =>
      rw [hdx] at hd
      rcases hd with hd | hd
      · cases hd
      · rw [← mode_eq] at hd
        cases hm : c.mode x <;> simp_all

/-- **C294.** A device that is not connected and is to be loaded is added with the connection string of the discovered device
with the saved manufacturer and serial number, or with the saved one, and gets the saved configuration. -/
theorem C294_added (c : Ctx C) (h : Spec.NoRemap c.opts) (docs : Forest (Saved C)) (devs : Forest (Dev C)) (hn : docs.ids.Nodup)
    (hmake : ∀ id d conn r, docs.find id = some d → devs.find id = none → Spec.Conn c.avail d.1.info conn → c.make conn = some r → r.1 = id)
    (x : String) (d : Saved C × Forest (Saved C)) (he : devs.find x = none) (hd : docs.find x = some d)
    (hm : Spec.modeIn c.opts x = .load) (conn : String) (hc : Spec.Conn c.avail d.1.info conn) (hne : conn ≠ "")
    (r : String × Dev C × Forest (Dev C)) (hr : c.make conn = some r) :
    (load c docs true devs []).1.find x = some ({ r.2.1 with conf := d.1.conf }, (load c d.2 r.2.1.adds r.2.2 []).1) := by
  have hf := find_load c h docs true devs hn
    (fun id d hd hnone r hr => hmake id d _ r hd hnone (target_conn c h id d.1) hr) x
  have hx : x ∈ docs.ids := Classical.byContradiction fun hne => by
    rw [(find_none_iff docs x).2 hne] at hd
    cases hd
  have ht : (target c x d.1).conn = conn := conn_unique _ _ _ _ (target_conn c h x d.1) hc
  rw [← mode_eq] at hm
  rw [hf, if_neg (fun h => h.2.2.1 hx), hd, he]
  unfold effect
  simp only [hm, ht, hr]
  rw [if_neg]
  rintro (h | h)
  · cases h
  · exact hne h

/-- **C294.** A device that cannot be added is not added. -/
theorem C294_cannot_add (c : Ctx C) (h : Spec.NoRemap c.opts) (docs : Forest (Saved C)) (adds : Bool) (devs : Forest (Dev C))
    (hn : docs.ids.Nodup)
    (hmake : ∀ id d conn r, docs.find id = some d → devs.find id = none → Spec.Conn c.avail d.1.info conn → c.make conn = some r → r.1 = id)
    (x : String) (d : Saved C × Forest (Saved C)) (he : devs.find x = none) (hd : docs.find x = some d)
    (hno : adds = false ∨ ∀ conn, Spec.Conn c.avail d.1.info conn → conn = "" ∨ c.make conn = none) :
    (load c docs adds devs []).1.find x = none := by
  have hf := find_load c h docs adds devs hn
    (fun id d hd hnone r hr => hmake id d _ r hd hnone (target_conn c h id d.1) hr) x
  rw [hf]
  split
  · rfl
  · rw [hd, he]
    unfold effect
    cases hm : c.mode x with
    | load =>
      dsimp only
      by_cases hc : adds = false ∨ (target c x d.1).conn = ""
      · rw [if_pos hc]
      · rw [if_neg hc]
        rcases hno with hno | hno
        · exact absurd (Or.inl hno) hc
        · rcases hno _ (target_conn c h x d.1) with h1 | h1
          · exact absurd (Or.inr h1) hc
          · rw [h1]
    | _ => rfl

/-- **C294.** A connected device that the configuration does not describe stays as it is, if unused devices are not removed or it
cannot be. -/
theorem C294_not_described (c : Ctx C) (h : Spec.NoRemap c.opts) (docs : Forest (Saved C)) (adds : Bool) (devs : Forest (Dev C))
    (hn : docs.ids.Nodup)
    (hmake : ∀ id d conn r, docs.find id = some d → devs.find id = none → Spec.Conn c.avail d.1.info conn → c.make conn = some r → r.1 = id)
    (x : String) (e : Dev C × Forest (Dev C)) (he : devs.find x = some e) (hd : docs.find x = none)
    (hr : c.removeUnused = false ∨ e.1.fixed = true) :
    (load c docs adds devs []).1.find x = some e := by
  have hf := find_load c h docs adds devs hn
    (fun id d hd hnone r hr => hmake id d _ r hd hnone (target_conn c h id d.1) hr) x
  rw [hf, if_neg, hd, he]
  · rfl
  · rintro ⟨_, h1, _, h2⟩
    rcases hr with hr | hr
    · rw [hr] at h1
      cases h1
    · rw [h2 e he] at hr
      cases hr

theorem demo_noRemap : Spec.NoRemap Demo.modes.opts := by
  intro id o ho
  simp only [Demo.modes, AList.get] at ho
  grind

theorem demo_conn (id : String) (d : Saved Nat × Forest (Saved Nat)) (conn : String) (r : String × Dev Nat × Forest (Dev Nat))
    (h : Demo.docs.find id = some d) (hc : Spec.Conn [] d.1.info conn) (hr : Demo.make conn = some r) : r.1 = id := by
  have hcc : conn = d.1.info.conn := by
    rcases hc with ⟨a, ⟨_, _, b, f, hb, _⟩, _⟩ | ⟨_, hc⟩
    · cases b <;> cases hb
    · exact hc
  subst hcc
  simp only [Demo.docs, Forest.find] at h
  split at h
  · cases h
    subst_vars
    have : Demo.make "t://a" = some r := hr
    simp [Demo.make] at this
    rw [← this]
  · split at h
    · cases h
      subst_vars
      have : Demo.make "t://b" = some r := hr
      simp [Demo.make] at this
      rw [← this]
    · split at h
      · cases h
        subst_vars
        have : Demo.make "t://c" = some r := hr
        simp [Demo.make] at this
        rw [← this]
      · cases h

example : (load Demo.modes Demo.docs true Demo.devs []).1.find "a" = none :=
  (C294_connected Demo.modes demo_noRemap Demo.docs true Demo.devs (by decide +kernel)
    (fun id d conn r h _ hc hr => demo_conn id d conn r h hc hr) "a" (Demo.dev 1 "a", .nil) (Demo.saved 11 "a", .nil)
    (by decide +kernel) (by decide +kernel)).2.1 (by decide +kernel)

example : (load Demo.modes Demo.docs true Demo.devs []).1.find "f" = some (Demo.dev 3 "f" true, .nil) :=
  C294_not_described Demo.modes demo_noRemap Demo.docs true Demo.devs (by decide +kernel)
    (fun id d conn r h _ hc hr => demo_conn id d conn r h hc hr) "f" (Demo.dev 3 "f" true, .nil)
    (by decide +kernel) (by decide +kernel) (Or.inr rfl)

example : ((load Demo.modes Demo.docs true Demo.devs []).1.find "c").map (fun e => e.1.conf) = some 13 := by
  rw [C294_added Demo.modes demo_noRemap Demo.docs Demo.devs (by decide +kernel)
    (fun id d conn r h _ hc hr => demo_conn id d conn r h hc hr) "c" (Demo.saved 13 "c", .nil)
    (by decide +kernel) (by decide +kernel) (by decide +kernel) "t://c"
    (Or.inr ⟨(by rintro a ⟨_, _, b, f, hb, _⟩; cases b <;> cases hb), (by decide +kernel)⟩) (by decide +kernel)
    ("c", Demo.fresh "c") (by decide +kernel)]
  rfl

/-- **C296.** Devices are kept although unused devices are to be removed: the configuration has no devices at all. -/
theorem C296_violation_no_devices (c : Ctx C) (adds : Bool) (devs : Forest (Dev C)) (m : AList String String) :
    load c .nil adds devs m = (devs, m) := rfl

/-- **C296.** Devices can be there that are to be removed. -/
example : (load { Demo.plain with removeUnused := true } .nil true Demo.devs []).1.ids = ["a", "b", "f"] := by decide +kernel

/-- **C296.** A connected device that the configuration does not describe is removed if unused devices are to be removed, it can
be, and the configuration describes some device. -/
theorem C296_removed_partial (c : Ctx C) (h : Spec.NoRemap c.opts) (docs : Forest (Saved C)) (adds : Bool) (devs : Forest (Dev C))
    (hn : docs.ids.Nodup) (hdoc : docs ≠ .nil)
    (hmake : ∀ id d conn r, docs.find id = some d → devs.find id = none → Spec.Conn c.avail d.1.info conn → c.make conn = some r → r.1 = id)
    (x : String) (e : Dev C × Forest (Dev C)) (he : devs.find x = some e) (hd : docs.find x = none) (hr : c.removeUnused = true)
    (hfix : e.1.fixed = false) : (load c docs adds devs []).1.find x = none := by
  have hf := find_load c h docs adds devs hn
    (fun id d hd hnone r hr => hmake id d _ r hd hnone (target_conn c h id d.1) hr) x
  rw [hf, if_pos]
  refine ⟨?_, hr, (find_none_iff docs x).1 hd, fun e' he' => ?_⟩
  · cases docs with
    | nil => exact absurd rfl hdoc
    | cons => rfl
  · rw [he] at he'
    cases he'
    exact hfix

example : (load Demo.modes Demo.docs true (Demo.devs.snoc "u" (Demo.dev 7 "u") .nil) []).1.find "u" = none :=
  C296_removed_partial Demo.modes demo_noRemap Demo.docs true _ (by decide +kernel) (by decide +kernel)
    (fun id d conn r h _ hc hr => demo_conn id d conn r h hc hr) "u" (Demo.dev 7 "u", .nil) (by decide +kernel) (by decide +kernel) rfl rfl

/-- **C300.** The order in which a configuration lists devices matters: `a` is replaced by `b`, and `b` is to be removed. -/
theorem C300_violation_order :
    let c : Ctx Nat := { make := Demo.make, opts := [("a", { mode := .remap, new := { conn := "t://b" } }), ("b", { mode := .remove })] }
    let a := Demo.saved 11 "a"
    let b := Demo.saved 12 "b"
    (load c (.cons "a" a .nil (.cons "b" b .nil .nil)) true Demo.devs []).1.ids = ["f"] ∧
      (load c (.cons "b" b .nil (.cons "a" a .nil .nil)) true Demo.devs []).1.ids = ["f", "b"] := by
  decide +kernel

/-- **C300.** The order in which a configuration lists devices does not matter if no device is replaced. -/
theorem C300_order_partial (c : Ctx C) (h : Spec.NoRemap c.opts) (docs docs' : Forest (Saved C)) (adds : Bool) (devs : Forest (Dev C))
    (hn : docs.ids.Nodup) (hn' : docs'.ids.Nodup) (hsame : ∀ x, docs.find x = docs'.find x)
    (hmake : ∀ id d conn r, docs.find id = some d → devs.find id = none → Spec.Conn c.avail d.1.info conn → c.make conn = some r → r.1 = id)
    (x : String) : (load c docs adds devs []).1.find x = (load c docs' adds devs []).1.find x := by
  rw [find_load c h docs adds devs hn (fun id d hd hnone r hr => hmake id d _ r hd hnone (target_conn c h id d.1) hr) x,
    find_load c h docs' adds devs hn'
      (fun id d hd hnone r hr => hmake id d _ r ((hsame id).trans hd) hnone (target_conn c h id d.1) hr) x, hsame x]
  have hids : x ∉ docs.ids ↔ x ∉ docs'.ids := by
    rw [← find_none_iff, ← find_none_iff, hsame x]
  have hnil : docs.isNil = docs'.isNil := by
    cases docs with
    | nil => cases docs' with
      | nil => rfl
      | cons id d b r =>
        have := hsame id
        simp [Forest.find] at this
    | cons id d b r => cases docs' with
      | nil =>
        have := hsame id
        simp [Forest.find] at this
      | cons => rfl
  simp only [hids, hnil]

example : (load Demo.modes Demo.docs true Demo.devs []).1.find "c" =
    (load Demo.modes (.cons "c" (Demo.saved 13 "c") .nil (.cons "b" (Demo.saved 12 "b") .nil (.cons "a" (Demo.saved 11 "a") .nil .nil)))
      true Demo.devs []).1.find "c" :=
  C300_order_partial Demo.modes demo_noRemap _ _ true Demo.devs (by decide +kernel) (by decide +kernel)
    (by
      intro x
      simp only [Demo.docs, Forest.find]
      grind)
    (fun id d conn r h _ hc hr => demo_conn id d conn r h hc hr) "c"

end Verif.Loading
