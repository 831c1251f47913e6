import Verif.Loading.Lemmas
import Verif.Loading.Demo

/-! # Update options -/

namespace Verif.Loading

variable {C : Type}

/-- **C295.** Options set for a device are used for another one: the sub-devices of `a` and `b` have the same local id, and the one
of `b` is to be removed. -/
theorem C295_violation_same_id :
    let sub : Forest (Dev Nat) := .cons "s" (Demo.dev 5 "s") .nil .nil
    let doc : Forest (Saved Nat) := .cons "s" (Demo.saved 15 "s") .nil .nil
    let opts : Forest Opt := .cons "a" {} (.cons "s" {} .nil .nil) (.cons "b" {} (.cons "s" { mode := .remove } .nil .nil) .nil)
    let c : Ctx Nat := { opts := options opts [] }
    let r := (load c (.cons "a" (Demo.saved 1 "a") doc (.cons "b" (Demo.saved 2 "b") doc .nil)) true
      (.cons "a" (Demo.dev 1 "a") sub (.cons "b" (Demo.dev 2 "b") sub .nil)) []).1
    Spec.at_ opts ["a", "s"] = some {} ∧ Spec.at_ r ["a", "s"] = none ∧ Spec.at_ r ["b", "s"] = none := by
  decide +kernel

/-- **C295.** The update mode of the root can be set but is not used: its sub-devices are updated although it is to be skipped. -/
theorem C295_violation_root :
    let root : Choice := Choice.setMode { root := true, localId := "r" } .skip
    let opts : Forest Opt := .cons "r" root.opt (.cons "a" {} .nil .nil) .nil
    let c : Ctx Nat := { opts := options opts [] }
    Demo.confs (load c (.cons "a" (Demo.saved 11 "a") .nil .nil) true Demo.devs []).1 = [("a", 11), ("b", 2), ("f", 3)] := by
  decide +kernel

theorem get_options_other (f : Forest Opt) (m : AList String Opt) (x : String) (h : x ∉ Spec.allIds f) :
    (options f m).get x = m.get x := by
  induction f generalizing m with
  | nil => rfl
  | cons id o below rest ihb ihr =>
    unfold Spec.allIds at h
    rw [List.mem_cons, List.mem_append] at h
    unfold options
    rw [ihr _ (fun hx => h (Or.inr (Or.inr hx))), ihb _ (fun hx => h (Or.inr (Or.inl hx))), AList.get_put,
      if_neg (fun e => h (Or.inl e))]

theorem at_mem {α : Type} (f : Forest α) (p : List String) (v : α) (h : Spec.at_ f p = some v) : ∃ x, p.getLast? = some x ∧ x ∈ Spec.allIds f := by
  induction f generalizing p with
  | nil =>
    cases p with
    | nil => cases h
    | cons x l => cases l <;> cases h
  | cons id o below rest ihb ihr =>
    cases p with
    | nil => cases h
    | cons x l =>
      by_cases hx : x = id
      · subst hx
        cases l with
        | nil => exact ⟨x, rfl, by simp [Spec.allIds]⟩
        | cons y l =>
          have h' : Spec.at_ below (y :: l) = some v := by
            rw [Spec.at_, Forest.find, if_pos rfl] at h
            exact h
          obtain ⟨z, hz, hm⟩ := ihb _ h'
          exact ⟨z, by rw [List.getLast?_cons_cons]; exact hz, by simp [Spec.allIds, hm]⟩
      · have h' : Spec.at_ rest (x :: l) = some v := by
          cases l with
          | nil =>
            rw [Spec.at_, Forest.find, if_neg hx] at h
            exact h
          | cons y l =>
            rw [Spec.at_, Forest.find, if_neg hx] at h
            rw [Spec.at_]
            exact h
        obtain ⟨z, hz, hm⟩ := ihr _ h'
        exact ⟨z, hz, by simp [Spec.allIds, hm]⟩

/-- **C295.** The options of the device at a path are found by its local id, if all local ids differ. -/
theorem C295_found_partial (f : Forest Opt) (m : AList String Opt) (hn : (Spec.allIds f).Nodup) (p : List String) (x : String) (o : Opt)
    (ho : Spec.at_ f p = some o) (hx : p.getLast? = some x) : (options f m).get x = some o := by
  induction f generalizing m p with
  | nil =>
    cases p with
    | nil => cases ho
    | cons y l => cases l <;> cases ho
  | cons id a below rest ihb ihr =>
    unfold Spec.allIds at hn
    obtain ⟨hid, hn⟩ := List.nodup_cons.1 hn
    obtain ⟨hb, hr, hdis⟩ := List.nodup_append.1 hn
    rw [List.mem_append] at hid
    unfold options
    cases p with
    | nil => cases ho
    | cons y l =>
      by_cases hy : y = id
      · subst hy
        cases l with
        | nil =>
          rw [Spec.at_, Forest.find, if_pos rfl] at ho
          cases ho
          have hx' : y = x := by simpa using hx
          subst hx'
          rw [get_options_other _ _ _ (fun h => hid (Or.inr h)), get_options_other _ _ _ (fun h => hid (Or.inl h)), AList.get_put,
            if_pos rfl]
        | cons z l =>
          rw [Spec.at_, Forest.find, if_pos rfl] at ho
          rw [List.getLast?_cons_cons] at hx
          have ho' : Spec.at_ below (z :: l) = some o := ho
          obtain ⟨w, hw, hm⟩ := at_mem below _ o ho'
          rw [hx] at hw
          cases hw
          rw [get_options_other _ _ _ (fun h => hdis x hm x h rfl)]
          exact ihb _ hb _ ho' hx
      · have h' : Spec.at_ rest (y :: l) = some o := by
          cases l with
          | nil =>
            rw [Spec.at_, Forest.find, if_neg hy] at ho
            exact ho
          | cons z l =>
            rw [Spec.at_, Forest.find, if_neg hy] at ho
            rw [Spec.at_]
            exact ho
        exact ihr _ hr _ h' hx

example : (options (.cons "r" {} (.cons "a" {} (.cons "s" { mode := .skip } .nil .nil) .nil) .nil) []).get "s" = some { mode := .skip } :=
  C295_found_partial _ [] (by decide +kernel) ["r", "a", "s"] "s" _ (by decide +kernel) rfl

/-- **C301.** What identifies the devices to connect to cannot be set for the root, and can be for other devices. -/
theorem C301_set (c : Choice) (i : Info) : (c.setNew i).isSome = !c.root ∧ ∀ c', c.setNew i = some c' → c'.opt.new = i := by
  unfold Choice.setNew
  cases c.root with
  | true => exact ⟨rfl, fun _ h => nomatch h⟩
  | false => exact ⟨rfl, fun _ h => by cases h; rfl⟩

example : (Choice.setNew { root := true } { conn := "t://a" }).isSome = false := (C301_set { root := true } { conn := "t://a" }).1

theorem find?_text (l : AList String String) (k : String) (hk : (l.map Prod.fst).Nodup) (hm : (l.get k).isSome = true) :
    (AList.get (l.filter fun e => e.2 ≠ "") k).getD "" = (l.get k).getD "" := by
  induction l with
  | nil => cases hm
  | cons e l ih =>
    obtain ⟨x, v⟩ := e
    have hx := (List.nodup_cons.1 hk).1
    rw [AList.get_cons]
    by_cases hxk : k = x
    · subst hxk
      rw [if_pos rfl]
      have hnone : AList.get (l.filter fun e => e.2 ≠ "") k = none := by
        cases hg : AList.get (l.filter fun e => e.2 ≠ "") k with
        | none => rfl
        | some w =>
          exfalso
          have := AList.mem_of_get hg
          exact hx (List.mem_map.2 ⟨(k, w), (List.mem_filter.1 this).1, rfl⟩)
      by_cases hv : v = ""
      · rw [List.filter_cons_of_neg (by simp [hv]), hnone, hv]
        rfl
      · rw [List.filter_cons_of_pos (by simp [hv]), AList.get_cons, if_pos rfl]
    · rw [if_neg hxk]
      rw [AList.get_cons, if_neg hxk] at hm
      have := ih (List.nodup_cons.1 hk).2 hm
      by_cases hv : v = ""
      · rw [List.filter_cons_of_neg (by simp [hv])]
        exact this
      · rw [List.filter_cons_of_pos (by simp [hv]), AList.get_cons, if_neg hxk]
        exact this

theorem read_write (c : Choice) : c.write.read = c := by
  unfold Members.read Choice.write
  dsimp only
  have hk : (List.map Prod.fst [("LocalId", c.localId), ("Manufacturer", c.old.man), ("SerialNumber", c.old.ser),
      ("ConnectionString", c.old.conn), ("NewManufacturer", c.opt.new.man), ("NewSerialNumber", c.opt.new.ser),
      ("NewConnectionString", c.opt.new.conn)]).Nodup := by
    show (["LocalId", "Manufacturer", "SerialNumber", "ConnectionString", "NewManufacturer", "NewSerialNumber",
      "NewConnectionString"] : List String).Nodup
    decide +kernel
  rw [find?_text _ "LocalId" hk rfl, find?_text _ "Manufacturer" hk rfl,
    find?_text _ "SerialNumber" hk rfl, find?_text _ "ConnectionString" hk rfl,
    find?_text _ "NewManufacturer" hk rfl, find?_text _ "NewSerialNumber" hk rfl,
    find?_text _ "NewConnectionString" hk rfl]
  have hr : (if c.root = true then some true else none : Option Bool).getD false = c.root := by cases c.root <;> rfl
  have hm : Mode.ofCode ((if c.opt.mode = .load then none else some c.opt.mode.code : Option Nat).getD 0) = c.opt.mode := by
    cases c.opt.mode <;> rfl
  rw [hr, hm]
  rfl

/-- **C301.** Update options of one device that were saved are the same when they are read again. -/
theorem C301_same (c : Choice) : c.write.read = c := read_write c

/-- **C301.** Update options that were saved are the same when they are read again, with those of all sub-devices. -/
theorem C301_saved (f : Forest Choice) (h : Spec.Named f) : readOptions (writeAll f) = f := by
  induction f with
  | nil => rfl
  | cons id c below rest ihb ihr =>
    obtain ⟨h1, h2, h3, h4⟩ := h
    unfold writeAll
    rw [if_neg h2]
    unfold readOptions
    rw [ihb h3, ihr h4, read_write, h1]

/-- **C301.** The update options of a configuration are those of its devices: each is loaded, and what identifies it is as saved. -/
theorem C301_of_configuration (docs : Forest (Saved C)) (p : List String) (d : Saved C) (h : Spec.at_ docs p = some d) :
    ∃ x, p.getLast? = some x ∧ Spec.at_ (readAll docs) p = some { root := false, localId := x, old := d.info, opt := {} } := by
  induction docs generalizing p with
  | nil =>
    cases p with
    | nil => cases h
    | cons y l => cases l <;> cases h
  | cons id a below rest ihb ihr =>
    unfold readAll
    cases p with
    | nil => cases h
    | cons y l =>
      by_cases hy : y = id
      · subst hy
        cases l with
        | nil =>
          rw [Spec.at_, Forest.find, if_pos rfl] at h
          cases h
          refine ⟨y, rfl, ?_⟩
          rw [Spec.at_, Forest.find, if_pos rfl]
          rfl
        | cons z l =>
          rw [Spec.at_, Forest.find, if_pos rfl] at h
          obtain ⟨x, hx, he⟩ := ihb _ (show Spec.at_ below (z :: l) = some d from h)
          refine ⟨x, by rw [List.getLast?_cons_cons]; exact hx, ?_⟩
          rw [Spec.at_, Forest.find, if_pos rfl]
          exact he
      · cases l with
        | nil =>
          rw [Spec.at_, Forest.find, if_neg hy] at h
          obtain ⟨x, hx, he⟩ := ihr [y] h
          refine ⟨x, hx, ?_⟩
          rw [Spec.at_, Forest.find, if_neg hy]
          exact he
        | cons z l =>
          rw [Spec.at_, Forest.find, if_neg hy] at h
          obtain ⟨x, hx, he⟩ := ihr (y :: z :: l) (by rw [Spec.at_]; exact h)
          refine ⟨x, hx, ?_⟩
          rw [Spec.at_] at he
          rw [Spec.at_, Forest.find, if_neg hy]
          exact he

/-- **C301.** Nothing else has update options. -/
theorem C301_only_devices (docs : Forest (Saved C)) : Spec.allIds (readAll docs) = Spec.allIds docs := by
  induction docs with
  | nil => rfl
  | cons id a below rest ihb ihr =>
    unfold readAll Spec.allIds
    rw [ihb, ihr]

theorem named_readAll (docs : Forest (Saved C)) (h : ∀ x ∈ Spec.allIds docs, x ≠ "") : Spec.Named (readAll docs) := by
  induction docs with
  | nil => trivial
  | cons id a below rest ihb ihr =>
    unfold Spec.allIds at h
    exact ⟨rfl, h id (by simp), ihb fun x hx => h x (by simp [hx]), ihr fun x hx => h x (by simp [hx])⟩

/-- **C301.** In particular the update options of a configuration can be saved and read. -/
theorem C301_configuration_saved (docs : Forest (Saved C)) (h : ∀ x ∈ Spec.allIds docs, x ≠ "") :
    readOptions (writeAll (readAll docs)) = readAll docs := C301_saved _ (named_readAll docs h)

example : readOptions (writeAll (readAll Demo.docs)) = readAll Demo.docs := C301_configuration_saved _ (by decide +kernel)
example : Spec.at_ (readAll Demo.docs) ["b"] = some { localId := "b", old := { conn := "t://b" } } :=
  (C301_of_configuration Demo.docs ["b"] (Demo.saved 12 "b") (by decide +kernel)).elim fun x h => by
    have : x = "b" := by simpa using h.1.symm
    subst this
    exact h.2

end Verif.Loading
