import Verif.Loading.Lemmas

/-! # Loading without replacing devices -/

namespace Verif.Loading

variable {C : Type}

/-- `updateObject` of a device that a document describes. -/
def upd (c : Ctx C) (d : Saved C) (below : Forest (Saved C)) : Upd C := fun e sub m =>
  ({ e with conf := d.conf }, load c below e.adds sub m)

theorem loadAll_cons (c : Ctx C) (id : String) (d : Saved C) (below rest : Forest (Saved C)) (adds : Bool) (s : St C) :
    loadAll c (.cons id d below rest) adds s = loadAll c rest adds (refer id (loadOne c adds id d (upd c d below) s)) := by
  rw [loadAll]
  congr 3
  funext e sub m
  unfold upd load
  by_cases h : below.isNil = true
  · rw [if_pos h, if_pos h]
  · rw [if_neg h, if_neg h]

/-- What loading does to the device with a local id. -/
def effect (c : Ctx C) (adds : Bool) (doc : Option (Saved C × Forest (Saved C))) (x : String) (cur : Option (Dev C × Forest (Dev C))) :
    Option (Dev C × Forest (Dev C)) :=
  match doc with
  | none => cur
  | some d => match c.mode x, cur with
    | .skip, cur => cur
    | .remap, cur => cur
    | .remove, none => none
    | .remove, some e => if e.1.fixed = true then some e else none
    | .updateOnly, none => none
    | .updateOnly, some e => some ({ e.1 with conf := d.1.conf }, (load c d.2 e.1.adds e.2 []).1)
    | .load, some e => some ({ e.1 with conf := d.1.conf }, (load c d.2 e.1.adds e.2 []).1)
    | .load, none =>
      if adds = false ∨ (target c x d.1).conn = "" then none
      else match c.make (target c x d.1).conn with
        | none => none
        | some r => some ({ r.2.1 with conf := d.1.conf }, (load c d.2 r.2.1.adds r.2.2 []).1)

theorem map_apply (u : Upd C) (hu : ∀ e sub, (u e sub []).2.2 = []) (id : String) (s : St C) (hm : s.map = []) :
    (apply u id s).map = [] := by
  unfold apply
  cases s.devs.find id with
  | none => exact hm
  | some e =>
    dsimp only
    rw [hm]
    exact hu _ _

theorem unref_apply (u : Upd C) (id : String) (s : St C) : (apply u id s).unref = s.unref := by
  unfold apply
  cases s.devs.find id <;> rfl

theorem map_loadOne (c : Ctx C) (h : Spec.NoRemap c.opts) (adds : Bool) (id : String) (d : Saved C) (u : Upd C)
    (hu : ∀ e sub, (u e sub []).2.2 = []) (s : St C) (hm : s.map = []) :
    (loadOne c adds id d u s).map = [] ∧ (loadOne c adds id d u s).unref = s.unref := by
  unfold loadOne
  cases hmode : c.mode id with
  | skip => exact ⟨hm, rfl⟩
  | remove => exact ⟨hm, rfl⟩
  | updateOnly => exact ⟨map_apply u hu id s hm, unref_apply u id s⟩
  | load =>
    dsimp only
    by_cases hf : (s.devs.find id).isSome = true
    · rw [if_pos hf]
      exact ⟨map_apply u hu id s hm, unref_apply u id s⟩
    · rw [if_neg hf]
      cases create c adds (target c id d).conn s.devs with
      | none => exact ⟨hm, rfl⟩
      | some r => exact ⟨map_apply u hu _ _ hm, unref_apply u _ _⟩
  | remap =>
    exfalso
    unfold Ctx.mode at hmode
    cases ho : c.opts.get id with
    | none => simp [ho] at hmode
    | some o =>
      simp only [ho] at hmode
      exact h id o ho hmode

theorem map_loadAll (c : Ctx C) (h : Spec.NoRemap c.opts) (docs : Forest (Saved C)) (adds : Bool) (s : St C) (hm : s.map = []) :
    (loadAll c docs adds s).map = [] ∧ (loadAll c docs adds s).unref = s.unref.filter (fun x => x ∉ docs.ids) := by
  induction docs generalizing adds s with
  | nil =>
    refine ⟨hm, ?_⟩
    rw [loadAll]
    exact (List.filter_eq_self.2 (fun _ _ => by simp [Forest.ids])).symm
  | cons id d below rest ihb ihr =>
    rw [loadAll_cons]
    have hu : ∀ e sub, (upd c d below e sub []).2.2 = [] := by
      intro e sub
      unfold upd load
      dsimp only
      by_cases hb : below.isNil = true
      · rw [if_pos hb]
      · rw [if_neg hb]
        exact (ihb _ _ rfl).1
    have h1 := map_loadOne c h adds id d (upd c d below) hu s hm
    have hr : (refer id (loadOne c adds id d (upd c d below) s)).map = [] := h1.1
    have h2 := ihr adds _ hr
    refine ⟨h2.1, ?_⟩
    rw [h2.2]
    have hun : (refer id (loadOne c adds id d (upd c d below) s)).unref = s.unref.filter (fun x => x ≠ id) := by
      unfold refer
      dsimp only
      rw [h1.1, h1.2]
      exact List.filter_eq_self.2 (fun _ _ => by simp [AList.get])
    rw [hun, List.filter_filter]
    congr 1
    funext x
    simp [Forest.ids, Bool.and_comm]

theorem load_map (c : Ctx C) (h : Spec.NoRemap c.opts) (docs : Forest (Saved C)) (adds : Bool) (f : Forest (Dev C)) :
    (load c docs adds f []).2 = [] := by
  unfold load
  by_cases hb : docs.isNil = true
  · rw [if_pos hb]
  · rw [if_neg hb]
    exact (map_loadAll c h _ _ _ rfl).1

theorem find_apply (u : Upd C) (id x : String) (s : St C) :
    (apply u id s).devs.find x = if x = id then (s.devs.find id).map (fun e => ((u e.1 e.2 s.map).1, (u e.1 e.2 s.map).2.1))
      else s.devs.find x := by
  unfold apply
  cases hf : s.devs.find id with
  | none =>
    dsimp only
    by_cases hx : x = id
    · rw [if_pos hx, hx, hf]
      rfl
    · rw [if_neg hx]
  | some e =>
    dsimp only
    rw [find_set _ _ _ _ _ (by rw [hf]; rfl)]
    rfl

theorem find_loadOne (c : Ctx C) (h : Spec.NoRemap c.opts) (adds : Bool) (id : String) (d : Saved C) (below : Forest (Saved C))
    (s : St C) (hm : s.map = []) (hmake : s.devs.find id = none → ∀ r, c.make (target c id d).conn = some r → r.1 = id) (x : String) :
    (loadOne c adds id d (upd c d below) s).devs.find x =
      if x = id then effect c adds (some (d, below)) id (s.devs.find id) else s.devs.find x := by
  unfold loadOne effect
  cases hmode : c.mode id with
  | skip =>
    dsimp only
    by_cases hx : x = id
    · rw [if_pos hx, hx]
    · rw [if_neg hx]
  | remove =>
    dsimp only
    rw [find_removeDev]
    by_cases hx : x = id
    · subst hx
      rw [if_pos rfl]
      cases hf : s.devs.find x with
      | none => simp
      | some e =>
        by_cases he : e.1.fixed = true <;> simp [he]
    · rw [if_neg hx, if_neg (fun h => hx h.1)]
  | updateOnly =>
    dsimp only
    rw [find_apply, hm]
    by_cases hx : x = id
    · rw [if_pos hx, if_pos hx]
      cases s.devs.find id <;> rfl
    · rw [if_neg hx, if_neg hx]
  | load =>
    dsimp only
    cases hf : s.devs.find id with
    | some e =>
      rw [if_pos (show (some e).isSome = true from rfl), find_apply, hm, hf]
      by_cases hx : x = id
      · rw [if_pos hx, if_pos hx]
        rfl
      · rw [if_neg hx, if_neg hx]
    | none =>
      rw [if_neg (by simp)]
      dsimp only
      unfold create
      by_cases hc : adds = false ∨ (target c id d).conn = ""
      · rw [if_pos hc, if_pos hc]
        dsimp only
        by_cases hx : x = id
        · rw [if_pos hx, hx, hf]
        · rw [if_neg hx]
      · rw [if_neg hc, if_neg hc]
        cases hk : c.make (target c id d).conn with
        | none =>
          dsimp only
          by_cases hx : x = id
          · rw [if_pos hx, hx, hf]
          · rw [if_neg hx]
        | some r =>
          have hr := hmake hf r hk
          dsimp only
          rw [hr, hf]
          rw [if_neg (by simp)]
          dsimp only
          rw [hr, find_apply]
          dsimp only
          rw [find_snoc _ _ _ _ _ hf, find_snoc _ _ _ _ _ hf, if_pos rfl, hm]
          by_cases hx : x = id
          · rw [if_pos hx, if_pos hx]
            rfl
          · rw [if_neg hx, if_neg hx, if_neg hx]
  | remap =>
    exfalso
    unfold Ctx.mode at hmode
    cases ho : c.opts.get id with
    | none => simp [ho] at hmode
    | some o =>
      simp only [ho] at hmode
      exact h id o ho hmode

theorem find_loadAll (c : Ctx C) (h : Spec.NoRemap c.opts) (docs : Forest (Saved C)) (adds : Bool) (s : St C) (hm : s.map = [])
    (hn : docs.ids.Nodup)
    (hmake : ∀ id d, docs.find id = some d → s.devs.find id = none → ∀ r, c.make (target c id d.1).conn = some r → r.1 = id)
    (x : String) :
    (loadAll c docs adds s).devs.find x = effect c adds (docs.find x) x (s.devs.find x) := by
  induction docs generalizing s with
  | nil => rfl
  | cons id d below rest _ ihr =>
    rw [loadAll_cons]
    have hid : id ∉ rest.ids := (List.nodup_cons.1 hn).1
    have hu : ∀ e sub, (upd c d below e sub []).2.2 = [] := fun e sub => load_map c h below e.adds sub
    have h1 := map_loadOne c h adds id d (upd c d below) hu s hm
    have hf := find_loadOne c h adds id d below s hm (fun hnone => hmake id (d, below) (by simp [Forest.find]) hnone)
    have hsame : ∀ y, (refer id (loadOne c adds id d (upd c d below) s)).devs.find y =
        if y = id then effect c adds (some (d, below)) id (s.devs.find id) else s.devs.find y := hf
    rw [ihr (refer id (loadOne c adds id d (upd c d below) s)) h1.1 (List.nodup_cons.1 hn).2]
    · rw [hsame]
      by_cases hx : x = id
      · subst hx
        rw [if_pos rfl, (find_none_iff rest x).2 hid]
        simp [Forest.find, effect]
      · rw [if_neg hx]
        simp [Forest.find, hx]
    · intro y e hy hnone
      have hyn : y ≠ id := by
        intro he
        subst he
        rw [(find_none_iff rest y).2 hid] at hy
        cases hy
      rw [hsame, if_neg hyn] at hnone
      exact hmake y e (by rw [Forest.find, if_neg hyn]; exact hy) hnone

theorem find_load (c : Ctx C) (h : Spec.NoRemap c.opts) (docs : Forest (Saved C)) (adds : Bool) (f : Forest (Dev C))
    (hn : docs.ids.Nodup)
    (hmake : ∀ id d, docs.find id = some d → f.find id = none → ∀ r, c.make (target c id d.1).conn = some r → r.1 = id)
    (x : String) :
    (load c docs adds f []).1.find x =
      if docs.isNil = false ∧ c.removeUnused = true ∧ x ∉ docs.ids ∧ (∀ e, f.find x = some e → e.1.fixed = false) then none
      else effect c adds (docs.find x) x (f.find x) := by
  unfold load
  by_cases hb : docs.isNil = true
  · rw [if_pos hb, if_neg (fun h => by rw [hb] at h; cases h.1)]
    cases docs with
    | nil => rfl
    | cons => cases hb
  · rw [if_neg hb]
    have hb' : docs.isNil = false := by simpa using hb
    dsimp only
    rw [removeRemapped_id c h]
    have hall := find_loadAll c h docs adds { devs := f, map := [], unref := f.ids } rfl hn hmake x
    by_cases hr : c.removeUnused = true
    · rw [if_pos hr, find_removeAll, hall, (map_loadAll c h docs adds { devs := f, map := [], unref := f.ids } rfl).2]
      by_cases hx : x ∈ docs.ids
      · rw [if_neg (fun h => by simp [hx] at h), if_neg (fun h => h.2.2.1 hx)]
      · have hd : docs.find x = none := (find_none_iff docs x).2 hx
        rw [hd]
        have he : effect c adds none x (f.find x) = f.find x := rfl
        dsimp only
        rw [he]
        cases hfx : f.find x with
        | none => simp
        | some e =>
          have hmem : x ∈ f.ids := by
            refine Classical.byContradiction fun hne => ?_
            rw [(find_none_iff f x).2 hne] at hfx
            cases hfx
          by_cases hfix : e.1.fixed = false
          · rw [if_pos ⟨List.mem_filter.2 ⟨hmem, by simpa using hx⟩, by rintro _ ⟨⟩; exact hfix⟩,
              if_pos ⟨hb', hr, hx, by rintro _ ⟨⟩; exact hfix⟩]
          · rw [if_neg (fun h => hfix (h.2 e rfl)), if_neg (fun h => hfix (h.2.2.2 e rfl))]
    · rw [if_neg hr, if_neg (fun h => hr h.2.1)]
      exact hall

end Verif.Loading
