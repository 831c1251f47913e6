import Verif.Types.PropsStruct
/-
C121, C122: struct builders.
-/
namespace Verif.Types.Props
open Spec

theorem lookup_dset (d : Dict) (n k : Name) (v : Val) :
    (dset d n v).lookup k = if k = n then some v else d.lookup k := by
  induction d with
  | nil =>
    by_cases h : k = n
    · subst h; simp [dset, List.lookup]
    · have hb : (k == n) = false := by simpa using h
      simp [dset, List.lookup, hb, h]
  | cons e d ih =>
    obtain ⟨a, x⟩ := e
    unfold dset
    by_cases ha : a = n
    · subst ha
      rw [if_pos rfl]
      by_cases h : k = a
      · subst h; simp [List.lookup]
      · have hb : (k == a) = false := by simpa using h
        simp [List.lookup, hb, h]
    · rw [if_neg ha]
      by_cases h : k = a
      · subst h; rw [if_neg ha]; simp [List.lookup]
      · have hb : (k == a) = false := by simpa using h
        simp only [List.lookup, hb]
        exact ih

theorem dset_keys (d : Dict) (n : Name) (v : Val) (h : n ∈ d.map (·.1)) :
    (dset d n v).map (·.1) = d.map (·.1) := by
  induction d with
  | nil => simp at h
  | cons e d ih =>
    obtain ⟨a, x⟩ := e
    unfold dset
    by_cases ha : a = n
    · rw [if_pos ha]; rfl
    · rw [if_neg ha]
      simp only [List.map_cons]
      rw [ih]
      rcases List.mem_cons.mp h with h' | h'
      · exact absurd h'.symm ha
      · exact h'

theorem dset_new (d : Dict) (n : Name) (v : Val) (h : n ∉ d.map (·.1)) : dset d n v = d ++ [(n, v)] := by
  induction d with
  | nil => rfl
  | cons e d ih =>
    obtain ⟨a, x⟩ := e
    unfold dset
    simp only [List.map_cons, List.mem_cons, not_or] at h
    rw [if_neg (Ne.symm h.1), ih h.2]
    rfl

theorem dset_fold {A : Type} (f : A → Name) (g : A → Val) (l : List A) (d : Dict)
    (h : (d.map (·.1) ++ l.map f).Nodup) :
    l.foldl (fun d a => dset d (f a) (g a)) d = d ++ l.map (fun a => (f a, g a)) := by
  induction l generalizing d with
  | nil => simp
  | cons a l ih =>
    simp only [List.foldl_cons]
    have hn : f a ∉ d.map (·.1) := by
      intro hm
      have := (List.nodup_append.mp h).2.2 _ hm (f a) (by simp)
      exact this rfl
    rw [dset_new _ _ _ hn, ih]
    · simp
    · simpa using h

theorem complete_full (fs : List Field) (dfl frozen : Bool) (d : Dict) (hn : (fs.map (·.1)).Nodup) (hk : Keys d)
    (h1 : ∀ e ∈ d, ∃ f ∈ fs, f.1 = e.1) (h2 : ∀ f ∈ fs, ∃ v, (f.1, v) ∈ d)
    (h3 : ∀ f ∈ fs, ∀ v, (f.1, v) ∈ d → Loose f.2.1 v) : complete fs dfl frozen d = (d, none) := by
  obtain ⟨a, b⟩ := complete_iff fs dfl frozen d hn hk
  have hz := a.mpr ⟨h1, h3, .inr h2⟩
  have hx : extra dfl fs d = [] := by
    unfold extra
    rw [List.map_eq_nil_iff, List.filter_eq_nil_iff]
    intro f hf
    obtain ⟨v, hv⟩ := h2 f hf
    rw [lookup_of_mem hk hv]; simp
  have hb := b hz
  rw [hx, List.append_nil] at hb
  exact Prod.ext hb hz

theorem exact_loose (t : Ty) (v : Val) (h : Exact t v) : Loose t v := by
  cases t <;> cases v <;> simp only [Exact] at h <;> try (exact absurd h id)
  · exact .fits _ _ (.null _)
  · subst h; exact .fits _ _ (.atom _ _)
  · exact .fits _ _ (.null _)
  · obtain ⟨rfl, rfl⟩ := h; exact .fits _ _ (.enum _ _ _)
  · exact .fits _ _ (.null _)
  · obtain ⟨rfl, rfl, rfl⟩ := h; exact .fits _ _ (.struct _ _ _ _)

theorem exact_iff (t : Ty) (v : Val) : Exact t v ↔ v = .null ∨ typeOf v = t := by
  cases t <;> cases v <;> simp [Exact, typeOf, Val.core]

/-- What holds of a builder of a type whose fields have different names. -/
structure BInv (b : Builder) : Prop where
  distinct : Distinct b.fs
  keys : Keys b.fields
  names : ∀ k, k ∈ b.fields.map (·.1) ↔ ∃ f ∈ b.fs.toList, f.1 = k
  fits : ∀ f ∈ b.fs.toList, ∀ v, (f.1, v) ∈ b.fields → Loose f.2.1 v

theorem BInv.complete {b : Builder} (h : BInv b) :
    Verif.Types.complete b.fs.toList b.dfl b.frozen b.fields = (b.fields, none) := by
  apply complete_full _ _ _ _ h.distinct h.keys
  · intro e he; exact (h.names e.1).mp (List.mem_map.mpr ⟨e, he, rfl⟩)
  · intro f hf
    obtain ⟨e, he, e1⟩ := List.mem_map.mp ((h.names f.1).mpr ⟨f, hf, rfl⟩)
    exact ⟨e.2, by rw [← e1]; exact he⟩
  · exact h.fits

theorem BInv.build {b : Builder} (h : BInv b) :
    b.build = ({ b with frozen := true }, .ok (.struct b.n b.fs b.dfl (ValL.ofList b.fields))) := by
  unfold Builder.build
  rw [h.complete]

theorem field_unique {fs : TyL} (hd : Distinct fs) {f g : Field} (hf : f ∈ fs.toList) (hg : g ∈ fs.toList)
    (e : f.1 = g.1) : f = g := by
  unfold Distinct at hd
  generalize fs.toList = l at *
  induction l with
  | nil => simp at hf
  | cons a l ih =>
    simp only [List.map_cons, List.nodup_cons] at hd
    rcases List.mem_cons.mp hf with h1 | h1 <;> rcases List.mem_cons.mp hg with h2 | h2
    · rw [h1, h2]
    · exfalso; apply hd.1; rw [← h1, e]; exact List.mem_map.mpr ⟨g, h2, rfl⟩
    · exfalso; apply hd.1; rw [← h2, ← e]; exact List.mem_map.mpr ⟨f, h1, rfl⟩
    · exact ih hd.2 h1 h2

/-- The result of `set`. -/
theorem set_eq {b : Builder} (h : BInv b) (hz : b.frozen = false) (k : Name) (v : Val) :
    ((∃ f ∈ b.fs.toList, f.1 = k ∧ Exact f.2.1 v) → b.set k v = ({ b with fields := dset b.fields k v }, none)) ∧
    ((¬ ∃ f ∈ b.fs.toList, f.1 = k ∧ Exact f.2.1 v) → ∃ e, b.set k v = (b, some e)) := by
  unfold Builder.set
  cases e : b.fields.lookup k with
  | none =>
    have hn : k ∉ b.fields.map (·.1) := by
      have := lookup_none.mp e
      simpa using this
    dsimp only
    refine ⟨?_, fun _ => ⟨_, rfl⟩⟩
    rintro ⟨f, hf, e1, _⟩
    exact absurd ((h.names k).mpr ⟨f, hf, e1⟩) hn
  | some x =>
    dsimp only
    have hm : k ∈ b.fields.map (·.1) := List.mem_map.mpr ⟨_, lookup_mem e, rfl⟩
    obtain ⟨f, hf, e1⟩ := (h.names k).mp hm
    cases ef : b.fs.toList.find? (fun f => v != .null && f.1 == k && sameTy true (typeOf v) f.2.1 != some true) with
    | none =>
      dsimp only
      rw [if_neg (by simp [hz])]
      refine ⟨fun _ => rfl, fun hx => ?_⟩
      exfalso
      apply hx
      refine ⟨f, hf, e1, ?_⟩
      rw [exact_iff]
      have := List.find?_eq_none.mp ef f hf
      simp only [Bool.and_eq_true, bne_iff_ne, beq_iff_eq, not_and] at this
      by_cases hv : v = .null
      · exact .inl hv
      · right
        have h3 := this ⟨hv, e1⟩
        exact (sameTy_iff true _ _).mp (Decidable.not_not.mp h3)
    | some g =>
      dsimp only
      refine ⟨?_, fun _ => ⟨_, rfl⟩⟩
      rintro ⟨f', hf', e1', hx⟩
      exfalso
      have hg := List.mem_of_find?_eq_some ef
      have hp := List.find?_some ef
      simp only [Bool.and_eq_true, bne_iff_ne, beq_iff_eq] at hp
      have : g = f' := field_unique h.distinct hg hf' (by rw [hp.1.2, e1'])
      subst this
      rcases (exact_iff _ _).mp hx with h4 | h4
      · exact hp.1.1 h4
      · exact hp.2 ((sameTy_iff true _ _).mpr h4)

theorem set_inv {b : Builder} (h : BInv b) (k : Name) (v : Val) (f : Field) (hf : f ∈ b.fs.toList) (e : f.1 = k)
    (hx : Loose f.2.1 v) : BInv { b with fields := dset b.fields k v } := by
  have hm : k ∈ b.fields.map (·.1) := (h.names k).mpr ⟨f, hf, e⟩
  refine ⟨h.distinct, ?_, ?_, ?_⟩
  · show Keys (dset b.fields k v)
    unfold Keys; rw [dset_keys _ _ _ hm]; exact h.keys
  · intro q
    show q ∈ (dset b.fields k v).map (·.1) ↔ _
    rw [dset_keys _ _ _ hm]; exact h.names q
  · intro g hg w hw
    have hw' : (dset b.fields k v).lookup g.1 = some w := lookup_of_mem (by rw [dset_keys _ _ _ hm]; exact h.keys) hw
    rw [lookup_dset] at hw'
    by_cases eg : g.1 = k
    · rw [if_pos eg] at hw'
      cases hw'
      have : g = f := field_unique h.distinct hg hf (by rw [eg, e])
      rw [this]; exact hx
    · rw [if_neg eg] at hw'
      exact h.fits g hg w (lookup_mem hw')

theorem make_inv {m : TMgr} {n tn : Name} {fs : TyL} {dfl : Bool} (hm : m.types.lookup n = some (.struct tn fs dfl))
    (hd : Distinct fs) (hl : dfl = true → ∀ f ∈ fs.toList, Loose f.2.1 f.2.2) :
    ∃ b, Builder.make m n = .ok b ∧ BInv b ∧ b.n = tn ∧ b.fs = fs ∧ b.dfl = dfl ∧ b.frozen = false ∧
      b.fields = fs.toList.map (fun f => (f.1, if dfl then f.2.2 else .null)) := by
  refine ⟨⟨tn, fs, dfl, fs.toList.map (fun f => (f.1, if dfl then f.2.2 else .null)), false⟩, ?_, ?_, rfl, rfl, rfl,
    rfl, rfl⟩
  · unfold Builder.make
    rw [hm]
    dsimp only
    rw [dset_fold (fun f : Field => f.1) (fun f => if dfl then f.2.2 else .null) fs.toList [] (by simpa [Distinct] using hd)]
    rfl
  · have hmap : (fs.toList.map (fun f => (f.1, if dfl then f.2.2 else Val.null))).map (·.1) = fs.toList.map (·.1) := by
      rw [List.map_map]; rfl
    refine ⟨hd, ?_, ?_, ?_⟩
    · unfold Keys; dsimp only; rw [hmap]; exact hd
    · intro k; dsimp only; rw [hmap]; simp only [List.mem_map]
    · intro f hf v hv
      dsimp only at hv hf
      obtain ⟨g, hg, e⟩ := List.mem_map.mp hv
      obtain ⟨e1, e2⟩ := Prod.mk.inj e
      have : g = f := field_unique hd hg hf e1
      rw [this] at e2
      rw [← e2]
      cases dfl with
      | true => exact hl rfl f hf
      | false => exact .fits _ _ (.null _)

/-- The builder after some calls of `set`. -/
def sets (b : Builder) (l : List (Name × Val)) : Builder := b.run (l.map fun e => .set e.1 e.2)

theorem sets_inv {b : Builder} (h : BInv b) (hz : b.frozen = false) (l : List (Name × Val)) :
    BInv (sets b l) ∧ (sets b l).frozen = false ∧ (sets b l).n = b.n ∧ (sets b l).fs = b.fs ∧
    (sets b l).dfl = b.dfl ∧ (sets b l).fields.map (·.1) = b.fields.map (·.1) ∧
    ∀ f ∈ b.fs.toList, ∀ x, b.fields.lookup f.1 = some x →
      (sets b l).fields.lookup f.1 = some (latest f.1 f.2.1 x l) := by
  induction l generalizing b with
  | nil => exact ⟨h, hz, rfl, rfl, rfl, rfl, fun f _ x hx => hx⟩
  | cons e l ih =>
    obtain ⟨k, v⟩ := e
    have hs : sets b ((k, v) :: l) = sets (b.set k v).1 l := rfl
    rw [hs]
    by_cases hx : ∃ f ∈ b.fs.toList, f.1 = k ∧ Exact f.2.1 v
    · rw [(set_eq h hz k v).1 hx]
      obtain ⟨f, hf, e1, e2⟩ := hx
      have hi := set_inv h k v f hf e1 (exact_loose _ _ e2)
      obtain ⟨i1, i2, i3, i4, i5, i6, i7⟩ := ih hi hz
      refine ⟨i1, i2, i3, i4, i5, ?_, ?_⟩
      · rw [i6]
        exact dset_keys _ _ _ ((h.names k).mpr ⟨f, hf, e1⟩)
      · intro g hg x hgx
        have := i7 g hg (if k = g.1 ∧ Exact g.2.1 v then v else x) ?_
        · rw [this]; rfl
        · show (dset b.fields k v).lookup g.1 = _
          rw [lookup_dset]
          by_cases eg : g.1 = k
          · have : g = f := field_unique h.distinct hg hf (by rw [eg, e1])
            rw [if_pos eg, if_pos ⟨eg.symm, by rw [this]; exact e2⟩]
          · rw [if_neg eg, if_neg (fun hc => eg hc.1.symm), hgx]
    · obtain ⟨er, her⟩ := (set_eq h hz k v).2 hx
      rw [her]
      obtain ⟨i1, i2, i3, i4, i5, i6, i7⟩ := ih h hz
      refine ⟨i1, i2, i3, i4, i5, i6, ?_⟩
      intro g hg x hgx
      rw [i7 g hg x hgx]
      unfold latest
      rw [if_neg (fun hc => hx ⟨g, hg, hc.1.symm, hc.2⟩)]
      cases l <;> rfl

/-! ### C121 -/

/-- C121: a builder of a registered struct type, after any number of calls of `set`: it can be
built, the struct has the type and its fields in the order of the type, and every field holds
the last value that was set and can be taken, else the default value. -/
theorem C121_history (m : TMgr) (n tn : Name) (fs : TyL) (dfl : Bool) (l : List (Name × Val))
    (hm : m.types.lookup n = some (.struct tn fs dfl)) (hd : Distinct fs)
    (hl : dfl = true → ∀ f ∈ fs.toList, Loose f.2.1 f.2.2) :
    ∃ b, Builder.make m n = .ok b ∧ ∃ v, (b.run (l.map fun e => .set e.1 e.2)).build.2 = .ok (.struct tn fs dfl v) ∧
      v.toList.map (·.1) = fs.toList.map (·.1) ∧
      ∀ f ∈ fs.toList, field (.struct tn fs dfl v) f.1 =
        latest f.1 f.2.1 (if dfl then f.2.2 else .null) l := by
  obtain ⟨b, hb, hi, h1, h2, h3, h4, h5⟩ := make_inv hm hd hl
  refine ⟨b, hb, ?_⟩
  obtain ⟨i1, i2, i3, i4, i5, i6, i7⟩ := sets_inv hi h4 l
  have hbld := i1.build
  unfold sets at *
  rw [hbld]
  dsimp only
  rw [i3, i4, i5, h1, h2, h3]
  refine ⟨_, rfl, ?_, ?_⟩
  · rw [ValL.to_of, i6, h5, List.map_map]; rfl
  · intro f hf
    unfold field
    dsimp only
    rw [ValL.to_of, i7 f (by rw [h2]; exact hf) (if dfl then f.2.2 else .null)]
    · rfl
    · apply lookup_of_mem hi.keys
      rw [h5]
      exact List.mem_map.mpr ⟨f, hf, rfl⟩

/-- C121: at any time before the first build, `set` succeeds exactly when the type has such a
field and the value is null or of exactly the type of the field. -/
theorem C121_set (m : TMgr) (n tn : Name) (fs : TyL) (dfl : Bool) (l : List (Name × Val)) (k : Name) (v : Val)
    (hm : m.types.lookup n = some (.struct tn fs dfl)) (hd : Distinct fs)
    (hl : dfl = true → ∀ f ∈ fs.toList, Loose f.2.1 f.2.2) :
    ∃ b, Builder.make m n = .ok b ∧
      (((b.run (l.map fun e => .set e.1 e.2)).set k v).2 = none ↔ ∃ f ∈ fs.toList, f.1 = k ∧ Exact f.2.1 v) := by
  obtain ⟨b, hb, hi, h1, h2, h3, h4, h5⟩ := make_inv hm hd hl
  refine ⟨b, hb, ?_⟩
  obtain ⟨i1, i2, i3, i4, i5, i6, i7⟩ := sets_inv hi h4 l
  unfold sets at *
  have hset := set_eq i1 i2 k v
  rw [i4, h2] at hset
  by_cases hx : ∃ f ∈ fs.toList, f.1 = k ∧ Exact f.2.1 v
  · rw [hset.1 hx]
    exact ⟨fun _ => hx, fun _ => rfl⟩
  · obtain ⟨er, her⟩ := hset.2 hx
    rw [her]
    exact ⟨fun h => (by cases h), fun h => absurd h hx⟩

/-- C121: what was built stays: any further calls of `set` and `build` leave the struct that a
builder gives as it is. -/
theorem C121_built (m : TMgr) (n tn : Name) (fs : TyL) (dfl : Bool) (l : List (Name × Val)) (l' : List BOp)
    (hm : m.types.lookup n = some (.struct tn fs dfl)) (hd : Distinct fs)
    (hl : dfl = true → ∀ f ∈ fs.toList, Loose f.2.1 f.2.2)
    (hs : ∀ o ∈ l', ∀ vs, o ≠ .setAll vs) :
    ∃ b, Builder.make m n = .ok b ∧ ∀ s, (b.run (l.map fun e => .set e.1 e.2)).build.2 = .ok s →
      (((b.run (l.map fun e => .set e.1 e.2)).build.1).run l').build.2 = .ok s := by
  obtain ⟨b, hb, hi, h1, h2, h3, h4, h5⟩ := make_inv hm hd hl
  refine ⟨b, hb, ?_⟩
  obtain ⟨i1, i2, i3, i4, i5, i6, i7⟩ := sets_inv hi h4 l
  unfold sets at *
  generalize b.run (l.map fun e => BOp.set e.1 e.2) = c at *
  rw [i1.build]
  intro s hs'
  cases hs'
  dsimp only
  have key : ∀ (l' : List BOp), (∀ o ∈ l', ∀ vs, o ≠ .setAll vs) →
      Builder.run { c with frozen := true } l' = { c with frozen := true } := by
    intro l'
    induction l' with
    | nil => intro _; rfl
    | cons o l' ih =>
      intro ho
      have h1 : (Builder.step { c with frozen := true } o).1 = { c with frozen := true } := by
        cases o with
        | set k v =>
          unfold Builder.step Builder.set
          dsimp only
          cases c.fields.lookup k with
          | none => rfl
          | some x => dsimp only; split <;> rfl
        | setAll vs => exact absurd rfl (ho _ List.mem_cons_self vs)
        | build =>
          have hi' : BInv { c with frozen := true } := ⟨i1.distinct, i1.keys, i1.names, i1.fits⟩
          unfold Builder.step
          dsimp only
          rw [hi'.build]
      unfold Builder.run at *
      rw [List.foldl_cons, h1]
      exact ih (fun o h => ho o (List.mem_cons_of_mem _ h))
  rw [key l' hs]
  have hi' : BInv { c with frozen := true } := ⟨i1.distinct, i1.keys, i1.names, i1.fits⟩
  rw [hi'.build]

/-- C121: a name that is no field of the type reads as null in what is built. -/
theorem C121_absent (m : TMgr) (n tn : Name) (fs : TyL) (dfl : Bool) (l : List (Name × Val)) (k : Name)
    (hm : m.types.lookup n = some (.struct tn fs dfl)) (hd : Distinct fs)
    (hl : dfl = true → ∀ f ∈ fs.toList, Loose f.2.1 f.2.2) (hk : ∀ f ∈ fs.toList, f.1 ≠ k) :
    ∃ b s, Builder.make m n = .ok b ∧ (b.run (l.map fun e => .set e.1 e.2)).build.2 = .ok s ∧ field s k = .null := by
  obtain ⟨b, hb, v, hv, hn, _⟩ := C121_history m n tn fs dfl l hm hd hl
  refine ⟨b, _, hb, hv, ?_⟩
  have : v.toList.lookup k = none := by
    rw [List.lookup_eq_none_iff]
    intro e he
    have : e.1 ∈ fs.toList.map (·.1) := hn ▸ List.mem_map_of_mem (f := (·.1)) he
    obtain ⟨f, hf, e1⟩ := List.mem_map.mp this
    have := hk f hf
    rw [e1] at this
    simpa using fun h => this h.symm
  change (v.toList.lookup k).getD .null = .null
  rw [this]; rfl

/-- C121: a builder that is made from a struct gives an equal struct. -/
theorem C121_from (m : TMgr) (n tn : Name) (fs : TyL) (dfl : Bool) (d : Dict) (frozen : Bool) (s : Val)
    (hm : m.types.lookup n = some (.struct tn fs dfl)) (hf : Distinct fs) (hk : Keys d)
    (hl : dfl = true → ∀ f ∈ fs.toList, Loose f.2.1 f.2.2)
    (hs : (mkStruct m n (some d) frozen).res = .ok s) :
    ∃ b, Builder.from s = .ok b ∧ b.build.2 = .ok s := by
  obtain ⟨h1, h2, h3⟩ := C118_created m n tn fs dfl d frozen hm hf hk
  obtain ⟨v, rfl, h5, h6, h7, _⟩ := h3 s hs
  have h8 := h2.mp ⟨_, hs⟩
  refine ⟨⟨tn, fs, dfl, v.toList, false⟩, ?_, ?_⟩
  · unfold Builder.from
    dsimp only
    rw [dset_fold (fun f : Name × Val => f.1) (fun f => f.2) v.toList [] (by simpa [Keys] using h5)]
    simp
  · have hi : BInv ⟨tn, fs, dfl, v.toList, false⟩ := by
      refine ⟨hf, h5, ?_, ?_⟩
      · intro k
        rw [← h6 k]
        simp [List.mem_map]
      · intro f hf' x hx
        have e := h7 f hf'
        unfold field at e
        dsimp only at e
        rw [lookup_of_mem h5 hx] at e
        simp only [Option.getD_some] at e
        rw [e]
        unfold want
        cases hd : d.lookup f.1 with
        | some y => exact h8.2.1 f hf' y (lookup_mem hd)
        | none =>
          cases dfl with
          | true => exact hl rfl f hf'
          | false => exact .fits _ _ (.null _)
    rw [hi.build]
    dsimp only
    rw [ValL.of_to]

example : ∀ f ∈ pointFields.toList, Loose f.2.1 f.2.2 := by
  intro f hf
  simp only [pointFields, TyL.toList, List.mem_cons, List.not_mem_nil, or_false] at hf
  rcases hf with rfl | rfl
  · exact .fits _ _ (.atom _ _)
  · exact .fits _ _ (.atom _ _)

/-! ### C122 -/

/-- A builder of points. -/
def pointBuilder : Builder := ⟨nP, pointFields, true, [(nx, .atom .int 5), (ny, .atom .float 7)], false⟩

theorem pointBuilder_made : Builder.make pointMgr nP = .ok pointBuilder := rfl

/-- C122, violation: setting null gives null, not the default value (5 here). -/
theorem C122_violation_null : ∃ s, (pointBuilder.run [.set nx .null]).build.2 = .ok s ∧ field s nx = .null :=
  ⟨_, rfl, rfl⟩

/-- C122, violation: the values of all fields cannot be set at once, although they have the
types of the fields. -/
theorem C122_violation_values : (pointBuilder.setAll [.atom .int 1, .atom .float 2]).2 = some .noIface := rfl

/-- C122, violation: after a build the builder refuses further values. -/
theorem C122_violation_build : ((pointBuilder.run [.build]).set nx (.atom .int 1)).2 = some .frozen := by
  decide +kernel

def anyBuilder : Builder := ⟨nP, .cons nx (.simple .undef) .null .nil, false, [(nx, .null)], false⟩

/-- C122, violation: a field of undefined type, which takes every value when a struct is
created, takes none in a builder. -/
theorem C122_violation_undefined (c : CT) (k : Nat) (h : c ≠ .undef) :
    (anyBuilder.set nx (.atom c k)).2 = some .invalid := by
  have hu : (sameTy true (.simple c) (.simple .undef) != some true) = true := by
    rw [bne_iff_ne, ne_eq, sameTy_iff]
    intro e; cases e; exact h rfl
  have hn : ((Val.atom c k) != .null) = true := by rw [bne_iff_ne]; intro e; cases e
  have hs : sameTy true (.simple c) (.simple .undef) ≠ none := by simp [sameTy]
  have hx : (nx == nx) = true := by simp
  simp only [anyBuilder, Builder.set, TyL.toList, List.lookup, hx, List.find?, typeOf, Val.core, hu, hn, Bool.and_true]
  exact congrArg some (if_neg hs)

theorem checkAll_strings (n : Nat) : ∀ (vs : List Val) (ts : List Ty), vs.length = n → ts.length = n →
    (checkAll vs ts = none ↔ (∀ v ∈ vs, ∃ k, v = .atom .string k) ∧ ∀ t ∈ ts, t = .simple .string) := by
  induction n with
  | zero =>
    intro vs ts h1 h2
    rw [List.length_eq_zero_iff.mp h1, List.length_eq_zero_iff.mp h2]
    simp [checkAll]
  | succ n ih =>
    intro vs ts h1 h2
    cases vs with
    | nil => simp at h1
    | cons v vs =>
      cases ts with
      | nil => simp at h2
      | cons t ts =>
        have := ih vs ts (by simpa using h1) (by simpa using h2)
        by_cases hv : ∃ k, v = .atom .string k
        · obtain ⟨k, rfl⟩ := hv
          by_cases ht : t = .simple .string
          · subst ht
            simp only [checkAll, if_true]
            rw [this]
            simp
          · simp [checkAll, ht]
        · have : checkAll (v :: vs) (t :: ts) ≠ none := by
            cases v with
            | atom c k =>
              cases c <;> first | (exact absurd ⟨_, rfl⟩ hv) | simp [checkAll]
            | _ => simp [checkAll]
          constructor
          · intro h; exact absurd h this
          · intro h; exact absurd (h.1 v List.mem_cons_self) hv

/-- C122: all values can be set at once exactly when there is one for each field and all of
them are texts and all fields are texts; then they are the fields in order.  Missing: fields
of other types, see the violation. -/
theorem C122_values_partial (b : Builder) (vs : List Val) (hb : b.fields.length = b.fs.toList.length) :
    ((b.setAll vs).2 = none ↔ vs.length = b.fs.toList.length ∧ (∀ v ∈ vs, ∃ k, v = .atom .string k) ∧
      ∀ f ∈ b.fs.toList, f.2.1 = .simple .string) ∧
    ((b.setAll vs).2 = none → (b.setAll vs).1.fields.map (·.1) = b.fields.map (·.1) ∧
      (b.setAll vs).1.fields.map (·.2) = vs) ∧
    ((b.setAll vs).2 ≠ none → (b.setAll vs).1 = b) := by
  unfold Builder.setAll
  by_cases hl : vs.length = b.fields.length
  · rw [if_neg (by simpa using hl)]
    have := checkAll_strings vs.length vs (b.fs.toList.map (·.2.1)) rfl (by rw [List.length_map, hl, hb])
    have hmap : (∀ t ∈ b.fs.toList.map (·.2.1), t = .simple .string) ↔ ∀ f ∈ b.fs.toList, f.2.1 = .simple .string := by
      simp only [List.mem_map]
      constructor
      · intro h f hf; exact h _ ⟨f, hf, rfl⟩
      · rintro h t ⟨f, hf, rfl⟩; exact h f hf
    rw [hmap] at this
    cases e : checkAll vs (b.fs.toList.map (·.2.1)) with
    | none =>
      dsimp only
      refine ⟨⟨fun _ => ⟨by rw [hl, hb], this.mp e⟩, fun _ => rfl⟩, fun _ => ?_, fun h => absurd rfl h⟩
      constructor
      · rw [List.map_fst_zip]; simp [hl]
      · rw [List.map_snd_zip]; simp [hl]
    | some er =>
      dsimp only
      refine ⟨⟨fun h => (by cases h), fun h => ?_⟩, fun h => (by cases h), fun _ => rfl⟩
      rw [e] at this
      exact absurd (this.mpr h.2) (by simp)
  · rw [if_pos (by simpa using hl)]
    refine ⟨⟨fun h => (by cases h), fun h => absurd (by rw [h.1, hb]) hl⟩, fun h => (by cases h), fun _ => rfl⟩

example : (Builder.setAll ⟨nP, .cons nx (.simple .string) .null .nil, false, [(nx, .null)], false⟩
    [.atom .string 3]).1.fields = [(nx, .atom .string 3)] := rfl

end Verif.Types.Props
