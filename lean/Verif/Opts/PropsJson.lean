import Verif.Opts.Lemmas
import Verif.Opts.Demo

/-!
# Documents (C266 – C269)
-/

namespace Verif.Opts
open Spec

/-! ## C266: types -/

mutual
theorem put_kept : (v : Opt) → {old w : Opt} → put (some old) v = some w → old ≠ .prim .null → Replaces old w
  | .dict d, old, w, h, hn => by
    unfold put at h
    cases old with
    | prim p =>
      cases p with
      | null => exact absurd rfl hn
      | _ => cases h; exact Replaces.refl _
    | list l => cases h; exact Replaces.refl _
    | dict m =>
      cases h
      refine ⟨.dict, fun m' hm => ?_⟩
      cases hm
      exact ⟨_, rfl, merge_kept d m⟩
  | .list l, old, w, h, hn => by
    unfold put at h
    cases old with
    | prim p =>
      cases p with
      | null => exact absurd rfl hn
      | _ => cases h; exact Replaces.refl _
    | list l => cases h; exact ⟨.list, fun m hm => nomatch hm⟩
    | dict m => cases h; exact Replaces.refl _
  | .prim p, old, w, h, hn => by
    have key : (if conv p = .null ∨ old.ty ≠ (conv p).ty then none else some (Opt.prim (conv p))) = some w := by
      unfold put at h
      cases old with
      | prim q =>
        cases q with
        | null => exact absurd rfl hn
        | _ => exact h
      | list l => exact h
      | dict m => exact h
    by_cases hc : conv p = .null ∨ old.ty ≠ (conv p).ty
    · rw [if_pos hc] at key; cases key
    · rw [if_neg hc] at key
      cases key
      have ht : old.ty = (conv p).ty := by
        exact Classical.byContradiction fun hne => hc (.inr hne)
      refine ⟨same_of_ty ht, fun m hm => ?_⟩
      subst hm
      cases hp : conv p <;> rw [hp] at ht <;> cases ht
theorem merge_kept : (d : Ents) → (o : Ents) → TypesKept o (merge o d)
  | .nil, o => by rw [merge]; exact TypesKept.refl o
  | .cons k v d, o => by
    rw [merge_cons]
    refine TypesKept.trans ?_ (merge_kept d _)
    unfold entry
    cases h : put (o.get k) v with
    | none => exact TypesKept.refl o
    | some w =>
      refine kept_set fun old ho hn => ?_
      rw [ho] at h
      exact put_kept v h hn
end

/-- A document never changes the type of an option. -/
theorem C266_json (o : Ents) (doc : Option Opt) : TypesKept o (populate o (.json doc)) := by
  unfold populate
  split
  · exact merge_kept _ o
  · exact TypesKept.refl o
  · rename_i h; cases h
  · rename_i h; cases h

theorem leaf_ty {v : Opt} {s : Text} {p : Prim} (h : leaf v s = some p) (hn : v ≠ .prim .null) : Replaces v (.prim p) := by
  have key : v.ty = p.ty ∧ NoDict v := by
    unfold leaf at h
    cases v with
    | dict m => cases h
    | list l => cases h
    | prim q =>
      refine ⟨?_, nofun⟩
      cases q with
      | null => exact absurd rfl hn
      | bool b =>
        simp only [Opt.ty, Prim.ty, toBool] at h ⊢
        split at h
        · cases h; rfl
        · split at h <;> cases h
          rfl
      | int i =>
        simp only [Opt.ty, Prim.ty, toInt, Option.map_eq_some_iff] at h ⊢
        obtain ⟨_, _, rfl⟩ := h
        rfl
      | float x =>
        simp only [Opt.ty, Prim.ty, toFloat] at h ⊢
        split at h
        · rw [Option.map_eq_some_iff] at h
          obtain ⟨_, _, rfl⟩ := h
          rfl
        · cases h
      | str t => cases h; rfl
  exact ⟨same_of_ty key.1, fun m hm => absurd hm (key.2 m)⟩

theorem write_kept : (p : List Text) → (o : Ents) → (s : Text) → TypesKept o (write o p s)
  | [], o, s => TypesKept.refl o
  | [t], o, s => by
    unfold write
    cases h : o.get t with
    | none => exact kept_set fun v hv _ => by rw [h] at hv; cases hv
    | some v =>
      dsimp only
      cases hl : leaf v s with
      | none => exact TypesKept.refl o
      | some q =>
        refine kept_set fun v' hv hn => ?_
        rw [h] at hv
        cases hv
        exact leaf_ty hl hn
  | t :: u :: ts, o, s => by
    unfold write
    cases h : o.get t with
    | none => exact kept_set fun v hv _ => by rw [h] at hv; cases hv
    | some v =>
      cases v with
      | prim _ => exact TypesKept.refl o
      | list _ => exact TypesKept.refl o
      | dict m =>
        refine kept_set fun v' hv _ => ?_
        rw [h] at hv
        cases hv
        exact ⟨.dict, fun m' hm => by cases hm; exact ⟨_, rfl, write_kept (u :: ts) m s⟩⟩

theorem fromArgs_kept (pre : Text) (args : List Text) (o : Ents) : TypesKept o (fromArgs pre args o) := by
  unfold fromArgs
  generalize collect pre args = l
  induction l generalizing o with
  | nil => exact TypesKept.refl o
  | cons x l ih => exact TypesKept.trans (write_kept (split x.1) o x.2) (ih _)

/-- No provider changes the type of an option … -/
theorem C266_populate (o : Ents) (p : Provider) : TypesKept o (populate o p) := by
  cases p with
  | json doc => exact C266_json o doc
  | env vars => exact fromArgs_kept _ vars o
  | cmd args => exact fromArgs_kept _ args o

/-- … and so no number of providers. -/
theorem C266_options (b : Builder) : TypesKept b.options b.get.2 := by
  unfold Builder.get
  dsimp only
  generalize b.providers = l
  generalize b.options = o
  induction l generalizing o with
  | nil => exact TypesKept.refl o
  | cons p l ih => exact TypesKept.trans (C266_populate o p) (ih _)

example : At demo [t "Scheduler", t "WorkersNum"] (.prim (.int 0)) :=
  .inside .here (.last .here)

/-! ## C267: plain values -/

theorem conv_same {p : Prim} (h : ∀ i, p = .int i → i < 9223372036854775808) : conv p = p := by
  cases p with
  | int i =>
    change (if i < 9223372036854775808 then Prim.int i else _) = _
    rw [if_pos (h i rfl)]
  | _ => rfl

theorem alike_iff {a b : Prim} (ha : a ≠ .null) : alike a b = true ↔ ¬ (b = .null ∨ a.ty ≠ b.ty) := by
  cases a <;> cases b <;> simp_all [alike, Prim.ty]

mutual
theorem entry_plain : (v : Opt) → (k : Text) → {o : Ents} → {p : List Text} → {a : Prim} → At o p (.prim a) → a ≠ .null →
    (∀ i, .int i ∈ plainIn p k v → i < 9223372036854775808) →
    At (entry o k v) p (.prim (settle a (plainIn p k v)))
  | v, k, o, [], a, h, _, _ => absurd h not_at_nil
  | .prim b, k, o, [t], a, h, ha, hb => by
    rw [at_one] at h ⊢
    rw [get_entry]
    by_cases hk : t = k
    · subst hk
      have hc : conv b = b := conv_same fun i hi => hb i (by simp [plainIn, hi])
      rw [if_pos rfl, h]
      have hp : put (some (.prim a)) (.prim b) = if b = .null ∨ a.ty ≠ b.ty then none else some (.prim b) := by
        unfold put
        cases a with
        | null => exact absurd rfl ha
        | _ => rw [hc]; rfl
      rw [hp]
      simp only [plainIn, if_true, settle, List.foldl]
      by_cases hal : alike a b = true
      · rw [if_pos hal, if_neg ((alike_iff ha).mp hal)]
        rfl
      · rw [if_neg hal, if_pos (Classical.byContradiction fun hx => hal ((alike_iff ha).mpr hx))]
        rfl
    · rw [if_neg hk, h]
      have hk' : ¬ k = t := fun e => hk e.symm
      simp [plainIn, hk', settle]
  | .list l, k, o, [t], a, h, ha, hb => by
    rw [at_one] at h ⊢
    rw [get_entry]
    by_cases hk : t = k
    · subst hk
      rw [if_pos rfl, h]
      unfold put
      cases a with
      | null => exact absurd rfl ha
      | _ => rfl
    · rw [if_neg hk, h]; rfl
  | .dict d, k, o, [t], a, h, ha, hb => by
    rw [at_one] at h ⊢
    rw [get_entry]
    by_cases hk : t = k
    · subst hk
      rw [if_pos rfl, h]
      unfold put
      cases a with
      | null => exact absurd rfl ha
      | _ => rfl
    · rw [if_neg hk, h]; rfl
  | .prim b, k, o, t :: u :: ts, a, h, ha, hb => by
    rw [at_more] at h ⊢
    obtain ⟨m, h1, h2⟩ := h
    refine ⟨m, ?_, h2⟩
    rw [get_entry]
    by_cases hk : t = k
    · subst hk
      rw [if_pos rfl, h1]
      unfold put
      dsimp only
      rw [if_pos]
      · rfl
      · cases hb : conv b <;> simp [Opt.ty, Prim.ty]
    · rw [if_neg hk, h1]
  | .list l, k, o, t :: u :: ts, a, h, ha, hb => by
    rw [at_more] at h ⊢
    obtain ⟨m, h1, h2⟩ := h
    refine ⟨m, ?_, h2⟩
    rw [get_entry]
    by_cases hk : t = k
    · subst hk
      rw [if_pos rfl, h1]
      unfold put
      rfl
    · rw [if_neg hk, h1]
  | .dict d, k, o, t :: u :: ts, a, h, ha, hb => by
    rw [at_more] at h ⊢
    obtain ⟨m, h1, h2⟩ := h
    by_cases hk : t = k
    · subst hk
      refine ⟨merge m d, ?_, ?_⟩
      · rw [get_entry, if_pos rfl, h1]
        unfold put
        rfl
      · simp only [plainIn, if_true] at hb ⊢
        exact merge_plain d h2 ha hb
    · have hk' : ¬ k = t := fun e => hk e.symm
      refine ⟨m, ?_, ?_⟩
      · rw [get_entry, if_neg hk, h1]
      · simp only [plainIn, if_neg hk', settle, List.foldl]
        exact h2
theorem merge_plain : (d : Ents) → {o : Ents} → {p : List Text} → {a : Prim} → At o p (.prim a) → a ≠ .null →
    (∀ i, .int i ∈ plainAt p d → i < 9223372036854775808) → At (merge o d) p (.prim (settle a (plainAt p d)))
  | .nil, o, p, a, h, _, _ => by
    rw [merge]
    simp only [plainAt, settle, List.foldl]
    exact h
  | .cons k v d, o, p, a, h, ha, hb => by
    simp only [plainAt] at hb ⊢
    rw [merge_cons]
    have h1 := entry_plain v k h ha fun i hi => hb i (by simp [hi])
    have ha' : settle a (plainIn p k v) ≠ .null := by
      generalize plainIn p k v = l
      clear h1 hb h
      induction l generalizing a with
      | nil => exact ha
      | cons b l ih =>
        change settle (if alike a b then b else a) l ≠ .null
        apply ih
        split
        · cases a <;> cases b <;> simp_all [alike]
        · exact ha
    have := merge_plain d h1 ha' fun i hi => hb i (by simp [hi])
    rw [show settle a (plainIn p k v ++ plainAt p d) = settle (settle a (plainIn p k v)) (plainAt p d) from
      List.foldl_append]
    exact this
end

/-- An option that is a plain value has, after a document, the last value of its type that the document gives at its place,
or the value it had. -/
theorem C267_plain {o d : Ents} {p : List Text} {a : Prim} (h : At o p (.prim a)) (ha : a ≠ .null)
    (hb : ∀ i, .int i ∈ plainAt p d → i < 9223372036854775808) :
    At (populate o (.json (some (.dict d)))) p (.prim (settle a (plainAt p d))) := merge_plain d h ha hb

/-- In particular it is not changed by documents that do not name it. -/
theorem C267_unnamed {o d : Ents} {p : List Text} {a : Prim} (h : At o p (.prim a)) (ha : a ≠ .null)
    (hb : plainAt p d = []) : At (populate o (.json (some (.dict d)))) p (.prim a) := by
  have := C267_plain (d := d) h ha (by simp [hb])
  rw [hb] at this
  exact this

/-- Documents that are no objects or cannot be read change nothing. -/
theorem C267_other {o : Ents} {doc : Option Opt} (h : ∀ d, doc ≠ some (.dict d)) : populate o (.json doc) = o := by
  unfold populate
  split
  · rename_i d he
    cases he
    exact absurd rfl (h d)
  · rfl
  · rename_i he; cases he
  · rename_i he; cases he

example : look (populate demo (.json (some (.dict doc)))) [t "Scheduler", t "WorkersNum"] = some (.int 4) := by decide +kernel
example : plainAt [t "Scheduler", t "WorkersNum"] doc = [.str (t "two"), .int 4] := by decide +kernel

/-! ## C268: new options -/

/-- Integers from 2^63 become negative. -/
theorem C268_violation : ∃ o d : Ents, look o [t "Limit"] = none ∧ At d [t "Limit"] (.prim (.int 18446744073709551615)) ∧
    look (populate o (.json (some (.dict d)))) [t "Limit"] = some (.int (-1)) :=
  ⟨.nil, .cons (t "Limit") (.prim (.int 18446744073709551615)) .nil, by decide +kernel, .last .here, by decide +kernel⟩

def Ents.append : Ents → Ents → Ents
  | .nil, d => d
  | .cons k v m, d => .cons k v (m.append d)

theorem append_nil : (m : Ents) → m.append .nil = m
  | .nil => rfl
  | .cons k v m => by rw [Ents.append, append_nil m]

theorem set_append : (m : Ents) → (k : Text) → (v : Opt) → (d : Ents) → m.get k = none →
    (m.set k v).append d = m.append (.cons k v d)
  | .nil, k, v, d, _ => rfl
  | .cons k' v' m, k, v, d, h => by
    unfold Ents.get at h
    by_cases hk : k' = k
    · rw [if_pos hk] at h; cases h
    · rw [if_neg hk] at h
      unfold Ents.set
      rw [if_neg hk, Ents.append, Ents.append, set_append m k v d h]

mutual
theorem fresh_good : (v : Opt) → Good v → fresh v = v
  | .prim p, h => by
    rw [fresh, conv_same]
    intro i hi
    subst hi
    exact h
  | .list l, h => by rw [fresh, copy_good l h]
  | .dict d, h => by rw [fresh, merge_append d h .nil (fun k v _ => rfl)]; rfl
theorem copy_good : (l : Items) → GoodItems l → copy l = l
  | .nil, _ => by rw [copy]
  | .cons v l, h => by rw [copy, fresh_good v h.1, copy_good l h.2]
theorem merge_append : (d : Ents) → GoodEnts d → (o : Ents) → (∀ k v, Has d k v → o.get k = none) → merge o d = o.append d
  | .nil, _, o, _ => by rw [merge, append_nil]
  | .cons k v d, h, o, hd => by
    obtain ⟨h1, h2, h3⟩ := h
    have hk := hd k v .here
    have he : entry o k v = o.set k v := by
      unfold entry
      rw [hk]
      have : put none v = some (fresh v) := by cases v <;> (rw [fresh]; unfold put; rfl)
      rw [this, fresh_good v h1]
    rw [merge_cons, he, merge_append d h3, set_append _ _ _ _ hk]
    intro n w hw
    have hne : n ≠ k := fun e => h2 w (e ▸ hw)
    rw [get_set, if_neg hne]
    exact hd n w (.later (fun e => hne e.symm) hw)
end

theorem put_none (v : Opt) : put none v = some (fresh v) := by cases v <;> (rw [fresh]; unfold put; rfl)

theorem merge_get : (d : Ents) → GoodEnts d → (o : Ents) → {k : Text} → {v : Opt} → Has d k v →
    (merge o d).get k = (put (o.get k) v).or (o.get k)
  | .nil, _, _, _, _, h => nomatch h
  | .cons k' v' d, hg, o, k, v, h => by
    rw [merge_cons]
    cases h with
    | here => rw [merge_lacks d _ k' hg.2.1, get_entry, if_pos rfl]
    | later hne h => rw [merge_get d hg.2.2 _ h, get_entry, if_neg fun e => hne e.symm]

theorem good_has : {d : Ents} → {k : Text} → {v : Opt} → Has d k v → GoodEnts d → Good v
  | _, _, _, .here, h => h.1
  | _, _, _, .later _ h', h => good_has h' h.2.2

/-- An option that does not exist, or is null, is taken over as it is in the document, … -/
theorem C268_new_partial {o d : Ents} (hd : GoodEnts d) {k : Text} {v : Opt} (h : Has d k v)
    (ho : (∀ w, ¬ Has o k w) ∨ Has o k (.prim .null)) : At (populate o (.json (some (.dict d)))) [k] v := by
  change At (merge o d) [k] v
  have hv := good_has h hd
  rw [at_one, merge_get d hd o h]
  rcases ho with ho | ho
  · rw [lacks_iff.mp ho, put_none, fresh_good v hv]; rfl
  · rw [has_iff.mp ho]
    have : put (some (.prim .null)) v = some (fresh v) := by cases v <;> (rw [fresh]; unfold put; rfl)
    rw [this, fresh_good v hv]; rfl

/-- … and so are the items of a list. -/
theorem C268_list_partial {o d : Ents} (hd : GoodEnts d) {k : Text} {l l' : Items} (h : Has d k (.list l))
    (ho : Has o k (.list l')) : At (populate o (.json (some (.dict d)))) [k] (.list l) := by
  change At (merge o d) [k] (.list l)
  have hv : GoodItems l := good_has h hd
  rw [at_one, merge_get d hd o h, has_iff.mp ho]
  unfold put
  rw [copy_good l hv]
  rfl

/-! ## C269: twice -/

/-- No entry of a document would change anything. -/
def Stable (o : Ents) : Ents → Prop
  | .nil => True
  | .cons k v d => (put (o.get k) v).or (o.get k) = o.get k ∧ Stable o d

theorem stable_merge : (d : Ents) → {o : Ents} → Stable o d → merge o d = o
  | .nil, o, _ => by rw [merge]
  | .cons k v d, o, h => by
    have he : entry o k v = o := by
      have h1 := h.1
      unfold entry
      cases hp : put (o.get k) v with
      | none => rfl
      | some w =>
        rw [hp] at h1
        exact set_noop h1.symm
    rw [merge_cons, he]
    exact stable_merge d h.2

mutual
theorem put_twice : (v : Opt) → Good v → (x : Option Opt) →
    (put ((put x v).or x) v).or ((put x v).or x) = (put x v).or x
  | .dict d, h, x => by
    have hd : ∀ m, merge (merge m d) d = merge m d := fun m => stable_merge d (merge_stable d h m)
    have h0 : put (some (.dict (merge .nil d))) (.dict d) = some (.dict (merge .nil d)) := by
      unfold put
      dsimp only
      rw [hd]
    cases x with
    | none =>
      have : put none (.dict d) = some (.dict (merge .nil d)) := by unfold put; rfl
      rw [this, Option.some_or, h0]; rfl
    | some old =>
      cases old with
      | dict m =>
        have : put (some (.dict m)) (.dict d) = some (.dict (merge m d)) := by unfold put; rfl
        have h2 : put (some (.dict (merge m d))) (.dict d) = some (.dict (merge m d)) := by
          unfold put
          dsimp only
          rw [hd]
        rw [this, Option.some_or, h2]; rfl
      | list l =>
        have : put (some (.list l)) (.dict d) = some (.list l) := by unfold put; rfl
        rw [this, Option.some_or, this]; rfl
      | prim p =>
        cases p with
        | null =>
          have : put (some (.prim .null)) (.dict d) = some (.dict (merge .nil d)) := by unfold put; rfl
          rw [this, Option.some_or, h0]; rfl
        | _ =>
          unfold put
          rfl
  | .list l, h, x => by
    have h0 : put (some (.list (copy l))) (.list l) = some (.list (copy l)) := by unfold put; rfl
    cases x with
    | none =>
      have : put none (.list l) = some (.list (copy l)) := by unfold put; rfl
      rw [this, Option.some_or, h0]; rfl
    | some old =>
      cases old with
      | dict m =>
        have : put (some (.dict m)) (.list l) = some (.dict m) := by unfold put; rfl
        rw [this, Option.some_or, this]; rfl
      | list l' =>
        have : put (some (.list l')) (.list l) = some (.list (copy l)) := by unfold put; rfl
        rw [this, Option.some_or, h0]; rfl
      | prim p =>
        cases p with
        | null =>
          have : put (some (.prim .null)) (.list l) = some (.list (copy l)) := by unfold put; rfl
          rw [this, Option.some_or, h0]; rfl
        | _ =>
          unfold put
          rfl
  | .prim p, h, x => by
    have h0 : put (some (.prim (conv p))) (.prim p) = some (.prim (conv p)) ∨ conv p = .null := by
      unfold put
      cases hc : conv p with
      | null => exact .inr rfl
      | _ => left; simp [Opt.ty]
    have h1 : (put (some (.prim (conv p))) (.prim p)).or (some (.prim (conv p))) = some (.prim (conv p)) := by
      rcases h0 with h0 | h0
      · rw [h0]; rfl
      · rw [h0]
        unfold put
        rw [h0]
        rfl
    cases hx : put x (.prim p) with
    | none => rw [Option.none_or, hx]; rfl
    | some w =>
      have hw : w = .prim (conv p) := by
        unfold put at hx
        split at hx
        · cases hx; rfl
        · cases hx; rfl
        · split at hx
          · cases hx
          · cases hx; rfl
      rw [Option.some_or, hw]
      exact h1
theorem merge_stable : (d : Ents) → GoodEnts d → (o : Ents) → Stable (merge o d) d
  | .nil, _, _ => trivial
  | .cons k v d, h, o => by
    rw [merge_cons]
    refine ⟨?_, merge_stable d h.2.2 _⟩
    rw [merge_lacks d _ k h.2.1, get_entry, if_pos rfl]
    exact put_twice v h.1 _
end

/-- A document that is read again changes nothing. -/
theorem C269_again {o d : Ents} (hd : GoodEnts d) :
    populate (populate o (.json (some (.dict d)))) (.json (some (.dict d))) = populate o (.json (some (.dict d))) :=
  stable_merge d (merge_stable d hd o)

example : GoodEnts (.cons (t "A") (.list (.cons (.prim (.int 1)) .nil)) (.cons (t "B") (.dict (.cons (t "A") (.prim .null) .nil)) .nil)) := by
  refine ⟨⟨by simp [Good], trivial⟩, fun w h => ?_, ⟨⟨by simp [Good], nofun, trivial⟩, nofun, trivial⟩⟩
  rw [has_iff] at h
  revert h
  simp [Ents.get, t]

end Verif.Opts
