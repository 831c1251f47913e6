import Verif.Opts.Spec

namespace Verif.Opts
open Spec

theorem has_iff {m : Ents} {k : Text} {v : Opt} : Has m k v ↔ m.get k = some v := by
  constructor
  · intro h
    induction h with
    | here => simp [Ents.get]
    | later hne _ ih => simp only [Ents.get, if_neg hne, ih]
  · intro h
    match m with
    | .nil => cases h
    | .cons k' v' m' =>
      unfold Ents.get at h
      by_cases hk : k' = k
      · rw [if_pos hk] at h
        cases h
        subst hk
        exact .here
      · rw [if_neg hk] at h
        exact .later hk (has_iff.mpr h)

theorem lacks_iff {m : Ents} {k : Text} : (∀ v, ¬ Has m k v) ↔ m.get k = none := by
  simp only [has_iff]
  cases m.get k <;> simp

theorem get_set : (m : Ents) → (k : Text) → (v : Opt) → (n : Text) → (m.set k v).get n = if n = k then some v else m.get n
  | .nil, k, v, n => by
    unfold Ents.set Ents.get Ents.get
    by_cases h : n = k
    · simp [h]
    · have h' : ¬ k = n := fun e => h e.symm
      simp [h, h']
  | .cons k' v' m, k, v, n => by
    unfold Ents.set
    by_cases hk : k' = k
    · rw [if_pos hk]
      unfold Ents.get
      subst hk
      by_cases h : n = k'
      · subst h; simp
      · have h' : ¬ k' = n := fun e => h e.symm
        simp [h, h']
    · rw [if_neg hk]
      unfold Ents.get
      rw [get_set m k v n]
      by_cases h : n = k
      · subst h; simp [hk]
      · by_cases h2 : k' = n <;> simp [h, h2]

theorem set_noop {m : Ents} {k : Text} {v : Opt} (h : m.get k = some v) : m.set k v = m := by
  match m with
  | .nil => cases h
  | .cons k' v' m' =>
    unfold Ents.get at h
    unfold Ents.set
    by_cases hk : k' = k
    · rw [if_pos hk] at h ⊢
      cases h
      rfl
    · rw [if_neg hk] at h ⊢
      rw [set_noop h]

theorem at_one {o : Ents} {t : Text} {v : Opt} : At o [t] v ↔ o.get t = some v :=
  ⟨fun h => by cases h with | last h => exact has_iff.mp h, fun h => .last (has_iff.mpr h)⟩

theorem at_more {o : Ents} {t u : Text} {ts : List Text} {v : Opt} :
    At o (t :: u :: ts) v ↔ ∃ m, o.get t = some (.dict m) ∧ At m (u :: ts) v :=
  ⟨fun h => by cases h with | inside h1 h2 => exact ⟨_, has_iff.mp h1, h2⟩,
    fun ⟨_, h1, h2⟩ => .inside (has_iff.mpr h1) h2⟩

theorem not_at_nil {o : Ents} {v : Opt} : ¬ At o [] v := fun h => nomatch h

/-- Setting one entry changes the options below it only. -/
theorem at_set_other {o : Ents} {k t : Text} {w : Opt} {ts : List Text} {v : Opt} (h : t ≠ k) :
    At (o.set k w) (t :: ts) v ↔ At o (t :: ts) v := by
  cases ts with
  | nil => rw [at_one, at_one, get_set, if_neg h]
  | cons u ts => rw [at_more, at_more, get_set, if_neg h]

/-- The step of `merge` for one entry. -/
def entry (o : Ents) (k : Text) (v : Opt) : Ents :=
  match put (o.get k) v with
  | some w => o.set k w
  | none => o

theorem merge_cons (o : Ents) (k : Text) (v : Opt) (d : Ents) : merge o (.cons k v d) = merge (entry o k v) d := by
  unfold entry
  rw [merge]
  cases put (o.get k) v <;> rfl

theorem get_entry (o : Ents) (k : Text) (v : Opt) (n : Text) :
    (entry o k v).get n = if n = k then (put (o.get k) v).or (o.get k) else o.get n := by
  unfold entry
  cases h : put (o.get k) v with
  | none =>
    by_cases hn : n = k
    · subst hn; simp
    · simp [hn]
  | some w =>
    dsimp only
    rw [get_set]
    by_cases hn : n = k <;> simp [hn]

/-- What a document does not name is left alone. -/
theorem merge_lacks : (d : Ents) → (o : Ents) → (k : Text) → (∀ v, ¬ Has d k v) → (merge o d).get k = o.get k
  | .nil, o, k, _ => by rw [merge]
  | .cons k' v d, o, k, h => by
    have hk : k ≠ k' := fun e => h v (e ▸ .here)
    rw [merge_cons, merge_lacks d _ k (fun w hw => h w (.later (fun e => hk e.symm) hw)), get_entry, if_neg hk]

theorem SameType.refl : (v : Opt) → SameType v v
  | .prim .null => .null
  | .prim (.bool _) => .bool
  | .prim (.int _) => .int
  | .prim (.float _) => .float
  | .prim (.str _) => .str
  | .list _ => .list
  | .dict _ => .dict

theorem SameType.trans {a b c : Opt} (h1 : SameType a b) (h2 : SameType b c) : SameType a c := by
  cases h1 <;> cases h2 <;> constructor

theorem SameType.ty {a b : Opt} (h : SameType a b) : a.ty = b.ty := by cases h <;> rfl

theorem same_of_ty {v : Opt} {p : Prim} (h : v.ty = p.ty) : SameType v (.prim p) := by
  cases v with
  | prim q => cases q <;> cases p <;> first | constructor | cases h
  | list l => cases p <;> cases h
  | dict l => cases p <;> cases h

theorem TypesKept.refl (o : Ents) : TypesKept o o := fun _ v h _ => ⟨v, h, SameType.refl v⟩

theorem TypesKept.trans {a b c : Ents} (h1 : TypesKept a b) (h2 : TypesKept b c) : TypesKept a c := by
  intro p v h hn
  obtain ⟨w, hw, hs⟩ := h1 p v h hn
  obtain ⟨x, hx, hs'⟩ := h2 p w hw (fun e => by subst e; cases hs; exact hn rfl)
  exact ⟨x, hx, SameType.trans hs hs'⟩

/-- An entry is replaced by one of its type. -/
def Replaces (v w : Opt) : Prop := SameType v w ∧ ∀ m, v = .dict m → ∃ m', w = .dict m' ∧ TypesKept m m'

theorem Replaces.refl (v : Opt) : Replaces v v := ⟨SameType.refl v, fun m h => ⟨m, h, TypesKept.refl m⟩⟩

theorem kept_set {o : Ents} {k : Text} {w : Opt} (h : ∀ v, o.get k = some v → v ≠ .prim .null → Replaces v w) :
    TypesKept o (o.set k w) := by
  intro p v hv hn
  match p, hv with
  | [t], hv =>
    by_cases ht : t = k
    · subst ht
      exact ⟨w, at_one.mpr (by rw [get_set]; simp), (h v (at_one.mp hv) hn).1⟩
    · exact ⟨v, (at_set_other ht).mpr hv, SameType.refl v⟩
  | t :: u :: ts, hv =>
    by_cases ht : t = k
    · subst ht
      obtain ⟨m, h1, h2⟩ := at_more.mp hv
      obtain ⟨m', h3, h4⟩ := (h _ h1 (by simp)).2 m rfl
      obtain ⟨x, hx, hs⟩ := h4 _ v h2 hn
      exact ⟨x, at_more.mpr ⟨m', by rw [get_set, h3]; simp, hx⟩, hs⟩
    · exact ⟨v, (at_set_other ht).mpr hv, SameType.refl v⟩

end Verif.Opts
