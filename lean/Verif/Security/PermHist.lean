import Verif.Security.PermLemmas
import Mathlib.Data.List.Perm.Subperm

/-! # Lemmas: the forest of permission managers over a history -/

namespace Verif.Security

open AList (get put del has)

/-- Owner and owned of a manager. -/
def links (m : Mgr) : Option Nat × List Nat := (m.parent, m.children)

def Same (s0 s : St) : Prop := ∀ x, (get s0 x).map links = (get s x).map links

/-- The effective permissions of `x` are right relative to those of its owner. -/
def Cons (s : St) (x : Nat) : Prop := ∀ m, get s x = some m → ∀ ds, Stands m.own ds →
  (m.own.inherited = false → Stands m.eff ds) ∧
  (m.own.inherited = true → match parentEff s m with
    | none => Stands m.eff ds
    | some pe => ∀ rs, Stands pe rs → Stands m.eff (rs ++ ds))

theorem compute_stands {p : Perms} {ds : List Rule} (h : Stands p ds) (pe : Option Perms) :
    (p.inherited = false → Stands (compute pe p) ds) ∧
    (p.inherited = true → match pe with
      | none => Stands (compute pe p) ds
      | some q => ∀ rs, Stands q rs → Stands (compute pe p) (rs ++ ds)) := by
  unfold compute
  constructor
  · intro hi; rw [if_neg (by rw [hi]; simp)]; exact h
  · intro hi
    cases pe with
    | none =>
      dsimp only
      rw [if_pos hi]
      exact stands_extend stands_empty h
    | some q =>
      dsimp only
      rw [if_pos hi]
      intro rs hr
      exact stands_extend (stands_extend (stands_inherit true stands_empty) hr) h

/-- Parents, children and ranks of the state at the start of an update. -/
structure Tree (s : St) (r : Nat → Nat) : Prop where
  kids : ∀ id m, get s id = some m → ∀ c, c ∈ m.children ↔ ∃ mc, get s c = some mc ∧ mc.parent = some id
  rank : ∀ id m p, get s id = some m → m.parent = some p → r p < r id

theorem same_get {s0 s : St} (h : Same s0 s) {x : Nat} {m : Mgr} (hx : get s x = some m) :
    ∃ m0, get s0 x = some m0 ∧ m0.parent = m.parent ∧ m0.children = m.children := by
  have := h x
  rw [hx] at this
  cases h0 : get s0 x with
  | none => rw [h0] at this; exact nomatch this
  | some m0 =>
    rw [h0] at this
    simp [links] at this
    exact ⟨m0, rfl, this.1, this.2⟩

theorem same_get' {s0 s : St} (h : Same s0 s) {x : Nat} {m0 : Mgr} (hx : get s0 x = some m0) :
    ∃ m, get s x = some m ∧ m0.parent = m.parent ∧ m0.children = m.children := by
  have := h x
  rw [hx] at this
  cases h1 : get s x with
  | none => rw [h1] at this; exact nomatch this
  | some m =>
    rw [h1] at this
    simp [links] at this
    exact ⟨m, rfl, this.1, this.2⟩

theorem length_le_of_alive {s : St} {path : List Nat} (hn : path.Nodup) (ha : ∀ y ∈ path, (get s y).isSome = true) :
    path.length ≤ s.length := by
  have : path ⊆ s.map Prod.fst := fun y hy => (AList.get_isSome_iff_mem_keys s y).mp (ha y hy)
  have := (List.subperm_of_subset hn this : path.Subperm _).length_le
  simpa using this

def Inh (s : St) (x : Nat) : Prop := ∃ m, get s x = some m ∧ m.own.inherited = true

theorem updateChildren_ok {s0 : St} {f : Nat} {id : Nat} {E : Nat → Prop}
    (ih : ∀ s c p (E : Nat → Prop), Same s0 s → (∃ mc, get s c = some mc ∧ mc.parent = some id) →
      (∀ x, ¬ E x → x ≠ c → Cons s x) →
      ∃ s', setPerm f s c p = some s' ∧ Same s0 s' ∧
        (∀ x, (get s' x).map Mgr.own = if x = c then some p else (get s x).map Mgr.own) ∧ ∀ x, ¬ E x → Cons s' x)
    (cs : List Nat) (s : St) (hs : Same s0 s) (hc : ∀ c ∈ cs, ∃ mc, get s c = some mc ∧ mc.parent = some id)
    (hcons : ∀ x, ¬ E x → ¬ (x ∈ cs ∧ Inh s x) → Cons s x) :
    ∃ s', updateChildren (setPerm f) cs s = some s' ∧ Same s0 s' ∧
      (∀ x, (get s' x).map Mgr.own = (get s x).map Mgr.own) ∧ ∀ x, ¬ E x → Cons s' x := by
  induction cs generalizing s with
  | nil => exact ⟨s, rfl, hs, fun _ => rfl, fun x hx => hcons x hx (by simp)⟩
  | cons c cs ihc =>
    obtain ⟨mc, hmc, hpc⟩ := hc c (by simp)
    unfold updateChildren
    rw [hmc]
    dsimp only
    by_cases hi : mc.own.inherited = true
    · rw [if_pos hi]
      obtain ⟨s', h1, h2, h3, h4⟩ := ih s c mc.own (fun x => E x ∨ (x ∈ cs ∧ Inh s x)) hs ⟨mc, hmc, hpc⟩ (by
        intro x hx hxc
        rw [not_or] at hx
        exact hcons x hx.1 (fun hh => hx.2 ⟨by simpa [hxc] using hh.1, hh.2⟩))
      rw [h1]
      dsimp only
      have hown : ∀ x, (get s' x).map Mgr.own = (get s x).map Mgr.own := by
        intro x
        rw [h3]
        split
        · next e => rw [e, hmc]; rfl
        · rfl
      have hinh : ∀ x, Inh s' x ↔ Inh s x := by
        intro x
        have := hown x
        unfold Inh
        constructor
        · rintro ⟨m, hm, hm'⟩
          rw [hm] at this
          cases hx : get s x with
          | none => rw [hx] at this; exact nomatch this
          | some m2 => rw [hx] at this; simp at this; exact ⟨m2, rfl, by rw [← this]; exact hm'⟩
        · rintro ⟨m, hm, hm'⟩
          rw [hm] at this
          cases hx : get s' x with
          | none => rw [hx] at this; exact nomatch this
          | some m2 => rw [hx] at this; simp at this; exact ⟨m2, rfl, by rw [this]; exact hm'⟩
      obtain ⟨s'', g1, g2, g3, g4⟩ := ihc s' h2 (by
        intro c' hc'
        obtain ⟨m', hm', hp'⟩ := hc c' (by simp [hc'])
        obtain ⟨m0, e0, e1, e2⟩ := same_get hs hm'
        obtain ⟨m1, e3, e4, e5⟩ := same_get' h2 e0
        exact ⟨m1, e3, by rw [← e4, e1]; exact hp'⟩) (by
        intro x hx hn
        refine h4 x ?_
        rw [not_or]
        exact ⟨hx, fun hh => hn ⟨hh.1, (hinh x).mpr hh.2⟩⟩)
      exact ⟨s'', g1, g2, fun x => by rw [g3, hown], g4⟩
    · rw [if_neg hi]
      refine ihc s hs (fun c' hc' => hc c' (by simp [hc'])) ?_
      intro x hx hn
      refine hcons x hx ?_
      rintro ⟨h1, h2⟩
      rcases List.mem_cons.mp h1 with rfl | h1
      · obtain ⟨m, hm, hm'⟩ := h2
        rw [hmc] at hm
        cases hm
        exact hi hm'
      · exact hn ⟨h1, h2⟩

theorem cons_congr {s s' : St} {x : Nat} (hx : get s' x = get s x)
    (hp : ∀ m, get s x = some m → ∀ p, m.parent = some p → (get s' p).map Mgr.eff = (get s p).map Mgr.eff)
    (h : Cons s x) : Cons s' x := by
  intro m hm ds hd
  rw [hx] at hm
  have := h m hm ds hd
  have e : parentEff s' m = parentEff s m := by
    unfold parentEff
    cases hpar : m.parent with
    | none => rfl
    | some p => exact hp m hm p hpar
  rw [e]
  exact this

/-- A non-inheriting object does not look at its owner. -/
theorem cons_of_not_inh {s s' : St} {x : Nat} (hx : get s' x = get s x) (hn : ¬ Inh s x) (h : Cons s x) : Cons s' x := by
  intro m hm ds hd
  rw [hx] at hm
  have := h m hm ds hd
  refine ⟨this.1, fun hi => absurd ⟨m, hm, hi⟩ hn⟩

theorem setPerm_ok {s0 : St} {r : Nat → Nat} {n : Nat} (ht : Tree s0 r)
    (hb : ∀ path : List Nat, path.Nodup → (∀ y ∈ path, (get s0 y).isSome = true) → path.length ≤ n) :
    ∀ (f : Nat) (s : St) (id : Nat) (p : Perms) (path : List Nat) (E : Nat → Prop), Same s0 s →
      path.Nodup → (∀ y ∈ path, (get s0 y).isSome = true ∧ r y < r id) → n + 1 ≤ f + path.length →
      (∃ m, get s id = some m) → (∀ x, ¬ E x → x ≠ id → Cons s x) →
      ∃ s', setPerm f s id p = some s' ∧ Same s0 s' ∧
        (∀ x, (get s' x).map Mgr.own = if x = id then some p else (get s x).map Mgr.own) ∧ ∀ x, ¬ E x → Cons s' x := by
  intro f
  induction f with
  | zero =>
    intro s id p path E _ hn hp hl
    have := hb path hn (fun y hy => (hp y hy).1)
    omega
  | succ f ih =>
    intro s id p path E hs hn hp hl hid hcons
    obtain ⟨m, hm⟩ := hid
    obtain ⟨m0, h0, e1, e2⟩ := same_get hs hm
    unfold setPerm
    rw [hm]
    dsimp only
    generalize hs1 : put s id { m with own := p, eff := compute (parentEff s m) p } = s1
    have hg1 : ∀ x, get s1 x = if x = id then some { m with own := p, eff := compute (parentEff s m) p } else get s x := by
      intro x; rw [← hs1, AList.get_put]
    have hsame : Same s0 s1 := by
      intro x
      rw [hg1]
      split
      · next e => rw [e, h0]; simp [links, e1, e2]
      · exact hs x
    have hpath : (id :: path).Nodup := by
      rw [List.nodup_cons]
      exact ⟨fun hh => absurd (hp id hh).2 (by omega), hn⟩
    have hkid : ∀ x, x ∈ m.children ↔ ∃ mc, get s x = some mc ∧ mc.parent = some id := by
      intro x
      rw [← e2, ht.kids id m0 h0]
      constructor
      · rintro ⟨mc, hmc, hpar⟩
        obtain ⟨mc', g1, g2, -⟩ := same_get' hs hmc
        exact ⟨mc', g1, by rw [← g2]; exact hpar⟩
      · rintro ⟨mc, hmc, hpar⟩
        obtain ⟨mc', g1, g2, -⟩ := same_get hs hmc
        exact ⟨mc', g1, by rw [g2]; exact hpar⟩
    have hnoself : m.parent ≠ some id := by
      intro hh
      have := ht.rank id m0 id h0 (by rw [e1]; exact hh)
      omega
    obtain ⟨s', g1, g2, g3, g4⟩ := updateChildren_ok (E := E) (s0 := s0) (f := f) (id := id) (by
        intro t c q E' hst hcc hct
        obtain ⟨mc, hmc, hpc⟩ := hcc
        obtain ⟨mc0, k1, k2, -⟩ := same_get hst hmc
        have hrank := ht.rank c mc0 id k1 (by rw [k2]; exact hpc)
        refine ih t c q (id :: path) E' hst hpath ?_ (by simp only [List.length_cons]; omega) ⟨mc, hmc⟩ hct
        intro y hy
        rcases List.mem_cons.mp hy with rfl | hy
        · exact ⟨by rw [h0]; rfl, hrank⟩
        · have := hp y hy; exact ⟨this.1, by omega⟩) m.children s1 hsame (by
        intro c hc
        obtain ⟨mc, hmc, hpc⟩ := (hkid c).mp hc
        have hne : c ≠ id := by
          rintro rfl
          rw [hm] at hmc; cases hmc
          exact hnoself hpc
        exact ⟨mc, by rw [hg1, if_neg hne]; exact hmc, hpc⟩) (by
        intro x hx hnx
        by_cases hxi : x = id
        · subst hxi
          intro m' hm' ds hd
          rw [hg1, if_pos rfl] at hm'
          cases hm'
          have hpe : parentEff s1 { m with own := p, eff := compute (parentEff s m) p } = parentEff s m := by
            unfold parentEff
            dsimp only
            cases hpar : m.parent with
            | none => rfl
            | some q =>
              dsimp only
              rw [hg1, if_neg (by rintro rfl; exact hnoself hpar)]
          rw [hpe]
          exact compute_stands hd _
        · have hgx : get s1 x = get s x := by rw [hg1, if_neg hxi]
          have hcx := hcons x hx hxi
          by_cases hix : Inh s x
          · refine cons_congr hgx ?_ hcx
            intro mx hmx q hq
            rw [hg1]
            split
            · next e =>
              subst e
              exfalso
              refine hnx ⟨(hkid x).mpr ⟨mx, hmx, hq⟩, ?_⟩
              obtain ⟨m2, hm2, hm2'⟩ := hix
              exact ⟨m2, by rw [hgx]; exact hm2, hm2'⟩
            · rfl
          · exact cons_of_not_inh hgx hix hcx)
    refine ⟨s', g1, g2, ?_, g4⟩
    intro x
    rw [g3, hg1]
    by_cases e : x = id <;> simp [e]

/-! ## The state agrees with the world -/

structure Shape (s : St) (w : World) : Prop where
  look : ∀ x, get w x = (get s x).map fun m => (m.parent, m.own)
  kids : ∀ id m, get s id = some m → ∀ c, c ∈ m.children ↔ ∃ mc, get s c = some mc ∧ mc.parent = some id
  live : ∀ id m p, get s id = some m → m.parent = some p → ∃ mp, get s p = some mp

theorem Shape.has {s : St} {w : World} (h : Shape s w) (x : Nat) : AList.has w x = AList.has s x := by
  unfold AList.has; rw [h.look]; simp

theorem Shape.get_some {s : St} {w : World} (h : Shape s w) {x : Nat} {m : Mgr} (hx : get s x = some m) :
    get w x = some (m.parent, m.own) := by rw [h.look, hx]; rfl

theorem Shape.tree {s : St} {w : World} (h : Shape s w) {r : Nat → Nat}
    (hr : ∀ id p own, get w id = some (some p, own) → r p < r id) : Tree s r where
  kids := h.kids
  rank := fun id m p hm hp => hr id p m.own (by rw [h.get_some hm, hp])

theorem Shape.of_same {s s' : St} {w w' : World} (h : Shape s w) (hs : Same s s')
    (hw : ∀ x, get w' x = (get s' x).map fun m => (m.parent, m.own)) : Shape s' w' where
  look := hw
  kids := by
    intro id m hm c
    obtain ⟨m0, h0, e1, e2⟩ := same_get hs hm
    rw [← e2, h.kids id m0 h0]
    constructor
    · rintro ⟨mc, g1, g2⟩
      obtain ⟨mc', k1, k2, -⟩ := same_get' hs g1
      exact ⟨mc', k1, by rw [← k2]; exact g2⟩
    · rintro ⟨mc, g1, g2⟩
      obtain ⟨mc', k1, k2, -⟩ := same_get hs g1
      exact ⟨mc', k1, by rw [k2]; exact g2⟩
  live := by
    intro id m p hm hp
    obtain ⟨m0, h0, e1, e2⟩ := same_get hs hm
    obtain ⟨mp, hmp⟩ := h.live id m0 p h0 (by rw [e1]; exact hp)
    obtain ⟨mp', k, -, -⟩ := same_get' hs hmp
    exact ⟨mp', k⟩

theorem shape_setPerm {s : St} {w w' : World} {id n : Nat} {p : Perms} (h : Shape s w) (hf : w.Forest)
    (hid : ∃ m, get s id = some m) (hc : ∀ x, x ≠ id → Cons s x)
    (hn : ∀ path : List Nat, path.Nodup → (∀ y ∈ path, (get s y).isSome = true) → path.length ≤ n)
    (hw : ∀ x, get w' x = if x = id then (get w id).map (fun e => (e.1, p)) else get w x) :
    ∃ s', setPerm (n + 1) s id p = some s' ∧ Shape s' w' ∧ ∀ x, Cons s' x := by
  obtain ⟨r, hr⟩ := hf
  obtain ⟨s', h1, h2, h3, h4⟩ := setPerm_ok (n := n) (h.tree hr)
    hn (n + 1) s id p [] (fun _ => False) (fun _ => rfl)
    List.nodup_nil (by simp) (by simp) hid (fun x _ hx => hc x hx)
  refine ⟨s', h1, h.of_same h2 ?_, fun x => h4 x (by simp)⟩
  intro x
  rw [hw]
  have ho := h3 x
  have hl := h2 x
  rw [h.look, h.look]
  by_cases e : x = id
  · subst e
    rw [if_pos rfl] at *
    cases hx' : get s' x with
    | none => rw [hx'] at ho; exact nomatch ho
    | some m' =>
      rw [hx'] at ho hl
      cases hx : get s x with
      | none => rw [hx] at hl; exact nomatch hl
      | some m => rw [hx] at hl; simp [links] at ho hl ⊢; exact ⟨hl.1, ho.symm⟩
  · rw [if_neg e] at ho ⊢
    cases hx' : get s' x with
    | none =>
      rw [hx'] at ho
      cases hx : get s x with
      | none => rfl
      | some m => rw [hx] at ho; exact nomatch ho
    | some m' =>
      rw [hx'] at ho hl
      cases hx : get s x with
      | none => rw [hx] at hl; exact nomatch hl
      | some m => rw [hx] at ho hl; simp [links] at ho hl ⊢; exact ⟨hl.1, ho.symm⟩

/-! ## Changing the owner -/

theorem get_removeChild (s : St) (p : Option Nat) (id x : Nat) :
    get (removeChild s p id) x = (get s x).map fun m =>
      if p = some x then { m with children := m.children.filter (· ≠ id) } else m := by
  unfold removeChild
  cases p with
  | none => simp
  | some q =>
    dsimp only
    cases hq : get s q with
    | none =>
      by_cases e : q = x
      · subst e; simp [hq]
      · simp [e]
    | some m =>
      dsimp only
      rw [AList.get_put]
      by_cases e : x = q
      · subst e; simp [hq]
      · rw [if_neg e]
        have : ¬ q = x := fun h => e h.symm
        simp [this]

theorem get_addChild (s : St) (p : Option Nat) (id x : Nat) :
    get (addChild s p id) x = (get s x).map fun m =>
      if p = some x then { m with children := if id ∈ m.children then m.children else m.children ++ [id] } else m := by
  unfold addChild
  cases p with
  | none => simp
  | some q =>
    dsimp only
    cases hq : get s q with
    | none =>
      by_cases e : q = x
      · subst e; simp [hq]
      · simp [e]
    | some m =>
      dsimp only
      rw [AList.get_put]
      by_cases e : x = q
      · subst e; simp [hq]
      · rw [if_neg e]
        have : ¬ q = x := fun h => e h.symm
        simp [this]

/-- What `relink` leaves of each object. -/
theorem get_relink {s : St} {w : World} (h : Shape s w) {id : Nat} {m0 : Mgr} (hid : get s id = some m0)
    (p : Option Nat) (x : Nat) :
    (get s x = none → get (relink s id p) x = none) ∧
    ∀ m, get s x = some m → ∃ ch, get (relink s id p) x =
      some { m with parent := (if x = id then p else m.parent), children := ch } ∧
      ∀ c, c ∈ ch ↔ (c ≠ id ∧ c ∈ m.children) ∨ (c = id ∧ p = some x) := by
  unfold relink
  rw [hid]
  dsimp only
  rw [get_removeChild, hid]
  dsimp only [Option.map_some]
  generalize hm1 : (if m0.parent = some id then { m0 with children := m0.children.filter (· ≠ id) } else m0) = m1
  constructor
  · intro hx
    rw [get_addChild, AList.get_put, if_neg (by rintro rfl; rw [hid] at hx; cases hx), get_removeChild, hx]
    rfl
  · intro m hm
    rw [get_addChild, AList.get_put, get_removeChild, hm]
    have hfree : m0.parent ≠ some x → ∀ c, c ∈ m.children → c ≠ id := by
      rintro hne c hc rfl
      obtain ⟨mc, g1, g2⟩ := (h.kids x m hm c).mp hc
      rw [hid] at g1; cases g1
      exact hne g2
    generalize hm2 : (if m0.parent = some x then { m with children := m.children.filter (· ≠ id) } else m) = m2
    have hch : ∀ c, c ∈ m2.children ↔ c ≠ id ∧ c ∈ m.children := by
      intro c
      rw [← hm2]
      split
      · simp [and_comm]
      · next hne => exact ⟨fun hc => ⟨hfree hne c hc, hc⟩, fun hc => hc.2⟩
    have hrest : m2 = { m with children := m2.children } := by
      rw [← hm2]; split <;> rfl
    have hsel : (if x = id then some { m1 with parent := p } else some m2) =
        some { m with parent := (if x = id then p else m.parent), children := m2.children } := by
      by_cases e : x = id
      · subst e
        rw [hid] at hm; cases hm
        have : m1 = m2 := by rw [← hm1, ← hm2]
        rw [if_pos rfl, if_pos rfl, this]
        congr 1
        rw [hrest]
      · rw [if_neg e, if_neg e]
        congr 1
    dsimp only [Option.map_some]
    rw [hm2, hsel]
    dsimp only [Option.map_some]
    by_cases e : p = some x
    · rw [if_pos e]
      refine ⟨_, rfl, ?_⟩
      intro c
      split
      · next hin => exact absurd rfl ((hch id).mp hin).1
      · simp [hch, e]
    · rw [if_neg e]
      exact ⟨_, rfl, fun c => by simp [hch, e]⟩

theorem shape_relink {s : St} {w w' : World} {id : Nat} {p : Option Nat} (h : Shape s w)
    (hid : ∃ m, get s id = some m) (hp : ∀ q, p = some q → ∃ m, get s q = some m)
    (hw : ∀ x, get w' x = if x = id then (get w id).map (fun e => (p, e.2)) else get w x) :
    Shape (relink s id p) w' := by
  obtain ⟨m0, hid⟩ := hid
  have hinv : ∀ x m, get (relink s id p) x = some m → ∃ m1, get s x = some m1 ∧ m.own = m1.own ∧ m.eff = m1.eff ∧
      m.parent = (if x = id then p else m1.parent) ∧
      ∀ c, c ∈ m.children ↔ (c ≠ id ∧ c ∈ m1.children) ∨ (c = id ∧ p = some x) := by
    intro x m hm
    have key := get_relink h hid p x
    cases hx : get s x with
    | none => rw [key.1 hx] at hm; cases hm
    | some m1 =>
      obtain ⟨ch, g1, g2⟩ := key.2 m1 hx
      rw [hm] at g1
      cases g1
      exact ⟨m1, rfl, rfl, rfl, rfl, g2⟩
  have hfwd : ∀ x m1, get s x = some m1 → ∃ m, get (relink s id p) x = some m ∧ m.own = m1.own ∧
      m.parent = (if x = id then p else m1.parent) := by
    intro x m1 hx
    obtain ⟨ch, g1, g2⟩ := (get_relink h hid p x).2 m1 hx
    exact ⟨_, g1, rfl, rfl⟩
  refine ⟨?_, ?_, ?_⟩
  · intro x
    rw [hw]
    cases hx : get s x with
    | none =>
      rw [if_neg (by rintro rfl; rw [hid] at hx; cases hx), (get_relink h hid p x).1 hx, h.look, hx]
    | some m1 =>
      obtain ⟨m, g1, g2, g3⟩ := hfwd x m1 hx
      rw [g1]
      by_cases e : x = id
      · subst e
        rw [if_pos rfl] at g3 ⊢
        simp [h.look, hx, g2, g3]
      · rw [if_neg e] at g3 ⊢
        simp [h.look, hx, g2, g3]
  · intro x m hm c
    obtain ⟨m1, g1, g2, g3, g4, g5⟩ := hinv x m hm
    rw [g5, h.kids x m1 g1]
    constructor
    · rintro (⟨hc, mc, k1, k2⟩ | ⟨rfl, hpx⟩)
      · obtain ⟨mc', l1, -, l3⟩ := hfwd c mc k1
        exact ⟨mc', l1, by rw [l3, if_neg hc]; exact k2⟩
      · obtain ⟨mc', l1, -, l3⟩ := hfwd c m0 hid
        exact ⟨mc', l1, by rw [l3, if_pos rfl]; exact hpx⟩
    · rintro ⟨mc, k1, k2⟩
      obtain ⟨mc1, l1, -, -, l4, -⟩ := hinv c mc k1
      by_cases e : c = id
      · right
        rw [if_pos e] at l4
        exact ⟨e, by rw [← l4]; exact k2⟩
      · left
        rw [if_neg e] at l4
        exact ⟨e, mc1, l1, by rw [← l4]; exact k2⟩
  · intro x m q hm hq
    obtain ⟨m1, g1, g2, g3, g4, g5⟩ := hinv x m hm
    have : ∃ mq, get s q = some mq := by
      by_cases e : x = id
      · rw [if_pos e] at g4
        exact hp q (by rw [← g4]; exact hq)
      · rw [if_neg e] at g4
        exact h.live x m1 q g1 (by rw [← g4]; exact hq)
    obtain ⟨mq, hmq⟩ := this
    obtain ⟨m', l1, -, -⟩ := hfwd q mq hmq
    exact ⟨m', l1⟩

theorem cons_relink {s : St} {w : World} {id : Nat} {p : Option Nat} (h : Shape s w)
    (hid : ∃ m, get s id = some m) {x : Nat} (hx : x ≠ id) (hc : Cons s x) : Cons (relink s id p) x := by
  obtain ⟨m0, hid⟩ := hid
  have heff : ∀ y, (get (relink s id p) y).map Mgr.eff = (get s y).map Mgr.eff := by
    intro y
    have key := get_relink h hid p y
    cases hy : get s y with
    | none => rw [key.1 hy]
    | some m1 =>
      obtain ⟨ch, g1, g2⟩ := key.2 m1 hy
      rw [g1]; rfl
  intro m hm ds hd
  have key := get_relink h hid p x
  cases hy : get s x with
  | none => rw [key.1 hy] at hm; cases hm
  | some m1 =>
    obtain ⟨ch, g1, g2⟩ := key.2 m1 hy
    rw [hm, if_neg hx] at g1
    cases g1
    have := hc m1 hy ds hd
    have e : parentEff (relink s id p) { m1 with parent := m1.parent, children := ch } = parentEff s m1 := by
      unfold parentEff
      dsimp only
      cases m1.parent with
      | none => rfl
      | some q => exact heff q
    rw [e]
    exact this

/-- `n ≤ s.length`-style bounds survive `relink`. -/
theorem relink_len {s : St} {w : World} (h : Shape s w) {id : Nat} (hid : ∃ m, get s id = some m) (p : Option Nat)
    {path : List Nat} (hn : path.Nodup) (ha : ∀ y ∈ path, (get (relink s id p) y).isSome = true) :
    path.length ≤ s.length := by
  obtain ⟨m0, hid⟩ := hid
  refine length_le_of_alive hn ?_
  intro y hy
  have := ha y hy
  cases hs : get s y with
  | none => rw [(get_relink h hid p y).1 hs] at this; exact nomatch this
  | some m => rfl

structure Inv (s : St) (w : World) : Prop where
  shape : Shape s w
  cons : ∀ x, Cons s x

theorem inv_setPerm {s : St} {w w' : World} {id : Nat} {p : Perms} (h : Inv s w) (hf : w'.Forest)
    (hid : ∃ m, get s id = some m)
    (hw : ∀ x, get w' x = if x = id then (get w id).map (fun e => (e.1, p)) else get w x) :
    ∃ s', setPerm (depth s) s id p = some s' ∧ Inv s' w' := by
  have hf' : w.Forest := by
    obtain ⟨r, hr⟩ := hf
    refine ⟨r, fun x q own hx => ?_⟩
    by_cases e : x = id
    · subst e; exact hr x q p (by rw [hw, if_pos rfl, hx]; rfl)
    · exact hr x q own (by rw [hw, if_neg e]; exact hx)
  obtain ⟨s', a, b, c⟩ := shape_setPerm (n := s.length) h.shape hf' hid (fun x _ => h.cons x)
    (fun path a b => length_le_of_alive a b) hw
  exact ⟨s', a, b, c⟩

theorem inv_setParent {s : St} {w w' : World} {id : Nat} {p : Option Nat} (h : Inv s w) (hf : w'.Forest)
    (hid : ∃ m, get s id = some m) (hp : ∀ q, p = some q → ∃ m, get s q = some m)
    (hw : ∀ x, get w' x = if x = id then (get w id).map (fun e => (p, e.2)) else get w x) :
    ∃ s', setParent s id p = some s' ∧ Inv s' w' := by
  obtain ⟨m0, hm0⟩ := hid
  have hs := shape_relink h.shape ⟨m0, hm0⟩ hp hw
  obtain ⟨ch, g1, g2⟩ := (get_relink h.shape hm0 p id).2 m0 hm0
  unfold setParent
  rw [g1]
  dsimp only
  obtain ⟨s', a, b, c⟩ := shape_setPerm (n := s.length) (w' := w') (p := m0.own) hs hf ⟨_, g1⟩
    (fun x hx => cons_relink h.shape ⟨m0, hm0⟩ hx (h.cons x))
    (fun path a b => relink_len h.shape ⟨m0, hm0⟩ p a b) (by
      intro x
      split
      · next e => rw [e, hw, if_pos rfl, h.shape.get_some hm0]; rfl
      · rfl)
  exact ⟨s', a, b, c⟩

theorem inv_fresh {s : St} {w w' : World} {id : Nat} (h : Inv s w) (hid : get s id = none)
    (hw : ∀ x, get w' x = if x = id then some (none, defaultPerms) else get w x) :
    Inv (put s id {}) w' := by
  have hg : ∀ x, get (put s id ({} : Mgr)) x = if x = id then some {} else get s x := fun x => AList.get_put _ _ _ _
  have hnone : ∀ x m, get s x = some m → m.parent ≠ some id := by
    intro x m hm hp
    obtain ⟨mp, hmp⟩ := h.shape.live x m id hm hp
    rw [hid] at hmp; cases hmp
  refine ⟨⟨?_, ?_, ?_⟩, ?_⟩
  · intro x
    rw [hw, hg]
    split
    · rfl
    · exact h.shape.look x
  · intro x m hm c
    rw [hg] at hm
    by_cases e : x = id
    · subst e
      rw [if_pos rfl] at hm; cases hm
      constructor
      · intro hc; cases hc
      · rintro ⟨mc, k1, k2⟩
        rw [hg] at k1
        split at k1
        · cases k1; cases k2
        · exact absurd k2 (hnone c mc k1)
    · rw [if_neg e] at hm
      rw [h.shape.kids x m hm]
      constructor
      · rintro ⟨mc, k1, k2⟩
        refine ⟨mc, ?_, k2⟩
        rw [hg, if_neg (by rintro rfl; rw [hid] at k1; cases k1)]
        exact k1
      · rintro ⟨mc, k1, k2⟩
        rw [hg] at k1
        split at k1
        · cases k1; cases k2
        · exact ⟨mc, k1, k2⟩
  · intro x m q hm hq
    rw [hg] at hm
    split at hm
    · cases hm; cases hq
    · obtain ⟨mq, hmq⟩ := h.shape.live x m q hm hq
      refine ⟨mq, ?_⟩
      rw [hg, if_neg (by rintro rfl; rw [hid] at hmq; cases hmq)]
      exact hmq
  · intro x
    by_cases e : x = id
    · subst e
      intro m hm ds hd
      rw [hg, if_pos rfl] at hm
      cases hm
      exact ⟨fun _ => hd, fun _ => hd⟩
    · refine cons_congr (by rw [hg, if_neg e]) ?_ (h.cons x)
      intro m hm q hq
      rw [hg, if_neg (by rintro rfl; exact hnone x m hm hq)]

theorem inv_destroy {s : St} {w : World} {id : Nat} (h : Inv s w) {m0 : Mgr} (hid : get s id = some m0)
    (hc : w.Childless id) : Inv (del (removeChild s m0.parent id) id) (del w id) := by
  have hnone : ∀ x m, get s x = some m → m.parent ≠ some id := by
    intro x m hm hp
    exact hc x m.own (by rw [h.shape.get_some hm, hp])
  have hg : ∀ x, get (del (removeChild s m0.parent id) id) x = if x = id then none else
      (get s x).map fun m => if m0.parent = some x then { m with children := m.children.filter (· ≠ id) } else m := by
    intro x; rw [AList.get_del, get_removeChild]
  have hfwd : ∀ x m, x ≠ id → get s x = some m → ∃ m', get (del (removeChild s m0.parent id) id) x = some m' ∧
      m'.own = m.own ∧ m'.parent = m.parent ∧ m'.eff = m.eff := by
    intro x m hx hm
    rw [hg, if_neg hx, hm]
    refine ⟨_, rfl, ?_⟩
    split <;> simp
  have hbwd : ∀ x m', get (del (removeChild s m0.parent id) id) x = some m' → x ≠ id ∧ ∃ m, get s x = some m ∧
      m'.own = m.own ∧ m'.parent = m.parent ∧ m'.eff = m.eff ∧ ∀ c, c ∈ m'.children ↔ c ≠ id ∧ c ∈ m.children := by
    intro x m' hm'
    rw [hg] at hm'
    split at hm'
    · cases hm'
    · next hx =>
      cases hs : get s x with
      | none => rw [hs] at hm'; cases hm'
      | some m =>
        rw [hs] at hm'
        simp only [Option.map_some, Option.some.injEq] at hm'
        refine ⟨hx, m, rfl, ?_⟩
        by_cases e : m0.parent = some x
        · rw [if_pos e] at hm'
          subst hm'
          exact ⟨rfl, rfl, rfl, fun c => by simp [and_comm]⟩
        · rw [if_neg e] at hm'
          subst hm'
          refine ⟨rfl, rfl, rfl, fun c => ⟨fun hcc => ⟨?_, hcc⟩, fun hcc => hcc.2⟩⟩
          rintro rfl
          obtain ⟨mc, k1, k2⟩ := (h.shape.kids x m hs c).mp hcc
          rw [hid] at k1; cases k1
          exact e k2
  refine ⟨⟨?_, ?_, ?_⟩, ?_⟩
  · intro x
    rw [AList.get_del]
    by_cases e : x = id
    · rw [if_pos e, hg, if_pos e]; rfl
    · rw [if_neg e, h.shape.look]
      cases hs : get s x with
      | none => rw [hg, if_neg e, hs]; rfl
      | some m =>
        obtain ⟨m', k1, k2, k3, -⟩ := hfwd x m e hs
        rw [k1]; simp [k2, k3]
  · intro x m' hm' c
    obtain ⟨hx, m, k1, k2, k3, k4, k5⟩ := hbwd x m' hm'
    rw [k5, h.shape.kids x m k1]
    constructor
    · rintro ⟨hcid, mc, l1, l2⟩
      obtain ⟨mc', j1, -, j3, -⟩ := hfwd c mc hcid l1
      exact ⟨mc', j1, by rw [j3]; exact l2⟩
    · rintro ⟨mc, l1, l2⟩
      obtain ⟨hcid, mc1, j1, -, j3, -, -⟩ := hbwd c mc l1
      exact ⟨hcid, mc1, j1, by rw [← j3]; exact l2⟩
  · intro x m' q hm' hq
    obtain ⟨hx, m, k1, k2, k3, k4, k5⟩ := hbwd x m' hm'
    rw [k3] at hq
    obtain ⟨mq, hmq⟩ := h.shape.live x m q k1 hq
    obtain ⟨mq', j, -⟩ := hfwd q mq (by rintro rfl; exact hnone x m k1 hq) hmq
    exact ⟨mq', j⟩
  · intro x m' hm' ds hd
    obtain ⟨hx, m, k1, k2, k3, k4, k5⟩ := hbwd x m' hm'
    rw [k2] at hd
    have := h.cons x m k1 ds hd
    have e : parentEff (del (removeChild s m0.parent id) id) m' = parentEff s m := by
      unfold parentEff
      rw [k3]
      cases hp : m.parent with
      | none => rfl
      | some q =>
        dsimp only
        obtain ⟨mq, hmq⟩ := h.shape.live x m q k1 hp
        obtain ⟨mq', j, -, -, j4⟩ := hfwd q mq (by rintro rfl; exact hnone x m k1 hp) hmq
        rw [hmq, j, Option.map_some, Option.map_some, j4]
    rw [k2, k4, e]
    exact this

theorem Shape.alive {s : St} {w : World} (h : Shape s w) (p : Option Nat) :
    w.alive p = Verif.Security.alive s p := by
  unfold Verif.Security.alive World.alive
  cases p with
  | none => rfl
  | some q => exact h.has q

theorem get_of_alive {s : St} {p : Option Nat} (h : Verif.Security.alive s p = true) :
    ∀ q, p = some q → ∃ m, get s q = some m := by
  rintro q rfl
  exact (AList.has_iff s q).mp h

theorem get_none_of_has {s : St} {x : Nat} (h : ¬ AList.has s x = true) : get s x = none := by
  cases hx : get s x with
  | none => rfl
  | some m => exact absurd ((AList.has_iff s x).mpr ⟨m, hx⟩) h

theorem inv_construct {s : St} {w : World} {id : Nat} {p : Option Nat} (h : Inv s w) (hidn : get s id = none)
    (hp : ∀ q, p = some q → ∃ m, get s q = some m) (hf : World.Forest (put w id (p, defaultPerms))) :
    ∃ s', construct s id p = some s' ∧ Inv s' (put w id (p, defaultPerms)) := by
  have h1 := inv_fresh (w' := put w id (none, defaultPerms)) h hidn (fun x => AList.get_put _ _ _ _)
  unfold construct
  cases p with
  | none => exact ⟨_, rfl, h1⟩
  | some q =>
    dsimp only
    obtain ⟨m, hm⟩ := hp q rfl
    exact inv_setParent (p := some q) h1 hf ⟨{}, by rw [AList.get_put, if_pos rfl]⟩ (by
        intro q' hq'
        cases hq'
        refine ⟨m, ?_⟩
        rw [AList.get_put, if_neg (by rintro rfl; rw [hidn] at hm; cases hm)]; exact hm) (by
        intro x
        rw [AList.get_put, AList.get_put, AList.get_put]
        by_cases e : x = id <;> simp [e])

theorem inv_step {s : St} {w : World} (h : Inv s w) (op : Op) (hf : (w.after op).Forest)
    (hd : ∀ id, op = .destroy id → w.Childless id) : Inv (step s op).1 (w.after op) ∧ (step s op).2 ≠ .crash := by
  cases op with
  | create id p =>
    simp only [step, World.after] at hf ⊢
    rw [h.shape.has, h.shape.alive] at hf ⊢
    by_cases hg : (AList.has s id || !alive s p) = true
    · rw [if_pos hg, if_pos hg]; exact ⟨h, by simp⟩
    · rw [if_neg hg] at hf
      rw [if_neg hg, if_neg hg]
      rw [Bool.not_eq_true, Bool.or_eq_false_iff] at hg
      have hidn := get_none_of_has (s := s) (x := id) (by rw [hg.1]; simp)
      have hal : alive s p = true := by simpa using hg.2
      obtain ⟨s', a, b⟩ := inv_construct h hidn (get_of_alive hal) hf
      rw [a]
      exact ⟨b, by simp [finish]⟩
  | setPermissions id p =>
    simp only [step, World.after] at hf ⊢
    by_cases hg : AList.has s id = true
    · rw [if_pos hg]
      obtain ⟨m, hm⟩ := (AList.has_iff s id).mp hg
      rw [h.shape.get_some hm] at hf ⊢
      dsimp only at hf ⊢
      obtain ⟨s', a, b⟩ := inv_setPerm h hf ⟨m, hm⟩ (p := p) (by
        intro x
        rw [AList.get_put, h.shape.get_some hm]; rfl)
      rw [a]
      exact ⟨b, by simp [finish]⟩
    · rw [if_neg hg, h.shape.look, get_none_of_has hg]
      exact ⟨h, by simp⟩
  | setParent id p =>
    simp only [step, World.after] at hf ⊢
    by_cases hg : AList.has s id = true
    · obtain ⟨m, hm⟩ := (AList.has_iff s id).mp hg
      rw [h.shape.get_some hm, h.shape.alive] at hf ⊢
      dsimp only at hf ⊢
      by_cases hal : alive s p = true
      · rw [if_pos hal] at hf ⊢
        rw [if_pos (by rw [hg, hal]; rfl)]
        obtain ⟨s', a, b⟩ := inv_setParent h hf ⟨m, hm⟩ (get_of_alive hal) (by
          intro x
          rw [AList.get_put, h.shape.get_some hm]; rfl)
        rw [a]
        exact ⟨b, by simp [finish]⟩
      · rw [if_neg hal, if_neg (by simp [hal])]
        exact ⟨h, by simp⟩
    · rw [if_neg (by simp [hg]), h.shape.look, get_none_of_has hg]
      exact ⟨h, by simp⟩
  | clone id nw =>
    simp only [step, World.after] at hf ⊢
    cases hm : get s id with
    | none => rw [h.shape.look, hm]; exact ⟨h, by simp⟩
    | some m =>
      rw [h.shape.get_some hm] at hf ⊢
      dsimp only at hf ⊢
      rw [h.shape.has] at hf ⊢
      by_cases hg : AList.has s nw = true
      · rw [if_pos hg, if_pos hg]; exact ⟨h, by simp⟩
      · rw [if_neg hg] at hf ⊢
        rw [if_neg hg]
        have hal : alive s m.parent = true := by
          unfold alive
          cases hp : m.parent with
          | none => rfl
          | some q => exact (AList.has_iff s q).mpr (h.shape.live id m q hm hp)
        rw [if_pos hal]
        have hidn := get_none_of_has hg
        have hf' : World.Forest (put w nw (m.parent, defaultPerms)) := by
          obtain ⟨r, hr⟩ := hf
          refine ⟨r, fun x q own hx => ?_⟩
          rw [AList.get_put] at hx
          by_cases e : x = nw
          · rw [if_pos e] at hx
            simp only [Option.some.injEq, Prod.mk.injEq] at hx
            exact hr x q m.own (by rw [AList.get_put, if_pos e, hx.1])
          · rw [if_neg e] at hx
            exact hr x q own (by rw [AList.get_put, if_neg e]; exact hx)
        have hpar := inv_construct h hidn (get_of_alive hal) hf'
        obtain ⟨s', a, b⟩ := hpar
        rw [a]
        dsimp only [Option.bind_some]
        have hnw : ∃ m', get s' nw = some m' := by
          have := b.shape.has nw
          rw [AList.has, AList.get_put, if_pos rfl] at this
          exact (AList.has_iff s' nw).mp this.symm
        obtain ⟨s'', a', b'⟩ := inv_setPerm b hf hnw (p := m.own) (by
          intro x
          rw [AList.get_put, AList.get_put, AList.get_put]
          by_cases e : x = nw <;> simp [e])
        rw [a']
        exact ⟨b', by simp [finish]⟩
  | destroy id =>
    simp only [step, World.after] at hf ⊢
    cases hm : get s id with
    | none =>
      dsimp only
      refine ⟨⟨⟨?_, h.shape.kids, h.shape.live⟩, h.cons⟩, by simp⟩
      intro x
      rw [AList.get_del]
      split
      · next e => rw [e, hm]; rfl
      · exact h.shape.look x
    | some m => exact ⟨inv_destroy h hm (hd id rfl), by simp⟩
  | isAuthorized id gs perm =>
    simp only [step, World.after]
    cases hm : get s id with
    | none => exact ⟨h, by simp⟩
    | some m => exact ⟨h, by simp⟩

theorem inv_init : Inv init [] where
  shape := ⟨fun _ => rfl, fun _ _ h => by simp [init] at h, fun _ _ _ h => by simp [init] at h⟩
  cons := fun _ _ h => by simp [init] at h

theorem world_snoc (ops : List Op) (op : Op) : world (ops ++ [op]) = (world ops).after op := by
  unfold world; rw [List.foldl_append]; rfl

theorem orderly_init {ops : List Op} {op : Op} (h : Orderly (ops ++ [op])) : Orderly ops := by
  intro pre o post he
  exact h pre o (post ++ [op]) (by rw [he]; simp)

theorem inv_exec (ops : List Op) (h : Orderly ops) :
    Inv (exec ops).1 (world ops) ∧ ∀ e ∈ (exec ops).2, e.2 ≠ .crash := by
  induction ops using list_snoc_induction with
  | nil => exact ⟨inv_init, by simp [exec, runTrace]⟩
  | snoc ops op ih =>
    have hi := ih (orderly_init h)
    have ho := h ops op [] rfl
    rw [world_snoc] at ho
    have := inv_step hi.1 op ho.1 ho.2
    unfold exec at hi ⊢
    rw [runTrace_snoc, world_snoc]
    refine ⟨this.1, ?_⟩
    intro e he
    rcases List.mem_append.mp he with he | he
    · exact hi.2 e he
    · rw [List.mem_singleton] at he
      rw [he]; exact this.2

end Verif.Security
