import Verif.Config.Round

/-! What holds of the load of any document. -/

namespace Verif.Config

open Spec

theorem Spec.LockedSame.refl (l a) : LockedSame l a a := ⟨fun _ => rfl, fun _ => rfl, fun _ => rfl, fun _ => rfl⟩

theorem Spec.Kept.refl (x : Head) : Kept x x := ⟨rfl, rfl, rfl, rfl, rfl, rfl, LockedSame.refl _ _, rfl⟩

theorem Spec.Kept.trans {x y z : Head} (h : Kept x y) (h' : Kept y z) : Kept x z where
  ident := h'.ident.trans h.ident
  typ := h'.typ.trans h.typ
  cfg := h'.cfg.trans h.cfg
  ports := h'.ports.trans h.ports
  tags := h'.tags.trans h.tags
  lock := h'.lock.trans h.lock
  attrs := by
    have a := h.attrs
    have b := h'.attrs
    rw [h.lock] at b
    exact ⟨fun e => (a.1 e).trans (b.1 e), fun e => (a.2.1 e).trans (b.2.1 e), fun e => (a.2.2.1 e).trans (b.2.2.1 e),
      fun e => (a.2.2.2 e).trans (b.2.2.2 e)⟩
  sigs := h'.sigs.trans h.sigs

theorem attrs_locked (l : Lock) (a : Attrs) (d : DAttrs) : LockedSame l a (a.load l d) := by
  unfold Attrs.load LockedSame
  refine ⟨fun h => ?_, fun h => ?_, fun h => ?_, fun h => ?_⟩ <;> simp [h]

theorem loadSig_ids (l : List Sg) (d : DSg) : (loadSig l d).map (·.id) = l.map (·.id) := by
  unfold loadSig
  rw [List.map_map]
  apply List.map_congr_left
  intro x _
  dsimp only [Function.comp]
  split <;> rfl

theorem loadSigs_ids : ∀ (d : List DSg) (l : List Sg), (d.foldl loadSig l).map (·.id) = l.map (·.id)
  | [], _ => rfl
  | x :: d, l => by rw [List.foldl_cons, loadSigs_ids d, loadSig_ids]

theorem node_kept (e p h k d c inner) : Kept h (loadNode e p h k d c inner).head := by
  unfold loadNode
  dsimp only
  split
  · exact ⟨rfl, rfl, rfl, rfl, rfl, rfl, attrs_locked _ _ _, loadSigs_ids _ _⟩
  · exact ⟨rfl, rfl, rfl, rfl, rfl, rfl, attrs_locked _ _ _, rfl⟩

theorem get_put_same (i : String) (h' k') : ∀ (u : Fbs) (x), u.get i = some x → h'.id = i →
    (Fbs.put i h' k' u).get i = some (h', k')
  | .nil, _, h, _ => by cases h
  | .cons h k r, x, hx, hi => by
    simp only [Fbs.get] at hx
    simp only [Fbs.put]
    by_cases e : h.id = i
    · simp [e, Fbs.get, hi]
    · rw [if_neg e] at hx ⊢
      simp only [Fbs.get, if_neg e]
      exact get_put_same i h' k' r x hx hi

theorem get_put_other (i j : String) (h' k') (hij : j ≠ i) (hi : h'.id = i) : ∀ u : Fbs, (Fbs.put i h' k' u).get j = u.get j
  | .nil => rfl
  | .cons h k r => by
    simp only [Fbs.put]
    by_cases e : h.id = i
    · have : ¬ i = j := fun x => hij x.symm
      simp [e, Fbs.get, hi, this]
    · rw [if_neg e]
      simp only [Fbs.get]
      rw [get_put_other i j h' k' hij hi r]

theorem get_add_some (j : String) (h' k') : ∀ (u : Fbs) (x), u.get j = some x → (Fbs.add h' k' u).get j = some x
  | .nil, _, h => by cases h
  | .cons h k r, x, hx => by
    simp only [Fbs.get, Fbs.add] at hx ⊢
    by_cases e : h.id = j
    · rw [if_pos e] at hx ⊢; exact hx
    · rw [if_neg e] at hx ⊢; exact get_add_some j h' k' r x hx

theorem get_add_other (j : String) (h' k') (hj : h'.id ≠ j) : ∀ u : Fbs, (Fbs.add h' k' u).get j = u.get j
  | .nil => by simp [Fbs.add, Fbs.get, hj]
  | .cons h k r => by simp only [Fbs.get, Fbs.add]; rw [get_add_other j h' k' hj r]

/-- The function blocks that are there when the document is gone through stay, whatever the document. -/
theorem kids_kept (e : Env) : ∀ (d : DFbs) (outer : String) (p : Path) (u : Fbs) (c : Ctx) (i : String) (x),
    u.get i = some x → ∃ y, (loadKids e d outer p u c).1.get i = some y ∧ Kept x.1 y.1
  | .nil, _, _, u, _, i, x, hx => ⟨x, hx, Kept.refl _⟩
  | .cons d dk dr, outer, p, u, c, i, x, hx => by
    simp only [loadKids]
    cases e.avail outer d.typ with
    | none =>
      dsimp only
      cases hg : u.get d.id with
      | none => exact kids_kept e dr outer p u c i x hx
      | some z =>
        dsimp only
        have hk := node_kept e (p ++ [d.id]) z.1 z.2 d c (loadKids e dk)
        generalize loadNode e (p ++ [d.id]) z.1 z.2 d c (loadKids e dk) = r at hk
        have hz := (get_mem d.id u z hg).2
        have hri : r.head.id = d.id := hk.ident.trans hz
        have step : ∃ y, (Fbs.put d.id r.head r.kids u).get i = some y ∧ Kept x.1 y.1 := by
          by_cases e' : i = d.id
          · subst e'
            rw [hx] at hg
            cases hg
            exact ⟨_, get_put_same _ _ _ u _ hx hri, hk⟩
          · rw [get_put_other _ _ _ _ e' hri]
            exact ⟨x, hx, Kept.refl _⟩
        split
        · obtain ⟨y, hy, hxy⟩ := step
          obtain ⟨y', hy', hyy⟩ := kids_kept e dr outer p _ r.ctx i y hy
          exact ⟨y', hy', hxy.trans hyy⟩
        · exact step
    | some mk =>
      dsimp only
      cases mk d.id d.cfg with
      | none => exact ⟨x, hx, Kept.refl _⟩
      | some z =>
        dsimp only
        split
        · exact ⟨x, hx, Kept.refl _⟩
        · generalize loadNode e (p ++ [z.1.id]) z.1 z.2 d c (loadKids e dk) = r
          have step : (Fbs.add r.head r.kids u).get i = some x := get_add_some i _ _ u x hx
          split
          · exact kids_kept e dr outer p _ r.ctx i x step
          · exact ⟨x, step, Kept.refl _⟩

/-- A function block the document does not name is as it was. -/
theorem kids_untouched {e : Env} (he : Honest e) : ∀ (d : DFbs) (outer : String) (p : Path) (u : Fbs) (c : Ctx) (i : String),
    i ∉ docIds d → (loadKids e d outer p u c).1.get i = u.get i
  | .nil, _, _, u, _, i, _ => rfl
  | .cons d dk dr, outer, p, u, c, i, hi => by
    have hi' : i ≠ d.id ∧ i ∉ docIds dr := by simpa [docIds] using hi
    simp only [loadKids]
    cases ha : e.avail outer d.typ with
    | none =>
      dsimp only
      cases hg : u.get d.id with
      | none => exact kids_untouched he dr outer p u c i hi'.2
      | some z =>
        dsimp only
        have hk := node_kept e (p ++ [d.id]) z.1 z.2 d c (loadKids e dk)
        generalize loadNode e (p ++ [d.id]) z.1 z.2 d c (loadKids e dk) = r at hk
        have hri : r.head.id = d.id := hk.ident.trans (get_mem d.id u z hg).2
        have step := get_put_other d.id i r.head r.kids hi'.1 hri u
        split
        · rw [kids_untouched he dr outer p _ r.ctx i hi'.2, step]
        · exact step
    | some mk =>
      dsimp only
      cases hm : mk d.id d.cfg with
      | none => rfl
      | some z =>
        dsimp only
        have hz := he _ _ _ _ _ _ ha hm
        split
        · rfl
        · have hk := node_kept e (p ++ [z.1.id]) z.1 z.2 d c (loadKids e dk)
          generalize loadNode e (p ++ [z.1.id]) z.1 z.2 d c (loadKids e dk) = r at hk
          have step := get_add_other i r.head r.kids (fun x => hi'.1 (x.symm.trans (hk.ident.trans hz))) u
          split
          · rw [kids_untouched he dr outer p _ r.ctx i hi'.2, step]
          · exact step

/-- The tree a load leaves is that of the first pass. -/
theorem load_tree {e : Env} {n : Nat} {x : Dev} {d : DDev} {r : Dev} {ok : Bool} (h : x.load e n d = .done r ok) :
    r.root = (x.first e d).1.root ∧ r.kids = (x.first e d).1.kids ∧ r.locked = (x.first e d).1.locked
      ∧ ok = (x.first e d).2.2 := by
  unfold Dev.load at h
  dsimp only at h
  split at h
  · rename_i hok
    split at h
    · cases h
    · cases h; exact ⟨rfl, rfl, rfl, hok.symm⟩
  · rename_i hok
    cases h
    refine ⟨rfl, rfl, rfl, ?_⟩
    cases hb : (x.first e d).2.2
    · rfl
    · exact absurd hb hok

/-- Nested function blocks of a node: from the ones that stay. -/
theorem node_kids (e p h k d c inner) :
    ∃ c1, (loadNode e p h k d c inner).kids = (inner h.typ p (stay e h.typ k) c1).1 := by
  unfold loadNode
  dsimp only
  rw [keep_eq]
  split
  · exact ⟨_, rfl⟩
  · exact ⟨_, rfl⟩

/-! ### Where the connections of the second pass come from -/

section
variable {e : Env} {root : Head} {kids : Fbs}

/-- Every connection there is was there before, or was asked for. -/
def From (A : Key → SigId → Prop) (c : Ctx) : Prop :=
  (∀ x ∈ c.pend, A x.1 x.2) ∧ ∀ k s, c.conn.get k = some s → A k s

theorem foldlM_keeps {α : Type} {P : Ctx → Prop} {f : Ctx → α → Option Ctx} :
    ∀ (l : List α), (∀ x ∈ l, ∀ c c', P c → f c x = some c' → P c') → ∀ c c', P c → l.foldlM f c = some c' → P c'
  | [], _, c, c', hc, h => by cases h; exact hc
  | x :: l, hf, c, c', hc, h => by
    rw [List.foldlM_cons] at h
    cases hx : f c x with
    | none => rw [hx] at h; cases h
    | some c1 =>
      rw [hx] at h
      exact foldlM_keeps l (fun y hy => hf y (by simp [hy])) c1 c' (hf x (by simp) c c1 hc hx) h

theorem resolve_from {A : Key → SigId → Prop} {fin : Head → Fbs → Path → Fin}
    (hfin : ∀ p h k, findPath root kids p = some (h, k) → ∀ c c', From A c → fin h k p c = some c' → From A c')
    {s : SigId} {c c' : Ctx} (hc : From A c) (h : resolve root kids fin s c = some c') : From A c' := by
  unfold resolve at h
  split at h
  · cases h; exact hc
  · rename_i x _
    split at h
    · split at h
      · cases h; exact hc
      · rename_i y hy
        split at h
        · cases h
        · rename_i c1 h1
          cases h
          have := hfin x.2 y.1 y.2 hy c c1 hc h1
          exact ⟨this.1, this.2⟩
    · cases h; exact hc

theorem finPort_from {A : Key → SigId → Prop} {fin : Head → Fbs → Path → Fin}
    (hfin : ∀ p h k, findPath root kids p = some (h, k) → ∀ c c', From A c → fin h k p c = some c' → From A c')
    {k : Key} {s : SigId} (ha : A k s) {c c' : Ctx} (hc : From A c) (h : finPort e root kids fin k s c = some c') :
    From A c' := by
  unfold finPort at h
  split at h
  · cases h; exact hc
  · split at h
    · cases h
    · rename_i c1 h1
      have := resolve_from hfin hc h1
      cases h
      split
      · refine ⟨this.1, ?_⟩
        intro k' s' hk
        dsimp only at hk
        rw [get_set] at hk
        by_cases e' : k' = k
        · subst e'; rw [if_pos rfl] at hk; cases hk; exact ha
        · rw [if_neg e'] at hk; exact this.2 k' s' hk
      · exact this

theorem endFb_from (hd : DistinctIds kids) {A : Key → SigId → Prop}
    (hport : ∀ k s, A k s → ∀ h kk, findPath root kids k.1 = some (h, kk) → (h.ports.any fun y => y.id = k.2) = true) :
    ∀ (n : Nat) p h k, findPath root kids p = some (h, k) → ∀ c c', From A c → endFb e root kids n h k p c = some c' →
      From A c'
  | 0, _, _, _, _, _, _, _, h => by cases h
  | n + 1, p, h, k, hf, c, c', hc, he => by
    have ih := endFb_from hd hport n
    change finNode e root kids (endFb e root kids n) h k p c = some c' at he
    unfold finNode at he
    dsimp only at he
    have hmine : ∀ x ∈ c.pend.filter (fun x => x.1.1 = p), A x.1 x.2 ∧ (h.ports.any fun y => y.id = x.1.2) = true := by
      intro x hx
      have hx' := List.mem_filter.mp hx
      have hxp : x.1.1 = p := by simpa using hx'.2
      exact ⟨hc.1 x hx'.1, hport _ _ (hc.1 x hx'.1) h k (by rw [hxp]; exact hf)⟩
    have hlost : (c.pend.filter fun x => x.1.1 = p).filter (fun x => !h.ports.any fun y => y.id = x.1.2) = [] := by
      rw [List.filter_eq_nil_iff]
      intro x hx
      rw [(hmine x hx).2]
      simp
    rw [hlost] at he
    split at he
    · cases he
    · rename_i c1 h1
      have hc1 : From A c1 := foldlM_keeps _ (fun x hx a b ha hb =>
        finPort_from ih (hmine x (List.mem_filter.mp hx).1).1 ha hb) c c1 hc h1
      have hc2 : From A { c1 with pend := c1.pend.filter fun x => x.1.1 ≠ p } :=
        ⟨fun x hx => hc1.1 x (List.mem_filter.mp hx).1, hc1.2⟩
      exact foldlM_keeps k.list (fun x hx a b ha hb => ih _ _ _ (find_kid hd p h k x hf hx) a b ha hb) _ c' hc2 he

end

end Verif.Config
