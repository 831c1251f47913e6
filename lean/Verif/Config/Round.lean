import Verif.Config.Second

/-! Both passes together: a device loaded with what another one of the same make saved becomes like it. -/

namespace Verif.Config

open Spec

theorem get_iff (x : Key) (s : SigId) : ∀ c : Conns, c.get x = some s ↔ Connected c x s
  | [] => by
    constructor
    · intro h; cases h
    · rintro ⟨l, r, h, _⟩; simp at h
  | y :: c => by
    by_cases e : y.1 = x
    · have : Conns.get (y :: c) x = some y.2 := by unfold Conns.get; simp [e]
      rw [this]
      constructor
      · intro h
        cases h
        exact ⟨[], c, by simp [← e], by simp⟩
      · rintro ⟨l, r, h, hl⟩
        cases l with
        | nil => simp at h; rw [h.1]
        | cons z l =>
          simp only [List.cons_append, List.cons.injEq] at h
          exact absurd e (h.1 ▸ hl z (by simp))
    · have : Conns.get (y :: c) x = Conns.get c x := by unfold Conns.get; simp [e]
      rw [this, get_iff x s c]
      constructor
      · rintro ⟨l, r, rfl, hl⟩
        refine ⟨y :: l, r, rfl, ?_⟩
        intro z hz
        rcases List.mem_cons.mp hz with rfl | hz
        · exact e
        · exact hl z hz
      · rintro ⟨l, r, h, hl⟩
        cases l with
        | nil => simp at h; exact absurd (by rw [h.1]) e
        | cons z l =>
          simp only [List.cons_append, List.cons.injEq] at h
          exact ⟨l, r, h.2, fun z' hz' => hl z' (by simp [hz'])⟩

theorem connected_mem {c : Conns} {x : Key} {s : SigId} (h : Connected c x s) : (x, s) ∈ c := by
  obtain ⟨l, r, rfl, _⟩ := h; simp

/-- Local identifiers are distinct all the way down. -/
def DistinctIds : Fbs → Prop
  | .nil => True
  | .cons h k r => h.id ∉ ids r ∧ DistinctIds k ∧ DistinctIds r

theorem fits_distinct (e : Env) : ∀ (t : Fbs) (outer : String) (u : Fbs), Fits e t outer u → DistinctIds t
  | .nil, _, _, _ => trivial
  | .cons h k r, outer, u, hf => by
    refine ⟨hf.1, ?_⟩
    have hf2 := hf.2
    cases ha : e.avail outer h.typ with
    | none =>
      rw [ha] at hf2
      cases u with
      | nil => exact absurd hf2 id
      | cons h' k' r' => exact ⟨fits_distinct e k _ _ hf2.2.2.1, fits_distinct e r _ _ hf2.2.2.2⟩
    | some mk =>
      rw [ha] at hf2
      obtain ⟨_, hr, h', k', _, _, _, hk⟩ := hf2
      exact ⟨fits_distinct e k _ _ hk, fits_distinct e r _ _ hr⟩

theorem same_ids : ∀ t r : Fbs, SameFbs t r → ids r = ids t
  | .nil, .nil, _ => rfl
  | .cons _ _ r, .cons _ _ r', h => by simp only [ids]; rw [h.1, same_ids r r' h.2.2.2]
  | .nil, .cons _ _ _, h => absurd h (by simp [SameFbs])
  | .cons _ _ _, .nil, h => absurd h (by simp [SameFbs])

theorem same_distinct : ∀ t r : Fbs, SameFbs t r → DistinctIds t → DistinctIds r
  | .nil, .nil, _, _ => trivial
  | .cons _ k r, .cons _ k' r', h, hd =>
    ⟨by rw [h.1, same_ids r r' h.2.2.2]; exact hd.1, same_distinct k k' h.2.2.1 hd.2.1, same_distinct r r' h.2.2.2 hd.2.2⟩
  | .nil, .cons _ _ _, h, _ => absurd h (by simp [SameFbs])
  | .cons _ _ _, .nil, h, _ => absurd h (by simp [SameFbs])

theorem kid_ids : ∀ (k : Fbs) (h' k'), Kid k h' k' → h'.id ∈ ids k
  | .nil, _, _, h => absurd h (by simp [Kid])
  | .cons h k r, h', k', hk => by
    rcases hk with ⟨rfl, _⟩ | hk
    · simp [ids]
    · simp [ids, kid_ids r h' k' hk]

theorem kid_get : ∀ (k : Fbs) (h' k'), DistinctIds k → Kid k h' k' → k.get h'.id = some (h', k')
  | .nil, _, _, _, h => absurd h (by simp [Kid])
  | .cons h k r, h', k', hd, hk => by
    rcases hk with ⟨rfl, rfl⟩ | hk
    · simp [Fbs.get]
    · have hne : ¬ h.id = h'.id := fun e => hd.1 (e ▸ kid_ids r h' k' hk)
      simp only [Fbs.get, if_neg hne]
      exact kid_get r h' k' hd.2.2 hk

theorem kid_distinct : ∀ (k : Fbs) (h' k'), DistinctIds k → Kid k h' k' → DistinctIds k'
  | .nil, _, _, _, h => absurd h (by simp [Kid])
  | .cons h k r, h', k', hd, hk => by
    rcases hk with ⟨rfl, rfl⟩ | hk
    · exact hd.2.1
    · exact kid_distinct r h' k' hd.2.2 hk

theorem kid_list : ∀ (k : Fbs) (x : Head × Fbs), x ∈ k.list ↔ Kid k x.1 x.2
  | .nil, x => by simp [Fbs.list, Kid]
  | .cons h k r, x => by
    simp only [Fbs.list, Kid, List.mem_cons, kid_list r x]
    constructor
    · rintro (rfl | h)
      · exact .inl ⟨rfl, rfl⟩
      · exact .inr h
    · rintro (⟨h1, h2⟩ | h)
      · exact .inl (Prod.ext h1 h2)
      · exact .inr h

theorem at_find {h k p h' k' q} (ha : At h k p h' k' q) : DistinctIds k →
    ∃ q', q = p ++ q' ∧ findFb h k q' = some (h', k') := by
  induction ha with
  | here h k p => intro _; exact ⟨[], by simp, rfl⟩
  | kid h k p h1 k1 h2 k2 q hk _ ih =>
    intro hd
    obtain ⟨q', rfl, hf⟩ := ih (kid_distinct k h1 k1 hd hk)
    refine ⟨h1.id :: q', by simp, ?_⟩
    simp only [findFb, kid_get k h1 k1 hd hk]
    exact hf

theorem same_get (i : String) : ∀ (k k2 : Fbs) (x), SameFbs k k2 → k.get i = some x →
    ∃ y, k2.get i = some y ∧ SameHead x.1 y.1 ∧ SameFbs x.2 y.2
  | .nil, .nil, x, _, h => by cases h
  | .cons h k r, .cons h2 k2 r2, x, hs, hg => by
    simp only [Fbs.get] at hg ⊢
    rw [hs.1]
    by_cases hi : h.id = i
    · rw [if_pos hi] at hg ⊢
      cases hg
      exact ⟨_, rfl, hs.2.1, hs.2.2.1⟩
    · rw [if_neg hi] at hg ⊢
      exact same_get i r r2 x hs.2.2.2 hg
  | .nil, .cons _ _ _, _, h, _ => absurd h (by simp [SameFbs])
  | .cons _ _ _, .nil, _, h, _ => absurd h (by simp [SameFbs])

theorem same_find : ∀ (q : Path) (h k h2 k2 x y), SameHead h h2 → SameFbs k k2 → findFb h k q = some (x, y) →
    ∃ x2 y2, findFb h2 k2 q = some (x2, y2) ∧ SameHead x x2 ∧ SameFbs y y2
  | [], h, k, h2, k2, x, y, hh, hk, hf => by cases hf; exact ⟨h2, k2, rfl, hh, hk⟩
  | i :: q, h, k, h2, k2, x, y, hh, hk, hf => by
    simp only [findFb] at hf ⊢
    cases hg : k.get i with
    | none => rw [hg] at hf; cases hf
    | some z =>
      rw [hg] at hf
      obtain ⟨z2, hg2, hh', hk'⟩ := same_get i k k2 z hk hg
      rw [hg2]
      exact same_find q z.1 z.2 z2.1 z2.2 x y hh' hk' hf

theorem findFb_distinct : ∀ (q : Path) (h k x y), DistinctIds k → findFb h k q = some (x, y) → DistinctIds y
  | [], h, k, x, y, hd, hf => by cases hf; exact hd
  | i :: q, h, k, x, y, hd, hf => by
    simp only [findFb] at hf
    cases hg : k.get i with
    | none => rw [hg] at hf; cases hf
    | some z =>
      rw [hg] at hf
      have hz := get_mem i k z hg
      exact findFb_distinct q z.1 z.2 x y (kid_distinct k z.1 z.2 hd ((kid_list k z).mp hz.1)) hf

theorem find_kid {root : Head} {kids : Fbs} (hd : DistinctIds kids) (p : Path) (h k x)
    (hf : findPath root kids p = some (h, k)) (hx : x ∈ k.list) : findPath root kids (p ++ [x.1.id]) = some x := by
  rw [findPath_append hf]
  have hdk : DistinctIds k := by
    cases p with
    | nil => cases hf
    | cons i p =>
      simp only [findPath] at hf
      split at hf
      · exact findFb_distinct p root kids h k hd hf
      · cases hf
  simp only [findFb, kid_get k x.1 x.2 hdk ((kid_list k x).mp hx)]

theorem wanted_sound (c : Conns) : ∀ (t : Fbs) (p : Path) (x), x ∈ wanted c p p t → c.get x.1 = some x.2
  | .nil, _, x, h => by simp [wanted] at h
  | .cons h k r, p, x, hx => by
    simp only [wanted, List.mem_append] at hx
    rcases hx with (hx | hx) | hx
    · unfold wantedHead at hx
      obtain ⟨y, _, hy⟩ := List.mem_filterMap.mp hx
      cases hc : c.get (p ++ [h.id], y.id) with
      | none => rw [hc] at hy; cases hy
      | some s => rw [hc] at hy; cases hy; exact hc
    · exact wanted_sound c k _ x hx
    · exact wanted_sound c r _ x hx

theorem wantedHead_sound (c : Conns) (h : Head) (p : Path) (x) (hx : x ∈ wantedHead c p p h) : c.get x.1 = some x.2 := by
  unfold wantedHead at hx
  obtain ⟨y, _, hy⟩ := List.mem_filterMap.mp hx
  cases hc : c.get (p, y.id) with
  | none => rw [hc] at hy; cases hy
  | some s => rw [hc] at hy; cases hy; exact hc

theorem wanted_kid (c : Conns) (p : Path) : ∀ (k : Fbs) (h' k'), Kid k h' k' → ∀ x,
    x ∈ wantedHead c (p ++ [h'.id]) (p ++ [h'.id]) h' ++ wanted c (p ++ [h'.id]) (p ++ [h'.id]) k' → x ∈ wanted c p p k
  | .nil, _, _, h, _, _ => absurd h (by simp [Kid])
  | .cons h k r, h', k', hk, x, hx => by
    simp only [wanted]
    rcases hk with ⟨rfl, rfl⟩ | hk
    · exact List.mem_append_left _ hx
    · exact List.mem_append_right _ (wanted_kid c p r h' k' hk x hx)

theorem wanted_complete (c : Conns) {h k p h' k' q} (ha : At h k p h' k' q) {y : Port} (hy : y ∈ h'.ports) {s : SigId}
    (hc : c.get (q, y.id) = some s) : ((q, y.id), s) ∈ wantedHead c p p h ++ wanted c p p k := by
  induction ha with
  | here h k p =>
    refine List.mem_append_left _ (List.mem_filterMap.mpr ⟨y, hy, ?_⟩)
    rw [hc]; rfl
  | kid h k p h1 k1 h2 k2 q hk _ ih =>
    exact List.mem_append_right _ (wanted_kid c p k h1 k1 hk _ (ih hy hc))

/-- The first pass over a whole device. -/
theorem first_ok {e : Env} {t u : Dev} (hf : DevFits e t u) :
    NodeOk e t.root t.kids [t.root.id] [u.root.id] t.conn u.root u.kids { conn := u.conn }
      (loadNode e [u.root.id] u.root u.kids t.save.root { conn := u.conn } (loadKids e t.save.kids)) :=
  node_ok hf.root fun c' => kids_ok e t.conn t.kids t.root.typ _ _ .nil _ c' hf.kids (by simp [ids])

theorem hasSig_true {root : Head} {kids : Fbs} {s : SigId} {h k} (hf : findPath root kids s.1 = some (h, k))
    (hs : ∃ y ∈ h.sigs, y.id = s.2) : hasSig root kids s = true := by
  unfold hasSig
  rw [hf]
  obtain ⟨y, hy, he⟩ := hs
  exact List.any_eq_true.mpr ⟨y, hy, by simpa using he⟩

/-- Loading what was saved. -/
theorem load_round {e : Env} {t u : Dev} (hf : DevFits e t u) (hid : u.root.id = t.root.id)
    (hport : ∀ x s, Connected t.conn x s → HasPort t.root t.kids x)
    (hsig : ∀ x s, Connected t.conn x s → HasSignal t.root t.kids s)
    (hloop : NoLoop t.conn)
    (hold : ∀ x ∈ u.conn, Added e u.kids u.root.typ [u.root.id] x.1.1 ∨ Added e u.kids u.root.typ [u.root.id] x.2.1
      ∨ Connected t.conn x.1 x.2)
    (hacc : ∀ c x s, (∀ y z, Connected c y z → Connected t.conn y z) → Connected t.conn x s → e.accepts c x s = true) :
    ∃ r : Dev, (∃ N, ∀ n, N ≤ n → u.load e n t.save = .done r true) ∧ SameDev t r ∧ r.root.id = t.root.id
      ∧ ∀ x s, Connected r.conn x s ↔ Connected t.conn x s := by
  have node := first_ok hf
  have hfirst : u.first e t.save =
      (let r := loadNode e [u.root.id] u.root u.kids t.save.root { conn := u.conn } (loadKids e t.save.kids)
       ({ root := r.head, kids := r.kids, conn := r.ctx.conn,
          locked := if r.inner then loadLock t.save.locked else u.locked }, r.ctx, r.ok)) := rfl
  generalize loadNode e [u.root.id] u.root u.kids t.save.root { conn := u.conn } (loadKids e t.save.kids) = res
    at node hfirst
  dsimp only at hfirst
  obtain ⟨rank, hrank⟩ := hloop
  have hrid : res.head.id = t.root.id := node.ident.trans hid
  have hd : DistinctIds t.kids := fits_distinct e _ _ _ hf.kids
  have hdr : DistinctIds res.kids := same_distinct _ _ node.kids hd
  have hfind : ∀ h' k' q, At t.root t.kids [t.root.id] h' k' q →
      ∃ x y, findPath res.head res.kids q = some (x, y) ∧ SameHead h' x := by
    intro h' k' q ha
    obtain ⟨q', rfl, hq⟩ := at_find ha hd
    obtain ⟨x, y, hxy, hs, _⟩ := same_find q' _ _ _ _ _ _ node.head node.kids hq
    refine ⟨x, y, ?_, hs⟩
    simp only [List.singleton_append, findPath, hrid, if_true]
    exact hxy
  have w : World e res.head res.kids (Connected t.conn) rank := by
    refine ⟨?_, ?_, ?_, ?_, hrank, find_kid hdr⟩
    · intro k s s' h1 h2
      rw [← get_iff] at h1 h2
      exact Option.some.inj (h1.symm.trans h2)
    · intro k s h
      obtain ⟨h', k', ha, y, hy, hyi⟩ := hport k s h
      obtain ⟨x, z, hx, hs⟩ := hfind h' k' k.1 ha
      refine ⟨x, z, hx, ?_⟩
      rw [hs.ports]
      exact List.any_eq_true.mpr ⟨y, hy, by simpa using hyi⟩
    · intro k s h
      obtain ⟨h', k', ha, hy⟩ := hsig k s h
      obtain ⟨x, z, hx, hs⟩ := hfind h' k' s.1 ha
      exact hasSig_true hx (by rw [hs.sigs]; exact hy)
    · intro c k s h1 h2
      exact hacc c k s (fun y z h => h1 y z ((get_iff y z c).mpr h)) h2
  have hpend : res.ctx.pend = wantedHead t.conn [t.root.id] [t.root.id] t.root ++ wanted t.conn [t.root.id] [t.root.id] t.kids := by
    rw [node.ctx.pend, hid]; rfl
  have good : Good (Connected t.conn) res.ctx := by
    refine ⟨?_, ?_, ?_⟩
    · intro x hx
      rw [hpend, List.mem_append] at hx
      rw [← get_iff]
      rcases hx with hx | hx
      · exact wantedHead_sound _ _ _ x hx
      · exact wanted_sound _ _ _ x hx
    · intro k s h
      have hm := connected_mem ((get_iff k s _).mp h)
      have hg := node.ctx.gone _ hm
      rcases hold (k, s) (node.ctx.sub _ hm) with h1 | h1 | h1
      · exact absurd h1 hg.1
      · exact absurd h1 hg.2
      · exact h1
    · intro x hx
      rcases node.ctx.deps x hx with h | h
      · simp at h
      · exact h
  have hroot : findPath res.head res.kids [res.head.id] = some (res.head, res.kids) := by simp [findPath, findFb]
  obtain ⟨c', ⟨N, hN⟩, hpost, hclear⟩ := halts w _ res.ctx good (Nat.le_refl _) _ _ _ hroot
  refine ⟨Dev.mk res.head res.kids c'.conn (if res.inner then loadLock t.save.locked else u.locked), ⟨N, ?_⟩,
    ⟨node.head, node.kids⟩, hrid, ?_⟩
  · intro n hn
    unfold Dev.load
    rw [hfirst]
    dsimp only
    have hn' := hN n hn
    dsimp only at hn'
    rw [if_pos node.ok, hn']
  · intro x s
    rw [← get_iff]
    constructor
    · exact hpost.good.conn x s
    · intro h
      obtain ⟨h', k', ha, y, hy, hyi⟩ := hport x s h
      have hx : (x.1, y.id) = x := by rw [hyi]
      have hm : (x, s) ∈ res.ctx.pend := by
        rw [hpend, ← hx]
        exact wanted_complete t.conn ha hy (by rw [hx]; exact (get_iff x s _).mpr h)
      rcases hpost.made _ hm with h1 | h1
      · obtain ⟨q', hq, _⟩ := at_find ha hd
        exact absurd ⟨q', by rw [hrid]; exact hq.symm⟩ (hclear _ h1)
      · exact h1

end Verif.Config
