import Verif.Config.First

/-! The second pass of a load: it comes to an end and makes every connection that was noted, provided that the
connections contain no loop. -/

namespace Verif.Config

open Spec

/-- From some depth on the result is `c`. -/
def Ev (f : Nat → Option Ctx) (c : Ctx) : Prop := ∃ N, ∀ n, N ≤ n → f n = some c

theorem Ev.pure (c : Ctx) : Ev (fun _ => some c) c := ⟨0, fun _ _ => rfl⟩

theorem Ev.bind {f : Nat → Option Ctx} {g : Nat → Ctx → Option Ctx} {c c' : Ctx} (h : Ev f c)
    (h' : Ev (fun n => g n c) c') : Ev (fun n => (f n).bind (g n)) c' := by
  obtain ⟨N, hN⟩ := h
  obtain ⟨M, hM⟩ := h'
  refine ⟨max N M, fun n hn => ?_⟩
  dsimp only
  rw [hN n (Nat.le_trans (Nat.le_max_left _ _) hn)]
  exact hM n (Nat.le_trans (Nat.le_max_right _ _) hn)

theorem Ev.congr {f g : Nat → Option Ctx} {c : Ctx} (h : Ev f c) (e : ∀ n, g n = f n) : Ev g c := by
  obtain ⟨N, hN⟩ := h
  exact ⟨N, fun n hn => (e n).trans (hN n hn)⟩

theorem Ev.shift {f : Nat → Option Ctx} {c : Ctx} (h : Ev (fun n => f (n + 1)) c) : Ev f c := by
  obtain ⟨N, hN⟩ := h
  refine ⟨N + 1, fun n hn => ?_⟩
  obtain ⟨m, rfl⟩ : ∃ m, n = m + 1 := ⟨n - 1, by omega⟩
  exact hN m (by omega)

theorem get_set (c : Conns) (k k' : Key) (s : SigId) :
    (c.set k s).get k' = if k' = k then some s else c.get k' := by
  unfold Conns.set Conns.get
  rw [List.find?_append]
  by_cases e : k' = k
  · subst e
    have : List.find? (fun x => decide (x.1 = k')) (c.filter fun x => decide (x.1 ≠ k')) = none := by
      rw [List.find?_eq_none]
      intro x hx
      have := (List.mem_filter.mp hx).2
      simpa using this
    rw [this]
    simp
  · rw [if_neg e]
    have h1 : List.find? (fun x : Key × SigId => decide (x.1 = k')) [(k, s)] = none := by
      simp [Ne.symm e]
    rw [h1, Option.or_none]
    congr 1
    induction c with
    | nil => rfl
    | cons x c ih =>
      by_cases hx : x.1 = k
      · have : ¬ x.1 = k' := fun h => e (h.symm.trans hx)
        rw [List.filter_cons_of_neg (by simpa using hx), List.find?_cons_of_neg (by simpa using this)]
        exact ih
      · rw [List.filter_cons_of_pos (by simpa using hx)]
        by_cases hk : x.1 = k'
        · rw [List.find?_cons_of_pos (by simpa using hk), List.find?_cons_of_pos (by simpa using hk)]
        · rw [List.find?_cons_of_neg (by simpa using hk), List.find?_cons_of_neg (by simpa using hk)]
          exact ih

/-- What is known of the tree and of the connections wanted. -/
structure World (e : Env) (root : Head) (kids : Fbs) (W : Key → SigId → Prop) (rank : Path → Nat) : Prop where
  unique : ∀ k s s', W k s → W k s' → s = s'
  port : ∀ k s, W k s → ∃ h kk, findPath root kids k.1 = some (h, kk) ∧ (h.ports.any fun y => y.id = k.2) = true
  sig : ∀ k s, W k s → hasSig root kids s = true
  accepts : ∀ c k s, (∀ k' s', Conns.get c k' = some s' → W k' s') → W k s → e.accepts c k s = true
  rank : ∀ k s, W k s → rank s.1 < rank k.1
  kid : ∀ p h k x, findPath root kids p = some (h, k) → x ∈ k.list → findPath root kids (p ++ [x.1.id]) = some x

/-- What holds of the context throughout. -/
structure Good (W : Key → SigId → Prop) (c : Ctx) : Prop where
  pend : ∀ x ∈ c.pend, W x.1 x.2
  conn : ∀ k s, c.conn.get k = some s → W k s
  deps : ∀ x ∈ c.deps, x.2 = x.1.1

/-- What a step of the second pass does to the context. -/
structure Post (W : Key → SigId → Prop) (c c' : Ctx) : Prop where
  good : Good W c'
  sub : c'.pend.Sublist c.pend
  made : ∀ x ∈ c.pend, x ∈ c'.pend ∨ c'.conn.get x.1 = some x.2
  mono : ∀ k s, c.conn.get k = some s → c'.conn.get k = some s

theorem Post.refl {W : Key → SigId → Prop} {c : Ctx} (h : Good W c) : Post W c c :=
  ⟨h, List.Sublist.refl _, fun _ h => .inl h, fun _ _ h => h⟩

theorem Post.trans {W : Key → SigId → Prop} {a b c : Ctx} (h : Post W a b) (h' : Post W b c) : Post W a c where
  good := h'.good
  sub := h'.sub.trans h.sub
  made x hx := by
    rcases h.made x hx with h1 | h1
    · exact h'.made x h1
    · exact .inr (h'.mono _ _ h1)
  mono k s hk := h'.mono k s (h.mono k s hk)

section
variable {e : Env} {root : Head} {kids : Fbs} {W : Key → SigId → Prop} {rank : Path → Nat}

/-- The update of a function block comes to an end, and no port below it is left to be connected. -/
def Halts (e : Env) (root : Head) (kids : Fbs) (W : Key → SigId → Prop) (h : Head) (k : Fbs) (p : Path) (c : Ctx) : Prop :=
  ∃ c', Ev (fun n => endFb e root kids n h k p c) c' ∧ Post W c c' ∧ ∀ x ∈ c'.pend, ¬ p <+: x.1.1

theorem resolve_ok (w : World e root kids W rank) {m : Nat} {p : Path}
    (hR : ∀ c', Good W c' → c'.pend.length ≤ m → ∀ P h k, findPath root kids P = some (h, k) →
      (∃ y ∈ c'.pend, y.1.1 = P) → rank P < rank p → Halts e root kids W h k P c')
    {s : SigId} (hs : rank s.1 < rank p) {c : Ctx} (hg : Good W c) (hm : c.pend.length ≤ m) :
    ∃ c', Ev (fun n => resolve root kids (endFb e root kids n) s c) c' ∧ Post W c c' := by
  unfold resolve
  cases hd : c.deps.find? fun x => x.1 = s with
  | none => exact ⟨c, Ev.pure c, Post.refl hg⟩
  | some x =>
    have hx1 : x.1 = s := by simpa using List.find?_some hd
    have hx2 : x.2 = s.1 := hx1 ▸ hg.deps x (List.mem_of_find?_eq_some hd)
    dsimp only
    by_cases hp : (c.pend.any fun y => y.1.1 = x.2) = true
    · simp only [if_pos hp]
      obtain ⟨y, hy, hy2⟩ := List.any_eq_true.mp hp
      have hy3 : y.1.1 = x.2 := by simpa using hy2
      obtain ⟨h, kk, hf, _⟩ := w.port _ _ (hg.pend y hy)
      rw [hy3] at hf
      rw [hf]
      obtain ⟨c', hev, hpost, _⟩ := hR c hg hm x.2 h kk hf ⟨y, hy, hy3⟩ (hx2 ▸ hs)
      refine ⟨{ c' with deps := c'.deps.filter fun z => z.1 ≠ s }, ?_, ?_⟩
      · refine Ev.congr (Ev.bind (g := fun _ c' => some { c' with deps := c'.deps.filter fun z => z.1 ≠ s }) hev
          (Ev.pure _)) ?_
        intro n
        dsimp only
        cases endFb e root kids n h kk x.2 c <;> rfl
      · exact ⟨⟨hpost.good.pend, hpost.good.conn, fun z hz => hpost.good.deps z (List.mem_filter.mp hz).1⟩,
          hpost.sub, hpost.made, hpost.mono⟩
    · simp only [if_neg hp]
      exact ⟨c, Ev.pure c, Post.refl hg⟩

theorem port_ok (w : World e root kids W rank) {m : Nat} {p : Path}
    (hR : ∀ c', Good W c' → c'.pend.length ≤ m → ∀ P h k, findPath root kids P = some (h, k) →
      (∃ y ∈ c'.pend, y.1.1 = P) → rank P < rank p → Halts e root kids W h k P c')
    {k : Key} {s : SigId} (hk : k.1 = p) (hw : W k s) {c : Ctx} (hg : Good W c) (hm : c.pend.length ≤ m) :
    ∃ c', Ev (fun n => finPort e root kids (endFb e root kids n) k s c) c' ∧ Post W c c' ∧ c'.conn.get k = some s := by
  unfold finPort
  cases hc : c.conn.get k with
  | some s' =>
    have : s' = s := w.unique k _ _ (hg.conn k s' hc) hw
    subst this
    exact ⟨c, Ev.pure c, Post.refl hg, hc⟩
  | none =>
    obtain ⟨c1, hev, hpost⟩ := resolve_ok w hR (hk ▸ w.rank k s hw) hg hm
    refine ⟨{ c1 with conn := c1.conn.set k s }, ?_, ?_, ?_⟩
    · refine Ev.congr (Ev.bind (g := fun _ c' => some
        (if hasSig root kids s && e.accepts c'.conn k s then { c' with conn := c'.conn.set k s } else c')) hev ?_) ?_
      · rw [w.sig k s hw, w.accepts c1.conn k s hpost.good.conn hw]
        exact Ev.pure _
      · intro n
        simp only [Option.isSome_none, Bool.false_eq_true, if_false]
        cases resolve root kids (endFb e root kids n) s c <;> rfl
    · have hmono : ∀ k' s', c1.conn.get k' = some s' → (c1.conn.set k s).get k' = some s' := by
        intro k' s' h
        rw [get_set]
        by_cases e' : k' = k
        · subst e'
          rw [if_pos rfl, w.unique k' _ _ (hpost.good.conn k' s' h) hw]
        · rw [if_neg e']; exact h
      refine hpost.trans ⟨⟨hpost.good.pend, ?_, hpost.good.deps⟩, List.Sublist.refl _, fun _ h => .inl h, hmono⟩
      intro k' s' h
      dsimp only at h
      rw [get_set] at h
      by_cases e' : k' = k
      · subst e'
        rw [if_pos rfl] at h
        cases h
        exact hw
      · rw [if_neg e'] at h
        exact hpost.good.conn k' s' h
    · dsimp only
      rw [get_set, if_pos rfl]

theorem ports_ok (w : World e root kids W rank) {m : Nat} {p : Path}
    (hR : ∀ c', Good W c' → c'.pend.length ≤ m → ∀ P h k, findPath root kids P = some (h, k) →
      (∃ y ∈ c'.pend, y.1.1 = P) → rank P < rank p → Halts e root kids W h k P c') :
    ∀ (l : List (Key × SigId)) (c : Ctx), (∀ x ∈ l, x.1.1 = p ∧ W x.1 x.2) → Good W c → c.pend.length ≤ m →
    ∃ c', Ev (fun n => l.foldlM (fun c x => finPort e root kids (endFb e root kids n) x.1 x.2 c) c) c' ∧ Post W c c'
      ∧ ∀ x ∈ l, c'.conn.get x.1 = some x.2
  | [], c, _, hg, _ => ⟨c, Ev.pure c, Post.refl hg, by simp⟩
  | x :: l, c, hl, hg, hm => by
    obtain ⟨c1, hev, hpost, hc⟩ := port_ok w hR (hl x (by simp)).1 (hl x (by simp)).2 hg hm
    obtain ⟨c2, hev2, hpost2, hc2⟩ := ports_ok w hR l c1 (fun y hy => hl y (by simp [hy])) hpost.good
      (Nat.le_trans hpost.sub.length_le hm)
    refine ⟨c2, ?_, hpost.trans hpost2, ?_⟩
    · exact Ev.congr (Ev.bind (g := fun n c => l.foldlM (fun c x => finPort e root kids (endFb e root kids n) x.1 x.2 c) c)
        hev hev2) (fun n => by rw [List.foldlM_cons]; rfl)
    · intro y hy
      rcases List.mem_cons.mp hy with rfl | hy
      · exact hpost2.mono _ _ hc
      · exact hc2 y hy

theorem kidLoop_ok {m : Nat} {p : Path} :
    ∀ (l : List (Head × Fbs)) (c : Ctx),
    (∀ x ∈ l, ∀ c', Good W c' → c'.pend.length ≤ m → Halts e root kids W x.1 x.2 (p ++ [x.1.id]) c') →
    Good W c → c.pend.length ≤ m →
    ∃ c', Ev (fun n => l.foldlM (fun c x => endFb e root kids n x.1 x.2 (p ++ [x.1.id]) c) c) c' ∧ Post W c c'
      ∧ ∀ x ∈ l, ∀ y ∈ c'.pend, ¬ (p ++ [x.1.id]) <+: y.1.1
  | [], c, _, hg, _ => ⟨c, Ev.pure c, Post.refl hg, by simp⟩
  | x :: l, c, hl, hg, hm => by
    obtain ⟨c1, hev, hpost, hc⟩ := hl x (by simp) c hg hm
    obtain ⟨c2, hev2, hpost2, hc2⟩ := kidLoop_ok l c1 (fun y hy => hl y (by simp [hy])) hpost.good
      (Nat.le_trans hpost.sub.length_le hm)
    refine ⟨c2, ?_, hpost.trans hpost2, ?_⟩
    · exact Ev.congr (Ev.bind (g := fun n c => l.foldlM (fun c x => endFb e root kids n x.1 x.2 (p ++ [x.1.id]) c) c)
        hev hev2) (fun n => by rw [List.foldlM_cons]; rfl)
    · intro z hz y hy
      rcases List.mem_cons.mp hz with rfl | hz
      · exact hc y (hpost2.sub.subset hy)
      · exact hc2 z hz y hy

theorem findFb_append (q : Path) : ∀ (p : Path) (h : Head) (k : Fbs) (h' k'), findFb h k p = some (h', k') →
    findFb h k (p ++ q) = findFb h' k' q
  | [], h, k, h', k', he => by cases he; rfl
  | i :: p, h, k, h', k', he => by
    simp only [List.cons_append, findFb] at he ⊢
    cases hg : k.get i with
    | none => rw [hg] at he; cases he
    | some x =>
      rw [hg] at he
      exact findFb_append q p x.1 x.2 h' k' he

theorem findPath_append {p : Path} {h k} (he : findPath root kids p = some (h, k)) (q : Path) :
    findPath root kids (p ++ q) = findFb h k q := by
  cases p with
  | nil => cases he
  | cons i p =>
    simp only [List.cons_append, findPath] at he ⊢
    split at he
    · rename_i hi
      rw [if_pos hi]
      exact findFb_append q p root kids h k he
    · cases he

theorem get_mem (i : String) : ∀ (k : Fbs) (x), k.get i = some x → x ∈ k.list ∧ x.1.id = i
  | .nil, x, h => by cases h
  | .cons h k r, x, hx => by
    simp only [Fbs.get] at hx
    split at hx
    · rename_i hi
      cases hx
      exact ⟨by simp [Fbs.list], hi⟩
    · have := get_mem i r x hx
      exact ⟨by simp [Fbs.list, this.1], this.2⟩

/-- A function block whose ports and nested function blocks come to an end does so itself. -/
theorem node_halts (w : World e root kids W rank) {h : Head} {k : Fbs} {p : Path} {c : Ctx}
    (hf : findPath root kids p = some (h, k)) (hg : Good W c)
    (hports : ∃ c', Ev (fun n => (c.pend.filter fun x => x.1.1 = p).foldlM
        (fun c x => finPort e root kids (endFb e root kids n) x.1 x.2 c) c) c' ∧ Post W c c'
      ∧ ∀ x ∈ c.pend.filter (fun x => x.1.1 = p), c'.conn.get x.1 = some x.2)
    (hkids : ∀ c2, Post W c c2 → (∀ x ∈ c2.pend, x.1.1 ≠ p) → ∃ c',
        Ev (fun n => k.list.foldlM (fun c x => endFb e root kids n x.1 x.2 (p ++ [x.1.id]) c) c2) c' ∧ Post W c2 c'
      ∧ ∀ x ∈ k.list, ∀ y ∈ c'.pend, ¬ (p ++ [x.1.id]) <+: y.1.1) :
    Halts e root kids W h k p c := by
  obtain ⟨c1, hev1, hpost1, hmade⟩ := hports
  have hall : ∀ x ∈ c.pend.filter (fun x => x.1.1 = p), (h.ports.any fun y => y.id = x.1.2) = true := by
    intro x hx
    have hx' := List.mem_filter.mp hx
    obtain ⟨h', k', hf', hp⟩ := w.port _ _ (hg.pend x hx'.1)
    have hxp : x.1.1 = p := by simpa using hx'.2
    rw [hxp, hf] at hf'
    cases hf'
    exact hp
  have hthere : (c.pend.filter fun x => x.1.1 = p).filter (fun x => h.ports.any fun y => y.id = x.1.2)
      = c.pend.filter fun x => x.1.1 = p := List.filter_eq_self.mpr hall
  have hlost : (c.pend.filter fun x => x.1.1 = p).filter (fun x => !h.ports.any fun y => y.id = x.1.2) = [] := by
    rw [List.filter_eq_nil_iff]
    intro x hx
    rw [hall x hx]
    simp
  have hpost2 : Post W c { c1 with pend := c1.pend.filter fun x => x.1.1 ≠ p } := by
    refine hpost1.trans ⟨⟨fun x hx => hpost1.good.pend x (List.mem_filter.mp hx).1, hpost1.good.conn, hpost1.good.deps⟩,
      List.filter_sublist, ?_, fun _ _ h => h⟩
    intro x hx
    by_cases hp : x.1.1 = p
    · exact .inr (hmade x (List.mem_filter.mpr ⟨hpost1.sub.subset hx, by simpa using hp⟩))
    · exact .inl (List.mem_filter.mpr ⟨hx, by simpa using hp⟩)
  obtain ⟨c3, hev3, hpost3, hclear⟩ := hkids _ hpost2 (by
    intro x hx
    simpa using (List.mem_filter.mp hx).2)
  refine ⟨c3, ?_, hpost2.trans hpost3, ?_⟩
  · apply Ev.shift
    have := Ev.bind (g := fun n c1 => k.list.foldlM (fun c x => endFb e root kids n x.1 x.2 (p ++ [x.1.id]) c)
        { c1 with pend := c1.pend.filter fun x => x.1.1 ≠ p }) hev1 hev3
    refine Ev.congr this ?_
    intro n
    change finNode e root kids (endFb e root kids n) h k p c = _
    unfold finNode
    dsimp only
    rw [hthere, hlost]
    cases (c.pend.filter fun x => x.1.1 = p).foldlM
        (fun c x => finPort e root kids (endFb e root kids n) x.1 x.2 c) c with
    | none => rfl
    | some c1 => rfl
  · intro y hy hpre
    obtain ⟨q, hq⟩ := hpre
    have hy2 := hpost3.sub.subset hy
    have hne : y.1.1 ≠ p := by simpa using (List.mem_filter.mp hy2).2
    cases q with
    | nil => exact hne (by rw [← hq]; simp)
    | cons i q =>
      obtain ⟨h', k', hf', _⟩ := w.port _ _ (hpost3.good.pend y hy)
      rw [← hq, findPath_append hf] at hf'
      simp only [findFb] at hf'
      cases hgi : k.get i with
      | none => rw [hgi] at hf'; cases hf'
      | some x =>
        have hx := get_mem i k x hgi
        refine hclear x hx.1 y hy ⟨q, ?_⟩
        rw [← hq, hx.2]
        simp

/-- The size of a tree. -/
def Fbs.size : Fbs → Nat
  | .nil => 0
  | .cons _ k r => 1 + k.size + r.size

theorem list_size : ∀ (k : Fbs) (x), x ∈ k.list → x.2.size < k.size
  | .nil, x, h => by simp [Fbs.list] at h
  | .cons h k r, x, hx => by
    simp only [Fbs.list, List.mem_cons] at hx
    rcases hx with rfl | hx
    · simp only [Fbs.size]; omega
    · have := list_size r x hx
      simp only [Fbs.size]; omega

/-- Every update comes to an end. -/
theorem halts (w : World e root kids W rank) : ∀ (m : Nat) (c : Ctx), Good W c → c.pend.length ≤ m →
    ∀ p h k, findPath root kids p = some (h, k) → Halts e root kids W h k p c := by
  intro m
  induction m using Nat.strongRecOn with
  | _ m ihm =>
    -- function blocks with ports to connect
    have stepA : ∀ (r : Nat) (p : Path), rank p ≤ r → ∀ c, Good W c → c.pend.length ≤ m → ∀ h k,
        findPath root kids p = some (h, k) → (∃ y ∈ c.pend, y.1.1 = p) → Halts e root kids W h k p c := by
      intro r
      induction r using Nat.strongRecOn with
      | _ r ihr =>
        intro p hrp c hg hm h k hf hy
        have hloop := ports_ok w (m := m) (p := p) (fun c' hg' hm' P h' k' hf' hy' hlt =>
            ihr (rank P) (Nat.lt_of_lt_of_le hlt hrp) P (Nat.le_refl _) c' hg' hm' h' k' hf' hy')
          (c.pend.filter fun x => x.1.1 = p) c
          (fun x hx => ⟨by simpa using (List.mem_filter.mp hx).2, hg.pend x (List.mem_filter.mp hx).1⟩) hg hm
        refine node_halts w hf hg hloop ?_
        intro c2 hpost hnone
        have hlt : c2.pend.length < c.pend.length := by
          rcases Nat.lt_or_ge c2.pend.length c.pend.length with h1 | h1
          · exact h1
          · obtain ⟨y, hy, hyp⟩ := hy
            have := hpost.sub.eq_of_length_le h1
            exact absurd hyp (hnone y (this ▸ hy))
        exact kidLoop_ok (m := c2.pend.length) k.list c2 (fun x hx c' hg' hm' =>
          ihm c2.pend.length (by omega) c' hg' hm' _ _ _ (w.kid p h k x hf hx)) hpost.good (Nat.le_refl _)
    -- the others
    have stepB : ∀ (z : Nat) (p : Path) (h : Head) (k : Fbs), k.size ≤ z → ∀ c, Good W c → c.pend.length ≤ m →
        findPath root kids p = some (h, k) → Halts e root kids W h k p c := by
      intro z
      induction z using Nat.strongRecOn with
      | _ z ihz =>
        intro p h k hz c hg hm hf
        by_cases hy : ∃ y ∈ c.pend, y.1.1 = p
        · exact stepA (rank p) p (Nat.le_refl _) c hg hm h k hf hy
        · have hnil : (c.pend.filter fun x => x.1.1 = p) = [] := by
            rw [List.filter_eq_nil_iff]
            intro x hx hxp
            exact hy ⟨x, hx, by simpa using hxp⟩
          refine node_halts w hf hg ?_ ?_
          · rw [hnil]
            exact ⟨c, Ev.pure c, Post.refl hg, by simp⟩
          · intro c2 hpost _
            exact kidLoop_ok (m := m) k.list c2 (fun x hx c' hg' hm' =>
              ihz x.2.size (Nat.lt_of_lt_of_le (list_size k x hx) hz) _ x.1 x.2 (Nat.le_refl _) c' hg' hm'
                (w.kid p h k x hf hx)) hpost.good (Nat.le_trans hpost.sub.length_le hm)
    intro c hg hm p h k hf
    exact stepB k.size p h k (Nat.le_refl _) c hg hm hf

end

end Verif.Config
