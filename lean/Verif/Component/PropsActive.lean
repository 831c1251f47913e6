import Verif.Component.PropsFolder

/-! # C58: the active state of components -/

namespace Verif.Component
open Verif.Graph

/-! ## Active is local and parent -/

def Act (m : Nat → Comp) : Prop := ∀ y, (m y).active = ((m y).localActive && (m y).parentActive)

theorem act_upd {m : Nat → Comp} (h : Act m) {x : Nat} {c : Comp} (hc : c.active = (c.localActive && c.parentActive)) :
    Act (upd m x c) := by
  intro y
  by_cases e : y = x
  · subst e; rw [upd_eq]; exact hc
  · rw [upd_ne _ _ e]; exact h y

theorem act_setParent {m : Nat → Comp} (h : Act m) (x : Nat) (v : Bool) : Act (upd m x (setParentOne v (m x))) :=
  act_upd h (by show (v && (m x).localActive) = ((m x).localActive && v); exact Bool.and_comm _ _)

theorem act_setLocal {m : Nat → Comp} (h : Act m) (x : Nat) (v : Bool) : Act (upd m x (setLocalOne v (m x))) :=
  act_upd h (by show ((m x).parentActive && v) = (v && (m x).parentActive); exact Bool.and_comm _ _)

theorem act_notifyAll {f : (Nat → Comp) → Nat → (Nat → Comp) × Bool} (hf : ∀ m x, Act m → Act (f m x).1) (l : List Nat) :
    ∀ m, Act m → Act (notifyAll f l m).1 := by
  induction l with
  | nil => intro m h; exact h
  | cons a l ih =>
    intro m h
    unfold notifyAll
    have := hf m a h
    split
    · rename_i m' e; rw [e] at this; exact ih m' this
    · rename_i m' e; rw [e] at this; exact this

theorem act_setParentActive (v : Bool) : ∀ n m x, Act m → Act (setParentActive v n m x).1 := by
  intro n
  induction n with
  | zero => intro m x h; exact h
  | succ n ih =>
    intro m x h
    unfold setParentActive
    split
    · exact h
    · split
      · exact h
      · split
        · exact act_setParent h x v
        · exact act_notifyAll (fun m x h => ih m x h) _ _ (act_setParent h x v)

theorem act_removeOne {c : Comp} (h : c.active = (c.localActive && c.parentActive)) :
    (removeOne c).active = ((removeOne c).localActive && (removeOne c).parentActive) := by
  show false = ((if c.active then false else c.localActive) && c.parentActive)
  cases ha : c.active
  · rw [ha] at h; simpa using h
  · rfl

theorem act_adv {m m' : Nat → Comp} (h : Act m) (ha : Adv (fun c : Comp => c.removed) removeOne m m') : Act m' := by
  intro y
  rcases ha y with e | ⟨-, e⟩
  · rw [e]; exact h y
  · rw [e]; exact act_removeOne (h y)

theorem act_step {s : St} (h : Act s.comp) (op : Op) : Act (step s op).1.comp := by
  cases op with
  | create p l fd lg =>
    unfold step create
    dsimp only
    split
    · exact h
    · split
      · exact h
      · split
        · exact h
        · exact act_upd h (by simp)
  | addItem f c =>
    unfold step
    dsimp only
    split
    · unfold addItem
      split
      · exact h
      · exact act_upd h (h f)
    · exact h
  | removeItem f c =>
    unfold step removeKey
    dsimp only
    split
    · split
      · exact h
      · split
        · exact act_adv h (removeAll_adv s _ _)
        · exact act_upd (act_adv h (removeAll_adv s _ _)) (act_adv h (removeAll_adv s _ _) f)
    · exact h
  | removeItemWithLocalId f k =>
    unfold step removeKey
    dsimp only
    split
    · split
      · exact h
      · split
        · exact act_adv h (removeAll_adv s _ _)
        · exact act_upd (act_adv h (removeAll_adv s _ _)) (act_adv h (removeAll_adv s _ _) f)
    · exact h
  | clear f =>
    unfold step clear
    dsimp only
    split
    · split
      · exact act_adv h (removeItems_adv s _ _)
      · exact act_upd (act_adv h (removeItems_adv s _ _)) (act_adv h (removeItems_adv s _ _) f)
    · exact h
  | remove c =>
    unfold step remove
    dsimp only
    split
    · split
      · exact h
      · exact act_adv h (removeAll_adv s _ _)
    · exact h
  | setActive c b =>
    unfold step setActive
    dsimp only
    split
    · split
      · exact h
      · split
        · exact h
        · split
          · exact act_setLocal h c b
          · have := act_notifyAll (fun m x h => act_setParentActive (upd s.comp c (setLocalOne b (s.comp c)) c).active
              (s.count + 1) m x h) ((s.comp c).items.map (·.2)) _ (act_setLocal h c b)
            split
            · rename_i m' e; rw [e] at this; exact this
            · rename_i m' e; rw [e] at this; exact this
    · exact h

theorem act_exec (ops : List Op) : Act (exec ops).1.comp := by
  unfold exec
  induction ops using list_snoc_induction with
  | nil => intro y; rfl
  | snoc ops op ih => rw [runTrace_snoc]; exact act_step ih op

/-! ## Propagation -/

/-- The item of `f` has not been told the active state of `f`. -/
def Bad (s : St) (m : Nat → Comp) (f i : Nat) : Prop := Holds s f i ∧ (m i).parentActive ≠ (m f).active

theorem holds_lt {s : St} (hw : WF s) (ho : Owned s) {f i : Nat} (h : Holds s f i) : f < i ∧ i < s.count := by
  obtain ⟨k, hk⟩ := h
  have h1 := (hw.item f k i hk).1
  exact ⟨hw.parent i f h1 (ho f i ⟨k, hk⟩), h1⟩

theorem holds_unique {s : St} (ho : Owned s) {f g i : Nat} (h1 : Holds s f i) (h2 : Holds s g i) : f = g := by
  have e1 := ho f i h1
  rw [ho g i h2] at e1
  exact (Option.some.inj e1).symm

/-- What telling the items of a subtree achieves. -/
structure Told (s : St) (m m' : Nat → Comp) (x : Nat) (E : Nat → Nat → Prop) : Prop where
  below : ∀ y, y < x → m' y = m y
  bad : ∀ f i, Bad s m' f i → E f i
  roots : ∀ y, (∀ f, ¬ Holds s f y) → (m' y).parentActive = (m y).parentActive
  loc : ∀ y, (m' y).localActive = (m y).localActive

theorem told_all {s : St} (hw : WF s) (ho : Owned s) (v : Bool) (x : Nat)
    {f : (Nat → Comp) → Nat → (Nat → Comp) × Bool}
    (hf : ∀ m a E, SameBut s.comp m → Act m → Holds s x a → (m x).active = v →
      (∀ g i, Bad s m g i → E g i ∨ i = a) → (f m a).2 = true ∧ SameBut m (f m a).1 ∧ Act (f m a).1 ∧ Told s m (f m a).1 a E)
    (l : List Nat) : ∀ m E, (∀ a ∈ l, Holds s x a) → SameBut s.comp m → Act m → (m x).active = v →
      (∀ g i, Bad s m g i → E g i ∨ (g = x ∧ i ∈ l)) →
      (notifyAll f l m).2 = true ∧ SameBut m (notifyAll f l m).1 ∧ Act (notifyAll f l m).1 ∧
        Told s m (notifyAll f l m).1 (x + 1) E := by
  induction l with
  | nil =>
    intro m E _ _ ha _ hb
    refine ⟨rfl, sameBut_refl m, ha, ⟨fun _ _ => rfl, ?_, fun _ _ => rfl, fun _ => rfl⟩⟩
    intro g i h
    rcases hb g i h with h | ⟨-, h⟩
    · exact h
    · cases h
  | cons a l ih =>
    intro m E hl hs ha hv hb
    have hxa := hl a List.mem_cons_self
    have hlt := (holds_lt hw ho hxa).1
    obtain ⟨h1, h2, h3, h4⟩ := hf m a (fun g i => E g i ∨ (g = x ∧ i ∈ l)) hs ha hxa hv (by
      intro g i h
      rcases hb g i h with h | ⟨h, h'⟩
      · exact .inl (.inl h)
      · rcases List.mem_cons.mp h' with e | h'
        · exact .inr e
        · exact .inl (.inr ⟨h, h'⟩))
    unfold notifyAll
    revert h1 h2 h3 h4
    generalize f m a = r
    obtain ⟨m', ok⟩ := r
    intro h1 h2 h3 h4
    dsimp only at h1 h2 h3 h4
    subst h1
    dsimp only
    have hx : (m' x).active = v := by rw [h4.below x hlt]; exact hv
    obtain ⟨k1, k2, k3, k4⟩ := ih m' E (fun b hb => hl b (List.mem_cons_of_mem _ hb)) (sameBut_trans hs h2) h3 hx h4.bad
    refine ⟨k1, sameBut_trans h2 k2, k3, ⟨?_, k4.bad, ?_, ?_⟩⟩
    · intro y hy; rw [k4.below y hy]; exact h4.below y (by omega)
    · intro y hy; rw [k4.roots y hy]; exact h4.roots y hy
    · intro y; rw [k4.loc y]; exact h4.loc y

theorem told_setParentActive {s : St} (hw : WF s) (ho : Owned s) (hr : ∀ f i, Holds s f i → (s.comp i).removed = false)
    (v : Bool) : ∀ n m x p E, SameBut s.comp m → Act m → Holds s p x → s.count < n + x → (m p).active = v →
      (∀ g i, Bad s m g i → E g i ∨ i = x) →
      (setParentActive v n m x).2 = true ∧ SameBut m (setParentActive v n m x).1 ∧ Act (setParentActive v n m x).1 ∧
        Told s m (setParentActive v n m x).1 x E := by
  intro n
  induction n with
  | zero =>
    intro m x p E _ _ hp hn
    have := (holds_lt hw ho hp).2
    omega
  | succ n ih =>
    intro m x p E hs ha hp hn hv hb
    obtain ⟨hpx, hxc⟩ := holds_lt hw ho hp
    have hrem : (m x).removed = false := by rw [sameBut_removed hs x]; exact hr p x hp
    unfold setParentActive
    rw [if_neg (by rw [hrem]; exact Bool.false_ne_true)]
    split
    · rename_i hpa
      have hpa : (m x).parentActive = v := by simpa using hpa
      refine ⟨rfl, sameBut_refl m, ha, ⟨fun _ _ => rfl, ?_, fun _ _ => rfl, fun _ => rfl⟩⟩
      intro g i h
      rcases hb g i h with h' | rfl
      · exact h'
      · exfalso
        have := holds_unique ho h.1 hp
        subst this
        exact h.2 (by rw [hpa, hv])
    · rename_i hpa
      have hpa : (m x).parentActive ≠ v := by simpa using hpa
      -- the entry into `x` is now as it should be; the other entries are those from `x`
      have hup : ∀ y, y ≠ x → upd m x (setParentOne v (m x)) y = m y := fun y hy => upd_ne _ _ hy
      have hbad : ∀ g i, Bad s (upd m x (setParentOne v (m x))) g i → E g i ∨
          (g = x ∧ i ∈ (m x).items.map (·.2) ∧ (upd m x (setParentOne v (m x)) x).active ≠ (m x).active) := by
        intro g i h
        obtain ⟨hh, hne⟩ := h
        by_cases hi : i = x
        · subst hi
          exfalso
          have := holds_unique ho hh hp
          subst this
          rw [upd_eq, hup _ (Nat.ne_of_lt hpx)] at hne
          exact hne (by rw [hv]; rfl)
        · rw [hup i hi] at hne
          by_cases hg : g = x
          · subst hg
            by_cases he : (upd m g (setParentOne v (m g)) g).active = (m g).active
            · left
              rw [he] at hne
              rcases hb g i ⟨hh, hne⟩ with h | h
              · exact h
              · exact absurd h hi
            · right
              obtain ⟨k, hk⟩ := hh
              refine ⟨rfl, List.mem_map.mpr ⟨(k, i), ?_, rfl⟩, he⟩
              rw [sameBut_items hs g]; exact hk
          · rw [hup g hg] at hne
            left
            rcases hb g i ⟨hh, hne⟩ with h | h
            · exact h
            · exact absurd h hi
      have hroots : ∀ y, (∀ f, ¬ Holds s f y) → (upd m x (setParentOne v (m x)) y).parentActive = (m y).parentActive := by
        intro y hy
        rw [hup y (fun e => hy p (e ▸ hp))]
      have hloc : ∀ y, (upd m x (setParentOne v (m x)) y).localActive = (m y).localActive := by
        intro y
        by_cases e : y = x
        · subst e; rw [upd_eq]; rfl
        · rw [hup y e]
      split
      · rename_i heq
        have heq : (v && (m x).localActive) = (m x).active := by simpa using heq
        refine ⟨rfl, sameBut_setParent m x v, act_setParent ha x v, ⟨fun y hy => hup y (Nat.ne_of_lt hy), ?_, hroots, hloc⟩⟩
        intro g i h
        rcases hbad g i h with h | ⟨-, -, h⟩
        · exact h
        · rw [upd_eq] at h; exact absurd heq h
      · rename_i heq
        have heq : (v && (m x).localActive) ≠ (m x).active := by simpa using heq
        have hval : (v && (m x).localActive) = v := by
          have h := ha x
          rw [h] at heq
          revert heq hpa
          cases v <;> cases (m x).localActive <;> cases (m x).parentActive <;> simp
        have hkids : ∀ a ∈ (m x).items.map (·.2), Holds s x a := by
          intro a hm
          rw [sameBut_items hs x] at hm
          obtain ⟨⟨k, i⟩, hm', rfl⟩ := List.mem_map.mp hm
          exact ⟨k, hm'⟩
        obtain ⟨k1, k2, k3, k4⟩ := told_all hw ho v x (f := setParentActive v n)
          (fun m' a E' hs' ha' hh hv' hb' => ih m' a x E' hs' ha' hh
            (by have := (holds_lt hw ho hh).1; omega) hv' hb')
          ((m x).items.map (·.2)) (upd m x (setParentOne v (m x))) E hkids
          (sameBut_trans hs (sameBut_setParent m x v)) (act_setParent ha x v)
          (by rw [upd_eq]; exact hval)
          (fun g i h => (hbad g i h).imp_right (fun h => ⟨h.1, h.2.1⟩))
        refine ⟨k1, sameBut_trans (sameBut_setParent m x v) k2, k3, ⟨?_, k4.bad, ?_, ?_⟩⟩
        · intro y hy; rw [k4.below y (by omega)]; exact hup y (Nat.ne_of_lt hy)
        · intro y hy; rw [k4.roots y hy]; exact hroots y hy
        · intro y; rw [k4.loc y]; exact hloc y

/-! ## The invariant -/

/-- Items are not removed and know the active state of their folder; components without parent are told nothing. -/
structure Synced (s : St) : Prop where
  owned : Owned s
  live : ∀ f i, Holds s f i → (s.comp i).removed = false
  told : ∀ f i, Holds s f i → (s.comp i).parentActive = (s.comp f).active
  root : ∀ c, c < s.count → (s.comp c).parent = none → (s.comp c).parentActive = true

theorem synced_setActive {s : St} (hw : WF s) (ha : Act s.comp) (h : Synced s) (c : Nat) (b : Bool) :
    Synced (setActive s c b).1 ∧ ((s.comp c).removed = false → (setActive s c b).2 = .ok ∨ (setActive s c b).2 = .ignored) ∧
    ((s.comp c).removed = false → ∀ y, ((setActive s c b).1.comp y).localActive = if y = c then b else (s.comp y).localActive) := by
  unfold setActive
  split
  · rename_i hr; exact ⟨h, fun e => (by rw [hr] at e; cases e), fun e => (by rw [hr] at e; cases e)⟩
  · split
    · rename_i hb
      refine ⟨h, fun _ => .inr rfl, fun _ y => ?_⟩
      have hb : b = (s.comp c).localActive := by simpa using hb
      split
      · rename_i e; rw [e, hb]
      · rfl
    · dsimp only
      have hup : ∀ y, y ≠ c → upd s.comp c (setLocalOne b (s.comp c)) y = s.comp y := fun y hy => upd_ne _ _ hy
      have hpar : ∀ y, (upd s.comp c (setLocalOne b (s.comp c)) y).parentActive = (s.comp y).parentActive := by
        intro y
        by_cases e : y = c
        · subst e; rw [upd_eq]; rfl
        · rw [hup y e]
      have hloc : ∀ y, (upd s.comp c (setLocalOne b (s.comp c)) y).localActive =
          if y = c then b else (s.comp y).localActive := by
        intro y
        by_cases e : y = c
        · subst e; rw [upd_eq, if_pos rfl]; rfl
        · rw [hup y e, if_neg e]
      have hbad : ∀ g i, Bad s (upd s.comp c (setLocalOne b (s.comp c))) g i →
          (upd s.comp c (setLocalOne b (s.comp c)) c).active ≠ (s.comp c).active ∧ g = c := by
        intro g i hb
        obtain ⟨hh, hne⟩ := hb
        rw [hpar i] at hne
        by_cases e : g = c
        · subst e
          refine ⟨fun he => hne ?_, rfl⟩
          rw [he]; exact h.told g i hh
        · rw [hup g e] at hne
          exact absurd (h.told g i hh) hne
      have mk : ∀ m', SameBut s.comp m' → (∀ g i, ¬ Bad s m' g i) →
          (∀ y, (∀ f, ¬ Holds s f y) → (m' y).parentActive = (s.comp y).parentActive) → Synced { s with comp := m' } := by
        intro m' hs hnb hrt
        have hh : ∀ f i, Holds { s with comp := m' } f i → Holds s f i := by
          rintro f i ⟨k, hk⟩; exact ⟨k, by rw [← sameBut_items hs f]; exact hk⟩
        refine ⟨?_, ?_, ?_, ?_⟩
        · intro f i hf
          show (m' i).parent = _
          rw [(sameBut_shrink hs i).2.2.1]; exact h.owned f i (hh f i hf)
        · intro f i hf
          show (m' i).removed = false
          rw [sameBut_removed hs i]; exact h.live f i (hh f i hf)
        · intro f i hf
          by_contra hne
          exact hnb f i ⟨hh f i hf, hne⟩
        · intro x hx hp
          have hp : (m' x).parent = none := hp
          rw [(sameBut_shrink hs x).2.2.1] at hp
          show (m' x).parentActive = true
          rw [hrt x (fun f hf => by have := h.owned f x hf; rw [hp] at this; cases this)]
          exact h.root x hx hp
      split
      · rename_i heq
        have heq : (upd s.comp c (setLocalOne b (s.comp c)) c).active = (s.comp c).active := by simpa using heq
        refine ⟨mk _ (sameBut_setLocal _ _ _) (fun g i hb => (hbad g i hb).1 heq) (fun y _ => hpar y), fun _ => .inr rfl, fun _ => hloc⟩
      · obtain ⟨k1, k2, -, k4⟩ := told_all hw h.owned (upd s.comp c (setLocalOne b (s.comp c)) c).active c
          (f := setParentActive (upd s.comp c (setLocalOne b (s.comp c)) c).active (s.count + 1))
          (fun m' a E' hs' ha' hh hv' hb' => told_setParentActive hw h.owned h.live _ _ m' a c E' hs' ha' hh (by omega) hv' hb')
          ((s.comp c).items.map (·.2)) (upd s.comp c (setLocalOne b (s.comp c))) (fun _ _ => False)
          (by
            intro a hm
            obtain ⟨⟨k, i⟩, hm', rfl⟩ := List.mem_map.mp hm
            exact ⟨k, hm'⟩)
          (sameBut_setLocal _ _ _) (act_setLocal ha c b) rfl
          (by
            intro g i hb
            obtain ⟨-, e⟩ := hbad g i hb
            obtain ⟨⟨k, hk⟩, -⟩ := hb
            subst e
            exact .inr ⟨rfl, List.mem_map.mpr ⟨_, hk, rfl⟩⟩)
        have hres : Synced { s with comp := (notifyAll (setParentActive (upd s.comp c (setLocalOne b (s.comp c)) c).active
            (s.count + 1)) ((s.comp c).items.map (·.2)) (upd s.comp c (setLocalOne b (s.comp c)))).1 } :=
          mk _ (sameBut_trans (sameBut_setLocal _ _ _) k2) (fun g i hb => k4.bad g i hb)
            (fun y hy => (k4.roots y hy).trans (hpar y))
        have hl := k4.loc
        split
        · rename_i m' e
          rw [e] at hres hl
          exact ⟨hres, fun _ => .inl rfl, fun _ y => (hl y).trans (hloc y)⟩
        · rename_i m' e
          rw [e] at k1
          cases k1

/-- Taking a subtree, the top of which is held by nobody but `f`, out of the tree. -/
theorem synced_removeAll {s : St} (hw : WF s) (h : Synced s) {i : Nat} (hi : i < s.count) (m' : Nat → Comp)
    (hm : Shrink (removeAll s s.comp i) m')
    (hsame : ∀ y, (m' y).removed = (removeAll s s.comp i y).removed ∧ (m' y).parentActive = (removeAll s s.comp i y).parentActive ∧
      (m' y).active = (removeAll s s.comp i y).active)
    (hout : ∀ f, ¬ Below s i f → ∀ k, (k, i) ∉ (m' f).items) : Synced { s with comp := m' } := by
  have hsh := shrink_trans (shrink_adv (removeAll_adv s s.comp i)) hm
  have hheld : ∀ f j, Holds { s with comp := m' } f j → Holds s f j := by
    rintro f j ⟨k, hk⟩; exact ⟨k, (hsh f).2.2.2.2.subset hk⟩
  -- neither a holder nor an item is below `i`
  have hnot : ∀ f j, Holds { s with comp := m' } f j → ¬ Below s i f ∧ ¬ Below s i j := by
    intro f j hh
    have hf : ¬ Below s i f := by
      intro hb
      obtain ⟨k, hk⟩ := hh
      have := (hm f).2.2.2.2.subset hk
      rw [(removeAll_eq hw hi f).1 hb] at this
      cases this
    refine ⟨hf, fun hb => ?_⟩
    cases hb with
    | start _ => obtain ⟨k, hk⟩ := hh; exact hout f hf k hk
    | step g _ hg hgj _ =>
      have := holds_unique h.owned (hheld f j hh) hgj
      subst this
      exact hf hg
  refine ⟨?_, ?_, ?_, ?_⟩
  · intro f j hh
    show (m' j).parent = _
    rw [(hsh j).2.2.1]; exact h.owned f j (hheld f j hh)
  · intro f j hh
    show (m' j).removed = false
    rw [(hsame j).1, (removeAll_eq hw hi j).2 (hnot f j hh).2]
    exact h.live f j (hheld f j hh)
  · intro f j hh
    show (m' j).parentActive = (m' f).active
    rw [(hsame j).2.1, (hsame f).2.2, (removeAll_eq hw hi j).2 (hnot f j hh).2, (removeAll_eq hw hi f).2 (hnot f j hh).1]
    exact h.told f j (hheld f j hh)
  · intro c hc hp
    show (m' c).parentActive = true
    have hp : (m' c).parent = none := hp
    rw [(hsh c).2.2.1] at hp
    rw [(hsame c).2.1]
    have := h.root c hc hp
    by_cases hb : Below s i c
    · rw [(removeAll_eq hw hi c).1 hb]; exact this
    · rw [(removeAll_eq hw hi c).2 hb]; exact this

theorem synced_removeKey {s : St} (hw : WF s) (h : Synced s) (f : Nat) (k : Str) : Synced (removeKey s f k).1 := by
  unfold removeKey
  split
  · exact h
  · rename_i i hg
    have hi := mem_of_getItem hg
    have hlt := (hw.item f k i hi).1
    have hk := (hw.item f k i hi).2
    have hnb : ¬ Below s i f := by
      intro hb
      have h1 := below_lt hw h.owned hb
      have h2 := (holds_lt hw h.owned (f := f) (i := i) ⟨k, hi⟩).1
      omega
    have hf := (removeAll_eq hw hlt f).2 hnb
    dsimp only
    rw [hf]
    rw [if_neg (by simp)]
    refine synced_removeAll hw h hlt _ ?_ ?_ ?_
    · have := shrink_dropItem (removeAll s s.comp i) f k
      rw [hf] at this; exact this
    · intro y
      by_cases e : y = f
      · subst e; rw [upd_eq, hf]; exact ⟨rfl, rfl, rfl⟩
      · rw [upd_ne _ _ e]; exact ⟨rfl, rfl, rfl⟩
    · intro g hg k' hk'
      by_cases e : g = f
      · subst e
        rw [upd_eq] at hk'
        have := List.mem_filter.mp hk'
        have h1 := (hw.item g k' i this.1).2
        rw [← hk] at h1
        subst h1
        simp at this
      · rw [upd_ne _ _ e, (removeAll_eq hw hlt g).2 hg] at hk'
        exact e (holds_unique h.owned ⟨k', hk'⟩ ⟨k, hi⟩)

theorem synced_clear {s : St} (hw : WF s) (h : Synced s) (f : Nat) : Synced (clear s f).1 := by
  have hx : ∀ x ∈ (s.comp f).items.map (·.2), x < s.count := by
    intro x hx
    obtain ⟨⟨k, i⟩, hm, rfl⟩ := List.mem_map.mp hx
    exact (hw.item f k i hm).1
  have hiff : ∀ y, (∃ x ∈ (s.comp f).items.map (·.2), Below s x y) ↔ ∃ i, Holds s f i ∧ Below s i y := by
    intro y
    constructor
    · rintro ⟨x, hx, h⟩
      obtain ⟨⟨k, i⟩, hm, rfl⟩ := List.mem_map.mp hx
      exact ⟨i, ⟨k, hm⟩, h⟩
    · rintro ⟨i, ⟨k, hm⟩, h⟩
      exact ⟨i, List.mem_map.mpr ⟨_, hm, rfl⟩, h⟩
  have hall := removeItems_eq hw hx
  simp only [hiff] at hall
  have hsh0 := shrink_adv (removeItems_adv s s.comp ((s.comp f).items.map (·.2)))
  unfold clear
  dsimp only
  revert hall hsh0
  generalize ((s.comp f).items.map (·.2)).foldl (removeAll s) s.comp = m
  intro hall hsh0
  have hff : m f = s.comp f := by
    apply (hall f).2
    rintro ⟨i, h1, h2⟩
    have h3 := below_lt hw h.owned h2
    have h4 := (holds_lt hw h.owned h1).1
    omega
  rw [hff, if_neg (by simp)]
  have hsame : ∀ y, (upd m f (noItems (s.comp f)) y).removed = (m y).removed ∧
      (upd m f (noItems (s.comp f)) y).parentActive = (m y).parentActive ∧
      (upd m f (noItems (s.comp f)) y).active = (m y).active := by
    intro y
    by_cases e : y = f
    · subst e; rw [upd_eq, hff]; exact ⟨rfl, rfl, rfl⟩
    · rw [upd_ne _ _ e]; exact ⟨rfl, rfl, rfl⟩
  have hsh1 : Shrink m (upd m f (noItems (s.comp f))) := by
    have := shrink_noItems m f; rwa [hff] at this
  have hsh := shrink_trans hsh0 hsh1
  have hheld : ∀ g j, Holds { s with comp := upd m f (noItems (s.comp f)) } g j → Holds s g j := by
    rintro g j ⟨k, hk⟩; exact ⟨k, (hsh g).2.2.2.2.subset hk⟩
  have hnot : ∀ g j, Holds { s with comp := upd m f (noItems (s.comp f)) } g j →
      (¬ ∃ i, Holds s f i ∧ Below s i g) ∧ (¬ ∃ i, Holds s f i ∧ Below s i j) := by
    intro g j hh
    have hgf : g ≠ f := by
      rintro rfl
      obtain ⟨k, hk⟩ := hh
      have hk : (k, j) ∈ (upd m g (noItems (s.comp g)) g).items := hk
      rw [upd_eq] at hk; cases hk
    have hg : ¬ ∃ i, Holds s f i ∧ Below s i g := by
      intro hb
      obtain ⟨k, hk⟩ := hh
      have := (hsh1 g).2.2.2.2.subset hk
      rw [(hall g).1 hb] at this; cases this
    refine ⟨hg, ?_⟩
    rintro ⟨i, hi, hb⟩
    cases hb with
    | start _ => exact hgf (holds_unique h.owned (hheld g j hh) hi)
    | step g' _ hg' hgj _ =>
      have := holds_unique h.owned (hheld g j hh) hgj
      subst this
      exact hg ⟨i, hi, hg'⟩
  refine ⟨?_, ?_, ?_, ?_⟩
  · intro g j hh
    show (upd m f (noItems (s.comp f)) j).parent = _
    rw [(hsh j).2.2.1]; exact h.owned g j (hheld g j hh)
  · intro g j hh
    show (upd m f (noItems (s.comp f)) j).removed = false
    rw [(hsame j).1, (hall j).2 (hnot g j hh).2]
    exact h.live g j (hheld g j hh)
  · intro g j hh
    show (upd m f (noItems (s.comp f)) j).parentActive = (upd m f (noItems (s.comp f)) g).active
    rw [(hsame j).2.1, (hsame g).2.2, (hall j).2 (hnot g j hh).2, (hall g).2 (hnot g j hh).1]
    exact h.told g j (hheld g j hh)
  · intro c hc hp
    show (upd m f (noItems (s.comp f)) c).parentActive = true
    have hp : (upd m f (noItems (s.comp f)) c).parent = none := hp
    rw [(hsh c).2.2.1] at hp
    rw [(hsame c).2.1]
    have := h.root c hc hp
    by_cases hb : ∃ i, Holds s f i ∧ Below s i c
    · rw [(hall c).1 hb]; exact this
    · rw [(hall c).2 hb]; exact this

theorem synced_step {s : St} {op : Op} (hw : WF s) (ha : Act s.comp) (ho : OwnParent s op) (hp : Prompt s op) (h : Synced s) :
    Synced (step s op).1 := by
  cases op with
  | create p l fd lg =>
    have hc := change_step s (.create p l fd lg)
    revert hc
    unfold step create
    dsimp only
    split
    · intro _; exact h
    · rename_i hpo
      split
      · intro _; exact h
      · split
        · intro _; exact h
        · intro _
          have hne : ∀ x, x < s.count → x ≠ s.count := fun x hx => Nat.ne_of_lt hx
          have key : ∀ c : Comp, c.items = [] → c.parent = p → (p = none → c.parentActive = true) →
              Synced { count := s.count + 1, comp := upd s.comp s.count c } := by
            intro c hci hcp hca
            have hh : ∀ f i, Holds { count := s.count + 1, comp := upd s.comp s.count c } f i →
                Holds s f i ∧ f ≠ s.count ∧ i ≠ s.count := by
              rintro f i ⟨k, hk⟩
              have hk : (k, i) ∈ (upd s.comp s.count c f).items := hk
              have hf : f ≠ s.count := by
                rintro rfl; rw [upd_eq, hci] at hk; cases hk
              rw [upd_ne _ _ hf] at hk
              exact ⟨⟨k, hk⟩, hf, hne i (hw.item f k i hk).1⟩
            refine ⟨?_, ?_, ?_, ?_⟩
            · intro f i hf
              obtain ⟨h1, h2, h3⟩ := hh f i hf
              show (upd s.comp s.count c i).parent = _
              rw [upd_ne _ _ h3]; exact h.owned f i h1
            · intro f i hf
              obtain ⟨h1, h2, h3⟩ := hh f i hf
              show (upd s.comp s.count c i).removed = _
              rw [upd_ne _ _ h3]; exact h.live f i h1
            · intro f i hf
              obtain ⟨h1, h2, h3⟩ := hh f i hf
              show (upd s.comp s.count c i).parentActive = (upd s.comp s.count c f).active
              rw [upd_ne _ _ h3, upd_ne _ _ h2]; exact h.told f i h1
            · intro x hx hpx
              show (upd s.comp s.count c x).parentActive = true
              have hpx : (upd s.comp s.count c x).parent = none := hpx
              by_cases e : x = s.count
              · subst e; rw [upd_eq] at hpx ⊢; exact hca (by rw [← hcp]; exact hpx)
              · rw [upd_ne _ _ e] at hpx ⊢
                exact h.root x (by have : x < s.count + 1 := hx; omega) hpx
          exact key _ rfl rfl (by rintro rfl; rfl)
  | addItem f c =>
    unfold step
    dsimp only
    split
    · rename_i hg
      unfold addItem
      split
      · exact h
      · have hsame : ∀ y, (upd s.comp f (appendItem (s.comp f) (s.comp c).localId c) y).removed = (s.comp y).removed ∧
            (upd s.comp f (appendItem (s.comp f) (s.comp c).localId c) y).parentActive = (s.comp y).parentActive ∧
            (upd s.comp f (appendItem (s.comp f) (s.comp c).localId c) y).active = (s.comp y).active ∧
            (upd s.comp f (appendItem (s.comp f) (s.comp c).localId c) y).parent = (s.comp y).parent := by
          intro y
          by_cases e : y = f
          · subst e; rw [upd_eq]; exact ⟨rfl, rfl, rfl, rfl⟩
          · rw [upd_ne _ _ e]; exact ⟨rfl, rfl, rfl, rfl⟩
        have hh : ∀ g i, Holds { s with comp := upd s.comp f (appendItem (s.comp f) (s.comp c).localId c) } g i →
            Holds s g i ∨ (g = f ∧ i = c) := by
          rintro g i ⟨k, hk⟩
          have hk : (k, i) ∈ (upd s.comp f (appendItem (s.comp f) (s.comp c).localId c) g).items := hk
          by_cases e : g = f
          · subst e
            rw [upd_eq] at hk
            rcases List.mem_append.mp hk with hk | hk
            · exact .inl ⟨k, hk⟩
            · simp at hk; exact .inr ⟨rfl, hk.2⟩
          · rw [upd_ne _ _ e] at hk; exact .inl ⟨k, hk⟩
        refine ⟨?_, ?_, ?_, ?_⟩
        · intro g i hgi
          show (upd s.comp f (appendItem (s.comp f) (s.comp c).localId c) i).parent = _
          rw [(hsame i).2.2.2]
          rcases hh g i hgi with h1 | ⟨rfl, rfl⟩
          · exact h.owned g i h1
          · exact ho
        · intro g i hgi
          show (upd s.comp f (appendItem (s.comp f) (s.comp c).localId c) i).removed = _
          rw [(hsame i).1]
          rcases hh g i hgi with h1 | ⟨rfl, rfl⟩
          · exact h.live g i h1
          · exact hp.2.1
        · intro g i hgi
          show (upd s.comp f (appendItem (s.comp f) (s.comp c).localId c) i).parentActive =
            (upd s.comp f (appendItem (s.comp f) (s.comp c).localId c) g).active
          rw [(hsame i).2.1, (hsame g).2.2.1]
          rcases hh g i hgi with h1 | ⟨rfl, rfl⟩
          · exact h.told g i h1
          · exact hp.1
        · intro x hx hpx
          show (upd s.comp f (appendItem (s.comp f) (s.comp c).localId c) x).parentActive = true
          have hpx : (upd s.comp f (appendItem (s.comp f) (s.comp c).localId c) x).parent = none := hpx
          rw [(hsame x).2.2.2] at hpx
          rw [(hsame x).2.1]
          exact h.root x hx hpx
    · exact h
  | removeItem f c =>
    unfold step
    dsimp only
    split
    · exact synced_removeKey hw h f _
    · exact h
  | removeItemWithLocalId f k =>
    unfold step
    dsimp only
    split
    · exact synced_removeKey hw h f _
    · exact h
  | clear f =>
    unfold step
    dsimp only
    split
    · exact synced_clear hw h f
    · exact h
  | remove c =>
    unfold step
    dsimp only
    split
    · rename_i hc
      unfold remove
      split
      · exact h
      · refine synced_removeAll hw h hc _ (shrink_refl _) (fun _ => ⟨rfl, rfl, rfl⟩) ?_
        intro f hf k hk
        rw [(removeAll_eq hw hc f).2 hf] at hk
        exact hp f ⟨k, hk⟩
    · exact h
  | setActive c b =>
    unfold step
    dsimp only
    split
    · exact (synced_setActive hw ha h c b).1
    · exact h

theorem synced_exec (ops : List Op) (ho : Along OwnParent init ops) (hp : Along Prompt init ops) : Synced (exec ops).1 := by
  unfold exec
  induction ops using list_snoc_induction with
  | nil =>
    refine ⟨?_, ?_, ?_, fun c hc => absurd hc (Nat.not_lt_zero _)⟩ <;> (rintro f i ⟨k, hk⟩; cases hk)
  | snoc ops op ih =>
    obtain ⟨h1, h2⟩ := along_snoc ops op _ ho
    obtain ⟨h3, h4⟩ := along_snoc ops op _ hp
    rw [runTrace_snoc]
    exact synced_step (wf_exec ops) (act_exec ops) h2 h4 (ih h1 h3)

/-! ## Removed components -/

def Still (m : Nat → Comp) : Prop := ∀ y, (m y).removed = true → (m y).active = false

theorem still_adv {m m' : Nat → Comp} (h : Still m) (ha : Adv (fun c : Comp => c.removed) removeOne m m') : Still m' := by
  intro y
  rcases ha y with e | ⟨-, e⟩
  · rw [e]; exact h y
  · rw [e]; intro _; rfl

theorem still_upd {m : Nat → Comp} (h : Still m) {x : Nat} {c : Comp} (hc : c.removed = true → c.active = false) :
    Still (upd m x c) := by
  intro y
  by_cases e : y = x
  · subst e; rw [upd_eq]; exact hc
  · rw [upd_ne _ _ e]; exact h y

theorem still_notifyAll {f : (Nat → Comp) → Nat → (Nat → Comp) × Bool} (hf : ∀ m x, Still m → Still (f m x).1) (l : List Nat) :
    ∀ m, Still m → Still (notifyAll f l m).1 := by
  induction l with
  | nil => intro m h; exact h
  | cons a l ih =>
    intro m h
    unfold notifyAll
    have := hf m a h
    split
    · rename_i m' e; rw [e] at this; exact ih m' this
    · rename_i m' e; rw [e] at this; exact this

theorem still_setParentActive (v : Bool) : ∀ n m x, Still m → Still (setParentActive v n m x).1 := by
  intro n
  induction n with
  | zero => intro m x h; exact h
  | succ n ih =>
    intro m x h
    unfold setParentActive
    split
    · exact h
    · rename_i hr
      have hu : Still (upd m x (setParentOne v (m x))) := still_upd h (fun e => absurd e hr)
      split
      · exact h
      · split
        · exact hu
        · exact still_notifyAll (fun m x h => ih m x h) _ _ hu

theorem still_removeKey {s : St} (h : Still s.comp) (f : Nat) (k : Str) : Still (removeKey s f k).1.comp := by
  unfold removeKey
  split
  · exact h
  · dsimp only
    split
    · exact still_adv h (removeAll_adv s _ _)
    · exact still_upd (still_adv h (removeAll_adv s _ _)) (still_adv h (removeAll_adv s _ _) f)

theorem still_step {s : St} (h : Still s.comp) (op : Op) : Still (step s op).1.comp := by
  cases op with
  | create p l fd lg =>
    unfold step create
    dsimp only
    split
    · exact h
    · split
      · exact h
      · split
        · exact h
        · exact still_upd h (fun e => by cases e)
  | addItem f c =>
    unfold step
    dsimp only
    split
    · unfold addItem
      split
      · exact h
      · exact still_upd h (h f)
    · exact h
  | removeItem f c =>
    unfold step
    dsimp only
    split
    · exact still_removeKey h f _
    · exact h
  | removeItemWithLocalId f k =>
    unfold step
    dsimp only
    split
    · exact still_removeKey h f _
    · exact h
  | clear f =>
    unfold step clear
    dsimp only
    split
    · split
      · exact still_adv h (removeItems_adv s _ _)
      · exact still_upd (still_adv h (removeItems_adv s _ _)) (still_adv h (removeItems_adv s _ _) f)
    · exact h
  | remove c =>
    unfold step remove
    dsimp only
    split
    · split
      · exact h
      · exact still_adv h (removeAll_adv s _ _)
    · exact h
  | setActive c b =>
    unfold step setActive
    dsimp only
    split
    · split
      · exact h
      · rename_i hr
        have hu : Still (upd s.comp c (setLocalOne b (s.comp c))) := still_upd h (fun e => absurd e hr)
        split
        · exact h
        · split
          · exact hu
          · have := still_notifyAll (fun m x h => still_setParentActive (upd s.comp c (setLocalOne b (s.comp c)) c).active
              (s.count + 1) m x h) ((s.comp c).items.map (·.2)) _ hu
            split
            · rename_i m' e; rw [e] at this; exact this
            · rename_i m' e; rw [e] at this; exact this
    · exact h

theorem removed_inactive (ops : List Op) : Still (exec ops).1.comp := by
  unfold exec
  induction ops using list_snoc_induction with
  | nil => intro y h; cases h
  | snoc ops op ih => rw [runTrace_snoc]; exact still_step ih op

/-! ## C58 -/

/-- **C58** A component is active exactly when it is locally active and has been told that its parent is. -/
theorem C58_own (ops : List Op) (c : Nat) :
    ((exec ops).1.comp c).active = (((exec ops).1.comp c).localActive && ((exec ops).1.comp c).parentActive) :=
  act_exec ops c

/-- **C58** When components are added to their parent while it is in the active state in which it was when they were
created, and are removed through their folder: a component that a root contains is active exactly when the root and
every component on the way to it, itself included, is locally active. -/
theorem C58_effective_partial (ops : List Op) (ho : Along OwnParent init ops) (hp : Along Prompt init ops) (root d : Nat)
    (hr : root < (exec ops).1.count) (hroot : ((exec ops).1.comp root).parent = none) (p : List Str)
    (hl : Leads (exec ops).1 root p d) :
    ((exec ops).1.comp d).active = true ↔
      ∀ p1 p2 x, p = p1 ++ p2 → Leads (exec ops).1 root p1 x → Leads (exec ops).1 x p2 d →
        ((exec ops).1.comp x).localActive = true := by
  have hs := synced_exec ops ho hp
  have ha := act_exec ops
  have hw := wf_exec ops
  have hact : ((exec ops).1.comp root).active = ((exec ops).1.comp root).localActive := by
    rw [ha root, hs.root root hr hroot, Bool.and_true]
  revert hs ha hw hact hl
  generalize (exec ops).1 = s
  intro hl hs ha hw hact
  -- relative to any start
  have key : ∀ c p d, Leads s c p d → ((s.comp d).active = true ↔ (s.comp c).active = true ∧
      ∀ p1 p2 x, p = p1 ++ p2 → p1 ≠ [] → Leads s c p1 x → Leads s x p2 d → (s.comp x).localActive = true) := by
    intro c p d h
    induction h with
    | nil c =>
      constructor
      · intro h
        refine ⟨h, fun p1 p2 x e hne => ?_⟩
        have := List.append_eq_nil_iff.mp e.symm
        exact absurd this.1 hne
      · exact fun h => h.1
    | cons c i d k p hk hq ih =>
      rw [ih]
      have hi : (s.comp i).active = ((s.comp i).localActive && (s.comp c).active) := by
        rw [ha i, hs.told c i ⟨k, hk⟩]
      rw [hi, Bool.and_eq_true]
      constructor
      · rintro ⟨⟨h1, h2⟩, h3⟩
        refine ⟨h2, ?_⟩
        intro p1 p2 x e hne hl1 hl2
        cases p1 with
        | nil => exact absurd rfl hne
        | cons a p1 =>
          rw [List.cons_append] at e
          obtain ⟨rfl, rfl⟩ := List.cons.inj e
          cases hl1 with
          | cons _ j _ _ _ hj hn =>
            have e' := get_of_mem (hw.nodup c) hk
            rw [get_of_mem (hw.nodup c) hj] at e'
            have e' : j = i := Option.some.inj e'
            subst e'
            cases p1 with
            | nil => cases hn; exact h1
            | cons b p1 => exact h3 (b :: p1) p2 x rfl (by simp) hn hl2
      · rintro ⟨h2, h3⟩
        refine ⟨⟨h3 [k] p i rfl (by simp) (leads_one.mpr hk) hq, h2⟩, ?_⟩
        intro p1 p2 x e hne hl1 hl2
        exact h3 (k :: p1) p2 x (by rw [e]; rfl) (by simp) (.cons _ _ _ _ _ hk hl1) hl2
  rw [key root p d hl, hact]
  constructor
  · rintro ⟨h1, h2⟩ p1 p2 x e hl1 hl2
    cases p1 with
    | nil => cases hl1; exact h1
    | cons a p1 => exact h2 (a :: p1) p2 x e (by simp) hl1 hl2
  · intro h
    exact ⟨h [] p root rfl (.nil _) hl, fun p1 p2 x e _ hl1 hl2 => h p1 p2 x e hl1 hl2⟩

/-- **C58** In such histories `setActive` of a component that is not removed never fails, and sets the local state of
that component and of no other. -/
theorem C58_set_partial (ops : List Op) (ho : Along OwnParent init ops) (hp : Along Prompt init ops) (c : Nat) (b : Bool)
    (hc : c < (exec ops).1.count) (hr : ((exec ops).1.comp c).removed = false) :
    ((step (exec ops).1 (.setActive c b)).2 = .ok ∨ (step (exec ops).1 (.setActive c b)).2 = .ignored) ∧
    ∀ y, ((step (exec ops).1 (.setActive c b)).1.comp y).localActive =
      if y = c then b else ((exec ops).1.comp y).localActive := by
  have hst : step (exec ops).1 (.setActive c b) = setActive (exec ops).1 c b := by
    unfold step; dsimp only; rw [if_pos hc]
  rw [hst]
  have := synced_setActive (wf_exec ops) (act_exec ops) (synced_exec ops ho hp) c b
  exact ⟨this.2.1 hr, this.2.2 hr⟩

/-- **C58** A new component is locally active; it is active exactly when its parent is, and always when it has none. -/
theorem C58_created (ops : List Op) (parent : Option Nat) (l : Str) (folder logger : Bool) (c : Nat)
    (hc : (step (exec ops).1 (.create parent l folder logger)).2 = .created c) :
    ((step (exec ops).1 (.create parent l folder logger)).1.comp c).localActive = true ∧
    (parent = none → ((step (exec ops).1 (.create parent l folder logger)).1.comp c).active = true) ∧
    ∀ q, parent = some q →
      ((step (exec ops).1 (.create parent l folder logger)).1.comp c).active = ((exec ops).1.comp q).active := by
  revert hc
  generalize (exec ops).1 = s
  unfold step create
  dsimp only
  split
  · intro hc; cases hc
  · split
    · intro hc; cases hc
    · split
      · intro hc; cases hc
      · intro hc
        cases hc
        refine ⟨by dsimp only; rw [upd_eq], ?_, ?_⟩
        · rintro rfl; dsimp only; rw [upd_eq]; rfl
        · rintro q rfl; dsimp only; rw [upd_eq]; rfl

example : (let s := (exec (sampleTree ++ [.setActive 0 false])).1
    (step s (.create (some 2) ['x'] false true)).2 = .created 3 ∧
    ((step s (.create (some 2) ['x'] false true)).1.comp 3).active = false) := ⟨rfl, rfl⟩

/-- **C58** A removed component is not active, and setting it active is refused. -/
theorem C58_removed (ops : List Op) (c : Nat) (b : Bool) (hc : c < (exec ops).1.count)
    (hr : ((exec ops).1.comp c).removed = true) :
    step (exec ops).1 (.setActive c b) = ((exec ops).1, .error .componentRemoved) ∧ ((exec ops).1.comp c).active = false := by
  constructor
  · unfold step setActive; dsimp only; rw [if_pos hc, if_pos hr]
  · exact removed_inactive ops c hr

example : Along OwnParent init (sampleTree ++ [.setActive 0 false]) ∧ Along Prompt init (sampleTree ++ [.setActive 0 false]) ∧
    ((exec sampleTree).1.comp 2).active = true ∧
    ((exec (sampleTree ++ [.setActive 0 false])).1.comp 2).active = false ∧
    ((exec (sampleTree ++ [.setActive 0 false])).1.comp 2).localActive = true ∧
    ((exec (sampleTree ++ [.setActive 0 false, .setActive 0 true])).1.comp 2).active = true := by
  refine ⟨⟨trivial, trivial, rfl, trivial, rfl, trivial, trivial⟩,
    ⟨trivial, trivial, ⟨rfl, rfl, rfl⟩, trivial, ⟨rfl, rfl, rfl⟩, trivial, trivial⟩, rfl, rfl, rfl, rfl⟩

/-- **C58 (violation)** An item created while its parent was active and added after the parent became inactive stays
active below the inactive parent. -/
theorem C58_violation_late :
    (let s := (exec [.create none ['f'] true true, .create (some 0) ['c'] false true, .setActive 0 false, .addItem 0 1]).1
     getItems s 0 = [1] ∧ (s.comp 1).parent = some 0 ∧ (s.comp 0).active = false ∧ (s.comp 1).active = true) :=
  ⟨rfl, rfl, rfl, rfl⟩

/-- **C58 (violation)** An item that was removed directly is still notified: `setActive` of the folder then fails midway,
and the items that come later stay active below the inactive folder. -/
theorem C58_violation_removedItem :
    (let s := (exec [.create none ['f'] true true, .create (some 0) ['a'] false true, .addItem 0 1,
        .create (some 0) ['b'] false true, .addItem 0 2, .remove 1]).1
     (step s (.setActive 0 false)).2 = .error .componentRemoved ∧
     ((step s (.setActive 0 false)).1.comp 0).active = false ∧ ((step s (.setActive 0 false)).1.comp 2).active = true) :=
  ⟨rfl, rfl, rfl⟩

end Verif.Component
