import Verif.Component.TreeSpec
import Verif.Component.PropsIds

/-! # Invariants of component trees -/

namespace Verif.Component
open Verif.Graph Verif.AList

/-! ## Items as a map -/

theorem get_of_mem {l : AList Str Nat} (hn : (l.map (·.1)).Nodup) {k : Str} {i : Nat} (h : (k, i) ∈ l) : AList.get l k = some i := by
  induction l with
  | nil => cases h
  | cons e l ih =>
    obtain ⟨a, b⟩ := e
    simp only [List.map_cons, List.nodup_cons] at hn
    rw [get_cons]
    rcases List.mem_cons.mp h with e | h
    · cases e; rw [if_pos rfl]
    · have : k ≠ a := fun e => hn.1 (e ▸ List.mem_map.mpr ⟨(k, i), h, rfl⟩)
      rw [if_neg this]
      exact ih hn.2 h

theorem mem_of_getItem {l : AList Str Nat} {k : Str} {i : Nat} (h : AList.get l k = some i) : (k, i) ∈ l := mem_of_get h

theorem get_iff {l : AList Str Nat} (hn : (l.map (·.1)).Nodup) (k : Str) (i : Nat) : AList.get l k = some i ↔ (k, i) ∈ l :=
  ⟨mem_of_getItem, get_of_mem hn⟩

/-! ## Structure of the state -/

structure WF (s : St) : Prop where
  item : ∀ f k i, (k, i) ∈ (s.comp f).items → i < s.count ∧ k = (s.comp i).localId
  nodup : ∀ f, ((s.comp f).items.map (·.1)).Nodup
  out : ∀ f, s.count ≤ f → (s.comp f).items = []
  folder : ∀ f, (s.comp f).items ≠ [] → (s.comp f).folder = true
  idNe : ∀ c, c < s.count → (s.comp c).localId ≠ []
  parent : ∀ c p, c < s.count → (s.comp c).parent = some p → p < c
  gid : ∀ c, c < s.count → (s.comp c).globalId = makeGlobalId s (s.comp c).parent (s.comp c).localId

/-- Ids, parents and kinds are kept, and items only vanish. -/
def Shrink (m m' : Nat → Comp) : Prop :=
  ∀ y, (m' y).localId = (m y).localId ∧ (m' y).globalId = (m y).globalId ∧ (m' y).parent = (m y).parent ∧
    (m' y).folder = (m y).folder ∧ (m' y).items.Sublist (m y).items

theorem shrink_refl (m : Nat → Comp) : Shrink m m := fun _ => ⟨rfl, rfl, rfl, rfl, List.Sublist.refl _⟩

theorem shrink_trans {a b c : Nat → Comp} (h1 : Shrink a b) (h2 : Shrink b c) : Shrink a c := by
  intro y
  obtain ⟨a1, a2, a3, a4, a5⟩ := h1 y
  obtain ⟨b1, b2, b3, b4, b5⟩ := h2 y
  exact ⟨b1.trans a1, b2.trans a2, b3.trans a3, b4.trans a4, b5.trans a5⟩

theorem shrink_upd {m : Nat → Comp} {x : Nat} {c : Comp} (h : c.localId = (m x).localId ∧ c.globalId = (m x).globalId ∧
    c.parent = (m x).parent ∧ c.folder = (m x).folder ∧ c.items.Sublist (m x).items) : Shrink m (upd m x c) := by
  intro y
  by_cases hy : y = x
  · subst hy; rw [upd_eq]; exact h
  · rw [upd_ne _ _ hy]; exact shrink_refl m y

theorem wf_shrink {s : St} (h : WF s) {m' : Nat → Comp} (hs : Shrink s.comp m') : WF { s with comp := m' } where
  item := by
    intro f k i hi
    obtain ⟨-, -, -, -, hsub⟩ := hs f
    obtain ⟨h1, h2⟩ := h.item f k i (hsub.subset hi)
    exact ⟨h1, h2.trans (hs i).1.symm⟩
  nodup := fun f => List.Nodup.sublist ((hs f).2.2.2.2.map _) (h.nodup f)
  out := by
    intro f hf
    have h1 := h.out f hf
    have h2 := (hs f).2.2.2.2
    rw [h1] at h2
    exact List.sublist_nil.mp h2
  folder := by
    intro f hf
    show (m' f).folder = true
    rw [(hs f).2.2.2.1]
    refine h.folder f (fun e => hf ?_)
    have h2 := (hs f).2.2.2.2
    rw [e] at h2
    exact List.sublist_nil.mp h2
  idNe := fun c hc => by show (m' c).localId ≠ []; rw [(hs c).1]; exact h.idNe c hc
  parent := fun c p hc hp => h.parent c p hc (by rw [← (hs c).2.2.1]; exact hp)
  gid := by
    intro c hc
    show (m' c).globalId = _
    rw [(hs c).2.1, h.gid c hc]
    show makeGlobalId s (s.comp c).parent (s.comp c).localId = makeGlobalId _ (m' c).parent (m' c).localId
    rw [(hs c).1, (hs c).2.2.1]
    unfold makeGlobalId
    cases (s.comp c).parent with
    | none => rfl
    | some p => dsimp only; rw [(hs p).2.1]

/-! ## Removal -/

theorem removeOne_removed (c : Comp) : (removeOne c).removed = true := rfl

theorem reach_below {s : St} {x y : Nat} :
    Reach (fun c : Comp => c.removed) (fun c => c.items.map (·.2)) s.comp x y ↔ Below s x y := by
  constructor
  · intro h
    induction h with
    | start h => exact .start h
    | step y z _ hz h ih =>
      obtain ⟨⟨k, i⟩, hm, rfl⟩ := List.mem_map.mp hz
      exact .step _ _ ih ⟨k, hm⟩ h
  · intro h
    induction h with
    | start h => exact .start h
    | step y z _ hz h ih =>
      obtain ⟨k, hm⟩ := hz
      exact .step _ _ ih (List.mem_map.mpr ⟨(k, z), hm, rfl⟩) h

theorem below_unremoved {s : St} {x y : Nat} (h : Below s x y) : (s.comp y).removed = false := by
  cases h with
  | start h => exact h
  | step _ _ _ _ h => exact h

theorem bounded {s : St} (h : WF s) : ∀ y z, z ∈ (s.comp y).items.map (·.2) → (s.comp y).removed = false → z < s.count := by
  intro y z hz _
  obtain ⟨⟨k, i⟩, hm, rfl⟩ := List.mem_map.mp hz
  exact (h.item y k i hm).1

/-- Removing a component removes it and everything below. -/
theorem removeAll_eq {s : St} (h : WF s) {x : Nat} (hx : x < s.count) (y : Nat) :
    (Below s x y → removeAll s s.comp x y = removeOne (s.comp y)) ∧
    (¬ Below s x y → removeAll s s.comp x y = s.comp y) := by
  have := walk_eq (seen := fun c : Comp => c.removed) (g := removeOne) (succ := fun c => c.items.map (·.2))
    removeOne_removed (N := s.count) (n := s.count + 1) (m := s.comp) (x := x) (by omega) (bounded h) hx y
  rw [reach_below] at this
  exact this

/-- Removing some components removes them and everything below. -/
theorem removeItems_eq {s : St} (h : WF s) {xs : List Nat} (hx : ∀ x ∈ xs, x < s.count) (y : Nat) :
    ((∃ x ∈ xs, Below s x y) → xs.foldl (removeAll s) s.comp y = removeOne (s.comp y)) ∧
    (¬ (∃ x ∈ xs, Below s x y) → xs.foldl (removeAll s) s.comp y = s.comp y) := by
  have := walks_eq (seen := fun c : Comp => c.removed) (g := removeOne) (succ := fun c => c.items.map (·.2))
    removeOne_removed (N := s.count) (n := s.count + 1) (m := s.comp) (xs := xs) (by omega) (bounded h) hx y
  simp only [reach_below] at this
  exact this

theorem shrink_removeOne (c : Comp) : (removeOne c).localId = c.localId ∧ (removeOne c).globalId = c.globalId ∧
    (removeOne c).parent = c.parent ∧ (removeOne c).folder = c.folder ∧ (removeOne c).items.Sublist c.items :=
  ⟨rfl, rfl, rfl, rfl, List.nil_sublist _⟩

theorem shrink_adv {m m' : Nat → Comp} (h : Adv (fun c : Comp => c.removed) removeOne m m') : Shrink m m' := by
  intro y
  rcases h y with e | ⟨-, e⟩
  · rw [e]; exact shrink_refl m y
  · rw [e]; exact shrink_removeOne (m y)

theorem removeAll_adv (s : St) (m : Nat → Comp) (x : Nat) : Adv (fun c : Comp => c.removed) removeOne m (removeAll s m x) :=
  walk_adv removeOne_removed _ _ _

theorem removeItems_adv (s : St) (m : Nat → Comp) (xs : List Nat) :
    Adv (fun c : Comp => c.removed) removeOne m (xs.foldl (removeAll s) m) :=
  foldl_adv removeOne_removed (fun m x => removeAll_adv s m x) xs m

theorem shrink_dropItem (m : Nat → Comp) (f : Nat) (k : Str) : Shrink m (upd m f (dropItem (m f) k)) :=
  shrink_upd ⟨rfl, rfl, rfl, rfl, List.filter_sublist⟩

theorem shrink_noItems (m : Nat → Comp) (f : Nat) : Shrink m (upd m f (noItems (m f))) :=
  shrink_upd ⟨rfl, rfl, rfl, rfl, List.nil_sublist _⟩

/-! ## Active state -/

/-- Only the active state differs. -/
def SameBut (m m' : Nat → Comp) : Prop :=
  ∀ y, m' y = { m y with localActive := (m' y).localActive, parentActive := (m' y).parentActive, active := (m' y).active }

theorem sameBut_refl (m : Nat → Comp) : SameBut m m := fun _ => rfl

theorem sameBut_trans {a b c : Nat → Comp} (h1 : SameBut a b) (h2 : SameBut b c) : SameBut a c := by
  intro y
  have e1 := h1 y
  have e2 := h2 y
  rw [e1] at e2
  exact e2

theorem sameBut_shrink {m m' : Nat → Comp} (h : SameBut m m') : Shrink m m' := by
  intro y
  rw [h y]
  exact ⟨rfl, rfl, rfl, rfl, List.Sublist.refl _⟩

theorem sameBut_removed {m m' : Nat → Comp} (h : SameBut m m') (y : Nat) : (m' y).removed = (m y).removed := by rw [h y]
theorem sameBut_items {m m' : Nat → Comp} (h : SameBut m m') (y : Nat) : (m' y).items = (m y).items := by rw [h y]

theorem sameBut_setParent (m : Nat → Comp) (x : Nat) (v : Bool) : SameBut m (upd m x (setParentOne v (m x))) := by
  intro y
  by_cases hy : y = x
  · subst hy; rw [upd_eq]; rfl
  · rw [upd_ne _ _ hy]

theorem sameBut_setLocal (m : Nat → Comp) (x : Nat) (v : Bool) : SameBut m (upd m x (setLocalOne v (m x))) := by
  intro y
  by_cases hy : y = x
  · subst hy; rw [upd_eq]; rfl
  · rw [upd_ne _ _ hy]

theorem sameBut_notifyAll {f : (Nat → Comp) → Nat → (Nat → Comp) × Bool} (hf : ∀ m x, SameBut m (f m x).1) (l : List Nat) :
    ∀ m, SameBut m (notifyAll f l m).1 := by
  induction l with
  | nil => intro m; exact sameBut_refl m
  | cons a l ih =>
    intro m
    unfold notifyAll
    have := hf m a
    split
    · rename_i m' h; rw [h] at this; exact sameBut_trans this (ih m')
    · rename_i m' h; rw [h] at this; exact this

theorem sameBut_setParentActive (v : Bool) : ∀ n m x, SameBut m (setParentActive v n m x).1 := by
  intro n
  induction n with
  | zero => intro m x; exact sameBut_refl m
  | succ n ih =>
    intro m x
    unfold setParentActive
    split
    · exact sameBut_refl m
    · split
      · exact sameBut_refl m
      · split
        · exact sameBut_setParent m x v
        · exact sameBut_trans (sameBut_setParent m x v) (sameBut_notifyAll (fun m x => ih m x) _ _)

theorem sameBut_setActive (s : St) (c : Nat) (b : Bool) :
    SameBut s.comp (setActive s c b).1.comp ∧ (setActive s c b).1.count = s.count := by
  unfold setActive
  split
  · exact ⟨sameBut_refl _, rfl⟩
  · split
    · exact ⟨sameBut_refl _, rfl⟩
    · dsimp only
      split
      · exact ⟨sameBut_setLocal _ _ _, rfl⟩
      · have := sameBut_notifyAll (fun m x => sameBut_setParentActive
          (upd s.comp c (setLocalOne b (s.comp c)) c).active (s.count + 1) m x) ((s.comp c).items.map (·.2))
          (upd s.comp c (setLocalOne b (s.comp c)))
        split
        · rename_i m' h; rw [h] at this; exact ⟨sameBut_trans (sameBut_setLocal _ _ _) this, rfl⟩
        · rename_i m' h; rw [h] at this; exact ⟨sameBut_trans (sameBut_setLocal _ _ _) this, rfl⟩

/-! ## Every call -/

/-- What a call can do to the structure of the tree. -/
inductive Change (s : St) : Op → St → Prop
  | shrink (op : Op) (m' : Nat → Comp) (h : Shrink s.comp m') : Change s op { s with comp := m' }
  | create (p : Option Nat) (l : Str) (fd lg : Bool) (c : Comp) (hp : ∀ q, p = some q → q < s.count) (hl : l ≠ [])
      (hc : c.localId = l ∧ c.globalId = makeGlobalId s p l ∧ c.parent = p ∧ c.folder = fd ∧ c.items = [] ∧ c.removed = false ∧
        c.localActive = true ∧ c.parentActive = initialParentActive s p ∧ c.active = initialParentActive s p) :
      Change s (.create p l fd lg) { count := s.count + 1, comp := upd s.comp s.count c }
  | add (f c : Nat) (hf : f < s.count) (hfd : (s.comp f).folder = true) (hc : c < s.count)
      (hn : AList.get (s.comp f).items (s.comp c).localId = none) :
      Change s (.addItem f c) { s with comp := upd s.comp f (appendItem (s.comp f) (s.comp c).localId c) }

theorem change_removeKey (s : St) (f : Nat) (k : Str) (op : Op) : Change s op (removeKey s f k).1 := by
  unfold removeKey
  split
  · exact .shrink op s.comp (shrink_refl _)
  · dsimp only
    split
    · exact .shrink _ _ (shrink_adv (removeAll_adv s _ _))
    · exact .shrink _ _ (shrink_trans (shrink_adv (removeAll_adv s _ _)) (shrink_dropItem _ _ _))

theorem change_clear (s : St) (f : Nat) (op : Op) : Change s op (clear s f).1 := by
  unfold clear
  dsimp only
  split
  · exact .shrink _ _ (shrink_adv (removeItems_adv s _ _))
  · exact .shrink _ _ (shrink_trans (shrink_adv (removeItems_adv s _ _)) (shrink_noItems _ _))

theorem change_step (s : St) (op : Op) : Change s op (step s op).1 := by
  have hs : Change s op s := .shrink op s.comp (shrink_refl _)
  cases op with
  | create p l fd lg =>
    unfold step create
    dsimp only
    split
    · exact hs
    · rename_i hp
      split
      · exact hs
      · rename_i hl
        split
        · exact hs
        · refine .create p l fd lg _ ?_ (by simpa using hl) ⟨rfl, rfl, rfl, rfl, rfl, rfl, rfl, rfl, rfl⟩
          rintro q rfl
          simpa [parentOk] using hp
  | addItem f c =>
    unfold step
    dsimp only
    split
    · rename_i h
      simp only [isFolder, Bool.and_eq_true, decide_eq_true_eq] at h
      unfold addItem
      split
      · exact hs
      · rename_i hn
        exact .add f c h.1.1 h.1.2 h.2 (by simpa [AList.has] using hn)
    · exact hs
  | removeItem f c =>
    unfold step
    dsimp only
    split
    · exact change_removeKey s f _ _
    · exact hs
  | removeItemWithLocalId f k =>
    unfold step
    dsimp only
    split
    · exact change_removeKey s f _ _
    · exact hs
  | clear f =>
    unfold step
    dsimp only
    split
    · exact change_clear s f _
    · exact hs
  | remove c =>
    unfold step
    dsimp only
    split
    · unfold remove
      split
      · exact hs
      · exact .shrink _ _ (shrink_adv (removeAll_adv s _ _))
    · exact hs
  | setActive c b =>
    unfold step
    dsimp only
    split
    · obtain ⟨h1, h2⟩ := sameBut_setActive s c b
      have : (setActive s c b).1 = { s with comp := (setActive s c b).1.comp } := by
        rw [← h2]
      rw [this]
      exact .shrink _ _ (sameBut_shrink h1)
    · exact hs

theorem wf_change {s s' : St} {op : Op} (h : WF s) (hc : Change s op s') : WF s' := by
  cases hc with
  | shrink _ m' hs => exact wf_shrink h hs
  | create p l fd lg c hp hl hc =>
    obtain ⟨c1, c2, c3, c4, c5, -⟩ := hc
    have hne : ∀ x, x < s.count → x ≠ s.count := fun x hx => Nat.ne_of_lt hx
    have hgid : ∀ q l', (∀ p, q = some p → p < s.count) →
        makeGlobalId { count := s.count + 1, comp := upd s.comp s.count c } q l' = makeGlobalId s q l' := by
      intro q l' hq
      unfold makeGlobalId
      cases q with
      | none => rfl
      | some p => dsimp only; rw [upd_ne _ _ (hne p (hq p rfl))]
    have hold : ∀ f k i, (k, i) ∈ (upd s.comp s.count c f).items → (k, i) ∈ (s.comp f).items := by
      intro f k i hi
      by_cases hf : f = s.count
      · subst hf; rw [upd_eq, c5] at hi; cases hi
      · rwa [upd_ne _ _ hf] at hi
    refine ⟨?_, ?_, ?_, ?_, ?_, ?_, ?_⟩
    · intro f k i hi
      obtain ⟨h1, h2⟩ := h.item f k i (hold f k i hi)
      refine ⟨Nat.lt_succ_of_lt h1, ?_⟩
      show k = (upd s.comp s.count c i).localId
      rw [upd_ne _ _ (hne i h1)]
      exact h2
    · intro f
      show ((upd s.comp s.count c f).items.map (·.1)).Nodup
      by_cases hf : f = s.count
      · subst hf; rw [upd_eq, c5]; exact List.nodup_nil
      · rw [upd_ne _ _ hf]; exact h.nodup f
    · intro f hf
      show (upd s.comp s.count c f).items = []
      have hf : s.count + 1 ≤ f := hf
      rw [upd_ne _ _ (by omega)]
      exact h.out f (by omega)
    · intro f hf
      show (upd s.comp s.count c f).folder = true
      have hf : (upd s.comp s.count c f).items ≠ [] := hf
      by_cases e : f = s.count
      · subst e; rw [upd_eq, c5] at hf; exact absurd rfl hf
      · rw [upd_ne _ _ e] at hf ⊢; exact h.folder f hf
    · intro x hx
      show (upd s.comp s.count c x).localId ≠ []
      by_cases e : x = s.count
      · subst e; rw [upd_eq, c1]; exact hl
      · rw [upd_ne _ _ e]; exact h.idNe x (by have : x < s.count + 1 := hx; omega)
    · intro x q hx hq
      have hq : (upd s.comp s.count c x).parent = some q := hq
      by_cases e : x = s.count
      · subst e; rw [upd_eq, c3] at hq; exact hp q hq
      · rw [upd_ne _ _ e] at hq; exact h.parent x q (by have : x < s.count + 1 := hx; omega) hq
    · intro x hx
      show (upd s.comp s.count c x).globalId = makeGlobalId _ (upd s.comp s.count c x).parent (upd s.comp s.count c x).localId
      by_cases e : x = s.count
      · subst e; rw [upd_eq, c2, c3, c1, hgid p l hp]
      · have hx' : x < s.count := by have : x < s.count + 1 := hx; omega
        rw [upd_ne _ _ e, hgid _ _ (fun q hq => Nat.lt_trans (h.parent x q hx' hq) hx')]
        exact h.gid x hx'
  | add f c hf hfd hc hn =>
    have hitems : ∀ g, (upd s.comp f (appendItem (s.comp f) (s.comp c).localId c) g).items =
        if g = f then (s.comp f).items ++ [((s.comp c).localId, c)] else (s.comp g).items := by
      intro g
      by_cases e : g = f
      · subst e; rw [upd_eq, if_pos rfl]; rfl
      · rw [upd_ne _ _ e, if_neg e]
    have hst : ∀ g, (upd s.comp f (appendItem (s.comp f) (s.comp c).localId c) g).localId = (s.comp g).localId ∧
        (upd s.comp f (appendItem (s.comp f) (s.comp c).localId c) g).globalId = (s.comp g).globalId ∧
        (upd s.comp f (appendItem (s.comp f) (s.comp c).localId c) g).parent = (s.comp g).parent ∧
        (upd s.comp f (appendItem (s.comp f) (s.comp c).localId c) g).folder = (s.comp g).folder := by
      intro g
      by_cases e : g = f
      · subst e; rw [upd_eq]; exact ⟨rfl, rfl, rfl, rfl⟩
      · rw [upd_ne _ _ e]; exact ⟨rfl, rfl, rfl, rfl⟩
    refine ⟨?_, ?_, ?_, ?_, ?_, ?_, ?_⟩
    · intro g k i hi
      have hi : (k, i) ∈ (upd s.comp f (appendItem (s.comp f) (s.comp c).localId c) g).items := hi
      show i < s.count ∧ k = (upd s.comp f (appendItem (s.comp f) (s.comp c).localId c) i).localId
      rw [(hst i).1]
      rw [hitems] at hi
      split at hi
      · rcases List.mem_append.mp hi with hi | hi
        · exact h.item f k i hi
        · simp at hi; rw [hi.2]; exact ⟨hc, hi.1⟩
      · exact h.item g k i hi
    · intro g
      show ((upd s.comp f (appendItem (s.comp f) (s.comp c).localId c) g).items.map (·.1)).Nodup
      rw [hitems]
      split
      · rw [List.map_append, List.nodup_append]
        refine ⟨h.nodup f, by simp, ?_⟩
        intro a ha b hb e
        simp at hb
        subst hb
        subst e
        obtain ⟨⟨k, i⟩, hm, hk⟩ := List.mem_map.mp ha
        have := get_of_mem (h.nodup f) hm
        rw [show k = (s.comp c).localId from hk, hn] at this
        cases this
      · exact h.nodup g
    · intro g hg
      show (upd s.comp f (appendItem (s.comp f) (s.comp c).localId c) g).items = []
      have hg : s.count ≤ g := hg
      rw [hitems, if_neg (by omega)]
      exact h.out g hg
    · intro g hg
      show (upd s.comp f (appendItem (s.comp f) (s.comp c).localId c) g).folder = true
      rw [(hst g).2.2.2]
      by_cases e : g = f
      · rw [e]; exact hfd
      · have hg : (upd s.comp f (appendItem (s.comp f) (s.comp c).localId c) g).items ≠ [] := hg
        rw [hitems, if_neg e] at hg
        exact h.folder g hg
    · intro x hx
      show (upd s.comp f (appendItem (s.comp f) (s.comp c).localId c) x).localId ≠ []
      rw [(hst x).1]; exact h.idNe x hx
    · intro x q hx hq
      refine h.parent x q hx ?_
      rw [← (hst x).2.2.1]; exact hq
    · intro x hx
      show (upd s.comp f (appendItem (s.comp f) (s.comp c).localId c) x).globalId = makeGlobalId _
        (upd s.comp f (appendItem (s.comp f) (s.comp c).localId c) x).parent
        (upd s.comp f (appendItem (s.comp f) (s.comp c).localId c) x).localId
      rw [(hst x).1, (hst x).2.1, (hst x).2.2.1, h.gid x hx]
      unfold makeGlobalId
      cases (s.comp x).parent with
      | none => rfl
      | some p => dsimp only; rw [(hst p).2.1]

theorem wf_init : WF init := by
  refine ⟨?_, ?_, ?_, ?_, ?_, ?_, ?_⟩
  · intro f k i hi; cases hi
  · intro f; exact List.nodup_nil
  · intro f _; rfl
  · intro f hf; exact absurd rfl hf
  · intro c hc; exact absurd hc (Nat.not_lt_zero _)
  · intro c p hc; exact absurd hc (Nat.not_lt_zero _)
  · intro c hc; exact absurd hc (Nat.not_lt_zero _)

theorem wf_step {s : St} (h : WF s) (op : Op) : WF (step s op).1 := wf_change h (change_step s op)

theorem wf_exec (ops : List Op) : WF (exec ops).1 := by
  unfold exec
  induction ops using list_snoc_induction with
  | nil => exact wf_init
  | snoc ops op ih => rw [runTrace_snoc]; exact wf_step ih op

/-! ## Restricted histories -/

theorem along_snoc {P : St → Op → Prop} (ops : List Op) (op : Op) : ∀ s, Along P s (ops ++ [op]) →
    Along P s ops ∧ P (runTrace step s ops).1 op := by
  induction ops with
  | nil => intro s h; exact ⟨trivial, h.1⟩
  | cons o ops ih =>
    intro s h
    obtain ⟨h1, h2⟩ := ih _ h.2
    exact ⟨⟨h.1, h1⟩, h2⟩

/-- An invariant of restricted histories. -/
theorem along_inv {P : St → Op → Prop} {I : St → Prop} (h0 : I init) (hs : ∀ s op, WF s → P s op → I s → I (step s op).1)
    (ops : List Op) (h : Along P init ops) : I (exec ops).1 := by
  unfold exec
  induction ops using list_snoc_induction with
  | nil => exact h0
  | snoc ops op ih =>
    obtain ⟨h1, h2⟩ := along_snoc ops op _ h
    rw [runTrace_snoc]
    exact hs _ _ (wf_exec ops) h2 (ih h1)

end Verif.Component
