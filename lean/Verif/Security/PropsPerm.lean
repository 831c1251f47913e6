import Verif.Security.PermHist

/-! # Properties C28, C29 and C30: permissions -/

namespace Verif.Security

open AList (get put del)

/-! ## Lemmas -/

theorem owns_means {rules : Perms → List Rule} (hdef : Means defaultPerms (rules defaultPerms)) (ops : List Op)
    (h : ∀ p ∈ passed ops, Means p (rules p)) :
    ∀ id e, get (world ops) id = some e → Means e.2 (rules e.2) := by
  induction ops using list_snoc_induction with
  | nil => intro id e he; simp [world] at he
  | snoc ops op ih =>
    have ih := ih (fun p hp => h p (by unfold passed at *; rw [List.filterMap_append]; exact List.mem_append_left _ hp))
    intro id e he
    rw [world_snoc] at he
    cases op with
    | create x p =>
      simp only [World.after] at he
      split at he
      · exact ih id e he
      · rw [AList.get_put] at he
        split at he
        · cases he; exact hdef
        · exact ih id e he
    | setPermissions x p =>
      simp only [World.after] at he
      split at he
      · exact ih id e he
      · rw [AList.get_put] at he
        split at he
        · cases he
          exact h p (by unfold passed; rw [List.filterMap_append]; simp)
        · exact ih id e he
    | setParent x p =>
      simp only [World.after] at he
      split at he
      · exact ih id e he
      · next o own hx =>
        split at he
        · rw [AList.get_put] at he
          split at he
          · cases he
            exact ih x (o, own) hx
          · exact ih id e he
        · exact ih id e he
    | clone x y =>
      simp only [World.after] at he
      split at he
      · exact ih id e he
      · next o hx =>
        split at he
        · exact ih id e he
        · rw [AList.get_put] at he
          split at he
          · cases he
            exact ih x _ hx
          · exact ih id e he
    | destroy x =>
      simp only [World.after, AList.get_del] at he
      split at he
      · cases he
      · exact ih id e he
    | isAuthorized x gs m => exact ih id e he

theorem Shape.back {s : St} {w : World} (h : Shape s w) {id : Nat} {o : Option Nat} {own : Perms}
    (hx : get w id = some (o, own)) : ∃ m, get s id = some m ∧ m.parent = o ∧ m.own = own := by
  rw [h.look] at hx
  cases hm : get s id with
  | none => rw [hm] at hx; cases hx
  | some m => rw [hm] at hx; simp at hx; exact ⟨m, rfl, hx.1, hx.2⟩

theorem eff_stands {s : St} {w : World} (h : Inv s w) {rules : Perms → List Rule}
    (hm : ∀ id e, get w id = some e → Means e.2 (rules e.2)) {id : Nat} {rs : List Rule} (ha : Applies rules w id rs) :
    ∃ m, get s id = some m ∧ Stands m.eff rs := by
  induction ha with
  | root hx =>
    obtain ⟨m, k1, k2, k3⟩ := h.shape.back hx
    have hs := stands_of_means (hm _ _ hx)
    dsimp only at hs
    have := h.cons _ m k1 _ (by rw [k3]; exact hs)
    have e : parentEff s m = none := by unfold parentEff; rw [k2]
    rw [e] at this
    refine ⟨m, k1, ?_⟩
    cases hi : m.own.inherited with
    | false => exact this.1 hi
    | true => exact this.2 hi
  | cut hx hi =>
    obtain ⟨m, k1, k2, k3⟩ := h.shape.back hx
    have hs := stands_of_means (hm _ _ hx)
    dsimp only at hs
    have := h.cons _ m k1 _ (by rw [k3]; exact hs)
    exact ⟨m, k1, this.1 (by rw [k3]; exact hi)⟩
  | inherit hx hi _ ih =>
    obtain ⟨m, k1, k2, k3⟩ := h.shape.back hx
    obtain ⟨mp, l1, l2⟩ := ih
    have hs := stands_of_means (hm _ _ hx)
    dsimp only at hs
    have := (h.cons _ m k1 _ (by rw [k3]; exact hs)).2 (by rw [k3]; exact hi)
    have e : parentEff s m = some mp.eff := by unfold parentEff; rw [k2]; dsimp only; rw [l1]; rfl
    rw [e] at this
    exact ⟨m, k1, this _ l2⟩

/-! ## C28 -/

/-- **C28.** For a permission object built from any sequence of rules, `extend` included: bit `i` of a group is
in the allowed table exactly when the last rule about it grants it, in the denied table exactly when that rule
denies it, and never in both. -/
theorem C28_lastRule {p : Perms} {rs : List Rule} (h : Means p rs) (g : Group) (i : Nat) :
    (look p.allowed g).getLsbD i = granted rs g i ∧ (look p.denied g).getLsbD i = forbidden rs g i ∧
    ¬ ((look p.allowed g).getLsbD i = true ∧ (look p.denied g).getLsbD i = true) := by
  have hs := stands_of_means h
  refine ⟨hs.allowed g i, hs.denied g i, ?_⟩
  rw [hs.allowed, hs.denied]
  exact not_both rs g i

example : Means (((({} : Perms).assign "g" 3).deny "g" 2).allow "g" 2) [.assign "g" 3, .deny "g" 2, .allow "g" 2] :=
  .allow _ _ (.deny _ _ (.assign _ _ .empty))

/-- **C28.** In a history with acyclic ownership in which owners outlive what they own: bit `i` of a group is
allowed, or denied, at an object exactly as the last rule along the path of owners says, from the nearest
object that does not inherit. -/
theorem C28_path (rules : Perms → List Rule) (ops : List Op) (ho : Orderly ops)
    (hp : ∀ p ∈ passed ops, Means p (rules p)) (hdef : Means defaultPerms (rules defaultPerms)) {id : Nat}
    {rs : List Rule} (ha : Applies rules (world ops) id rs) :
    ∃ m, get (exec ops).1 id = some m ∧ ∀ g i, (look m.eff.allowed g).getLsbD i = granted rs g i ∧
      (look m.eff.denied g).getLsbD i = forbidden rs g i := by
  obtain ⟨m, h1, h2⟩ := eff_stands (inv_exec ops ho).1 (owns_means hdef ops hp) ha
  exact ⟨m, h1, fun g i => ⟨h2.allowed g i, h2.denied g i⟩⟩

/-! ## C29 -/

/-- **C29.** The decision for a permission object built from `rs`: a user is authorized exactly when no
permission asked for is denied to any group of the user, and one is granted to some group of the user. -/
theorem C29_decision {p : Perms} {rs : List Rule} (h : Means p rs) (gs : List Group) (perm : Mask) :
    isAuthorized p gs perm = true ↔ Authorized rs gs perm :=
  isAuthorized_iff (stands_of_means h) gs perm

/-- **C29.** One group that is denied is enough to refuse, whatever the other groups allow. -/
theorem C29_denyWins {p : Perms} {rs : List Rule} (h : Means p rs) {gs : List Group} {perm : Mask} {g : Group}
    {i : Nat} (hg : g ∈ gs) (hi : perm.getLsbD i = true) (hd : forbidden rs g i = true) :
    isAuthorized p gs perm = false := by
  rw [Bool.eq_false_iff]
  intro ht
  have := ((C29_decision h gs perm).mp ht).1 g hg i hi
  rw [hd] at this
  cases this

example : isAuthorized ((({} : Perms).allow "a" 1).deny "b" 1) ["a", "b"] 1 = false ∧
    isAuthorized ((({} : Perms).allow "a" 1).deny "b" 1) ["a"] 1 = true := by decide

/-- **C29.** A user none of whose groups is mentioned by any rule has no access. -/
theorem C29_noGroup {p : Perms} {rs : List Rule} (h : Means p rs) {gs : List Group} (perm : Mask)
    (hg : ∀ g ∈ gs, ∀ r ∈ rs, ∀ i, r.mentions g i = false) : isAuthorized p gs perm = false := by
  rw [Bool.eq_false_iff]
  intro ht
  obtain ⟨g, hgs, i, -, hgr⟩ := ((C29_decision h gs perm).mp ht).2
  have hn : lastRule rs g i = none := by
    unfold lastRule
    rw [List.find?_eq_none]
    intro r hr
    rw [hg g hgs r (List.mem_reverse.mp hr) i]
    simp
  unfold granted at hgr
  rw [hn] at hgr
  cases hgr

example : isAuthorized (({} : Perms).allow "a" 1) ["b"] 1 = false := by decide

theorem mem_insertSorted (g h : Group) (l : List Group) : h ∈ insertSorted g l ↔ h = g ∨ h ∈ l := by
  induction l with
  | nil => simp [insertSorted]
  | cons a t ih =>
    unfold insertSorted
    split
    · simp
    · split
      · simp only [List.mem_cons, ih]
        constructor
        · rintro (h | h | h) <;> simp [h]
        · rintro (h | h | h) <;> simp [h]
      · next h1 h2 =>
        have : g = a := by
          rcases lt_trichotomy g a with h | h | h
          · exact absurd h h1
          · exact h
          · exact absurd h h2
        subst this
        simp

/-- **C29.** The groups of a user are the ones given and `"everyone"`; nothing is lost or added. -/
theorem C29_groups (gs : List Group) (g : Group) : g ∈ userGroups gs ↔ g = "everyone" ∨ g ∈ gs := by
  have : ∀ (l : List Group) (s : List Group), g ∈ l.foldl (fun s g => insertSorted g s) s ↔ g ∈ s ∨ g ∈ l := by
    intro l
    induction l with
    | nil => simp
    | cons a t ih =>
      intro s
      rw [List.foldl_cons, ih, mem_insertSorted, List.mem_cons]
      constructor
      · rintro ((h | h) | h) <;> simp [h]
      · rintro (h | h | h) <;> simp [h]
  unfold userGroups
  rw [this]
  simp [insertSorted]

example : userGroups ["b", "a", "b"] = ["a", "b", "everyone"] := by decide

/-- **C29.** Neither the order nor the repetition of a user's groups affects the decision. -/
theorem C29_groupOrder {p : Perms} {rs : List Rule} (h : Means p rs) {gs hs : List Group} (perm : Mask)
    (he : ∀ g, g ∈ gs ↔ g ∈ hs) : isAuthorized p gs perm = isAuthorized p hs perm := by
  have h1 := C29_decision h gs perm
  have h2 := C29_decision h hs perm
  rw [Bool.eq_iff_iff, h1, h2]
  unfold Authorized
  simp only [he]

example : ∀ g : Group, g ∈ ["a", "b", "a"] ↔ g ∈ ["b", "a"] := by simp [or_comm]

/-! ## C30 -/

/-- **C30.** In a history with acyclic ownership in which owners outlive what they own: what a user may do at an
object is decided by the rules that now apply to it, so no stale decision is left anywhere. -/
theorem C30_current (rules : Perms → List Rule) (ops : List Op) (ho : Orderly ops)
    (hp : ∀ p ∈ passed ops, Means p (rules p)) (hdef : Means defaultPerms (rules defaultPerms)) {id : Nat}
    {rs : List Rule} (ha : Applies rules (world ops) id rs) (gs : List Group) (perm : Mask) :
    ∃ b, (step (exec ops).1 (.isAuthorized id gs perm)).2 = .bool b ∧ (b = true ↔ Authorized rs gs perm) := by
  obtain ⟨m, h1, h2⟩ := eff_stands (inv_exec ops ho).1 (owns_means hdef ops hp) ha
  refine ⟨isAuthorized m.eff gs perm, ?_, isAuthorized_iff h2 gs perm⟩
  simp only [step]
  rw [h1]

/-- **C30.** Every living object has rules that apply to it. -/
theorem C30_applies (rules : Perms → List Rule) (ops : List Op) (ho : Orderly ops) {id : Nat}
    {e : Option Nat × Perms} (he : get (world ops) id = some e) : ∃ rs, Applies rules (world ops) id rs := by
  have hf : (world ops).Forest := by
    induction ops using list_snoc_induction with
    | nil => exact ⟨fun _ => 0, fun id p own h => by simp [world] at h⟩
    | snoc ops op _ => exact (ho ops op [] rfl).1
  obtain ⟨r, hr⟩ := hf
  have hs := (inv_exec ops ho).1.shape
  have key : ∀ n id e, r id < n → get (world ops) id = some e → ∃ rs, Applies rules (world ops) id rs := by
    intro n
    induction n with
    | zero => intro id e h; omega
    | succ n ih =>
      intro id e hn hx
      obtain ⟨o, own⟩ := e
      cases o with
      | none => exact ⟨_, .root hx⟩
      | some p =>
        cases hi : own.inherited with
        | false => exact ⟨_, .cut hx hi⟩
        | true =>
          obtain ⟨m, k1, k2, k3⟩ := hs.back hx
          obtain ⟨mp, hmp⟩ := hs.live id m p k1 k2
          have := hr id p own hx
          obtain ⟨rs, h⟩ := ih p _ (by omega) (hs.get_some hmp)
          exact ⟨_, .inherit hx hi h⟩
  exact key (r id + 1) id e (by omega) he

/-- **C30.** Such a history runs without unbounded recursion. -/
theorem C30_terminates (ops : List Op) (ho : Orderly ops) : ∀ e ∈ (exec ops).2, e.2 ≠ .crash :=
  (inv_exec ops ho).2

/-- An object, its owner and the owner's owner; the permissions of the first owner change last. -/
def chainOps : List Op :=
  [.create 0 none, .create 1 (some 0), .create 2 (some 1), .setPermissions 2 ((({} : Perms).inherit true).deny "g" 2),
   .setPermissions 0 (({} : Perms).allow "g" 3)]

theorem chainOrderly : Orderly chainOps := by
  intro pre op post h
  constructor
  · refine ⟨fun x => x, ?_⟩
    have hw : ∀ id p own, get (world (pre ++ [op])) id = some (some p, own) → (id = 1 ∧ p = 0) ∨ (id = 2 ∧ p = 1) := by
      intro id p own hx
      unfold chainOps at h
      rcases pre with _ | ⟨a, _ | ⟨b, _ | ⟨c, _ | ⟨d, _ | ⟨e, pre⟩⟩⟩⟩⟩ <;>
        simp only [List.nil_append, List.cons_append, List.cons.injEq, List.nil_eq, List.append_eq_nil_iff,
          reduceCtorEq, and_false] at h
      all_goals
        obtain ⟨rfl, h⟩ := h
        try obtain ⟨rfl, h⟩ := h
        try obtain ⟨rfl, h⟩ := h
        try obtain ⟨rfl, h⟩ := h
        try obtain ⟨rfl, h⟩ := h
        simp [world, World.after, AList.get_put, AList.has, World.alive] at hx
      all_goals (repeat' (split at hx)) <;> simp_all
    intro id p own hx
    rcases hw id p own hx with ⟨rfl, rfl⟩ | ⟨rfl, rfl⟩ <;> simp
  · rintro id rfl
    exfalso
    have : Op.destroy id ∈ chainOps := by rw [h]; simp
    simp [chainOps] at this

/-- A concrete case of `C30_current`: the change at the top decides two levels below, together with the denial
given there before. -/
example : (exec (chainOps ++ [.isAuthorized 2 ["g"] 1, .isAuthorized 2 ["g"] 2])).2.map (·.2) =
    [.done, .done, .done, .done, .done, .bool true, .bool false] := by decide

/-- **C30, violated.** When an owner is destroyed before what it owns, the owned object keeps what it inherited: a
permission the owner granted is still given after the owner is gone, although the object now has no owner and no
rule of its own. Only its next own change clears it. -/
theorem C30_violation_ownerDestroyed :
    (exec [.create 0 none, .create 1 (some 0), .setPermissions 0 (({} : Perms).allow "g" 1), .destroy 0,
      .isAuthorized 1 ["g"] 1, .setPermissions 1 defaultPerms, .isAuthorized 1 ["g"] 1]).2.map (·.2) =
    [.done, .done, .done, .done, .bool true, .done, .bool false] := by decide

/-- **C30, violated.** Nothing stops an ownership cycle; the update then recurses without end. -/
theorem C30_violation_cycle :
    (exec [.create 0 none, .create 1 (some 0), .setParent 0 (some 1)]).2.map (·.2) = [.done, .done, .crash] := by
  decide

end Verif.Security
