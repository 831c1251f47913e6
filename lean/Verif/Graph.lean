/-!
# Depth-first propagation

A recursion that several parts of openDAQ share: visit a node unless it has been visited, change it, and continue with
its successors. The fuel is the depth of the recursion.
-/

namespace Verif.Graph

variable {C : Type}

/-- The map with one entry replaced. -/
def upd (m : Nat → C) (x : Nat) (c : C) : Nat → C := fun y => if y = x then c else m y

/-- Visit `x` unless it was `seen`: change its entry with `g`, then visit the successors it had before. -/
def walk (seen : C → Bool) (g : C → C) (succ : C → List Nat) : Nat → (Nat → C) → Nat → (Nat → C)
  | 0, m, _ => m
  | n + 1, m, x =>
    if seen (m x) then m else (succ (m x)).foldl (walk seen g succ n) (upd m x (g (m x)))

/-- `y` is reached from `x` through nodes that were not seen. -/
inductive Reach (seen : C → Bool) (succ : C → List Nat) (m : Nat → C) (x : Nat) : Nat → Prop
  | start (h : seen (m x) = false) : Reach seen succ m x x
  | step (y z : Nat) (hy : Reach seen succ m x y) (hz : z ∈ succ (m y)) (h : seen (m z) = false) : Reach seen succ m x z

section
variable {seen : C → Bool} {g : C → C} {succ : C → List Nat}

theorem reach_unseen {m : Nat → C} {x y : Nat} (h : Reach seen succ m x y) : seen (m y) = false := by
  cases h with
  | start h => exact h
  | step _ _ _ _ h => exact h

theorem reach_cons {m : Nat → C} {x y z : Nat} (hx : seen (m x) = false) (hy : y ∈ succ (m x))
    (h : Reach seen succ m y z) : Reach seen succ m x z := by
  induction h with
  | start h => exact .step _ _ (.start hx) hy h
  | step a b _ hb h ih => exact .step _ _ ih hb h

theorem upd_eq (m : Nat → C) (x : Nat) (c : C) : upd m x c x = c := by simp [upd]
theorem upd_ne (m : Nat → C) {x y : Nat} (c : C) (h : y ≠ x) : upd m x c y = m y := by simp [upd, h]

/-- Some unseen entries have been changed. -/
def Adv (seen : C → Bool) (g : C → C) (m m' : Nat → C) : Prop := ∀ y, m' y = m y ∨ (seen (m y) = false ∧ m' y = g (m y))

theorem adv_refl (m : Nat → C) : Adv seen g m m := fun _ => .inl rfl

theorem adv_trans (hg : ∀ c, seen (g c) = true) {a b c : Nat → C} (h1 : Adv seen g a b) (h2 : Adv seen g b c) :
    Adv seen g a c := by
  intro y
  rcases h1 y with h | ⟨h, h'⟩
  · rcases h2 y with k | ⟨k, k'⟩
    · exact .inl (k.trans h)
    · rw [h] at k k'; exact .inr ⟨k, k'⟩
  · rcases h2 y with k | ⟨k, k'⟩
    · exact .inr ⟨h, k.trans h'⟩
    · rw [h', hg] at k; cases k

theorem adv_seen (hg : ∀ c, seen (g c) = true) {a b : Nat → C} (h : Adv seen g a b) {y : Nat} (hy : seen (a y) = true) :
    seen (b y) = true := by
  rcases h y with h | ⟨h, -⟩
  · rw [h]; exact hy
  · rw [hy] at h; cases h

/-- Where the later map has an unseen entry, it is the earlier one. -/
theorem adv_unseen (hg : ∀ c, seen (g c) = true) {a b : Nat → C} (h : Adv seen g a b) {y : Nat} (hy : seen (b y) = false) :
    b y = a y := by
  rcases h y with h | ⟨-, h⟩
  · exact h
  · rw [h, hg] at hy; cases hy

theorem reach_back (hg : ∀ c, seen (g c) = true) {a b : Nat → C} (h : Adv seen g a b) {x y : Nat}
    (hr : Reach seen succ b x y) : Reach seen succ a x y := by
  induction hr with
  | start h' => exact .start (by rw [← adv_unseen hg h h']; exact h')
  | step y z hy hz h' ih =>
    refine .step y z ih ?_ (by rw [← adv_unseen hg h h']; exact h')
    rw [← adv_unseen hg h (reach_unseen hy)]
    exact hz

theorem adv_upd {m : Nat → C} {x : Nat} (hx : seen (m x) = false) : Adv seen g m (upd m x (g (m x))) := by
  intro y
  by_cases h : y = x
  · subst h; rw [upd_eq]; exact .inr ⟨hx, rfl⟩
  · rw [upd_ne _ _ h]; exact .inl rfl

theorem foldl_adv (hg : ∀ c, seen (g c) = true) {f : (Nat → C) → Nat → (Nat → C)} (hf : ∀ m x, Adv seen g m (f m x)) (l : List Nat) :
    ∀ m, Adv seen g m (l.foldl f m) := by
  induction l with
  | nil => intro m; exact adv_refl m
  | cons a l ih => intro m; rw [List.foldl_cons]; exact adv_trans hg (hf m a) (ih _)

theorem walk_adv (hg : ∀ c, seen (g c) = true) : ∀ n m x, Adv seen g m (walk seen g succ n m x) := by
  intro n
  induction n with
  | zero => intro m x; exact adv_refl m
  | succ n ih =>
    intro m x
    unfold walk
    split
    · exact adv_refl m
    · rename_i h
      exact adv_trans hg (adv_upd (by simpa using h)) (foldl_adv hg (fun m x => ih m x) _ _)

/-- The number of unseen nodes below `N`. -/
def unseen (seen : C → Bool) (N : Nat) (m : Nat → C) : Nat := ((List.range N).filter (fun x => !seen (m x))).length

theorem filter_length_le {p q : Nat → Bool} (h : ∀ x, p x = true → q x = true) (l : List Nat) :
    (l.filter p).length ≤ (l.filter q).length := by
  induction l with
  | nil => simp
  | cons a l ih =>
    rw [List.filter_cons, List.filter_cons]
    cases hp : p a
    · rw [if_neg (by simp)]
      split
      · rw [List.length_cons]; omega
      · exact ih
    · rw [if_pos rfl, if_pos (h a hp)]
      simpa using ih

theorem filter_length_lt {p q : Nat → Bool} (h : ∀ x, p x = true → q x = true) {l : List Nat} {a : Nat} (ha : a ∈ l)
    (hp : p a = false) (hq : q a = true) : (l.filter p).length < (l.filter q).length := by
  induction l with
  | nil => cases ha
  | cons b l ih =>
    rw [List.filter_cons, List.filter_cons]
    have hle := filter_length_le h l
    rcases List.mem_cons.mp ha with rfl | ha
    · rw [hp, hq, if_neg (by simp), if_pos rfl]; simp; omega
    · have := ih ha
      cases hb : p b
      · rw [if_neg (by simp)]
        split
        · rw [List.length_cons]; omega
        · exact this
      · rw [if_pos rfl, if_pos (h b hb)]
        simpa using this

theorem unseen_le (hg : ∀ c, seen (g c) = true) {N : Nat} {a b : Nat → C} (h : Adv seen g a b) :
    unseen seen N b ≤ unseen seen N a := by
  refine filter_length_le (fun x hx => ?_) _
  simp only [Bool.not_eq_true'] at hx ⊢
  rw [← adv_unseen hg h hx]
  exact hx

theorem unseen_upd (hg : ∀ c, seen (g c) = true) {N : Nat} {m : Nat → C} {x : Nat} (hN : x < N) (hx : seen (m x) = false) :
    unseen seen N (upd m x (g (m x))) < unseen seen N m := by
  refine filter_length_lt (fun y hy => ?_) (List.mem_range.mpr hN) (by simp [upd_eq, hg]) (by simp [hx])
  simp only [Bool.not_eq_true'] at hy ⊢
  rw [← adv_unseen hg (adv_upd hx) hy]
  exact hy

theorem unseen_le_N (N : Nat) (m : Nat → C) : unseen seen N m ≤ N := by
  unfold unseen
  exact Nat.le_trans (List.length_filter_le _ _) (by simp)

/-- What the recursion does, for enough fuel. -/
structure Done (seen : C → Bool) (g : C → C) (succ : C → List Nat) (xs : List Nat) (m m' : Nat → C) : Prop where
  adv : Adv seen g m m'
  sound : ∀ y, seen (m' y) = true → seen (m y) = false → ∃ x ∈ xs, Reach seen succ m x y
  here : ∀ x ∈ xs, seen (m' x) = true
  closed : ∀ y, seen (m' y) = true → seen (m y) = false → ∀ z ∈ succ (m y), seen (m' z) = true

theorem fold_done (hg : ∀ c, seen (g c) = true) {N : Nat} {f : (Nat → C) → Nat → (Nat → C)} (k : Nat)
    (hf : ∀ m x, unseen seen N m ≤ k → (∀ y z, z ∈ succ (m y) → seen (m y) = false → z < N) → x < N →
      Done seen g succ [x] m (f m x)) (l : List Nat) :
    ∀ m, unseen seen N m ≤ k → (∀ y z, z ∈ succ (m y) → seen (m y) = false → z < N) → (∀ x ∈ l, x < N) →
      Done seen g succ l m (l.foldl f m) := by
  induction l with
  | nil =>
    intro m _ _ _
    exact ⟨adv_refl m, fun y h1 h2 => absurd (h1.symm.trans h2) (by simp), fun _ h => (nomatch h),
      fun y h1 h2 => absurd (h1.symm.trans h2) (by simp)⟩
  | cons a l ih =>
    intro m hk hN hl
    rw [List.foldl_cons]
    have d1 := hf m a hk hN (hl a (by simp))
    have d2 := ih (f m a) (Nat.le_trans (unseen_le hg d1.adv) hk)
      (fun y z hz hy => hN y z (by rw [← adv_unseen hg d1.adv hy]; exact hz) (by rw [← adv_unseen hg d1.adv hy]; exact hy))
      (fun x hx => hl x (by simp [hx]))
    refine ⟨adv_trans hg d1.adv d2.adv, ?_, ?_, ?_⟩
    · intro y h1 h2
      cases hy : seen (f m a y) with
      | true =>
        obtain ⟨x, hx, hr⟩ := d1.sound y hy h2
        exact ⟨x, by simp at hx; simp [hx], hr⟩
      | false =>
        obtain ⟨x, hx, hr⟩ := d2.sound y h1 hy
        exact ⟨x, by simp [hx], reach_back hg d1.adv hr⟩
    · intro x hx
      rcases List.mem_cons.mp hx with rfl | hx
      · exact adv_seen hg d2.adv (d1.here x (by simp))
      · exact d2.here x hx
    · intro y h1 h2 z hz
      cases hy : seen (f m a y) with
      | true => exact adv_seen hg d2.adv (d1.closed y hy h2 z hz)
      | false => exact d2.closed y h1 hy z (by rw [adv_unseen hg d1.adv hy]; exact hz)

theorem walk_done (hg : ∀ c, seen (g c) = true) (N : Nat) : ∀ n m x, unseen seen N m < n →
    (∀ y z, z ∈ succ (m y) → seen (m y) = false → z < N) → x < N → Done seen g succ [x] m (walk seen g succ n m x) := by
  intro n
  induction n with
  | zero => intro m x h; omega
  | succ n ih =>
    intro m x hn hN hx
    unfold walk
    cases hs : seen (m x) with
    | true =>
      rw [if_pos rfl]
      exact ⟨adv_refl m, fun y h1 h2 => absurd (h1.symm.trans h2) (by simp),
        fun y hy => (by simp at hy; subst hy; exact hs), fun y h1 h2 => absurd (h1.symm.trans h2) (by simp)⟩
    | false =>
      rw [if_neg (by simp)]
      have hu := adv_upd (g := g) hs
      have hlt := unseen_upd hg hx hs
      have hN' : ∀ y z, z ∈ succ (upd m x (g (m x)) y) → seen (upd m x (g (m x)) y) = false → z < N := by
        intro y z hz hy
        rw [adv_unseen hg hu hy] at hz hy
        exact hN y z hz hy
      have d := fold_done hg (unseen seen N (upd m x (g (m x))))
        (f := walk seen g succ n) (fun m' x' h1 h2 h3 => ih m' x' (by omega) h2 h3) (succ (m x))
        (upd m x (g (m x))) (Nat.le_refl _) hN' (fun z hz => hN x z hz hs)
      refine ⟨adv_trans hg hu d.adv, ?_, ?_, ?_⟩
      · intro y h1 h2
        refine ⟨x, by simp, ?_⟩
        by_cases hy : y = x
        · subst hy; exact .start hs
        · obtain ⟨z, hz, hr⟩ := d.sound y h1 (by rw [upd_ne _ _ hy]; exact h2)
          exact reach_cons hs hz (reach_back hg hu hr)
      · intro y hy
        simp at hy
        subst hy
        exact adv_seen hg d.adv (by rw [upd_eq]; exact hg _)
      · intro y h1 h2 z hz
        by_cases hy : y = x
        · subst hy; exact d.here z hz
        · exact d.closed y h1 (by rw [upd_ne _ _ hy]; exact h2) z (by rw [upd_ne _ _ hy]; exact hz)

theorem done_reach {xs : List Nat} {m m' : Nat → C} (d : Done seen g succ xs m m') {x y : Nat} (hx : x ∈ xs)
    (h : Reach seen succ m x y) : seen (m' y) = true := by
  induction h with
  | start h => exact d.here x hx
  | step y z hy hz h ih => exact d.closed y ih (reach_unseen hy) z hz

/-- **The result of the recursion**: exactly the reached entries are changed. -/
theorem done_eq (hg : ∀ c, seen (g c) = true) {xs : List Nat} {m m' : Nat → C} (d : Done seen g succ xs m m') (y : Nat) :
    ((∃ x ∈ xs, Reach seen succ m x y) → m' y = g (m y)) ∧ (¬ (∃ x ∈ xs, Reach seen succ m x y) → m' y = m y) := by
  constructor
  · rintro ⟨x, hx, h⟩
    rcases d.adv y with e | ⟨-, e⟩
    · have := done_reach d hx h
      rw [e, reach_unseen h] at this
      cases this
    · exact e
  · intro h
    rcases d.adv y with e | ⟨e1, e2⟩
    · exact e
    · exact absurd (d.sound y (by rw [e2]; exact hg _) e1) h

/-- One start. -/
theorem walk_eq (hg : ∀ c, seen (g c) = true) {N n : Nat} {m : Nat → C} {x : Nat} (hn : N < n)
    (hN : ∀ y z, z ∈ succ (m y) → seen (m y) = false → z < N) (hx : x < N) (y : Nat) :
    (Reach seen succ m x y → walk seen g succ n m x y = g (m y)) ∧
    (¬ Reach seen succ m x y → walk seen g succ n m x y = m y) := by
  have d := walk_done hg N n m x (Nat.lt_of_le_of_lt (unseen_le_N N m) hn) hN hx
  have e := done_eq hg d y
  exact ⟨fun h => e.1 ⟨x, by simp, h⟩, fun h => e.2 (by rintro ⟨x', hx', hr⟩; simp at hx'; subst hx'; exact h hr)⟩

/-- Several starts, one after the other. -/
theorem walks_eq (hg : ∀ c, seen (g c) = true) {N n : Nat} {m : Nat → C} {xs : List Nat} (hn : N < n)
    (hN : ∀ y z, z ∈ succ (m y) → seen (m y) = false → z < N) (hx : ∀ x ∈ xs, x < N) (y : Nat) :
    ((∃ x ∈ xs, Reach seen succ m x y) → xs.foldl (walk seen g succ n) m y = g (m y)) ∧
    (¬ (∃ x ∈ xs, Reach seen succ m x y) → xs.foldl (walk seen g succ n) m y = m y) :=
  done_eq hg (fold_done hg N (f := walk seen g succ n) (fun m' x' h1 h2 h3 => walk_done hg N n m' x' (by omega) h2 h3) xs m
    (unseen_le_N N m) hN hx) y

end

end Verif.Graph
