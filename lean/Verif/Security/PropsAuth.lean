import Mathlib.Tactic.IntervalCases
import Mathlib.Tactic.Tauto
import Verif.Security.AuthSpec

/-! # Property C32: authentication -/

namespace Verif.Security.Auth
open Verif.AList Verif.Security.Lock

/-! ## Helpers -/

theorem find_fold (l : List User) : ∀ (m : AList String User) (n : String) (u : User),
    get (l.foldl (fun m u => put m u.name u) m) n = some u ↔
      IsLast l n u ∨ ((∀ v ∈ l, v.name ≠ n) ∧ get m n = some u) := by
  induction l with
  | nil =>
    intro m n u
    constructor
    · intro h; exact .inr ⟨by simp, h⟩
    · rintro (⟨-, b, a, h, -⟩ | ⟨-, h⟩)
      · simp at h
      · exact h
  | cons v l ih =>
    intro m n u
    rw [List.foldl_cons, ih, get_put]
    constructor
    · rintro (⟨h1, b, a, rfl, h3⟩ | ⟨h1, h2⟩)
      · exact .inl ⟨h1, v :: b, a, rfl, h3⟩
      · split at h2
        · rename_i e
          cases h2
          exact .inl ⟨e.symm, [], l, rfl, h1⟩
        · rename_i e
          exact .inr ⟨by intro w hw; rcases List.mem_cons.mp hw with rfl | hw
                         · exact fun h => e h.symm
                         · exact h1 w hw, h2⟩
    · rintro (⟨h1, b, a, h2, h3⟩ | ⟨h1, h2⟩)
      · cases b with
        | nil =>
          simp only [List.nil_append, List.cons.injEq] at h2
          obtain ⟨rfl, rfl⟩ := h2
          right
          exact ⟨h3, by rw [if_pos h1.symm]⟩
        | cons w b =>
          simp only [List.cons_append, List.cons.injEq] at h2
          exact .inl ⟨h1, b, a, h2.2, h3⟩
      · right
        refine ⟨fun w hw => h1 w (by simp [hw]), ?_⟩
        rw [if_neg (fun h => h1 v (by simp) h.symm)]
        exact h2

theorem find_static (a : Bool) (l : List User) (n : String) (u : User) :
    (Provider.static a l).findUser n = some u ↔ IsLast l n u := by
  unfold Provider.findUser Provider.static Provider.loadUserList Provider.create
  rw [find_fold]
  simp

theorem matchHash_iff (h : List Char) : matchHash h = true ↔
    ∃ tail, h = '$' :: tail ∧ tail.length = 53 ∧ ∀ c ∈ tail, isHashChar c = true := by
  unfold matchHash
  split
  · rename_i r
    constructor
    · intro h
      simp only [Bool.and_eq_true, beq_iff_eq, List.all_eq_true] at h
      exact ⟨r, rfl, h.1, h.2⟩
    · rintro ⟨t, ht, h1, h2⟩
      cases ht
      simp only [Bool.and_eq_true, beq_iff_eq, List.all_eq_true]
      exact ⟨h1, h2⟩
  · rename_i hx
    constructor
    · intro h; cases h
    · rintro ⟨t, ht, -⟩; exact absurd ht (hx t)

theorem matchDigits_iff (h : List Char) : matchDigits h = true ↔
    ∃ cost tail, h = cost ++ '$' :: tail ∧ (∀ c ∈ cost, isDigit c = true) ∧
      tail.length = 53 ∧ ∀ c ∈ tail, isHashChar c = true := by
  induction h with
  | nil => simp [matchDigits]
  | cons c r ih =>
    unfold matchDigits
    split
    · rename_i hd
      rw [ih]
      constructor
      · rintro ⟨k, t, rfl, h1, h2⟩
        refine ⟨c :: k, t, rfl, ?_, h2⟩
        intro x hx
        rcases List.mem_cons.mp hx with rfl | hx
        · exact hd
        · exact h1 x hx
      · rintro ⟨k, t, e, h1, h2⟩
        cases k with
        | nil =>
          simp only [List.nil_append, List.cons.injEq] at e
          rw [e.1] at hd
          exact absurd hd (by decide)
        | cons x k =>
          simp only [List.cons_append, List.cons.injEq] at e
          exact ⟨k, t, e.2, fun y hy => h1 y (by simp [hy]), h2⟩
    · rename_i hd
      rw [matchHash_iff]
      constructor
      · rintro ⟨t, e, h⟩; exact ⟨[], t, e, by simp, h⟩
      · rintro ⟨k, t, e, h1, h2⟩
        cases k with
        | nil => exact ⟨t, e, h2⟩
        | cons x k =>
          simp only [List.cons_append, List.cons.injEq] at e
          exact absurd (by rw [e.1]; exact h1 x (by simp)) hd

theorem matchCost_iff (h : List Char) : matchCost h = true ↔
    ∃ cost tail, h = '$' :: (cost ++ '$' :: tail) ∧ cost ≠ [] ∧ (∀ c ∈ cost, isDigit c = true) ∧
      tail.length = 53 ∧ ∀ c ∈ tail, isHashChar c = true := by
  unfold matchCost
  split
  · rename_i c r
    rw [Bool.and_eq_true, matchDigits_iff]
    constructor
    · rintro ⟨hd, k, t, rfl, h1, h2⟩
      refine ⟨c :: k, t, rfl, by simp, ?_, h2⟩
      intro x hx
      rcases List.mem_cons.mp hx with rfl | hx
      · exact hd
      · exact h1 x hx
    · rintro ⟨k, t, e, h0, h1, h2⟩
      cases k with
      | nil => exact absurd rfl h0
      | cons x k =>
        simp only [List.cons_append, List.cons.injEq, true_and] at e
        obtain ⟨rfl, rfl⟩ := e
        exact ⟨h1 c (by simp), k, t, rfl, fun y hy => h1 y (by simp [hy]), h2⟩
  · rename_i hx
    constructor
    · intro h; cases h
    · rintro ⟨k, t, e, h0, h1, h2⟩
      cases k with
      | nil => exact absurd rfl h0
      | cons x k => exact absurd e (hx x (k ++ '$' :: t))

theorem range_iff {lo hi : Nat} {l : List Char} (hl : ∀ c ∈ l, lo ≤ c.toNat ∧ c.toNat ≤ hi)
    (hc : ∀ n, lo ≤ n → n ≤ hi → Char.ofNat n ∈ l) (c : Char) : c ∈ l ↔ lo ≤ c.toNat ∧ c.toNat ≤ hi := by
  refine ⟨hl c, fun h => ?_⟩
  have := hc c.toNat h.1 h.2
  rwa [Char.ofNat_toNat] at this

theorem isDigit_iff (c : Char) : isDigit c = true ↔ c ∈ digits := by
  rw [range_iff (l := digits) (lo := 48) (hi := 57) (by decide) (by intro n h1 h2; interval_cases n <;> decide)]
  simp only [isDigit, Bool.and_eq_true, decide_eq_true_eq]
  exact Iff.rfl

theorem lower_iff (c : Char) : ('a' ≤ c ∧ c ≤ 'z') ↔ c ∈ lower := by
  rw [range_iff (l := lower) (lo := 97) (hi := 122) (by decide) (by intro n h1 h2; interval_cases n <;> decide)]
  exact Iff.rfl

theorem upper_iff (c : Char) : ('A' ≤ c ∧ c ≤ 'Z') ↔ c ∈ upper := by
  rw [range_iff (l := upper) (lo := 65) (hi := 90) (by decide) (by intro n h1 h2; interval_cases n <;> decide)]
  exact Iff.rfl

attribute [local irreducible] lower upper digits in
theorem isHashChar_iff (c : Char) : isHashChar c = true ↔ c ∈ lower ++ upper ++ digits ++ ['.', '/'] := by
  have h1 := lower_iff c
  have h2 := upper_iff c
  have h3 := isDigit_iff c
  generalize lower = L at *
  generalize upper = U at *
  generalize digits = D at *
  unfold isHashChar
  simp only [Bool.or_eq_true, Bool.and_eq_true, decide_eq_true_eq, beq_iff_eq, h3, h1, h2, List.mem_append,
    List.mem_cons, List.not_mem_nil, or_false]
  tauto

theorem bcryptLike_iff' (h : List Char) : bcryptLike h = true ↔
    ∃ variant cost tail, h = '$' :: '2' :: (variant ++ '$' :: (cost ++ '$' :: tail)) ∧
    (variant = [] ∨ variant = ['a'] ∨ variant = ['y'] ∨ variant = ['b']) ∧
    cost ≠ [] ∧ (∀ c ∈ cost, isDigit c = true) ∧ tail.length = 53 ∧ ∀ c ∈ tail, isHashChar c = true := by
  unfold bcryptLike
  split
  · rename_i c r
    split
    · rename_i hc
      simp only [Bool.or_eq_true, beq_iff_eq] at hc
      rw [matchCost_iff]
      constructor
      · rintro ⟨k, t, rfl, h⟩
        refine ⟨[c], k, t, rfl, ?_, h⟩
        rcases hc with (rfl | rfl) | rfl <;> simp
      · rintro ⟨v, k, t, e, hv, h⟩
        simp only [List.cons.injEq, true_and] at e
        rcases hv with rfl | rfl | rfl | rfl
        · simp only [List.nil_append, List.cons.injEq] at e
          rw [e.1] at hc
          rcases hc with (h | h) | h <;> exact absurd h (by decide)
        all_goals
          simp only [List.cons_append, List.nil_append, List.cons.injEq] at e
          exact ⟨k, t, e.2, h⟩
    · rename_i hc
      simp only [Bool.or_eq_true, beq_iff_eq, not_or] at hc
      rw [matchCost_iff]
      constructor
      · rintro ⟨k, t, e, h⟩
        exact ⟨[], k, t, by rw [e]; rfl, .inl rfl, h⟩
      · rintro ⟨v, k, t, e, hv, h⟩
        simp only [List.cons.injEq, true_and] at e
        rcases hv with rfl | rfl | rfl | rfl
        · exact ⟨k, t, e, h⟩
        all_goals
          simp only [List.cons_append, List.nil_append, List.cons.injEq] at e
          exact absurd e.1 (by tauto)
  · rename_i hx
    constructor
    · intro h; cases h
    · rintro ⟨v, k, t, e, hv, h⟩
      rcases hv with rfl | rfl | rfl | rfl
      · exact absurd e (hx _ _)
      all_goals exact absurd e (hx _ _)

theorem bcryptLike_iff (h : List Char) : bcryptLike h = true ↔ BcryptForm h := by
  rw [bcryptLike_iff']
  unfold BcryptForm
  simp only [isDigit_iff, isHashChar_iff]

theorem valid_iff (bcrypt : String → String → Bool) (hash password : String) :
    isPasswordValid bcrypt hash password = true ↔ Fits bcrypt hash password := by
  unfold isPasswordValid Fits
  rw [← bcryptLike_iff]
  cases bcryptLike hash.toList <;> simp

theorem cstr_iff (s t : String) : cstr s = t ↔ Visible s t := by
  unfold cstr Visible
  have key : ∀ (l m : List Char), l.takeWhile (fun c => c != '\x00') = m ↔
      '\x00' ∉ m ∧ (l = m ∨ ∃ rest, l = m ++ '\x00' :: rest) := by
    intro l
    induction l with
    | nil =>
      intro m
      constructor
      · rintro rfl; simp
      · rintro ⟨-, h | ⟨r, h⟩⟩
        · rw [← h]; rfl
        · simp at h
    | cons c l ih =>
      intro m
      rw [List.takeWhile_cons]
      split
      · rename_i hc
        have hc : c ≠ '\x00' := by simpa using hc
        cases m with
        | nil =>
          constructor
          · intro h; cases h
          · rintro ⟨-, h | ⟨r, h⟩⟩
            · cases h
            · cases h; exact absurd rfl hc
        | cons d m =>
          rw [List.cons.injEq, ih]
          constructor
          · rintro ⟨rfl, h1, h2⟩
            refine ⟨?_, ?_⟩
            · intro h
              rcases List.mem_cons.mp h with h | h
              · exact hc h.symm
              · exact h1 h
            · rcases h2 with rfl | ⟨r, rfl⟩
              · exact .inl rfl
              · exact .inr ⟨r, rfl⟩
          · rintro ⟨h1, h2⟩
            have h1' : '\x00' ∉ m := fun h => h1 (by simp [h])
            rcases h2 with h | ⟨r, h⟩
            · cases h; exact ⟨rfl, h1', .inl rfl⟩
            · cases h; exact ⟨rfl, h1', .inr ⟨r, rfl⟩⟩
      · rename_i hc
        have hc : c = '\x00' := by simpa using hc
        subst hc
        constructor
        · rintro rfl; exact ⟨by simp, .inr ⟨l, rfl⟩⟩
        · rintro ⟨h1, h | ⟨r, h⟩⟩
          · rw [← h] at h1; exact absurd (by simp) h1
          · cases m with
            | nil => rfl
            | cons d m => cases h; exact absurd (by simp) h1
  rw [show (String.ofList (s.toList.takeWhile fun c => c != '\x00') = t) ↔
      (s.toList.takeWhile (fun c => c != '\x00') = t.toList) from by
    constructor
    · rintro rfl; simp
    · intro h; rw [h]; simp, key]
  rw [String.toList_inj]

theorem parseGroups_iff (l : List Json) : ∀ gs, parseGroups l = .ok gs ↔ GroupsAre l gs := by
  induction l with
  | nil =>
    intro gs
    constructor
    · intro h; cases h; exact .nil
    · intro h; cases h; rfl
  | cons j l ih =>
    intro gs
    cases j with
    | str s =>
      unfold parseGroups
      constructor
      · intro h
        cases hp : parseGroups l with
        | ok g => rw [hp] at h; cases h; exact .cons _ _ _ _ ((cstr_iff _ _).mp rfl) ((ih _).mp hp)
        | parseFailed => rw [hp] at h; cases h
        | undefined => rw [hp] at h; cases h
      · intro h
        cases h with
        | cons _ t _ g hv hl => rw [(ih _).mpr hl, Res.bind, (cstr_iff _ _).mpr hv]
    | _ =>
      constructor
      · intro h; simp [parseGroups] at h
      · intro h; cases h

theorem parseUserGroups_iff (m : List (String × Json)) (gs : List String) : parseUserGroups m = .ok gs ↔
    ((m.lookup "groups" = none ∧ gs = []) ∨ ∃ l, m.lookup "groups" = some (.arr l) ∧ GroupsAre l gs) := by
  unfold parseUserGroups member
  cases h : m.lookup "groups" with
  | none => simp [eq_comm]
  | some j =>
    cases j with
    | arr l => simp [parseGroups_iff]
    | _ => simp

theorem parseUser_iff (m : List (String × Json)) (u : User) : parseUser m = .ok u ↔
    ∃ name hash groups, u = mkUser name hash groups ∧ UserIs m name hash groups := by
  unfold parseUser UserIs member
  constructor
  · intro h
    split at h
    · rename_i n hn
      split at h
      · rename_i k hk
        cases hg : parseUserGroups m with
        | ok gs =>
          rw [hg] at h
          cases h
          exact ⟨_, _, gs, rfl, ⟨n, hn, (cstr_iff _ _).mp rfl⟩, ⟨k, hk, (cstr_iff _ _).mp rfl⟩,
            (parseUserGroups_iff _ _).mp hg⟩
        | parseFailed => rw [hg] at h; cases h
        | undefined => rw [hg] at h; cases h
      · cases h
    · cases h
  · rintro ⟨name, hash, gs, rfl, ⟨n, hn, vn⟩, ⟨k, hk, vk⟩, hg⟩
    rw [hn]
    dsimp only
    rw [hk]
    dsimp only
    rw [(parseUserGroups_iff _ _).mpr hg, Res.bind, (cstr_iff _ _).mpr vn, (cstr_iff _ _).mpr vk]

theorem parseUserList_iff (l : List Json) : ∀ acc r, parseUserList l acc = .ok r ↔
    ∃ us, UsersAre l us ∧ r = us.foldl (fun m u => put m u.name u) acc := by
  induction l with
  | nil =>
    intro acc r
    constructor
    · intro h; cases h; exact ⟨[], .nil, rfl⟩
    · rintro ⟨us, h, rfl⟩; cases h; rfl
  | cons j l ih =>
    intro acc r
    cases j with
    | obj m =>
      unfold parseUserList
      constructor
      · intro h
        cases hp : parseUser m with
        | ok u =>
          rw [hp] at h
          obtain ⟨us, h1, h2⟩ := (ih _ _).mp h
          obtain ⟨n, k, gs, rfl, h3⟩ := (parseUser_iff _ _).mp hp
          exact ⟨_, .cons _ _ _ _ _ _ h3 h1, h2⟩
        | parseFailed => rw [hp] at h; cases h
        | undefined => rw [hp] at h; cases h
      · rintro ⟨us, h, rfl⟩
        cases h with
        | cons _ n k gs _ us h hl =>
          rw [(parseUser_iff _ _).mpr ⟨n, k, gs, rfl, h⟩, Res.bind]
          exact (ih _ _).mpr ⟨us, hl, rfl⟩
    | _ =>
      constructor
      · intro h; simp [parseUserList] at h
      · rintro ⟨us, h, -⟩; cases h

/-! ## The property -/

/-- **C32.** `authenticate` returns a user exactly when that user is the last one configured with the name and the
password fits. -/
theorem C32_authenticate (bcrypt : String → String → Bool) (allow : Bool) (l : List User) (name password : String)
    (u : User) :
    (Provider.static allow l).authenticate bcrypt name password = .ok u ↔
      IsLast l name u ∧ Fits bcrypt u.hash password := by
  unfold Provider.authenticate
  rw [← find_static allow, ← valid_iff]
  cases h : (Provider.static allow l).findUser name with
  | none => simp
  | some v =>
    dsimp only
    constructor
    · intro h'
      split at h'
      · rename_i hv; cases h'; exact ⟨rfl, hv⟩
      · cases h'
    · rintro ⟨h1, h2⟩
      cases h1
      rw [if_pos h2]

/-- The two user objects of the examples; `bob` is configured twice. -/
def exList : List User := [mkUser "bob" "first" [], mkUser "eve" "x" ["admin"], mkUser "bob" "second" ["z", "a", "z"]]

example : IsLast exList "bob" (mkUser "bob" "second" ["z", "a", "z"]) := ⟨rfl, exList.take 2, [], rfl, by simp⟩

/-- **C32.** Every refusal is for one of two reasons: no such user, or the password does not fit the last
configured one. -/
theorem C32_refused (bcrypt : String → String → Bool) (allow : Bool) (l : List User) (name password : String) :
    ((Provider.static allow l).authenticate bcrypt name password = .error .userNotFound ↔ ∀ u ∈ l, u.name ≠ name) ∧
    ((Provider.static allow l).authenticate bcrypt name password = .error .invalidPassword ↔
      ∃ u, IsLast l name u ∧ ¬ Fits bcrypt u.hash password) := by
  unfold Provider.authenticate
  constructor
  · constructor
    · intro h u hu hn
      split at h
      · rename_i hf
        have : ∀ (l : List User), (∃ u ∈ l, u.name = name) → ∃ u, IsLast l name u := by
          intro l
          induction l with
          | nil => rintro ⟨u, h, -⟩; cases h
          | cons v l ih =>
            rintro ⟨u, hu, hn⟩
            by_cases hl : ∃ u ∈ l, u.name = name
            · obtain ⟨w, h1, b, a, rfl, h3⟩ := ih hl
              exact ⟨w, h1, v :: b, a, rfl, h3⟩
            · rcases List.mem_cons.mp hu with rfl | hu
              · exact ⟨u, hn, [], l, rfl, fun w hw e => hl ⟨w, hw, e⟩⟩
              · exact absurd ⟨u, hu, hn⟩ hl
        obtain ⟨w, hw⟩ := this l ⟨u, hu, hn⟩
        rw [(find_static allow l name w).mpr hw] at hf
        cases hf
      · split at h <;> cases h
    · intro h
      cases hf : (Provider.static allow l).findUser name with
      | none => rfl
      | some u =>
        obtain ⟨h1, b, a, rfl, -⟩ := (find_static allow l name u).mp hf
        exact absurd h1 (h u (by simp))
  · constructor
    · intro h
      split at h
      · cases h
      · rename_i u hf
        split at h
        · cases h
        · rename_i hv
          exact ⟨u, (find_static _ _ _ _).mp hf, fun h' => hv ((valid_iff _ _ _).mpr h')⟩
    · rintro ⟨u, h1, h2⟩
      rw [(find_static allow l name u).mpr h1]
      dsimp only
      rw [if_neg (fun h => h2 ((valid_iff _ _ _).mp h))]

/-- **C32.** `findUser` returns the last user configured with the name. -/
theorem C32_findUser (allow : Bool) (l : List User) (name : String) (u : User) :
    (Provider.static allow l).findUser name = some u ↔ IsLast l name u := find_static allow l name u

/-- **C32.** Anonymous authentication succeeds exactly when allowed, and yields the anonymous user. -/
theorem C32_anonymous (allow : Bool) (l : List User) :
    (Provider.static allow l).isAnonymousAllowed = allow ∧
    (allow = true → ∃ u, (Provider.static allow l).authenticateAnonymous = .ok u ∧ isAnonymous u = true ∧
      u.groups = ["everyone"]) ∧
    (allow = false → (Provider.static allow l).authenticateAnonymous = .error .anonymousNotAllowed) := by
  refine ⟨rfl, ?_, ?_⟩
  · rintro rfl; exact ⟨_, rfl, rfl, rfl⟩
  · rintro rfl; rfl

/-- **C32.** A provider without bcrypt hashes accepts a password exactly when it is the stored text. -/
theorem C32_plain (bcrypt : String → String → Bool) (hash password : String) (h : ¬ BcryptForm hash.toList) :
    Fits bcrypt hash password ↔ hash = password := by
  unfold Fits
  constructor
  · rintro (⟨h', -⟩ | ⟨-, h'⟩)
    · exact absurd h' h
    · exact h'
  · intro h'; exact .inr ⟨h, h'⟩

example : ¬ BcryptForm "second".toList := by
  rintro ⟨v, k, t, e, -⟩; exact absurd (List.cons.inj e).1 (by decide)

/-- **C32.** A stored bcrypt hash is not itself a password: only what the bcrypt check accepts. -/
theorem C32_bcrypt (bcrypt : String → String → Bool) (hash password : String) (h : BcryptForm hash.toList) :
    Fits bcrypt hash password ↔ bcrypt password hash = true := by
  unfold Fits
  constructor
  · rintro (⟨-, h'⟩ | ⟨h', -⟩)
    · exact h'
    · exact absurd h h'
  · intro h'; exact .inl ⟨h, h'⟩

example : BcryptForm ("$2b$10$".toList ++ List.replicate 53 'x') :=
  ⟨['b'], ['1', '0'], List.replicate 53 'x', rfl, by simp, by simp, by decide, by simp,
    fun c hc => by rw [List.eq_of_mem_replicate hc]; decide⟩

theorem insertSorted_mem (g x : String) (l : List String) : x ∈ insertSorted g l ↔ x = g ∨ x ∈ l := by
  induction l with
  | nil => simp [insertSorted]
  | cons h t ih =>
    unfold insertSorted
    split
    · simp
    · split
      · rw [List.mem_cons, ih, List.mem_cons]; tauto
      · rename_i h1 h2
        have : g = h := le_antisymm (not_lt.mp h2) (not_lt.mp h1)
        subst this
        simp

theorem insertSorted_sorted (g : String) (l : List String) (h : l.Pairwise (· < ·)) :
    (insertSorted g l).Pairwise (· < ·) := by
  induction l with
  | nil => simp [insertSorted]
  | cons a t ih =>
    obtain ⟨h1, h2⟩ := List.pairwise_cons.mp h
    unfold insertSorted
    split
    · rename_i hg
      refine List.pairwise_cons.mpr ⟨fun x hx => ?_, h⟩
      rcases List.mem_cons.mp hx with rfl | hx
      · exact hg
      · exact lt_trans hg (h1 x hx)
    · split
      · rename_i hg
        refine List.pairwise_cons.mpr ⟨fun x hx => ?_, ih h2⟩
        rcases (insertSorted_mem g x t).mp hx with rfl | hx
        · exact hg
        · exact h1 x hx
      · exact h

/-- **C32.** The groups of a user are the given ones and `everyone`, each once, in order. -/
theorem C32_groups (name hash : String) (groups : List String) :
    (∀ g, g ∈ (mkUser name hash groups).groups ↔ g = "everyone" ∨ g ∈ groups) ∧
    (mkUser name hash groups).groups.Pairwise (· < ·) := by
  have key : ∀ (gs acc : List String), acc.Pairwise (· < ·) →
      (∀ g, g ∈ gs.foldl (fun s g => insertSorted g s) acc ↔ g ∈ acc ∨ g ∈ gs) ∧
      (gs.foldl (fun s g => insertSorted g s) acc).Pairwise (· < ·) := by
    intro gs
    induction gs with
    | nil => intro acc h; exact ⟨by simp, h⟩
    | cons a gs ih =>
      intro acc h
      rw [List.foldl_cons]
      obtain ⟨h1, h2⟩ := ih (insertSorted a acc) (insertSorted_sorted _ _ h)
      refine ⟨fun g => ?_, h2⟩
      rw [h1, insertSorted_mem, List.mem_cons]
      tauto
  have := key groups (insertSorted "everyone" []) (by simp [insertSorted])
  refine ⟨fun g => ?_, this.2⟩
  show g ∈ userGroups groups ↔ _
  unfold userGroups
  rw [this.1, insertSorted_mem]
  simp

example : (mkUser "bob" "second" ["z", "a", "z"]).groups = ["a", "everyone", "z"] := by decide

/-- **C32.** A JSON configuration is accepted exactly when it is well-formed, and the provider then is the one with
the configured flag and users. -/
theorem C32_json (m : List (String × Json)) (p : Provider) :
    loadJson (some (.obj m)) = .ok p ↔ ∃ allow us, Configures m allow us ∧ p = Provider.static allow us := by
  unfold loadJson Configures
  dsimp only
  constructor
  · intro h
    cases ha : parseAllowAnonymous m with
    | ok b =>
      rw [ha, Res.bind] at h
      cases hu : parseUsers m with
      | ok us =>
        rw [hu, Res.bind] at h
        cases h
        have hb : m.lookup "allowAnonymous" = some (.bool b) := by
          unfold parseAllowAnonymous member at ha
          split at ha
          · rename_i b' h'; cases ha; exact h'
          · cases ha
        unfold parseUsers member at hu
        split at hu
        · rename_i l hl
          obtain ⟨us', h1, rfl⟩ := (parseUserList_iff _ _ _).mp hu
          exact ⟨b, us', ⟨hb, .inl ⟨l, hl, h1⟩⟩, rfl⟩
        · rename_i hl
          cases hu
          exact ⟨b, [], ⟨hb, .inr ⟨hl, rfl⟩⟩, rfl⟩
      | parseFailed => rw [hu] at h; cases h
      | undefined => rw [hu] at h; cases h
    | parseFailed => rw [ha] at h; cases h
    | undefined => rw [ha] at h; cases h
  · rintro ⟨b, us, ⟨hb, hu⟩, rfl⟩
    have ha : parseAllowAnonymous m = .ok b := by unfold parseAllowAnonymous member; rw [hb]
    rw [ha, Res.bind]
    have : parseUsers m = .ok (us.foldl (fun m u => put m u.name u) []) := by
      unfold parseUsers member
      rcases hu with ⟨l, hl, h1⟩ | ⟨hl, rfl⟩
      · rw [hl]; exact (parseUserList_iff _ _ _).mpr ⟨us, h1, rfl⟩
      · split
        · rename_i l h'; exact absurd h' (hl l)
        · rfl
    rw [this, Res.bind]
    rfl

/-- A configuration with one user. -/
def exJson : List (String × Json) :=
  [("allowAnonymous", .bool false), ("users", .arr [.obj [("username", .str "bob"), ("passwordHash", .str "pw"),
    ("groups", .arr [.str "admin"])]])]

example : Configures exJson false [mkUser "bob" "pw" ["admin"]] :=
  ⟨rfl, .inl ⟨_, rfl, .cons _ _ _ _ _ _
    ⟨⟨"bob", rfl, by simp, .inl rfl⟩, ⟨"pw", rfl, by simp, .inl rfl⟩,
      .inr ⟨_, rfl, .cons _ _ _ _ ⟨by simp, .inl rfl⟩ .nil⟩⟩ .nil⟩⟩

/-- **C32.** A streaming session is accepted as a user exactly when the client gave no credentials and anonymous
access is allowed, or gave a configured name with a fitting password. -/
theorem C32_session (bcrypt : String → String → Bool) (allow : Bool) (l : List User) (c : Credentials) (u : User) :
    onAuthenticate bcrypt (Provider.static allow l) c = some u ↔
      match c with
      | .anonymous => allow = true ∧ u = mkUser "" "" []
      | .basic name password => IsLast l name u ∧ Fits bcrypt u.hash password := by
  cases c with
  | anonymous =>
    cases allow
    · simp [onAuthenticate, Provider.authenticateAnonymous, Provider.static, Provider.create, Provider.loadUserList]
    · simp [onAuthenticate, Provider.authenticateAnonymous, Provider.static, Provider.create, Provider.loadUserList,
        eq_comm]
  | basic name password =>
    dsimp only
    rw [← C32_authenticate bcrypt allow]
    unfold onAuthenticate
    dsimp only
    cases (Provider.static allow l).authenticate bcrypt name password with
    | ok v => simp
    | error e => simp

/-- **C32, violated.** A user with an empty name and an empty password hash logs in with empty credentials and
counts as anonymous although anonymous access is not allowed. -/
theorem C32_violation_emptyUser (bcrypt : String → String → Bool) :
    ∃ u, (Provider.static false [mkUser "" "" ["admin"]]).authenticate bcrypt "" "" = .ok u ∧ isAnonymous u = true ∧
      (Provider.static false [mkUser "" "" ["admin"]]).isAnonymousAllowed = false :=
  ⟨mkUser "" "" ["admin"], rfl, rfl, rfl⟩

/-- **C32, violated.** A null character in a configured text cuts it off: with the password `pw\u0000secret` the
password `pw` is accepted, and the configured one is not. -/
theorem C32_violation_nullCharacter (bcrypt : String → String → Bool) :
    ∃ p u, loadJson (some (.obj [("allowAnonymous", .bool false), ("users", .arr [.obj [("username", .str "bob"),
        ("passwordHash", .str "pw\x00secret")]])])) = .ok p ∧
      p.authenticate bcrypt "bob" "pw" = .ok u ∧
      p.authenticate bcrypt "bob" "pw\x00secret" = .error .invalidPassword := by
  have h : loadJson (some (.obj [("allowAnonymous", .bool false), ("users", .arr [.obj [("username", .str "bob"),
        ("passwordHash", .str "pw\x00secret")]])])) = .ok (Provider.static false [mkUser "bob" "pw" []]) :=
    (C32_json _ _).mpr ⟨false, [mkUser "bob" "pw" []], ⟨rfl, .inl ⟨_, rfl, .cons _ _ _ _ _ _
      ⟨⟨"bob", rfl, by simp, .inl rfl⟩, ⟨"pw\x00secret", rfl, by simp, .inr ⟨"secret".toList, rfl⟩⟩,
        .inl ⟨rfl, rfl⟩⟩ .nil⟩⟩, rfl⟩
  refine ⟨_, mkUser "bob" "pw" [], h, ?_, ?_⟩
  · rfl
  · rfl

end Verif.Security.Auth
