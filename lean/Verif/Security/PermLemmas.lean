import Verif.Security.PermSpec

/-! # Lemmas: what a permission object stands for -/

namespace Verif.Security

theorem look_put (t : Table) (g h : Group) (m : Mask) : look (AList.put t g m) h = if h = g then m else look t h := by
  unfold look
  rw [AList.get_put]
  split <;> simp_all

def Keyed (t : Table) : Prop := (t.map Prod.fst).Nodup

theorem keyed_put {t : Table} (h : Keyed t) (g : Group) (m : Mask) : Keyed (AList.put t g m) := by
  unfold Keyed AList.put AList.del at *
  rw [List.map_cons, List.nodup_cons]
  constructor
  · simp
  · exact h.sublist ((List.filter_sublist).map _)

/-- The entries of group `g`. -/
def at_ (p : Perms) (g : Group) : Mask × Mask × Option Mask := (look p.allowed g, look p.denied g, AList.get p.assigned g)

theorem at_assign (p : Perms) (g h : Group) (m : Mask) :
    at_ (p.assign g m) h = if h = g then (m, 0, some m) else at_ p h := by
  simp only [at_, Perms.assign, look_put, AList.get_put]
  by_cases e : h = g <;> simp [e, eq_comm]
  

theorem at_allow (p : Perms) (g h : Group) (m : Mask) :
    at_ (p.allow g m) h = if h = g then ((at_ p h).1 ||| m, (at_ p h).2.1 &&& ~~~m, (at_ p h).2.2) else at_ p h := by
  simp only [at_, Perms.allow, look_put]
  by_cases e : h = g <;> simp [e]

theorem at_deny (p : Perms) (g h : Group) (m : Mask) :
    at_ (p.deny g m) h = if h = g then ((at_ p h).1 &&& ~~~m, (at_ p h).2.1 ||| m, (at_ p h).2.2) else at_ p h := by
  simp only [at_, Perms.deny, look_put]
  by_cases e : h = g <;> simp [e]

/-- A fold over a table touches the entries of `g` once at most. -/
theorem foldl_at (f : Perms → Group → Mask → Perms) (F : Mask → Mask × Mask × Option Mask → Mask × Mask × Option Mask)
    (hf : ∀ b h m g, at_ (f b h m) g = if g = h then F m (at_ b g) else at_ b g)
    (t : Table) (ht : Keyed t) (b : Perms) (g : Group) :
    at_ (t.foldl (fun b e => f b e.1 e.2) b) g =
      match AList.get t g with
      | none => at_ b g
      | some m => F m (at_ b g) := by
  induction t generalizing b with
  | nil => rfl
  | cons e t ih =>
    obtain ⟨h, m⟩ := e
    unfold Keyed at ht
    rw [List.map_cons, List.nodup_cons] at ht
    rw [List.foldl_cons, ih ht.2, AList.get_cons, hf]
    by_cases e : g = h
    · subst e
      have : AList.get t g = none := by
        cases hg : AList.get t g with
        | none => rfl
        | some v => exact absurd (List.mem_map_of_mem (f := Prod.fst) (AList.mem_of_get hg)) ht.1
      simp [this]
    · simp [e, Ne.symm e]

theorem foldl_keyed (f : Perms → Group → Mask → Perms)
    (hf : ∀ b h m, Keyed b.allowed ∧ Keyed b.denied ∧ Keyed b.assigned →
      Keyed (f b h m).allowed ∧ Keyed (f b h m).denied ∧ Keyed (f b h m).assigned)
    (t : Table) (b : Perms) (hb : Keyed b.allowed ∧ Keyed b.denied ∧ Keyed b.assigned) :
    let r := t.foldl (fun b e => f b e.1 e.2) b
    Keyed r.allowed ∧ Keyed r.denied ∧ Keyed r.assigned := by
  induction t generalizing b with
  | nil => exact hb
  | cons e t ih => exact ih _ (hf _ _ _ hb)

/-- What the proofs carry about a permission object and its rules. -/
structure Stands (p : Perms) (rs : List Rule) : Prop where
  keyed : Keyed p.allowed ∧ Keyed p.denied ∧ Keyed p.assigned
  allowed : ∀ g i, (look p.allowed g).getLsbD i = granted rs g i
  denied : ∀ g i, (look p.denied g).getLsbD i = forbidden rs g i
  has : ∀ g, AList.get p.assigned g = none → ∀ m, Rule.assign g m ∉ rs
  sub : ∀ g m i, AList.get p.assigned g = some m → (∃ r, lastRule rs g i = some r) ∧
    (m.getLsbD i = true → granted rs g i = true ∨ forbidden rs g i = true)

theorem lastRule_append (rs qs : List Rule) (g : Group) (i : Nat) :
    lastRule (rs ++ qs) g i = (lastRule qs g i).or (lastRule rs g i) := by
  simp [lastRule, List.find?_append]

theorem lastRule_single (r : Rule) (g : Group) (i : Nat) :
    lastRule [r] g i = if r.mentions g i then some r else none := by
  simp only [lastRule, List.reverse_singleton, List.find?_singleton]

theorem lastRule_mem {rs : List Rule} {g : Group} {i : Nat} {r : Rule} (h : lastRule rs g i = some r) :
    r ∈ rs ∧ r.mentions g i = true := by
  unfold lastRule at h
  exact ⟨by simpa using List.mem_of_find?_eq_some h, List.find?_some h⟩

theorem granted_append (rs qs : List Rule) (g : Group) (i : Nat) :
    granted (rs ++ qs) g i = if lastRule qs g i = none then granted rs g i else granted qs g i := by
  unfold granted
  rw [lastRule_append]
  cases h : lastRule qs g i <;> simp

theorem forbidden_append (rs qs : List Rule) (g : Group) (i : Nat) :
    forbidden (rs ++ qs) g i = if lastRule qs g i = none then forbidden rs g i else forbidden qs g i := by
  unfold forbidden
  rw [lastRule_append]
  cases h : lastRule qs g i <;> simp

theorem not_both (rs : List Rule) (g : Group) (i : Nat) : ¬ (granted rs g i = true ∧ forbidden rs g i = true) := by
  unfold granted forbidden
  cases h : lastRule rs g i with
  | none => simp
  | some r => cases r <;> simp

theorem stands_empty : Stands {} [] where
  keyed := by simp [Keyed]
  allowed g i := by simp [look, granted, lastRule]
  denied g i := by simp [look, forbidden, lastRule]
  has g _ m := by simp
  sub g m i h := by simp at h

theorem stands_inherit {p : Perms} {rs : List Rule} (b : Bool) (h : Stands p rs) : Stands (p.inherit b) rs :=
  ⟨h.keyed, h.allowed, h.denied, h.has, h.sub⟩

theorem getLsbD_not_lt (m : Mask) (i : Nat) (x : Bool) (h : x = true → i < 64) :
    (x && (~~~m).getLsbD i) = (x && !m.getLsbD i) := by
  cases x with
  | false => rfl
  | true => simp [BitVec.getLsbD_not, h rfl]

theorem and_not_bit (a m : Mask) (i : Nat) : (a &&& ~~~m).getLsbD i = (a.getLsbD i && !m.getLsbD i) := by
  rw [BitVec.getLsbD_and]
  exact getLsbD_not_lt m i _ (fun h => BitVec.lt_of_getLsbD h)

theorem stands_assign {p : Perms} {rs : List Rule} (g : Group) (m : Mask) (h : Stands p rs) :
    Stands (p.assign g m) (rs ++ [.assign g m]) where
  keyed := ⟨keyed_put h.keyed.1 _ _, keyed_put h.keyed.2.1 _ _, keyed_put h.keyed.2.2 _ _⟩
  allowed k i := by
    have := congrArg Prod.fst (at_assign p g k m)
    simp only [at_] at this
    rw [this, granted_append, lastRule_single, ← h.allowed]
    by_cases e : k = g
    · subst e; simp [Rule.mentions, granted, lastRule_single]
    · simp [Rule.mentions, e, Ne.symm e]
  denied k i := by
    have := congrArg (fun x => x.2.1) (at_assign p g k m)
    simp only [at_] at this
    rw [this, forbidden_append, lastRule_single, ← h.denied]
    by_cases e : k = g
    · subst e; simp [Rule.mentions, forbidden, lastRule_single]
    · simp [Rule.mentions, e, Ne.symm e]
  has k hk m' := by
    simp only [Perms.assign, AList.get_put] at hk
    by_cases e : k = g
    · simp [e] at hk
    · rw [if_neg (by first | exact e | exact Ne.symm e)] at hk
      have := h.has k hk m'
      simp [this, e]
  sub k m' i hk := by
    simp only [Perms.assign, AList.get_put] at hk
    rw [granted_append, forbidden_append, lastRule_append, lastRule_single]
    by_cases e : k = g
    · subst e
      simp at hk
      subst hk
      simp [Rule.mentions, granted, lastRule_single]
      exact fun h => .inl h
    · rw [if_neg (by first | exact e | exact Ne.symm e)] at hk
      have := h.sub k m' i hk
      simpa [Rule.mentions, Ne.symm e] using this

theorem stands_allow {p : Perms} {rs : List Rule} (g : Group) (m : Mask) (h : Stands p rs) :
    Stands (p.allow g m) (rs ++ [.allow g m]) where
  keyed := ⟨keyed_put h.keyed.1 _ _, keyed_put h.keyed.2.1 _ _, h.keyed.2.2⟩
  allowed k i := by
    have := congrArg Prod.fst (at_allow p g k m)
    simp only [at_] at this
    rw [this, granted_append, lastRule_single, ← h.allowed]
    by_cases e : k = g
    · subst e
      cases hm : m.getLsbD i <;> simp [Rule.mentions, granted, lastRule_single, hm]
    · simp [Rule.mentions, e, Ne.symm e]
  denied k i := by
    have := congrArg (fun x => x.2.1) (at_allow p g k m)
    simp only [at_] at this
    rw [this, forbidden_append, lastRule_single, ← h.denied]
    by_cases e : k = g
    · subst e
      rw [if_pos rfl, and_not_bit]
      cases hm : m.getLsbD i <;> simp [Rule.mentions, forbidden, lastRule_single, hm]
    · simp [Rule.mentions, e, Ne.symm e]
  has k hk m' := by
    have := h.has k hk m'
    simp [this]
  sub k m' i hk := by
    have hs := h.sub k m' i hk
    rw [granted_append, forbidden_append, lastRule_append, lastRule_single]
    by_cases e : (Rule.allow g m).mentions k i = true
    · simp [e, granted, lastRule_single]
    · simpa [e] using hs

theorem stands_deny {p : Perms} {rs : List Rule} (g : Group) (m : Mask) (h : Stands p rs) :
    Stands (p.deny g m) (rs ++ [.deny g m]) where
  keyed := ⟨keyed_put h.keyed.1 _ _, keyed_put h.keyed.2.1 _ _, h.keyed.2.2⟩
  allowed k i := by
    have := congrArg Prod.fst (at_deny p g k m)
    simp only [at_] at this
    rw [this, granted_append, lastRule_single, ← h.allowed]
    by_cases e : k = g
    · subst e
      rw [if_pos rfl, and_not_bit]
      cases hm : m.getLsbD i <;> simp [Rule.mentions, granted, lastRule_single, hm]
    · simp [Rule.mentions, e, Ne.symm e]
  denied k i := by
    have := congrArg (fun x => x.2.1) (at_deny p g k m)
    simp only [at_] at this
    rw [this, forbidden_append, lastRule_single, ← h.denied]
    by_cases e : k = g
    · subst e
      cases hm : m.getLsbD i <;> simp [Rule.mentions, forbidden, lastRule_single, hm]
    · simp [Rule.mentions, e, Ne.symm e]
  has k hk m' := by
    have := h.has k hk m'
    simp [this]
  sub k m' i hk := by
    have hs := h.sub k m' i hk
    rw [granted_append, forbidden_append, lastRule_append, lastRule_single]
    by_cases e : (Rule.deny g m).mentions k i = true
    · simp [e, forbidden, lastRule_single]
    · simpa [e] using hs

theorem at_extend {p q : Perms} (hq : Keyed q.allowed ∧ Keyed q.denied ∧ Keyed q.assigned) (g : Group) :
    at_ (p.extend q) g =
      let v := match AList.get q.assigned g with
        | none => at_ p g
        | some m => (m, 0, some m)
      (((v.1 ||| look q.allowed g) &&& ~~~look q.denied g), ((v.2.1 &&& ~~~look q.allowed g) ||| look q.denied g), v.2.2) := by
  have hall : ∀ a : Mask, a &&& ~~~0 = a := fun a => by
    apply BitVec.eq_of_getLsbD_eq
    intro i hi
    rw [and_not_bit]; simp
  have hor : ∀ a : Mask, a ||| 0 = a := fun a => by
    apply BitVec.eq_of_getLsbD_eq
    intro i hi
    simp
  unfold Perms.extend
  dsimp only
  rw [foldl_at (fun b h m => b.deny h m) (fun m v => (v.1 &&& ~~~m, v.2.1 ||| m, v.2.2))
      (fun b h m g => by rw [at_deny]) _ hq.2.1,
    foldl_at (fun b h m => b.allow h m) (fun m v => (v.1 ||| m, v.2.1 &&& ~~~m, v.2.2))
      (fun b h m g => by rw [at_allow]) _ hq.1,
    foldl_at (fun b h m => b.assign h m) (fun m _ => (m, 0, some m)) (fun b h m g => by rw [at_assign]) _ hq.2.2]
  cases h1 : AList.get q.assigned g <;> cases h2 : AList.get q.allowed g <;> cases h3 : AList.get q.denied g <;>
    simp only [look, h2, h3, Option.getD_none, Option.getD_some, hall, hor] <;> rfl

theorem extend_keyed {p : Perms} (hp : Keyed p.allowed ∧ Keyed p.denied ∧ Keyed p.assigned) (q : Perms) :
    Keyed (p.extend q).allowed ∧ Keyed (p.extend q).denied ∧ Keyed (p.extend q).assigned := by
  unfold Perms.extend
  refine foldl_keyed (fun b h m => b.deny h m) ?_ _ _ (foldl_keyed (fun b h m => b.allow h m) ?_ _ _
    (foldl_keyed (fun b h m => b.assign h m) ?_ _ _ hp))
  · exact fun b h m hb => ⟨keyed_put hb.1 _ _, keyed_put hb.2.1 _ _, hb.2.2⟩
  · exact fun b h m hb => ⟨keyed_put hb.1 _ _, keyed_put hb.2.1 _ _, hb.2.2⟩
  · exact fun b h m hb => ⟨keyed_put hb.1 _ _, keyed_put hb.2.1 _ _, keyed_put hb.2.2 _ _⟩

/-- A bit no rule mentions is neither granted nor denied. -/
theorem unmentioned {rs : List Rule} {g : Group} {i : Nat} (h : lastRule rs g i = none) :
    granted rs g i = false ∧ forbidden rs g i = false := by
  unfold granted forbidden; rw [h]; exact ⟨rfl, rfl⟩

/-- Without an `assign` for the group, a mentioned bit is granted or denied. -/
theorem mentioned {rs : List Rule} {g : Group} {i : Nat} (h : ∀ m, Rule.assign g m ∉ rs) (hn : lastRule rs g i ≠ none) :
    granted rs g i = true ∨ forbidden rs g i = true := by
  cases hr : lastRule rs g i with
  | none => exact absurd hr hn
  | some r =>
    obtain ⟨h1, h2⟩ := lastRule_mem hr
    cases r with
    | assign k m =>
      simp [Rule.mentions] at h2
      subst h2
      exact absurd h1 (h m)
    | allow k m => left; simp [granted, hr]
    | deny k m => right; simp [forbidden, hr]

theorem stands_extend {p q : Perms} {rs qs : List Rule} (hp : Stands p rs) (hq : Stands q qs) :
    Stands (p.extend q) (rs ++ qs) := by
  have hat := fun g => at_extend (p := p) hq.keyed g
  have hal : ∀ g i, (look (p.extend q).allowed g).getLsbD i = granted (rs ++ qs) g i := by
    intro g i
    have h := congrArg Prod.fst (hat g)
    simp only [at_] at h
    rw [h, and_not_bit, BitVec.getLsbD_or, hq.allowed, hq.denied, granted_append]
    cases hs : AList.get q.assigned g with
    | none =>
      simp only [hp.allowed]
      by_cases hl : lastRule qs g i = none
      · obtain ⟨e1, e2⟩ := unmentioned hl
        simp [hl, e1, e2]
      · rw [if_neg hl]
        have hb := not_both qs g i
        rcases mentioned (hq.has g hs) hl with e | e <;> simp_all
    | some m =>
      obtain ⟨⟨r, hr⟩, hsub⟩ := hq.sub g m i hs
      have hb := not_both qs g i
      rw [if_neg (by rw [hr]; simp)]
      simp only
      cases hm : m.getLsbD i with
      | true => rcases hsub hm with e | e <;> simp_all
      | false => cases e : granted qs g i <;> simp_all
  have hde : ∀ g i, (look (p.extend q).denied g).getLsbD i = forbidden (rs ++ qs) g i := by
    intro g i
    have h := congrArg (fun x => x.2.1) (hat g)
    simp only [at_] at h
    rw [h, BitVec.getLsbD_or, and_not_bit, hq.allowed, hq.denied, forbidden_append]
    cases hs : AList.get q.assigned g with
    | none =>
      simp only [hp.denied]
      by_cases hl : lastRule qs g i = none
      · obtain ⟨e1, e2⟩ := unmentioned hl
        simp [hl, e1, e2]
      · rw [if_neg hl]
        have hb := not_both qs g i
        rcases mentioned (hq.has g hs) hl with e | e <;> simp_all
    | some m =>
      obtain ⟨⟨r, hr⟩, -⟩ := hq.sub g m i hs
      rw [if_neg (by rw [hr]; simp)]
      simp
  refine ⟨extend_keyed hp.keyed q, hal, hde, ?_, ?_⟩
  · intro g hg m
    have h := congrArg (fun x => x.2.2) (hat g)
    simp only [at_] at h
    rw [hg] at h
    cases hs : AList.get q.assigned g with
    | some m' => rw [hs] at h; simp at h
    | none =>
      rw [hs] at h
      simp only at h
      rw [List.mem_append, not_or]
      exact ⟨hp.has g h.symm m, hq.has g hs m⟩
  · intro g m i hg
    have h := congrArg (fun x => x.2.2) (hat g)
    simp only [at_] at h
    rw [hg] at h
    rw [lastRule_append, granted_append, forbidden_append]
    cases hs : AList.get q.assigned g with
    | some m' =>
      rw [hs] at h
      simp only [Option.some.injEq] at h
      subst h
      obtain ⟨⟨r, hr⟩, h2⟩ := hq.sub g m i hs
      rw [hr]
      exact ⟨⟨r, rfl⟩, fun hm => by simpa using h2 hm⟩
    | none =>
      rw [hs] at h
      simp only at h
      obtain ⟨⟨r, hr⟩, h2⟩ := hp.sub g m i h.symm
      cases hl : lastRule qs g i with
      | none => exact ⟨⟨r, by simpa using hr⟩, fun hm => by simpa using h2 hm⟩
      | some r' => exact ⟨⟨r', rfl⟩, fun _ => by
          simpa using mentioned (hq.has g hs) (by rw [hl]; simp)⟩

theorem stands_of_means {p : Perms} {rs : List Rule} (h : Means p rs) : Stands p rs := by
  induction h with
  | empty => exact stands_empty
  | inherit b _ ih => exact stands_inherit b ih
  | assign g m _ ih => exact stands_assign g m ih
  | allow g m _ ih => exact stands_allow g m ih
  | deny g m _ ih => exact stands_deny g m ih
  | extend _ _ ih1 ih2 => exact stands_extend ih1 ih2

theorem and_ne_zero (a b : Mask) : (a &&& b != 0) = true ↔ ∃ i, b.getLsbD i = true ∧ a.getLsbD i = true := by
  constructor
  · intro h
    by_contra hc
    push Not at hc
    have : a &&& b = 0 := by
      apply BitVec.eq_of_getLsbD_eq
      intro i _
      rw [BitVec.getLsbD_and]
      cases hb : b.getLsbD i with
      | false => simp
      | true => simpa using hc i hb
    simp [this] at h
  · rintro ⟨i, h1, h2⟩
    simp only [bne_iff_ne, ne_eq]
    intro h
    have := congrArg (fun x => x.getLsbD i) h
    simp [h1, h2] at this

theorem isAuthorized_iff {p : Perms} {rs : List Rule} (h : Stands p rs) (gs : List Group) (perm : Mask) :
    isAuthorized p gs perm = true ↔ Authorized rs gs perm := by
  unfold isAuthorized Authorized
  by_cases hd : (gs.any fun g => look p.denied g &&& perm != 0) = true
  · rw [if_pos hd]
    rw [List.any_eq_true] at hd
    obtain ⟨g, hg, h2⟩ := hd
    obtain ⟨i, h3, h4⟩ := (and_ne_zero _ _).mp h2
    rw [h.denied] at h4
    constructor
    · intro hf; exact nomatch hf
    · rintro ⟨h5, -⟩
      rw [h5 g hg i h3] at h4
      exact nomatch h4
  · rw [if_neg hd]
    have hd' : ∀ g ∈ gs, ∀ i, perm.getLsbD i = true → forbidden rs g i = false := by
      intro g hg i hi
      cases hf : forbidden rs g i with
      | false => rfl
      | true =>
        exact absurd (List.any_eq_true.mpr ⟨g, hg, (and_ne_zero _ _).mpr ⟨i, hi, by rw [h.denied]; exact hf⟩⟩) hd
    rw [List.any_eq_true]
    constructor
    · rintro ⟨g, hg, h2⟩
      obtain ⟨i, h3, h4⟩ := (and_ne_zero _ _).mp h2
      exact ⟨hd', g, hg, i, h3, by rw [← h.allowed]; exact h4⟩
    · rintro ⟨-, g, hg, i, h3, h4⟩
      exact ⟨g, hg, (and_ne_zero _ _).mpr ⟨i, h3, by rw [h.allowed]; exact h4⟩⟩

end Verif.Security
