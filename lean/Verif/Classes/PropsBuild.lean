import Verif.Classes.PropsList
import Mathlib.Data.List.Forall2
/-
C131: a class builder gives the class that was asked for, and a clone is the same class.
C132: reference properties.
C133: serialization of classes.
-/
namespace Verif.Classes.Props
open Verif.Types (Name Mgr Op)
open Spec

theorem overlap_iff (ns : List Name) (p q : Property) (hp : p.refs = some ns) : overlap ns q = true ↔ Clash p q := by
  unfold overlap Clash
  cases hq : q.refs with
  | none => simp
  | some l =>
    simp only [List.any_eq_true, List.contains_iff_mem]
    constructor
    · rintro ⟨n, h1, h2⟩; exact ⟨ns, l, n, hp, rfl, h2, h1⟩
    · rintro ⟨a, b, n, h1, h2, h3, h4⟩
      rw [hp, Option.some.injEq] at h1
      rw [Option.some.injEq] at h2
      subst h1; subst h2
      exact ⟨n, h4, h3⟩

theorem any_name (l : List Property) (n : Name) : l.any (fun q => decide (q.name = n)) = true ↔ n ∈ names l := by
  simp [names]

/-- The properties that a new reference property of a builder must not clash with. -/
theorem add_of_none (k : Nat) (m : CMgr) (b : Bld) (p : Property) (hp : p.refs = none) :
    b.add k m p = if p.name ∈ names b.props then some (b, some .taken)
      else some ({ b with props := b.props ++ [p] }, none) := by
  unfold Bld.add Bld.dup
  rw [hp]
  dsimp only
  by_cases h : p.name ∈ names b.props
  · rw [if_pos h, if_pos ((any_name _ _).mpr h)]
  · rw [if_neg h, if_neg (fun x => h ((any_name _ _).mp x))]

theorem add_of_all (k : Nat) (m : CMgr) (b : Bld) (p : Property) (l : List Property) (hl : b.all k m = some (.ok l)) :
    ((∃ q ∈ l, Clash p q) → b.add k m p = some (b, some .badValue)) ∧
    ((¬ ∃ q ∈ l, Clash p q) → b.add k m p = if p.name ∈ names b.props then some (b, some .taken)
      else some ({ b with props := b.props ++ [p] }, none)) := by
  cases hp : p.refs with
  | none =>
    refine ⟨?_, fun _ => add_of_none k m b p hp⟩
    rintro ⟨q, _, a, _, _, h, _⟩
    simp [hp] at h
  | some ns =>
    have he : (l.any (overlap ns) = true) ↔ ∃ q ∈ l, Clash p q := by
      simp only [List.any_eq_true, overlap_iff ns p _ hp]
    unfold Bld.add Bld.dup
    simp only [hp, hl]
    constructor
    · intro h
      rw [he.mpr h]
    · intro h
      have : l.any (overlap ns) = false := Bool.eq_false_iff.mpr (fun x => h (he.mp x))
      rw [this]
      dsimp only
      by_cases h : p.name ∈ names b.props
      · rw [if_pos h, if_pos ((any_name _ _).mpr h)]
      · rw [if_neg h, if_neg (fun x => h ((any_name _ _).mp x))]

/-- C131: adding a property.  A property whose name is new and that refers to nothing that a
property of the builder or of its ancestors refers to is appended; otherwise the call is
refused and changes nothing. -/
theorem C131_add (k : Nat) (m : CMgr) (b : Bld) (p : Property) (l : List Property) (hl : b.all k m = some (.ok l)) :
    (((¬ ∃ q ∈ l, Clash p q) ∧ p.name ∉ b.props.map (·.name)) →
      b.add k m p = some ({ b with props := b.props ++ [p] }, none)) ∧
    (((∃ q ∈ l, Clash p q) ∨ p.name ∈ b.props.map (·.name)) → ∃ e, b.add k m p = some (b, some e)) := by
  obtain ⟨h1, h2⟩ := add_of_all k m b p l hl
  constructor
  · rintro ⟨a, c⟩
    rw [h2 a]
    exact if_neg c
  · intro h
    by_cases hc : ∃ q ∈ l, Clash p q
    · exact ⟨_, h1 hc⟩
    · exact ⟨_, (h2 hc).trans (if_pos (h.resolve_left hc))⟩

/-- C131: a builder after any calls: name, parent and order are the last ones that were set,
and the properties are those that were added and not removed since, in the order of adding. -/
theorem C131_history (k : Nat) (m : CMgr) (b : Bld) (ops : List BOp) (uid : Nat)
    (h : ∀ p, BOp.add p ∈ ops → p.refs = none) :
    ∃ b', b.run k m ops = some b' ∧ b'.build uid =
      ⟨uid, lastName b.name ops, lastParent b.parent ops, kept b.props ops, lastOrder b.order ops, b.managed⟩ := by
  induction ops generalizing b with
  | nil => exact ⟨b, rfl, rfl⟩
  | cons o ops ih =>
    have h' : ∀ p, BOp.add p ∈ ops → p.refs = none := fun p hp => h p (List.mem_cons_of_mem _ hp)
    cases o with
    | add p =>
      unfold Bld.run Bld.step
      dsimp only
      rw [add_of_none k m b p (h p (by simp))]
      by_cases hp : p.name ∈ names b.props
      · rw [if_pos hp]
        obtain ⟨b', h1, h2⟩ := ih b h'
        refine ⟨b', h1, ?_⟩
        rw [h2]
        simp only [lastName, lastParent, lastOrder, kept]
        rw [if_pos (show p.name ∈ b.props.map (·.name) from hp)]
      · rw [if_neg hp]
        obtain ⟨b', h1, h2⟩ := ih { b with props := b.props ++ [p] } h'
        refine ⟨b', h1, ?_⟩
        rw [h2]
        simp only [lastName, lastParent, lastOrder, kept]
        rw [if_neg (show ¬ p.name ∈ b.props.map (·.name) from hp)]
    | remove n =>
      unfold Bld.run Bld.step Bld.remove
      by_cases hn : b.props.any (fun q => decide (q.name = n)) = true
      · simp only [hn, if_true]
        obtain ⟨b', h1, h2⟩ := ih { b with props := b.props.filter (fun q => q.name ≠ n) } h'
        exact ⟨b', h1, h2⟩
      · simp only [hn]
        obtain ⟨b', h1, h2⟩ := ih b h'
        refine ⟨b', h1, ?_⟩
        rw [h2]
        have : b.props.filter (fun q => decide (q.name ≠ n)) = b.props := by
          rw [List.filter_eq_self]
          intro q hq
          simp only [decide_eq_true_eq]
          intro e
          exact hn ((any_name _ _).mpr (List.mem_map.mpr ⟨q, hq, e⟩))
        simp only [lastName, lastParent, lastOrder, kept, this]
    | setName n =>
      obtain ⟨b', h1, h2⟩ := ih { b with name := n } h'
      exact ⟨b', h1, h2⟩
    | setParent q =>
      obtain ⟨b', h1, h2⟩ := ih { b with parent := q } h'
      exact ⟨b', h1, h2⟩
    | setOrder l =>
      obtain ⟨b', h1, h2⟩ := ih { b with order := l } h'
      exact ⟨b', h1, h2⟩

/-- C131: removing a property that is not there is an error and changes nothing. -/
theorem C131_remove (b : Bld) (n : Name) :
    (n ∈ b.props.map (·.name) → b.remove n = ({ b with props := b.props.filter (fun q => q.name ≠ n) }, none)) ∧
    (n ∉ b.props.map (·.name) → b.remove n = (b, some .notFound)) := by
  unfold Bld.remove
  constructor
  · intro h
    rw [if_pos ((any_name _ _).mpr h)]
  · intro h
    rw [if_neg (fun x => h ((any_name _ _).mp x))]

/-- The properties refer to different things, also than those of the other list. -/
def Apart (inh l : List Property) : Prop :=
  l.Pairwise (fun p q => ¬ Clash q p) ∧ ∀ p ∈ l, ∀ q ∈ inh, ¬ Clash p q

/-- What a builder inherits. -/
def inhOf (k : Nat) (m : CMgr) (b : Bld) : Option (Except Err (List Property)) :=
  match b.parent with
  | none => some (.ok [])
  | some q => if !b.managed then some (.ok []) else match m.types.lookup q with
    | none => some (.error .notFound)
    | some (.other _ _) => some (.error .badType)
    | some (.cls d) => d.list k m true

theorem all_eq (k : Nat) (m : CMgr) (b : Bld) (l : List Property) (h : inhOf k m b = some (.ok l)) :
    b.all k m = some (.ok (l ++ b.props)) := by
  unfold inhOf at h
  unfold Bld.all
  cases hp : b.parent with
  | none =>
    simp only [hp, Option.some.injEq, Except.ok.injEq] at h
    subst h
    rfl
  | some q =>
    simp only [hp] at h ⊢
    cases hm : b.managed with
    | false =>
      simp only [hm, Bool.not_false, if_true, Option.some.injEq, Except.ok.injEq] at h
      subst h
      rfl
    | true =>
      simp only [hm, Bool.not_true, Bool.false_eq_true, if_false] at h ⊢
      cases hl : m.types.lookup q with
      | none => simp [hl] at h
      | some e =>
        cases e with
        | other n x => simp [hl] at h
        | cls d =>
          simp only [hl] at h ⊢
          rw [h]

theorem addAll_ok (k : Nat) (m : CMgr) (l : List Property) : ∀ (b : Bld), (names (b.props ++ l)).Nodup →
    ((∀ p ∈ l, p.refs = none) ∨ ∃ inh, inhOf k m b = some (.ok inh) ∧ Apart (inh ++ b.props) l) →
    Bld.addAll k m b l = some (.ok { b with props := b.props ++ l }) := by
  induction l with
  | nil => intro b _ _; simp [Bld.addAll]
  | cons p l ih =>
    intro b hn hr
    have hnp : p.name ∉ names b.props := by
      rw [names_append, List.nodup_append] at hn
      intro hx
      exact hn.2.2 p.name hx p.name (by simp [names]) rfl
    have hadd : b.add k m p = some ({ b with props := b.props ++ [p] }, none) := by
      rcases hr with hr | ⟨inh, hi, ha⟩
      · rw [add_of_none k m b p (hr p (by simp)), if_neg hnp]
      · rw [(add_of_all k m b p _ (all_eq k m b inh hi)).2 ?_, if_neg hnp]
        rintro ⟨q, hq, hc⟩
        exact ha.2 p (by simp) q hq hc
    unfold Bld.addAll
    rw [hadd]
    dsimp only
    rw [ih]
    · simp
    · simpa using hn
    · rcases hr with hr | ⟨inh, hi, ha⟩
      · exact .inl (fun q hq => hr q (List.mem_cons_of_mem _ hq))
      · refine .inr ⟨inh, hi, ?_, ?_⟩
        · exact (List.pairwise_cons.mp ha.1).2
        · intro q hq x hx
          rw [← List.append_assoc, List.mem_append] at hx
          rcases hx with hx | hx
          · exact ha.2 q (List.mem_cons_of_mem _ hq) x hx
          · rw [List.mem_singleton.mp hx]
            exact (List.pairwise_cons.mp ha.1).1 q hq

theorem list_mem (c : Cls) (k : Nat) : ∀ {m : CMgr} {l : List Cls} (_ : Chain m c l) (_ : ∀ d ∈ l, Tidy d) (_ : l.length ≤ k),
    ∃ r, c.list k m true = some (.ok r) ∧ ∀ p ∈ r, ∃ d ∈ l, p ∈ d.props := by
  have key : ∀ (order : List Name) (inh own : List Property) (p : Property), p ∈ arrange order inh own → p ∈ inh ∨ p ∈ own := by
    intro order inh own p hp
    unfold arrange at hp
    by_cases ho : order = []
    · rw [if_pos ho] at hp; exact List.mem_append.mp hp
    · rw [if_neg ho] at hp
      have h1 : own.foldl assign (inh.foldl assign []) = (inh ++ own).foldl assign [] := by rw [List.foldl_append]
      rw [h1] at hp
      have hL : (names ((inh ++ own).foldl assign [])).Nodup := by
        rw [names_fold _ _ (by simp [names])]; exact firsts_nodup _
      have h2 := ((pick_all order _ hL).2 p).mp hp
      have h3 := (look_nodup hL).mpr ⟨h2, rfl⟩
      rw [look_fold] at h3
      have h4 : lastOf (inh ++ own) p.name = some p := by simpa [look] using h3
      have := List.mem_of_find?_eq_some h4
      simpa [List.mem_append, or_comm] using this
  intro m l h
  induction h generalizing k with
  | root c hp =>
    intro _ hk
    obtain ⟨k, rfl⟩ : ∃ j, k = j + 1 := ⟨k - 1, by simp at hk; omega⟩
    refine ⟨arrange c.order [] c.props, by unfold Cls.list; simp [hp], ?_⟩
    intro p hp
    rcases key _ _ _ p hp with hp | hp
    · simp at hp
    · exact ⟨c, by simp, hp⟩
  | step c d q l hp hm hl _ ih =>
    intro ht hk
    obtain ⟨k, rfl⟩ : ∃ j, k = j + 1 := ⟨k - 1, by simp at hk; omega⟩
    obtain ⟨r, hr, h2⟩ := ih k (fun e he => ht e (List.mem_cons_of_mem _ he)) (by simp at hk; omega)
    refine ⟨arrange c.order r c.props, by unfold Cls.list; simp [hp, hm, hl, hr], ?_⟩
    intro p hp
    rcases key _ _ _ p hp with hp | hp
    · obtain ⟨e, he, h3⟩ := h2 p hp
      exact ⟨e, List.mem_cons_of_mem _ he, h3⟩
    · exact ⟨c, by simp, hp⟩

/-- C131: a clone is the same class, if it has no reference properties, or if its ancestors
are in the manager it is cloned for and no two of all these properties refer to the same. -/
theorem C131_clone (k : Nat) (m : CMgr) (c : Cls) (uid : Nat) (ht : Tidy c)
    (hr : (∀ p ∈ c.props, p.refs = none) ∨
      ∃ l, Chain m { c with managed := true } (({ c with managed := true } : Cls) :: l) ∧ (∀ d ∈ l, Tidy d) ∧ l.length ≤ k ∧
        c.props.Pairwise (fun p q => ¬ Clash q p) ∧ ∀ p ∈ c.props, ∀ d ∈ l, ∀ q ∈ d.props, ¬ Clash p q) :
    c.clone k m uid = some (.ok { c with uid := uid, managed := true }) := by
  unfold Cls.clone
  rw [addAll_ok k m c.props ⟨c.name, c.parent, [], [], true⟩ (by exact ht)]
  · rfl
  · rcases hr with hr | ⟨l, hc, htl, hk, h1, h2⟩
    · exact .inl hr
    · right
      cases hc with
      | root _ hp =>
        refine ⟨[], ?_, h1, by simp⟩
        simp only at hp
        unfold inhOf
        simp [hp]
      | step _ d q _ hp hm hl hd =>
        obtain ⟨r, a, b⟩ := list_mem d k hd htl hk
        refine ⟨r, ?_, h1, ?_⟩
        · simp only at hp
          unfold inhOf
          simp [hp, hl, a]
        · intro p hp x hx
          simp only [List.append_nil] at hx
          obtain ⟨e, he, hx'⟩ := b x hx
          exact h2 p hp e he x hx'

/-- A history with every kind of call. -/
example : ∃ b, Bld.run 0 {} ⟨nA, none, [], [], true⟩
      [.add ⟨nx, none, 1⟩, .add ⟨ny, none, 2⟩, .add ⟨nx, none, 3⟩, .remove nx, .remove nx, .add ⟨nx, none, 4⟩,
        .setName nB, .setParent (some nA), .setOrder [ny]] = some b ∧
    b.build 7 = ⟨7, nB, some nA, [⟨ny, none, 2⟩, ⟨nx, none, 4⟩], [ny], true⟩ := by
  obtain ⟨b, h1, h2⟩ := C131_history 0 {} ⟨nA, none, [], [], true⟩
    [.add ⟨nx, none, 1⟩, .add ⟨ny, none, 2⟩, .add ⟨nx, none, 3⟩, .remove nx, .remove nx, .add ⟨nx, none, 4⟩,
      .setName nB, .setParent (some nA), .setOrder [ny]] 7 (by
        intro p hp
        simp only [List.mem_cons, BOp.add.injEq, reduceCtorEq, List.not_mem_nil, or_false, false_or] at hp
        rcases hp with rfl | rfl | rfl | rfl <;> rfl)
  exact ⟨b, h1, h2.trans (by decide +kernel)⟩

/-- Cloning a class with a reference property and a parent. -/
example : (⟨2, nB, some nA, [⟨nz, some [nx, ny], 2⟩], [nz], false⟩ : Cls).clone 1 { types := [(nA, .cls base)] } 5 =
    some (.ok ⟨5, nB, some nA, [⟨nz, some [nx, ny], 2⟩], [nz], true⟩) := by
  refine C131_clone 1 _ _ 5 (by simp [Tidy]) (.inr ⟨[base], .step _ base nA _ rfl rfl rfl (.root _ rfl), ?_, by simp, by simp, ?_⟩)
  · intro d hd
    rw [List.mem_singleton.mp hd]
    simp [Tidy, base, nx, ny]
  · intro p _ d hd q hq
    rw [List.mem_singleton.mp hd] at hq
    rintro ⟨_, b, _, _, h, _⟩
    simp only [base, List.mem_cons, List.not_mem_nil, or_false] at hq
    rcases hq with rfl | rfl <;> simp at h

/-! ### Reference properties -/

/-- C132: no two properties of a builder refer to the same property, whatever was called.
Missing: properties of ancestors, see the violation. -/
theorem C132_own_partial (k : Nat) (m : CMgr) (b b' : Bld) (ops : List BOp) (hb : b.props.Pairwise (fun p q => ¬ Clash q p))
    (h : b.run k m ops = some b') : b'.props.Pairwise (fun p q => ¬ Clash q p) := by
  induction ops generalizing b with
  | nil => simp only [Bld.run, Option.some.injEq] at h; exact h ▸ hb
  | cons o ops ih =>
    unfold Bld.run at h
    have hstep : ∀ x, b.step k m o = some x → x.1.props.Pairwise (fun p q => ¬ Clash q p) := by
      intro x hx
      cases o with
      | add p =>
        have hx' : b.add k m p = some x := hx
        unfold Bld.add at hx'
        cases hd : b.dup k m p with
        | none => simp [hd] at hx'
        | some d =>
          cases d with
          | error e =>
            simp only [hd, Option.some.injEq] at hx'
            exact hx' ▸ hb
          | ok t =>
            cases t with
            | true => simp only [hd, Option.some.injEq] at hx'; exact hx' ▸ hb
            | false =>
              simp only [hd] at hx'
              split at hx'
              · simp only [Option.some.injEq] at hx'; exact hx' ▸ hb
              · simp only [Option.some.injEq] at hx'
                subst hx'
                refine List.pairwise_append.mpr ⟨hb, by simp, ?_⟩
                intro q hq z hz
                rw [List.mem_singleton.mp hz]
                intro hc
                unfold Bld.dup at hd
                obtain ⟨a, _, _, ha, _⟩ := id hc
                simp only [ha] at hd
                cases hall : b.all k m with
                | none => simp [hall] at hd
                | some y =>
                  cases y with
                  | error e => simp [hall] at hd
                  | ok l =>
                    simp only [hall, Option.some.injEq, Except.ok.injEq] at hd
                    have hql : q ∈ l := by
                      unfold Bld.all at hall
                      split at hall
                      · simp only [Option.some.injEq, Except.ok.injEq] at hall; exact hall ▸ hq
                      · split at hall
                        · simp only [Option.some.injEq, Except.ok.injEq] at hall; exact hall ▸ hq
                        · split at hall
                          · simp at hall
                          · simp at hall
                          · split at hall
                            · simp at hall
                            · simp at hall
                            · simp only [Option.some.injEq, Except.ok.injEq] at hall
                              rw [← hall]
                              exact List.mem_append_right _ hq
                    have := List.any_eq_false.mp hd q hql
                    exact this ((overlap_iff a p q ha).mpr hc)
      | remove n =>
        have hx' : b.remove n = x := by simpa [Bld.step] using hx
        subst hx'
        unfold Bld.remove
        split
        · exact hb.filter _
        · exact hb
      | setName n => simp only [Bld.step, Option.some.injEq] at hx; exact hx ▸ hb
      | setParent n => simp only [Bld.step, Option.some.injEq] at hx; exact hx ▸ hb
      | setOrder n => simp only [Bld.step, Option.some.injEq] at hx; exact hx ▸ hb
    cases hx : b.step k m o with
    | none => simp [hx] at h
    | some x =>
      simp only [hx] at h
      exact ih x.1 (hstep x hx) h

/-- A class whose property refers to `x`. -/
def refBase : Cls := ⟨1, nA, none, [⟨ny, some [nx], 1⟩], [], true⟩

/-- C132, violation: when the parent is set after the property was added, both refer to the
same property; with the calls in the other order the property is refused. -/
theorem C132_violation_parent :
    let m : CMgr := { types := [(nA, .cls refBase)] }
    (∃ b, Bld.run 1 m ⟨nB, none, [], [], true⟩ [.add ⟨nz, some [nx], 2⟩, .setParent (some nA)] = some b ∧
      Chain m (b.build 2) [b.build 2, refBase] ∧ (⟨nz, some [nx], 2⟩ : Property) ∈ (b.build 2).props) ∧
    Clash ⟨nz, some [nx], 2⟩ ⟨ny, some [nx], 1⟩ ∧
    Bld.add 1 m ⟨nB, some nA, [], [], true⟩ ⟨nz, some [nx], 2⟩ = some (⟨nB, some nA, [], [], true⟩, some .badValue) := by
  refine ⟨⟨⟨nB, some nA, [⟨nz, some [nx], 2⟩], [], true⟩, by decide +kernel, ?_, by simp [Bld.build]⟩, ?_, by decide +kernel⟩
  · exact .step _ refBase nA _ rfl rfl rfl (.root _ rfl)
  · exact ⟨[nx], [nx], nx, rfl, rfl, by simp, by simp⟩

/-! ### Serialization -/

theorem own_arrange (c : Cls) (ht : Tidy c) :
    names (arrange c.order [] c.props) = (firsts c.order).filter (fun n => n ∈ c.props.map (·.name)) ++
        (c.props.map (·.name)).filter (fun n => n ∉ c.order) ∧
    ∀ p, p ∈ arrange c.order [] c.props ↔ p ∈ c.props := by
  obtain ⟨r, h1, h2, h3⟩ := C129_own {} c ht 0
  simp only [Cls.list, Option.some.injEq, Except.ok.injEq] at h1
  subst h1
  exact ⟨h2, h3⟩

theorem add_fresh (m : CMgr) (t : Entry) (hl : m.types.lookup t.name = none) (hi : Types.Spec.Ident t.name)
    (hr : ¬ Types.Spec.Reserved t.name) :
    ∃ m', Mgr.add Entry.name m t true = (m', none) ∧ m'.types = m.types ++ [(t.name, t)] := by
  have hne : t.name ≠ [] := by
    obtain ⟨c, l, h, _⟩ := hi
    rw [h]; simp
  unfold Mgr.add
  rw [if_neg hne, if_neg (by rw [Types.Props.reserved_iff]; exact hr)]
  have hv : Types.validName t.name = true := (Types.Props.validName_iff _).mpr hi
  rw [hv]
  simp only [Bool.not_true, Bool.false_eq_true, if_false, hl]
  unfold Mgr.tell
  split
  · exact ⟨_, rfl, rfl⟩
  · exact ⟨_, rfl, rfl⟩

theorem lookup_none_of {l : List (Name × Entry)} {n : Name} (h : n ∉ l.map (·.1)) : l.lookup n = none := by
  induction l with
  | nil => rfl
  | cons x l ih =>
    obtain ⟨a, b⟩ := x
    simp only [List.map_cons, List.mem_cons, not_or] at h
    rw [List.lookup_cons]
    have : (n == a) = false := by simpa using h.1
    rw [this]
    exact ih h.2

theorem Copy.name {e e' : Entry} (h : Copy e e') : e'.name = e.name := by
  cases e <;> cases e' <;> simp [Copy] at h
  · exact h.1
  · exact h.1

theorem readAll_ok (k : Nat) (es : List Entry) : ∀ (m : CMgr) (u : Nat),
    (∀ c, Entry.cls c ∈ es → Tidy c ∧ ∀ p ∈ c.props, p.refs = none) →
    (∀ e ∈ es, Types.Spec.Ident e.name ∧ ¬ Types.Spec.Reserved e.name) →
    (m.types.map (·.1) ++ es.map Entry.name).Nodup →
    ∃ m' l, readAll k m u es = some (.ok m') ∧ m'.types = m.types ++ l ∧
      List.Forall₂ (fun e x => x.1 = e.name ∧ Copy e x.2) es l := by
  induction es with
  | nil => intro m u _ _ _; exact ⟨m, [], rfl, by simp, .nil⟩
  | cons e es ih =>
    intro m u hc hi hn
    have hfree : m.types.lookup e.name = none := by
      apply lookup_none_of
      rw [List.nodup_append] at hn
      intro hx
      exact hn.2.2 _ hx e.name (by simp) rfl
    have hc' : ∀ c, Entry.cls c ∈ es → Tidy c ∧ ∀ p ∈ c.props, p.refs = none := fun c h => hc c (List.mem_cons_of_mem _ h)
    have hi' : ∀ e ∈ es, Types.Spec.Ident e.name ∧ ¬ Types.Spec.Reserved e.name := fun x h => hi x (List.mem_cons_of_mem _ h)
    obtain ⟨hid, hrv⟩ := hi e (by simp)
    cases e with
    | other n x =>
      obtain ⟨m1, h1, h2⟩ := add_fresh m (.other n x) hfree hid hrv
      obtain ⟨m', l, a1, a2, a3⟩ := ih m1 u hc' hi' (by rw [h2]; simpa [Entry.name] using hn)
      refine ⟨m', (n, .other n x) :: l, ?_, ?_, .cons ⟨rfl, rfl, rfl⟩ a3⟩
      · unfold readAll
        rw [h1]
        exact a1
      · rw [a2, h2]; simp [Entry.name]
    | cls c =>
      obtain ⟨htc, hrc⟩ := hc c (by simp)
      obtain ⟨o1, o2⟩ := own_arrange c htc
      have hnd : (names (arrange c.order [] c.props)).Nodup := by
        rw [o1]; exact nodup_order _ _ htc
      have hadd := addAll_ok k m (arrange c.order [] c.props) ⟨c.name, c.parent, [], [], true⟩ (by simpa using hnd)
        (.inl (fun p hp => hrc p ((o2 p).mp hp)))
      obtain ⟨m1, h1, h2⟩ := add_fresh m (.cls ⟨u, c.name, c.parent, arrange c.order [] c.props, [], true⟩) hfree hid hrv
      obtain ⟨m', l, a1, a2, a3⟩ := ih m1 (u + 1) hc' hi' (by rw [h2]; simpa [Entry.name] using hn)
      refine ⟨m', (c.name, .cls ⟨u, c.name, c.parent, arrange c.order [] c.props, [], true⟩) :: l, ?_, ?_,
        .cons ⟨rfl, rfl, rfl, rfl, o1, o2⟩ a3⟩
      · unfold readAll Text.read Cls.write
        simp only [hadd, List.nil_append, Bld.build]
        rw [h1]
        exact a1
      · rw [a2, h2]; simp [Entry.name]

/-- C133: a type manager whose classes have no reference properties is read back: the same
types in the same order, classes with the same name, parent and properties.  Missing: the
custom order and reference properties, see the violations. -/
theorem C133_reload_partial (k u : Nat) (ops : List (Op Entry))
    (hc : ∀ n c, (n, Entry.cls c) ∈ (Mgr.run Entry.name {} ops).types → Tidy c ∧ ∀ p ∈ c.props, p.refs = none) :
    ∃ m', reload k (Mgr.run Entry.name {} ops) u = some (.ok m') ∧
      List.Forall₂ (fun e x => x.1 = e.1 ∧ Copy e.2 x.2) (Mgr.run Entry.name {} ops).types m'.types := by
  generalize hm : Mgr.run Entry.name {} ops = m at *
  have hinv : Types.Props.Inv Entry.name m.types := hm ▸ Types.Props.run_inv Entry.name ops
  have hmap : (m.types.map (·.2)).map Entry.name = m.types.map (·.1) := by
    rw [List.map_map]
    apply List.map_congr_left
    intro e he
    exact hinv.names e he
  obtain ⟨m', l, h1, h2, h3⟩ := readAll_ok k (m.types.map (·.2)) {} u
    (by
      intro c h
      obtain ⟨e, he, hx⟩ := List.mem_map.mp h
      obtain ⟨e1, e2⟩ := e
      simp only at hx
      subst hx
      exact hc e1 c he)
    (by
      intro e h
      obtain ⟨x, hx, rfl⟩ := List.mem_map.mp h
      rw [hinv.names x hx]
      exact ⟨hinv.ident x hx, hinv.free x hx⟩)
    (by rw [hmap]; simpa using hinv.nodup)
  refine ⟨m', h1, ?_⟩
  rw [h2]
  simp only [List.nil_append]
  rw [List.forall₂_map_left_iff] at h3
  have hn : ∀ e ∈ m.types, Entry.name e.2 = e.1 := hinv.names
  clear h2 h1 hc hinv hmap hm
  generalize m.types = ts at h3 hn
  induction h3 with
  | nil => exact .nil
  | cons a _ ih =>
    refine .cons ⟨a.1.trans (hn _ (by simp)), a.2⟩ (ih (fun e he => hn e (List.mem_cons_of_mem _ he)))

theorem copy_lookup {l l' : List (Name × Entry)} (h : List.Forall₂ (fun e x => x.1 = e.1 ∧ Copy e.2 x.2) l l') (q : Name) :
    (∀ e, l.lookup q = some e → ∃ x, l'.lookup q = some x ∧ Copy e x) ∧ (l.lookup q = none → l'.lookup q = none) := by
  induction h with
  | nil => simp
  | @cons a b l l' hab _ ih =>
    obtain ⟨a1, a2⟩ := a
    obtain ⟨b1, b2⟩ := b
    obtain ⟨h1, h2⟩ := hab
    simp only at h1 h2
    subst h1
    simp only [List.lookup_cons]
    cases hq : q == b1 with
    | true => simp only [Option.some.injEq, reduceCtorEq, false_implies, and_true]; rintro e rfl; exact ⟨b2, rfl, h2⟩
    | false => exact ih

/-- C133: after reading, every class answers as before. -/
theorem C133_get_partial (k u : Nat) (ops : List (Op Entry))
    (hc : ∀ n c, (n, Entry.cls c) ∈ (Mgr.run Entry.name {} ops).types →
      Tidy c ∧ (∀ p ∈ c.props, p.refs = none) ∧ c.managed = true) :
    ∃ m', reload k (Mgr.run Entry.name {} ops) u = some (.ok m') ∧
      ∀ n c, (Mgr.run Entry.name {} ops).types.lookup n = some (.cls c) →
        ∃ d, m'.types.lookup n = some (.cls d) ∧
          ∀ j x, d.get j m' x = c.get j (Mgr.run Entry.name {} ops) x := by
  obtain ⟨m', h1, h2⟩ := C133_reload_partial k u ops (fun n c h => ⟨(hc n c h).1, (hc n c h).2.1⟩)
  refine ⟨m', h1, ?_⟩
  have hcc : ∀ n c, (Mgr.run Entry.name {} ops).types.lookup n = some (.cls c) → Tidy c ∧ c.managed = true :=
    fun n c h => ⟨(hc n c (Types.Props.lookup_mem h)).1, (hc n c (Types.Props.lookup_mem h)).2.2⟩
  clear hc h1
  generalize Mgr.run Entry.name {} ops = m at *
  intro n c hl
  obtain ⟨x, hx, hcp⟩ := (copy_lookup h2 n).1 _ hl
  cases x with
  | other _ _ => simp [Copy] at hcp
  | cls d =>
    refine ⟨d, hx, ?_⟩
    intro j y
    induction j generalizing n c d with
    | zero => rfl
    | succ j ih =>
      obtain ⟨b1, b2, b3, b4, b5⟩ := hcp
      obtain ⟨htc, hmc⟩ := hcc n c hl
      have htd : (names d.props).Nodup := by
        show (d.props.map (·.name)).Nodup
        rw [b4]; exact nodup_order _ _ htc
      have hown : d.own y = c.own y := by
        show look d.props y = look c.props y
        cases hf : look c.props y with
        | none =>
          rw [look_none] at hf ⊢
          intro hx
          obtain ⟨p, hp, rfl⟩ := List.mem_map.mp hx
          exact hf (List.mem_map.mpr ⟨p, (b5 p).mp hp, rfl⟩)
        | some p =>
          obtain ⟨p1, p2⟩ := look_some hf
          exact (look_nodup htd).mpr ⟨(b5 p).mpr p1, p2⟩
      unfold Cls.get
      rw [hown, b2, b3, hmc]
      cases c.own y with
      | some p => rfl
      | none =>
        cases hp : c.parent with
        | none => rfl
        | some q =>
          simp only [Bool.not_true, Bool.false_eq_true, if_false]
          cases hq : m.types.lookup q with
          | none => rw [(copy_lookup h2 q).2 hq]
          | some e =>
            obtain ⟨x', hx', hcp'⟩ := (copy_lookup h2 q).1 e hq
            rw [hx']
            cases e with
            | other _ _ =>
              cases x' with
              | other _ _ => rfl
              | cls _ => simp [Copy] at hcp'
            | cls e =>
              cases x' with
              | other _ _ => simp [Copy] at hcp'
              | cls e' => exact ih q e hq e' hx' hcp'

/-- A manager with a class and its child. -/
example : ∃ m', reload 0 bothMgr 9 = some (.ok m') ∧
    List.Forall₂ (fun e x => x.1 = e.1 ∧ Copy e.2 x.2) bothMgr.types m'.types := by
  have h := C133_reload_partial 0 9 both (by
    intro n c h
    rw [both_run] at h
    simp only [bothMgr, List.mem_cons, Prod.mk.injEq, Entry.cls.injEq, List.not_mem_nil, or_false] at h
    rcases h with ⟨_, rfl⟩ | ⟨_, rfl⟩
    · exact ⟨by simp [Tidy, base, nx, ny], by simp [base]⟩
    · exact ⟨by simp [Tidy, derived, nx, ny, nz], by simp [derived]⟩)
  rw [both_run] at h
  exact h

/-- C133, violation: the custom order is lost; the inherited properties are listed in another
order after reading. -/
theorem C133_violation_order :
    let d : Cls := { derived with order := [nz, ny] }
    let m : CMgr := { types := [(nA, .cls base), (nB, .cls d)] }
    d.list 2 m true = some (.ok [⟨nz, none, 4⟩, ⟨ny, none, 2⟩, ⟨nx, none, 3⟩]) ∧
    ∃ m' d', reload 2 m 9 = some (.ok m') ∧ m'.types.lookup nB = some (.cls d') ∧
      d'.list 2 m' true = some (.ok [⟨nx, none, 1⟩, ⟨ny, none, 2⟩, ⟨nz, none, 4⟩, ⟨nx, none, 3⟩]) := by
  refine ⟨by decide +kernel, { types := [(nA, .cls { base with uid := 9 }),
    (nB, .cls ⟨10, nB, some nA, [⟨nz, none, 4⟩, ⟨nx, none, 3⟩], [], true⟩)] }, _, ?_, rfl, by decide +kernel⟩
  rfl

/-- C133, violation: a manager with a class that has a reference property and was added before
its parent cannot be read back. -/
theorem C133_violation_reference :
    let m : CMgr := { types := [(nB, .cls ⟨2, nB, some nA, [⟨nz, some [nx], 2⟩], [], true⟩), (nA, .cls base)] }
    (Mgr.run Entry.name {} [.add (.cls ⟨2, nB, some nA, [⟨nz, some [nx], 2⟩], [], true⟩) true, .add (.cls base) true]) = m ∧
    reload 2 m 9 = some (.error .notFound) := ⟨by decide +kernel, rfl⟩

/-- C133, violation: a class cannot be read where it is already, although nothing differs. -/
theorem C133_violation_again : base.write.read 1 bothMgr 9 = some (bothMgr, .error (.add .taken)) := rfl

end Verif.Classes.Props
