import Verif.Opts.Texts

/-!
# Writing an option
-/

namespace Verif.Opts
open Spec

/-- What writing makes of the entry with the first name of a path. -/
def slot (x : Option Opt) (ts : List Text) (s : Text) : Option Opt :=
  match ts, x with
  | [], some v => match leaf v s with
    | some p => some (.prim p)
    | none => some v
  | [], none => some (.prim (guess s))
  | u :: us, none => some (.dict (write .nil (u :: us) s))
  | u :: us, some (.dict m) => some (.dict (write m (u :: us) s))
  | _ :: _, some v => some v

theorem write_get (o : Ents) (t : Text) (ts : List Text) (s : Text) (n : Text) :
    (write o (t :: ts) s).get n = if n = t then slot (o.get t) ts s else o.get n := by
  cases ts with
  | nil =>
    unfold write slot
    cases h : o.get t with
    | none => dsimp only; rw [get_set]
    | some v =>
      dsimp only
      cases hl : leaf v s with
      | none =>
        dsimp only
        by_cases hn : n = t
        · subst hn; simp [h]
        · simp [hn]
      | some p => dsimp only; rw [get_set]
  | cons u us =>
    unfold write slot
    cases h : o.get t with
    | none => dsimp only; rw [get_set]
    | some v =>
      cases v with
      | dict m => dsimp only; rw [get_set]
      | prim p =>
        dsimp only
        by_cases hn : n = t
        · subst hn; simp [h]
        · simp [hn]
      | list l =>
        dsimp only
        by_cases hn : n = t
        · subst hn; simp [h]
        · simp [hn]

theorem leaf_dict (m : Ents) (s : Text) : leaf (.dict m) s = none := rfl

theorem write_known : (p : List Text) → {o : Ents} → {v : Opt} → {q : Prim} → {s : Text} → At o p v → leaf v s = some q →
    At (write o p s) p (.prim q)
  | [], _, _, _, _, h, _ => absurd h not_at_nil
  | [t], o, v, q, s, h, hl => by
    rw [at_one] at h ⊢
    rw [write_get, if_pos rfl, h]
    unfold slot
    simp only [hl]
  | t :: u :: ts, o, v, q, s, h, hl => by
    rw [at_more] at h ⊢
    obtain ⟨m, h1, h2⟩ := h
    refine ⟨write m (u :: ts) s, ?_, write_known (u :: ts) h2 hl⟩
    rw [write_get, if_pos rfl, h1]
    rfl

theorem write_refused : (p : List Text) → {o : Ents} → {v : Opt} → {s : Text} → At o p v → leaf v s = none → write o p s = o
  | [], _, _, _, h, _ => absurd h not_at_nil
  | [t], o, v, s, h, hl => by
    rw [at_one] at h
    unfold write
    rw [h]
    simp only [hl]
  | t :: u :: ts, o, v, s, h, hl => by
    obtain ⟨m, h1, h2⟩ := at_more.mp h
    unfold write
    rw [h1]
    dsimp only
    rw [write_refused (u :: ts) h2 hl]
    exact set_noop h1

theorem missing_nil : (p : List Text) → p ≠ [] → Missing .nil p
  | [], h => absurd rfl h
  | [_], _ => .last nofun
  | _ :: _ :: _, _ => .absent nofun

theorem write_missing : (p : List Text) → {o : Ents} → {s : Text} → Missing o p → At (write o p s) p (.prim (guess s))
  | [], _, _, h => nomatch h
  | [t], o, s, h => by
    cases h with
    | last h =>
      rw [at_one, write_get, if_pos rfl, lacks_iff.mp h]
      rfl
  | t :: u :: ts, o, s, h => by
    rw [at_more]
    cases h with
    | absent h =>
      refine ⟨_, ?_, write_missing (u :: ts) (missing_nil (u :: ts) (by simp))⟩
      rw [write_get, if_pos rfl, lacks_iff.mp h]
      rfl
    | inside h h' =>
      refine ⟨_, ?_, write_missing (u :: ts) h'⟩
      rw [write_get, if_pos rfl, has_iff.mp h]
      rfl

theorem not_at_empty {p : List Text} {v : Opt} : ¬ At .nil p v := by
  intro h
  cases h with
  | last h => exact nomatch h
  | inside h _ => exact nomatch h

/-- Other options are as they were. -/
theorem write_other : (p : List Text) → {o : Ents} → {s : Text} → {q : List Text} → {v : Opt} → q ≠ p → NoDict v →
    (At (write o p s) q v ↔ At o q v)
  | [], o, s, q, v, _, _ => Iff.rfl
  | t :: ts, o, s, [], v, _, _ => by simp [not_at_nil]
  | t :: ts, o, s, [n], v, hq, hv => by
    rw [at_one, at_one, write_get]
    by_cases hn : n = t
    · subst hn
      rw [if_pos rfl]
      cases ts with
      | nil => exact absurd rfl hq
      | cons u us =>
        unfold slot
        cases h : o.get n with
        | none =>
          exact ⟨fun e => absurd (Option.some.inj e).symm (hv _), (fun e => nomatch e)⟩
        | some w =>
          cases w with
          | dict m =>
            exact ⟨fun e => absurd (Option.some.inj e).symm (hv _), fun e => absurd (Option.some.inj e).symm (hv _)⟩
          | prim _ => exact Iff.rfl
          | list _ => exact Iff.rfl
    · rw [if_neg hn]
  | t :: ts, o, s, n :: n' :: ns, v, hq, hv => by
    rw [at_more, at_more, write_get]
    by_cases hn : n = t
    · subst hn
      rw [if_pos rfl]
      cases ts with
      | nil =>
        unfold slot
        cases h : o.get n with
        | none => exact ⟨fun ⟨_, e, _⟩ => (nomatch e), fun ⟨_, e, _⟩ => (nomatch e)⟩
        | some w =>
          dsimp only
          cases hl : leaf w s with
          | none => exact Iff.rfl
          | some p =>
            refine ⟨fun ⟨_, e, _⟩ => (nomatch e), fun ⟨m, e, _⟩ => ?_⟩
            cases e
            cases hl
      | cons u us =>
        have ih : ∀ {m : Ents}, At (write m (u :: us) s) (n' :: ns) v ↔ At m (n' :: ns) v :=
          write_other (u :: us) (fun e => hq (by rw [e])) hv
        unfold slot
        cases h : o.get n with
        | none =>
          refine ⟨fun ⟨m, e, h2⟩ => ?_, fun ⟨_, e, _⟩ => (nomatch e)⟩
          cases e
          exact absurd (ih.mp h2) not_at_empty
        | some w =>
          cases w with
          | dict m =>
            refine ⟨fun ⟨m', e, h2⟩ => ?_, fun ⟨m', e, h2⟩ => ?_⟩
            · cases e
              exact ⟨m, rfl, ih.mp h2⟩
            · cases e
              exact ⟨_, rfl, ih.mpr h2⟩
          | prim _ => exact Iff.rfl
          | list _ => exact Iff.rfl
    · rw [if_neg hn]

/-! ## The same options -/

/-- The same entry. -/
inductive SameX : Option Opt → Option Opt → Prop where
  | none : SameX none none
  | plain {v} : NoDict v → SameX (some v) (some v)
  | dict {m m'} : Same m m' → SameX (some (.dict m)) (some (.dict m'))

theorem same_refl (o : Ents) : Same o o := ⟨fun _ _ _ => Iff.rfl, fun _ => Iff.rfl⟩

theorem same_trans {a b c : Ents} (h1 : Same a b) (h2 : Same b c) : Same a c :=
  ⟨fun p v hv => (h1.plain p v hv).trans (h2.plain p v hv), fun p => (h1.dict p).trans (h2.dict p)⟩

theorem noDict_cases (v : Opt) : NoDict v ∨ ∃ m, v = .dict m := by
  cases v with
  | dict m => exact .inr ⟨m, rfl⟩
  | prim _ => exact .inl nofun
  | list _ => exact .inl nofun

theorem sameX_refl (x : Option Opt) : SameX x x := by
  cases x with
  | none => exact .none
  | some v =>
    rcases noDict_cases v with h | ⟨m, rfl⟩
    · exact .plain h
    · exact .dict (same_refl m)

theorem same_get {o o' : Ents} (h : Same o o') (n : Text) : SameX (o.get n) (o'.get n) := by
  have hp : ∀ v, NoDict v → (o.get n = some v ↔ o'.get n = some v) := fun v hv => by
    rw [← at_one, ← at_one]; exact h.plain [n] v hv
  have hd : (∃ m, o.get n = some (.dict m)) ↔ ∃ m, o'.get n = some (.dict m) := by
    simpa only [at_one] using h.dict [n]
  cases hx : o.get n with
  | none =>
    cases hy : o'.get n with
    | none => exact .none
    | some v =>
      rcases noDict_cases v with hv | ⟨m, rfl⟩
      · exact absurd ((hp v hv).mpr hy) (by rw [hx]; simp)
      · obtain ⟨_, e⟩ := hd.mpr ⟨m, hy⟩
        rw [hx] at e; cases e
  | some v =>
    rcases noDict_cases v with hv | ⟨m, rfl⟩
    · rw [(hp v hv).mp hx]; exact .plain hv
    · obtain ⟨m', hm⟩ := hd.mp ⟨m, hx⟩
      rw [hm]
      refine .dict ⟨fun p w hw => ?_, fun p => ?_⟩
      · cases p with
        | nil => simp [not_at_nil]
        | cons u us =>
          have := h.plain (n :: u :: us) w hw
          rw [at_more, at_more, hx, hm] at this
          simpa using this
      · cases p with
        | nil => simp [not_at_nil]
        | cons u us =>
          have := h.dict (n :: u :: us)
          simp only [at_more, hx, hm] at this
          simpa using this

theorem same_of_get {o o' : Ents} (h : ∀ n, SameX (o.get n) (o'.get n)) : Same o o' := by
  constructor
  · intro p v hv
    match p with
    | [] => simp [not_at_nil]
    | [n] =>
      rw [at_one, at_one]
      have := h n
      generalize o.get n = x at this
      generalize o'.get n = y at this
      cases this with
      | none => exact Iff.rfl
      | plain _ => exact Iff.rfl
      | dict _ => exact ⟨fun e => absurd (Option.some.inj e).symm (hv _), fun e => absurd (Option.some.inj e).symm (hv _)⟩
    | n :: u :: us =>
      rw [at_more, at_more]
      have := h n
      generalize o.get n = x at this
      generalize o'.get n = y at this
      cases this with
      | none => exact Iff.rfl
      | plain _ => exact Iff.rfl
      | dict hs =>
        constructor
        · rintro ⟨_, e, h2⟩; cases e; exact ⟨_, rfl, (hs.plain _ v hv).mp h2⟩
        · rintro ⟨_, e, h2⟩; cases e; exact ⟨_, rfl, (hs.plain _ v hv).mpr h2⟩
  · intro p
    match p with
    | [] => simp [not_at_nil]
    | [n] =>
      simp only [at_one]
      have := h n
      generalize o.get n = x at this
      generalize o'.get n = y at this
      cases this with
      | none => exact Iff.rfl
      | plain _ => exact Iff.rfl
      | dict _ => exact ⟨fun _ => ⟨_, rfl⟩, fun _ => ⟨_, rfl⟩⟩
    | n :: u :: us =>
      simp only [at_more]
      have := h n
      generalize o.get n = x at this
      generalize o'.get n = y at this
      cases this with
      | none => exact Iff.rfl
      | plain _ => exact Iff.rfl
      | dict hs =>
        constructor
        · rintro ⟨w, _, e, h2⟩
          cases e
          obtain ⟨w', h3⟩ := (hs.dict _).mp ⟨w, h2⟩
          exact ⟨w', _, rfl, h3⟩
        · rintro ⟨w, _, e, h2⟩
          cases e
          obtain ⟨w', h3⟩ := (hs.dict _).mpr ⟨w, h2⟩
          exact ⟨w', _, rfl, h3⟩

theorem write_same : (p : List Text) → (s : Text) → {o o' : Ents} → Same o o' → Same (write o p s) (write o' p s)
  | [], _, _, _, h => h
  | t :: ts, s, o, o', h => by
    refine same_of_get fun n => ?_
    rw [write_get, write_get]
    by_cases hn : n = t
    · rw [if_pos hn, if_pos hn]
      have hx := same_get h t
      generalize o.get t = x at hx
      generalize o'.get t = y at hx
      cases hx with
      | none => exact sameX_refl _
      | plain _ => exact sameX_refl _
      | dict hs =>
        cases ts with
        | nil => exact .dict hs
        | cons u us => exact .dict (write_same (u :: us) s hs)
    · rw [if_neg hn, if_neg hn]
      exact same_get h n

theorem write_commute : (p q : List Text) → Apart p q → (o : Ents) → (s s' : Text) →
    Same (write (write o p s) q s') (write (write o q s') p s)
  | [], q, h, _, _, _ => absurd (List.nil_prefix) h.1
  | _ :: _, [], h, _, _, _ => absurd (List.nil_prefix) h.2
  | t :: ts, t' :: ts', h, o, s, s' => by
    refine same_of_get fun n => ?_
    simp only [write_get]
    by_cases ht : t' = t
    · subst ht
      by_cases hn : n = t'
      · simp only [if_pos hn, if_true]
        cases ts with
        | nil => exact absurd (by simp) h.1
        | cons u us =>
          cases ts' with
          | nil => exact absurd (by simp) h.2
          | cons u' us' =>
            have ih := fun m => write_commute (u :: us) (u' :: us')
              ⟨fun e => h.1 (by rw [List.cons_prefix_cons]; exact ⟨rfl, e⟩),
                fun e => h.2 (by rw [List.cons_prefix_cons]; exact ⟨rfl, e⟩)⟩ m s s'
            cases o.get t' with
            | none => exact .dict (ih .nil)
            | some v =>
              rcases noDict_cases v with hv | ⟨m, rfl⟩
              · have hs : ∀ a b c, slot (some v) (a :: b) c = some v := by
                  intro a b c
                  cases v with
                  | dict m => exact absurd rfl (hv m)
                  | prim _ => rfl
                  | list _ => rfl
                rw [hs, hs, hs]
                exact .plain hv
              · exact .dict (ih m)
      · simp only [if_neg hn]
        exact sameX_refl _
    · have ht' : ¬ t = t' := fun e => ht e.symm
      by_cases hn : n = t
      · subst hn
        simp only [if_neg ht', if_true]
        exact sameX_refl _
      · by_cases hn' : n = t'
        · subst hn'
          simp only [if_neg ht, if_true]
          exact sameX_refl _
        · simp only [if_neg hn, if_neg hn']
          exact sameX_refl _

/-! ## Arguments -/

theorem split_word {w : Text} (h : '_' ∉ w) : split w = [w] := by
  induction w with
  | nil => rfl
  | cons c w ih =>
    unfold split
    rw [if_neg (fun e : c = '_' => h (e ▸ List.mem_cons_self)), ih (fun e => h (List.mem_cons_of_mem _ e))]

theorem split_cons {w : Text} (h : '_' ∉ w) (s : Text) : split (w ++ '_' :: s) = w :: split s := by
  induction w with
  | nil => rfl
  | cons c w ih =>
    rw [List.cons_append, split]
    rw [if_neg (fun e : c = '_' => h (e ▸ List.mem_cons_self)), ih (fun e => h (List.mem_cons_of_mem _ e))]

theorem split_joined : {p : List Text} → p ≠ [] → (∀ w ∈ p, '_' ∉ w) → split (joined p) = p
  | [], h, _ => absurd rfl h
  | [w], _, h => split_word (h w List.mem_cons_self)
  | w :: u :: ws, _, h => by
    rw [joined, split_cons (h w List.mem_cons_self),
      split_joined (by simp) fun x hx => h x (List.mem_cons_of_mem _ hx)]
    simp

theorem split_words (s : Text) : ∀ w ∈ split s, '_' ∉ w := by
  induction s with
  | nil => simp [split]
  | cons c s ih =>
    unfold split
    by_cases hc : c = '_'
    · rw [if_pos hc]
      intro w hw
      rcases List.mem_cons.mp hw with rfl | hw
      · simp
      · exact ih w hw
    · rw [if_neg hc]
      cases h : split s with
      | nil =>
        intro w hw
        rw [List.mem_singleton.mp hw]
        simpa using fun e => hc e.symm
      | cons u us =>
        rw [h] at ih
        intro w hw
        rcases List.mem_cons.mp hw with rfl | hw
        · intro e
          rcases List.mem_cons.mp e with e | e
          · exact hc e.symm
          · exact ih u List.mem_cons_self e
        · exact ih w (List.mem_cons_of_mem _ hw)

theorem joined_eq : {p : List Text} → (∀ w ∈ p, '=' ∉ w) → '=' ∉ joined p
  | [], _ => by simp [joined]
  | [w], h => h w List.mem_cons_self
  | w :: u :: ws, h => by
    rw [joined]
    · intro e
      rcases List.mem_append.mp e with e | e
      · exact h w List.mem_cons_self e
      · rcases List.mem_cons.mp e with e | e
        · revert e; decide
        · exact joined_eq (fun x hx => h x (List.mem_cons_of_mem _ hx)) e
    · simp

theorem cut_argument {pre : Text} {p : List Text} (h : Plain p) (s : Text) :
    cut pre (argument pre p s) = some (joined p, s) := by
  have hp : pre.isPrefixOf (argument pre p s) = true := by
    rw [List.isPrefixOf_iff_prefix, argument, List.append_assoc]
    exact List.prefix_append _ _
  have hd : (argument pre p s).drop pre.length = joined p ++ '=' :: s := by
    rw [argument, List.append_assoc, List.drop_left]
  have hne : ∀ x ∈ joined p, decide (x ≠ '=') = true := by
    intro x hx
    exact decide_eq_true fun e => joined_eq (fun w hw => (h.2 w hw).2) (e ▸ hx)
  obtain ⟨h1, h2⟩ := takeWhile_stop (p := fun x => decide (x ≠ '=')) (c := '=') s hne (by decide)
  unfold cut
  rw [if_pos hp, hd]
  dsimp only
  rw [if_pos (by simp), h1, h2]
  rfl

/-- Arguments with different names are kept in their order. -/
theorem collect_arguments (pre : Text) : (l : List (List Text × Text)) → (∀ x ∈ l, Plain x.1) →
    l.Pairwise (fun a b => a.1 ≠ b.1) → (acc : List (Text × Text)) → (∀ x ∈ l, ∀ y ∈ acc, y.1 ≠ joined x.1) →
    (l.map fun x => argument pre x.1 x.2).foldl (gather pre) acc =
    acc ++ l.map fun x => (joined x.1, x.2)
  | [], _, _, acc, _ => by simp
  | x :: l, hp, hd, acc, ha => by
    have hx := hp x List.mem_cons_self
    have hset : ∀ (a : List (Text × Text)), (∀ y ∈ a, y.1 ≠ joined x.1) → setText a (joined x.1) x.2 = a ++ [(joined x.1, x.2)] := by
      intro a
      induction a with
      | nil => intro _; rfl
      | cons y a ih =>
        intro h
        obtain ⟨n, w⟩ := y
        unfold setText
        rw [if_neg (h (n, w) List.mem_cons_self), ih fun z hz => h z (List.mem_cons_of_mem _ hz)]
        rfl
    have hg : gather pre acc (argument pre x.1 x.2) = setText acc (joined x.1) x.2 := by
      unfold gather
      rw [cut_argument hx]
    rw [List.map_cons, List.foldl_cons, hg, hset acc (ha x List.mem_cons_self), collect_arguments pre l (fun y hy => hp y (List.mem_cons_of_mem _ hy))
      (List.pairwise_cons.mp hd).2]
    · simp
    · intro y hy z hz
      rcases List.mem_append.mp hz with hz | hz
      · exact ha y (List.mem_cons_of_mem _ hy) z hz
      · rw [List.mem_singleton.mp hz]
        intro e
        have hy' := hp y (List.mem_cons_of_mem _ hy)
        refine (List.pairwise_cons.mp hd).1 y hy ?_
        dsimp only at e
        rw [← split_joined hx.1 (fun w hw => (hx.2 w hw).1), e, split_joined hy'.1 fun w hw => (hy'.2 w hw).1]

theorem fromArgs_arguments {pre : Text} {l : List (List Text × Text)} (hp : ∀ x ∈ l, Plain x.1)
    (hd : l.Pairwise (fun a b => a.1 ≠ b.1)) (o : Ents) :
    fromArgs pre (l.map fun x => argument pre x.1 x.2) o = l.foldl (fun o x => write o x.1 x.2) o := by
  unfold fromArgs collect
  rw [collect_arguments pre l hp hd [] (by simp), List.nil_append, List.foldl_map]
  clear hd
  induction l generalizing o with
  | nil => rfl
  | cons x l ih =>
    have hx := hp x List.mem_cons_self
    simp only [List.foldl_cons]
    rw [split_joined hx.1 fun w hw => (hx.2 w hw).1]
    exact ih (fun y hy => hp y (List.mem_cons_of_mem _ hy)) _

theorem gives_write {p : List Text} {s : Text} {x : Provider} (h : Gives p s x) (hp : Plain p) (o : Ents) :
    populate o x = write o p s := by
  cases h with
  | env =>
    exact fromArgs_arguments (pre := envStart) (l := [(p, s)]) (by simpa using hp) (by simp) o
  | cmd =>
    exact fromArgs_arguments (pre := cmdStart) (l := [(p, s)]) (by simpa using hp) (by simp) o

end Verif.Opts
