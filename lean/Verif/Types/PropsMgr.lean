import Verif.Types.Spec
/-
C117: the type manager.
-/
namespace Verif.Types.Props
open Spec

/-! ### Names -/

theorem alpha_iff (c : Char) : alpha c = true ↔ Letter c := by
  simp [alpha, Letter]

theorem digit_iff (c : Char) : digit c = true ↔ Digit c := by simp [digit, Digit]

theorem validName_iff (n : Name) : validName n = true ↔ Ident n := by
  cases n with
  | nil => simp [validName, Ident]
  | cons c l =>
    simp only [validName, Bool.and_eq_true, Bool.or_eq_true, alpha_iff, beq_iff_eq, List.all_eq_true, digit_iff,
      Ident]
    constructor
    · intro ⟨h1, h2⟩
      exact ⟨c, l, rfl, h1, fun x hx => by have := h2 x hx; rcases this with (h | h) | h <;> simp [h]⟩
    · rintro ⟨c', l', e, h1, h2⟩
      cases e
      exact ⟨h1, fun x hx => by rcases h2 x hx with h | h | h <;> simp [h]⟩

theorem words_eq : words.map String.toList = reservedNames := by decide +kernel

theorem reserved_lower : ∀ w ∈ reservedNames, ∀ c ∈ w, 'a' ≤ c ∧ c ≤ 'z' := by decide +kernel

theorem char_le (a b : Char) : a ≤ b ↔ a.toNat ≤ b.toNat := UInt32.le_iff_toNat_le

theorem lowerChar_iff (c w : Char) (hw : 'a' ≤ w ∧ w ≤ 'z') :
    lowerChar c = w ↔ (c = w ∨ ('A' ≤ c ∧ c ≤ 'Z' ∧ w.toNat = c.toNat + ('a'.toNat - 'A'.toNat))) := by
  have key : ('A' ≤ c ∧ c ≤ 'Z') → (Char.ofNat (c.toNat + 32)).toNat = c.toNat + 32 := by
    intro ⟨h1, h2⟩
    have h2' : c.toNat ≤ 90 := (char_le _ _).mp h2
    have hv : Nat.isValidChar (c.toNat + 32) := by unfold Nat.isValidChar; omega
    rw [Char.ofNat, dif_pos hv]
    rfl
  have e32 : 'a'.toNat - 'A'.toNat = 32 := by decide
  rw [e32]
  unfold lowerChar
  by_cases hc : 'A' ≤ c ∧ c ≤ 'Z'
  · rw [if_pos (by simp [hc])]
    constructor
    · intro h
      right
      exact ⟨hc.1, hc.2, by rw [← h, key hc]⟩
    · rintro (h | h)
      · exfalso
        subst h
        have h1 : c.toNat ≤ 90 := (char_le _ _).mp hc.2
        have h2 : 97 ≤ c.toNat := (char_le _ _).mp hw.1
        omega
      · apply Char.toNat_inj.mp
        rw [key hc, h.2.2]
  · rw [if_neg (by simpa using hc)]
    constructor
    · intro h; exact .inl h
    · rintro (h | h)
      · exact h
      · exact absurd ⟨h.1, h.2.1⟩ hc

theorem lower_iff (n w : Name) (hw : ∀ c ∈ w, 'a' ≤ c ∧ c ≤ 'z') : lower n = w ↔ AnyCase n w := by
  induction n generalizing w with
  | nil => cases w <;> simp [lower, AnyCase]
  | cons c l ih =>
    cases w with
    | nil => simp [lower, AnyCase]
    | cons d r =>
      have h1 := ih r (fun c hc => hw c (List.mem_cons_of_mem _ hc))
      have h2 := lowerChar_iff c d (hw d List.mem_cons_self)
      simp only [lower, List.map_cons, List.cons.injEq, AnyCase]
      rw [h2]
      exact and_congr Iff.rfl h1

theorem reserved_iff (n : Name) : reservedNames.contains (lower n) = true ↔ Reserved n := by
  rw [List.contains_iff_mem]
  unfold Reserved
  constructor
  · intro h
    have h' := h
    rw [← words_eq] at h'
    obtain ⟨w, hw, e⟩ := List.mem_map.mp h'
    refine ⟨w, hw, ?_⟩
    rw [e]
    exact (lower_iff n (lower n) (reserved_lower _ h)).mp rfl
  · rintro ⟨w, hw, h⟩
    have hm : w.toList ∈ reservedNames := by rw [← words_eq]; exact List.mem_map.mpr ⟨w, hw, rfl⟩
    rw [(lower_iff n w.toList (reserved_lower _ hm)).mpr h]
    exact hm

/-! ### The manager -/

variable {T : Type} [DecidableEq T]

/-- What every manager keeps. -/
structure Inv (nm : T → Name) (l : List (Name × T)) : Prop where
  nodup : (l.map (·.1)).Nodup
  names : ∀ e ∈ l, nm e.2 = e.1
  ident : ∀ e ∈ l, Ident e.1
  free : ∀ e ∈ l, ¬ Reserved e.1

theorem lookup_mem {α β : Type} [BEq α] [LawfulBEq α] {l : List (α × β)} {k : α} {v : β} (h : l.lookup k = some v) :
    (k, v) ∈ l := by
  induction l with
  | nil => simp at h
  | cons e r ih =>
    obtain ⟨a, b⟩ := e
    by_cases hk : k = a
    · subst hk; simp at h; simp [h]
    · have hb : (k == a) = false := by simpa using hk
      simp only [List.lookup, hb] at h
      exact List.mem_cons_of_mem _ (ih h)

theorem lookup_of_mem {α β : Type} [BEq α] [LawfulBEq α] {l : List (α × β)} {k : α} {v : β}
    (hn : (l.map (·.1)).Nodup) (h : (k, v) ∈ l) : l.lookup k = some v := by
  induction l with
  | nil => simp at h
  | cons e r ih =>
    obtain ⟨a, b⟩ := e
    simp only [List.map_cons, List.nodup_cons] at hn
    rcases List.mem_cons.mp h with h' | h'
    · cases h'; simp
    · have hk : k ≠ a := by
        rintro rfl
        exact hn.1 (List.mem_map.mpr ⟨(k, v), h', rfl⟩)
      have hb : (k == a) = false := by simpa using hk
      simp only [List.lookup, hb]
      exact ih hn.2 h'

theorem lookup_none {α β : Type} [BEq α] [LawfulBEq α] {l : List (α × β)} {k : α} :
    l.lookup k = none ↔ k ∉ l.map (·.1) := by
  induction l with
  | nil => simp
  | cons e r ih =>
    obtain ⟨a, b⟩ := e
    by_cases hk : k = a
    · subst hk; simp
    · have hb : (k == a) = false := by simpa using hk
      simp only [List.lookup, hb, ih, List.map_cons, List.mem_cons, hk, false_or]

theorem lookup_append {α β : Type} [BEq α] [LawfulBEq α] (l r : List (α × β)) (k : α) :
    (l ++ r).lookup k = (l.lookup k).or (r.lookup k) := by
  induction l with
  | nil => simp
  | cons e l ih =>
    obtain ⟨a, b⟩ := e
    by_cases hk : k = a
    · subst hk; simp
    · have hb : (k == a) = false := by simpa using hk
      simp only [List.cons_append, List.lookup, hb, ih]

theorem lookup_filter {β : Type} (l : List (Name × β)) (k n : Name) :
    (l.filter (fun e => e.1 != n)).lookup k = if k = n then none else l.lookup k := by
  induction l with
  | nil => simp
  | cons e l ih =>
    obtain ⟨a, b⟩ := e
    by_cases ha : a = n
    · subst ha
      simp only [List.filter_cons, bne_self_eq_false, Bool.false_eq_true, if_false]
      rw [ih]
      by_cases hk : k = a
      · rw [if_pos hk, if_pos hk]
      · have hb : (k == a) = false := by simpa using hk
        rw [if_neg hk, if_neg hk]
        simp only [List.lookup, hb]
    · have hb : (a != n) = true := by simpa using ha
      simp only [List.filter_cons, hb, if_true]
      by_cases hk : k = a
      · subst hk
        rw [if_neg ha]; simp
      · have hb : (k == a) = false := by simpa using hk
        simp only [List.lookup, hb]
        exact ih

omit [DecidableEq T] in
theorem tell_types (m : Mgr T) (e : Note T) (ok : Bool) : (m.tell e ok).1.types = m.types := by
  unfold Mgr.tell; split <;> rfl

theorem add_inv (nm : T → Name) (m : Mgr T) (t : T) (ok : Bool) (h : Inv nm m.types) :
    Inv nm (m.add nm t ok).1.types := by
  unfold Mgr.add
  split
  · exact h
  split
  · exact h
  rename_i h2
  split
  · exact h
  rename_i h3
  split
  · split <;> exact h
  · rename_i h4
    rw [tell_types]
    have h3' : Ident (nm t) := by rw [← validName_iff]; simpa using h3
    have h2' : ¬ Reserved (nm t) := by rw [← reserved_iff]; exact h2
    refine ⟨?_, ?_, ?_, ?_⟩
    · show ((m.types ++ [(nm t, t)]).map (·.1)).Nodup
      rw [List.map_append, List.map_cons, List.map_nil, List.nodup_append]
      refine ⟨h.nodup, by simp, ?_⟩
      intro a ha b hb
      simp at hb; subst hb
      rintro rfl
      exact lookup_none.mp h4 ha
    all_goals
      intro e he
      rcases List.mem_append.mp he with he | he
    · exact h.names e he
    · simp at he; subst he; rfl
    · exact h.ident e he
    · simp at he; subst he; exact h3'
    · exact h.free e he
    · simp at he; subst he; exact h2'

omit [DecidableEq T] in
theorem remove_inv (nm : T → Name) (m : Mgr T) (n : Name) (ok : Bool) (h : Inv nm m.types) :
    Inv nm (m.remove n ok).1.types := by
  unfold Mgr.remove
  split
  · exact h
  · rw [tell_types]
    refine ⟨?_, ?_, ?_, ?_⟩
    · exact h.nodup.sublist (List.Sublist.map _ List.filter_sublist)
    all_goals intro e he; have he := (List.mem_filter.mp he).1
    · exact h.names e he
    · exact h.ident e he
    · exact h.free e he

theorem step_inv (nm : T → Name) (m : Mgr T) (o : Op T) (h : Inv nm m.types) : Inv nm (m.step nm o).1.types := by
  cases o with
  | add t ok => exact add_inv nm m t ok h
  | remove n ok => exact remove_inv nm m n ok h
  | callback b => exact h

theorem run_inv' (nm : T → Name) (l : List (Op T)) (m : Mgr T) (h : Inv nm m.types) : Inv nm (m.run nm l).types := by
  induction l generalizing m with
  | nil => exact h
  | cons o l ih => exact ih _ (step_inv nm m o h)

theorem run_inv (nm : T → Name) (l : List (Op T)) : Inv nm (Mgr.run nm {} l).types :=
  run_inv' nm l _ ⟨by simp, by simp, by simp, by simp⟩

/-! ### C117 -/

omit [DecidableEq T] in
theorem get_eq (m : Mgr T) (n : Name) (t : T) : m.get n = .ok t ↔ m.types.lookup n = some t := by
  unfold Mgr.get
  split <;> rename_i h <;> simp [h]

/-- C117: whatever was called, every listed name is listed once, is an identifier that is not
reserved, and asking for it gives a type of that name; all other names are not there. -/
theorem C117_map (nm : T → Name) (l : List (Op T)) (n : Name) :
    (Mgr.run nm {} l).list.Nodup ∧
    (n ∈ (Mgr.run nm {} l).list ↔ (Mgr.run nm {} l).has n = true) ∧
    ((Mgr.run nm {} l).has n = true ↔ ∃ t, (Mgr.run nm {} l).get n = .ok t) ∧
    (∀ t, (Mgr.run nm {} l).get n = .ok t → nm t = n ∧ Ident n ∧ ¬ Reserved n) ∧
    ((Mgr.run nm {} l).has n = false → (Mgr.run nm {} l).get n = .error .missing) := by
  have h := run_inv nm l
  generalize Mgr.run nm {} l = m at h
  refine ⟨h.nodup, ?_, ?_, ?_, ?_⟩
  · unfold Mgr.list Mgr.has
    cases e : m.types.lookup n with
    | none => simpa using lookup_none.mp e
    | some t => simpa using ⟨t, lookup_mem e⟩
  · unfold Mgr.has
    cases e : m.types.lookup n with
    | none => simp [Mgr.get, e]
    | some t => simp [Mgr.get, e]
  · intro t ht
    have := lookup_mem ((get_eq m n t).mp ht)
    exact ⟨h.names _ this, h.ident _ this, h.free _ this⟩
  · unfold Mgr.has Mgr.get
    cases e : m.types.lookup n <;> simp

/-- C117: adding.  A type with a free and proper name is appended and everything else stays; a
type that is there already, exactly the same, is accepted and changes nothing; anything else
is refused and changes nothing.  A callback that is set is told about the change and nothing
else; only its failure makes the call fail then. -/
theorem C117_add (nm : T → Name) (l : List (Op T)) (t : T) (ok : Bool) :
    let m := Mgr.run nm {} l
    let r := m.step nm (.add t ok)
    (Ident (nm t) → ¬ Reserved (nm t) → m.has (nm t) = false →
      r.1.list = m.list ++ [nm t] ∧ (∀ n, r.1.get n = if n = nm t then .ok t else m.get n) ∧
      r.1.log = m.log ++ (if m.heard then [.added t] else []) ∧ r.1.heard = m.heard ∧
      r.2 = if m.heard ∧ ok = false then some .callback else none) ∧
    (m.get (nm t) = .ok t → r = (m, none)) ∧
    (∀ u, m.get (nm t) = .ok u → u ≠ t → r = (m, some .taken)) ∧
    (nm t = [] → r = (m, some .invalid)) ∧
    (Reserved (nm t) → r = (m, some .reserved)) ∧
    (nm t ≠ [] → ¬ Reserved (nm t) → ¬ Ident (nm t) → r = (m, some .badName)) := by
  intro m r
  have h : Inv nm m.types := run_inv nm l
  have hr : r = m.add nm t ok := rfl
  clear_value r m
  subst hr
  have nres : Reserved ([] : Name) → False := by
    rintro ⟨w, hw, hc⟩
    revert w
    have : ∀ w ∈ words, w.toList ≠ [] := by decide +kernel
    intro w hw hc
    have := this w hw
    cases e : w.toList with
    | nil => exact this e
    | cons a b => rw [e] at hc; exact hc
  have nid : Ident ([] : Name) → False := by rintro ⟨c, l, e, _⟩; cases e
  have ok_case : Ident (nm t) → ¬ Reserved (nm t) → m.add nm t ok = match m.types.lookup (nm t) with
      | some u => if u = t then (m, none) else (m, some .taken)
      | none => ({ m with types := m.types ++ [(nm t, t)] } : Mgr T).tell (.added t) ok := by
    intro h1 h2
    unfold Mgr.add
    rw [if_neg (by rintro e; rw [e] at h1; exact nid h1), if_neg (by rw [reserved_iff]; exact h2),
      if_neg (by rw [(validName_iff _).mpr h1]; decide)]
    rfl
  refine ⟨?_, ?_, ?_, ?_, ?_, ?_⟩
  · intro h1 h2 h3
    have e : m.types.lookup (nm t) = none := by
      unfold Mgr.has at h3
      cases e : m.types.lookup (nm t) <;> simp_all
    rw [ok_case h1 h2, e]
    dsimp only
    refine ⟨?_, ?_, ?_, ?_, ?_⟩
    · unfold Mgr.list; rw [tell_types]; simp
    · intro n
      unfold Mgr.get; rw [tell_types]
      dsimp only
      rw [lookup_append]
      by_cases hn : n = nm t
      · subst hn; simp [e]
      · have hb : (n == nm t) = false := by simpa using hn
        rw [if_neg hn]
        have : [(nm t, t)].lookup n = none := by simp only [List.lookup, hb]
        rw [this]; simp
    · unfold Mgr.tell; dsimp only; split <;> simp
    · unfold Mgr.tell; dsimp only; split <;> simp_all
    · unfold Mgr.tell; dsimp only
      cases m.heard <;> cases ok <;> simp
  · intro h1
    have h1 := (get_eq _ _ _).mp h1
    have hm := lookup_mem h1
    rw [ok_case (h.ident _ hm) (h.free _ hm), h1]
    simp
  · intro u h1 hu
    have h1 := (get_eq _ _ _).mp h1
    have hm := lookup_mem h1
    rw [ok_case (h.ident _ hm) (h.free _ hm), h1]
    simp [hu]
  · intro h1
    unfold Mgr.add; rw [if_pos h1]
  · intro h1
    unfold Mgr.add
    rw [if_neg (by rintro e; rw [e] at h1; exact nres h1), if_pos ((reserved_iff _).mpr h1)]
  · intro h1 h2 h3
    unfold Mgr.add
    rw [if_neg h1, if_neg (by rw [reserved_iff]; exact h2), if_pos]
    simp only [Bool.not_eq_true']
    rw [Bool.eq_false_iff]
    intro hv
    exact h3 ((validName_iff _).mp hv)

/-- C117: removing.  Exactly the named type goes, the others stay in order. -/
theorem C117_remove (nm : T → Name) (l : List (Op T)) (n : Name) (ok : Bool) :
    let m := Mgr.run nm {} l
    let r := m.step nm (.remove n ok)
    (m.has n = true → r.1.list = m.list.filter (fun k => k ≠ n) ∧
      (∀ k, r.1.get k = if k = n then .error .missing else m.get k) ∧
      r.1.log = m.log ++ (if m.heard then [.removed n] else []) ∧ r.1.heard = m.heard ∧
      r.2 = if m.heard ∧ ok = false then some .callback else none) ∧
    (m.has n = false → r = (m, some .missing)) := by
  intro m r
  have hr : r = m.remove n ok := rfl
  clear_value r m
  subst hr
  constructor
  · intro h
    unfold Mgr.has at h
    obtain ⟨t, e⟩ := Option.isSome_iff_exists.mp h
    unfold Mgr.remove
    rw [e]
    dsimp only
    refine ⟨?_, ?_, ?_, ?_, ?_⟩
    · unfold Mgr.list; rw [tell_types]
      dsimp only
      generalize m.types = l
      induction l with
      | nil => rfl
      | cons a l ih =>
        by_cases ha : a.1 = n
        · simpa [List.filter_cons, ha] using ih
        · simpa [List.filter_cons, ha] using ih
    · intro k
      unfold Mgr.get; rw [tell_types]
      dsimp only
      rw [lookup_filter]
      by_cases hk : k = n
      · rw [if_pos hk, if_pos hk]
      · rw [if_neg hk, if_neg hk]
    · unfold Mgr.tell; dsimp only; split <;> simp
    · unfold Mgr.tell; dsimp only; split <;> simp_all
    · unfold Mgr.tell; dsimp only
      cases m.heard <;> cases ok <;> simp
  · intro h
    unfold Mgr.has at h
    have e : m.types.lookup n = none := by cases e : m.types.lookup n <;> simp_all
    unfold Mgr.remove
    rw [e]

theorem follow_append (nm : T → Name) (k : Name → Option T) (a b : List (Note T)) :
    follow nm k (a ++ b) = follow nm (follow nm k a) b := by
  induction a generalizing k with
  | nil => rfl
  | cons e a ih => cases e <;> exact ih _

/-- C117: who listens from the beginning knows the types, whatever is called and also when
callbacks fail. -/
theorem C117_listener (nm : T → Name) (l : List (Op T)) (h : ∀ b, Op.callback b ∉ l) (n : Name) :
    follow nm (fun _ => none) (Mgr.run nm {} (.callback true :: l)).log n =
      (Mgr.run nm {} (.callback true :: l)).types.lookup n := by
  suffices H : ∀ (l : List (Op T)) (m : Mgr T), (∀ b, Op.callback b ∉ l) → m.heard = true →
      (∀ n, follow nm (fun _ => none) m.log n = m.types.lookup n) → Inv nm m.types →
      ∀ n, follow nm (fun _ => none) (Mgr.run nm m l).log n = (Mgr.run nm m l).types.lookup n by
    exact H l _ h rfl (fun n => by rfl) ⟨by simp [Mgr.step], by simp [Mgr.step], by simp [Mgr.step], by simp [Mgr.step]⟩ n
  intro l
  induction l with
  | nil => intro m _ _ hm _ n; exact hm n
  | cons o l ih =>
    intro m hl hh hm hi n
    refine ih (m.step nm o).1 (fun b hb => hl b (List.mem_cons_of_mem _ hb)) ?_ ?_ (step_inv nm m o hi) n
    · cases o with
      | callback b => exact absurd List.mem_cons_self (hl b)
      | add t ok =>
        show (m.add nm t ok).1.heard = true
        unfold Mgr.add Mgr.tell
        repeat (first | exact hh | split)
      | remove k ok =>
        show (m.remove k ok).1.heard = true
        unfold Mgr.remove Mgr.tell
        repeat (first | exact hh | split)
    · intro n
      cases o with
      | callback b => exact absurd List.mem_cons_self (hl b)
      | add t ok =>
        show follow nm _ (m.add nm t ok).1.log n = (m.add nm t ok).1.types.lookup n
        unfold Mgr.add
        split
        · exact hm n
        split
        · exact hm n
        split
        · exact hm n
        split
        · split <;> exact hm n
        · rename_i e
          rw [tell_types]
          unfold Mgr.tell
          rw [if_pos (by exact hh)]
          dsimp only
          rw [follow_append, lookup_append]
          show (if n = nm t then some t else follow nm _ m.log n) = _
          rw [hm n]
          by_cases hn : n = nm t
          · subst hn; simp [e]
          · have hb : (n == nm t) = false := by simpa using hn
            rw [if_neg hn]
            have : [(nm t, t)].lookup n = none := by simp only [List.lookup, hb]
            rw [this]; simp
      | remove k ok =>
        show follow nm _ (m.remove k ok).1.log n = (m.remove k ok).1.types.lookup n
        unfold Mgr.remove
        split
        · exact hm n
        · rw [tell_types]
          unfold Mgr.tell
          rw [if_pos (by exact hh)]
          dsimp only
          rw [follow_append, lookup_filter]
          show (if n = k then none else follow nm _ m.log n) = _
          rw [hm n]

/-- Non-vacuity: a history with types that are accepted, refused, listed and removed. -/
example :
    let m := Mgr.run Ty.name {} [.callback true, .add (.enum ['E', '1'] [(['x'], 1)]) true,
      .add (.enum ['u', 'N', 'i', 't'] [(['x'], 1)]) true, .add (.enum ['1'] [(['x'], 1)]) true,
      .add (.struct ['S'] .nil false) false, .add (.enum ['E', '1'] [(['x'], 2)]) true, .remove ['E', '1'] true]
    m.list = [['S']] ∧ m.log.length = 3 ∧ (m.step Ty.name (.add (.struct ['S'] .nil true) true)).2 = some .taken ∧
      (m.step Ty.name (.add (.struct ['U', 'N', 'i', 't'] .nil true) true)).2 = some .reserved := by decide +kernel

end Verif.Types.Props
