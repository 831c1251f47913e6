import Verif.Nest.PropsBatch

/-!
# The end of an update (C262) and clearing an object (C263)
-/

namespace Verif.Nest
open Spec

variable {V : Type} [DecidableEq V]

/-! ## Violations -/

/-- A value that is refused at the end of the update, in one of the objects inside: the objects after it stay in the update,
and the calls of the object itself are not made. -/
theorem C262_violation_refused : ∃ f : Forest Nat, Idle f ∧
    (run f [.startUpdate [10], .set [10, 20] [] 2 30, .set [10] [] 1 8, .endUpdate [10]]).2 =
      [.ok, .ok, .ok, .err .refused] ∧
    read (run f [.startUpdate [10], .set [10, 20] [] 2 30, .set [10] [] 1 8, .endUpdate [10]]).1 [10] 1 = some 0 ∧
    (run f [.startUpdate [10], .set [10, 20] [] 2 30, .set [10] [] 1 8, .endUpdate [10], .set [10, 30] [] 1 6]).2.getLast? =
      some .ok ∧
    read (run f [.startUpdate [10], .set [10, 20] [] 2 30, .set [10] [] 1 8, .endUpdate [10], .set [10, 30] [] 1 6]).1
      [10, 30] 1 = some 0 :=
  ⟨demo, by simp [Idle, Everywhere, demo, leaf], by decide +kernel, by decide +kernel, by decide +kernel, by decide +kernel⟩

/-- The calls not made are still recorded: the next update, in which nothing is called, makes them and overwrites what was
set in between. -/
theorem C262_violation_late : ∃ f : Forest Nat, Idle f ∧
    read (run f [.startUpdate [10], .set [10, 20] [] 2 30, .set [10] [] 1 8, .endUpdate [10], .set [10] [] 1 3]).1 [10] 1 =
      some 3 ∧
    (run f [.startUpdate [10], .set [10, 20] [] 2 30, .set [10] [] 1 8, .endUpdate [10], .set [10] [] 1 3,
      .startUpdate [10], .endUpdate [10]]).2.drop 4 = [.ok, .ok, .ok] ∧
    read (run f [.startUpdate [10], .set [10, 20] [] 2 30, .set [10] [] 1 8, .endUpdate [10], .set [10] [] 1 3,
      .startUpdate [10], .endUpdate [10]]).1 [10] 1 = some 8 :=
  ⟨demo, by simp [Idle, Everywhere, demo, leaf], by decide +kernel, by decide +kernel, by decide +kernel⟩

/-- A value that is refused in the object itself: the calls recorded after it are lost. -/
theorem C262_violation_lost : ∃ f : Forest Nat, Idle f ∧
    (run f [.startUpdate [10], .set [10] [] 2 30, .set [10] [] 1 8, .endUpdate [10], .startUpdate [10], .endUpdate [10]]).2 =
      [.ok, .ok, .ok, .err .refused, .ok, .ok] ∧
    read (run f [.startUpdate [10], .set [10] [] 2 30, .set [10] [] 1 8, .endUpdate [10], .startUpdate [10],
      .endUpdate [10]]).1 [10] 1 = some 0 :=
  ⟨demo, by simp [Idle, Everywhere, demo, leaf], by decide +kernel, by decide +kernel⟩

/-! ## What is left alone -/

/-- Recorded calls do not change in which updates an object is. -/
def Calm (d e : Data V) : Prop :=
  e.count = d.count ∧ e.frozen = d.frozen ∧ (d.count = 0 → e.pending = d.pending)

omit [DecidableEq V] in
theorem Calm.refl (d : Data V) : Calm d d := ⟨rfl, rfl, fun _ => rfl⟩

omit [DecidableEq V] in
theorem Calm.trans {a b c : Data V} (h1 : Calm a b) (h2 : Calm b c) : Calm a c :=
  ⟨h2.1.trans h1.1, h2.2.1.trans h1.2.1, fun h => (h2.2.2 (h1.1.trans h)).trans (h1.2.2 h)⟩

omit [DecidableEq V] in
theorem calm_push {d : Data V} {a : Action V} (h : 0 < d.count) : Calm d (d.push a) :=
  ⟨rfl, rfl, fun h0 => absurd h0 (by omega)⟩

omit [DecidableEq V] in
theorem calm_clear {d : Data V} {n : Name} {p : Def V} : Calm d (d.clear n p).1 :=
  ⟨clear_same.1, clear_same.2.1, fun _ => clear_same.2.2.2⟩

theorem calm_set {d : Data V} {b : Forest V} {n : Name} {v : V} : Calm d (d.set b n v).1 :=
  ⟨set_same.1, set_same.2.1, fun _ => set_same.2.2.2⟩

omit [DecidableEq V] in
theorem calm_clearEach {d : Data V} {ps : List (Name × Def V)} : Calm d (d.clearEach ps).1 := by
  induction ps generalizing d with
  | nil => exact .refl d
  | cons x ps ih =>
    unfold Data.clearEach
    split
    · exact .refl d
    · split
      · rename_i h
        exact (calm_push h).trans ih
      · have hc : Calm d (d.clear x.1 x.2).1 := calm_clear
        generalize d.clear x.1 x.2 = r at hc ⊢
        obtain ⟨d', r⟩ := r
        cases r with
        | ok => exact hc.trans ih
        | err e => exact hc

omit [DecidableEq V] in
theorem calm_pushKids {d : Data V} {b : Forest V} (h : 0 < d.count) : Calm d (d.pushKids b) := by
  induction b generalizing d with
  | nil => exact .refl d
  | cons m e b r _ ih => exact (calm_push h).trans (ih h)

omit [DecidableEq V] in
theorem calm_resetOne {d : Data V} {b : Forest V} {x : Forest V × Res} (hx : Pairs Calm b x.1) :
    Calm d (resetOne d b x).1 ∧ Pairs Calm b (resetOne d b x).2.1 := by
  unfold resetOne
  have hc : Calm d (d.clearEach d.defs).1 := calm_clearEach
  generalize d.clearEach d.defs = r at hc ⊢
  obtain ⟨d', r⟩ := r
  have hb : Pairs Calm b b := Pairs.refl Calm.refl b
  cases r with
  | err e => exact ⟨hc, hb⟩
  | ok =>
    dsimp only
    unfold clearKids
    split
    · exact ⟨hc, hb⟩
    · split
      · exact ⟨hc, hb⟩
      · split
        · rename_i h
          exact ⟨Calm.trans hc (calm_pushKids h), hb⟩
        · exact ⟨hc, hx⟩

omit [DecidableEq V] in
theorem calm_resetAll : (f : Forest V) → Pairs Calm f f.resetAll.1
  | .nil => .nil
  | .cons m d b r => by
    unfold Forest.resetAll
    have h1 := calm_resetOne (d := d) (calm_resetAll b)
    generalize resetOne d b b.resetAll = x at h1 ⊢
    obtain ⟨d', b', x⟩ := x
    cases x with
    | err e => exact .cons h1.1 h1.2 (Pairs.refl Calm.refl r)
    | ok => exact .cons h1.1 h1.2 (calm_resetAll r)

omit [DecidableEq V] in
theorem calm_resetKid (n : Name) : (f : Forest V) → Pairs Calm f (f.resetKid n).1
  | .nil => .nil
  | .cons m d b r => by
    unfold Forest.resetKid
    have h1 := calm_resetOne (d := d) (calm_resetAll b)
    split
    · exact .cons h1.1 h1.2 (Pairs.refl Calm.refl r)
    · exact .cons (.refl d) (Pairs.refl Calm.refl b) (calm_resetKid n r)

omit [DecidableEq V] in
theorem calm_clearHere {d : Data V} {b : Forest V} {n : Name} :
    Calm d (clearHere d b n).1 ∧ Pairs Calm b (clearHere d b n).2.1 := by
  have hb : Pairs Calm b b := Pairs.refl Calm.refl b
  unfold clearHere
  split
  · exact ⟨.refl d, hb⟩
  · split
    · exact ⟨calm_clear, hb⟩
    · split
      · exact ⟨.refl d, calm_resetKid n b⟩
      · exact ⟨.refl d, hb⟩

omit [DecidableEq V] in
theorem calm_clearIn (n : Name) : (f : Forest V) → (q : Path) → Pairs Calm f (f.clearIn q n).1
  | .nil, _ => .nil
  | .cons m d b r, [] => Pairs.refl Calm.refl _
  | .cons m d b r, k :: q => by
    have hb : Pairs Calm b b := Pairs.refl Calm.refl b
    have hr : Pairs Calm r r := Pairs.refl Calm.refl r
    unfold Forest.clearIn
    split
    · split
      · exact .cons (.refl d) hb hr
      · split
        · rename_i h
          exact .cons (calm_push h) hb hr
        · split
          · exact .cons calm_clearHere.1 calm_clearHere.2 hr
          · exact .cons (.refl d) (calm_clearIn n b _) hr
    · exact .cons (.refl d) hb (calm_clearIn n r _)

theorem calm_applyAll {d : Data V} {b : Forest V} {as : List (Action V)} :
    Calm d (applyAll d b as).1 ∧ Pairs Calm b (applyAll d b as).2.1 := by
  induction as generalizing d b with
  | nil => exact ⟨.refl d, Pairs.refl Calm.refl b⟩
  | cons a as ih =>
    have hb : Pairs Calm b b := Pairs.refl Calm.refl b
    have hc : ∀ x : Data V × Forest V × Res, Calm d x.1 ∧ Pairs Calm b x.2.1 →
        Calm d (match x with | (d', b', .ok) => applyAll d' b' as | (d', b', .err e) => (d', b', .err e)).1 ∧
        Pairs Calm b (match x with | (d', b', .ok) => applyAll d' b' as | (d', b', .err e) => (d', b', .err e)).2.1 := by
      rintro ⟨d', b', x⟩ h
      cases x with
      | ok => exact ⟨Calm.trans h.1 ih.1, Pairs.trans (R := Calm) (fun _ _ _ h1 h2 => Calm.trans h1 h2) h.2 ih.2⟩
      | err e => exact h
    unfold applyAll
    apply hc
    cases a.v with
    | some v => exact ⟨calm_set, hb⟩
    | none =>
      dsimp only
      unfold clearNow
      split
      · exact calm_clearHere
      · split
        · exact ⟨.refl d, hb⟩
        · exact ⟨.refl d, calm_clearIn _ _ _⟩

/-! ## The end of an update -/

/-- One update less, and as frozen as before. -/
def Ended (d e : Data V) : Prop := OneLess d e ∧ e.frozen = d.frozen

omit [DecidableEq V] in
theorem ended_calm {a b c : Data V} (h1 : Ended a b) (h2 : Calm b c) : Ended a c :=
  ⟨⟨by rw [h2.1]; exact h1.1.1, fun h => by
    have h0 : b.count = 0 := h2.1.symm.trans h
    rw [h2.2.2 h0]
    exact h1.1.2 h0⟩, h2.2.1.trans h1.2⟩

omit [DecidableEq V] in
theorem pairs_comp {R S T : Data V → Data V → Prop} (ht : ∀ {a b c}, R a b → S b c → T a c) {f g h : Forest V}
    (h1 : Pairs R f g) (h2 : Pairs S g h) : Pairs T f h := by
  induction h1 generalizing h with
  | nil => cases h2; exact .nil
  | cons r1 _ _ ih1 ih2 =>
    cases h2 with
    | cons s1 s2 s3 => exact .cons (ht r1 s1) (ih1 s2) (ih2 s3)

theorem ended_endOne {d : Data V} {b : Forest V} {x : Forest V × Res} (hx : x.2 = .ok → Pairs Ended b x.1)
    (ho : (endOne d b x).2.2 = .ok) : Ended d (endOne d b x).1 ∧ Pairs Ended b (endOne d b x).2.1 := by
  unfold endOne at ho ⊢
  by_cases h0 : d.count = 0
  · rw [if_pos h0] at ho; cases ho
  · rw [if_neg h0] at ho
    simp only [if_neg h0]
    obtain ⟨b', x⟩ := x
    cases x with
    | err e => cases ho
    | ok =>
      have hb := hx rfl
      dsimp only at ho ⊢
      by_cases h1 : d.count = 1
      · simp only [if_pos h1] at ho ⊢
        obtain ⟨c1, c2⟩ := calm_applyAll (d := { d with count := 0, pending := [] }) (b := b') (as := d.pending)
        refine ⟨ended_calm ⟨⟨?_, fun _ => ?_⟩, ?_⟩ c1, pairs_comp (R := Ended) (S := Calm) (fun h1 h2 => ended_calm h1 h2) hb c2⟩ <;> first | exact h1 | rfl
      · simp only [if_neg h1]
        refine ⟨⟨⟨?_, fun h => ?_⟩, ?_⟩, hb⟩
        · dsimp only; omega
        · dsimp only at h; omega
        · rfl

theorem ended_endAll : (f : Forest V) → Everywhere (fun d => d.frozen = false) f → f.endAll.2 = .ok →
    Pairs Ended f f.endAll.1
  | .nil, _, _ => .nil
  | .cons m d b r, hf, ho => by
    unfold Forest.endAll at ho ⊢
    rw [if_neg (by rw [hf.1]; decide)] at ho ⊢
    have h1 := ended_endOne (d := d) (ended_endAll b hf.2.1)
    generalize endOne d b b.endAll = x at h1 ho ⊢
    obtain ⟨d', b', x⟩ := x
    cases x with
    | err e => cases ho
    | ok =>
      obtain ⟨e1, e2⟩ := h1 rfl
      exact .cons e1 e2 (ended_endAll r hf.2.2 ho)

/-- The end of an update that succeeds, with nothing frozen: the object and all objects inside are in one update less, and
those that are in none have no call recorded. -/
theorem C262_end_partial {f : Forest V} {h : Path} {d : Data V} {b : Forest V} (hf : Obj f h d b)
    (hz : Everywhere (fun d => d.frozen = false) b) (ho : (step f (.endUpdate h)).2 = .ok) :
    ∃ e b', Obj (step f (.endUpdate h)).1 h e b' ∧ OneLess d e ∧ Pairs OneLess b b' := by
  obtain ⟨h1, h2⟩ := find_at_self (obj_iff.mp hf) endHere
  simp only [step] at ho ⊢
  rw [h2] at ho
  obtain ⟨e1, e2⟩ := ended_endOne (ended_endAll b hz) ho
  exact ⟨_, _, obj_iff.mpr h1, e1.1, Pairs.mono (fun _ _ h => h.1) e2⟩

example : ∃ e b', Obj (run demo [.startUpdate [10], .set [10, 20] [] 1 8, .endUpdate [10]]).1 [10] e b' := by
  obtain ⟨e, b', h, -⟩ := C262_end_partial (f := (run demo [.startUpdate [10], .set [10, 20] [] 1 8]).1) (h := [10])
    (obj_iff.mpr rfl) (by simp [Everywhere, run, step, demo, Forest.at, beginHere, leaf, Forest.beginAll, setNamed, setSelf,
      Data.push])
    (by decide +kernel)
  exact ⟨e, b', h⟩

/-- If an object inside is not in the update, because it was added after the beginning, then the end of the update always
fails. -/
theorem C262_violation_added {f : Forest V} {h : Path} {d : Data V} {b : Forest V} (hf : Obj f h d b)
    (hz : Everywhere (fun d => d.frozen = false) b) {n : Name} {e : Data V} {b' : Forest V} (hn : Obj b [n] e b')
    (h0 : e.count = 0) : (step f (.endUpdate h)).2 ≠ .ok := by
  intro ho
  obtain ⟨_, b2, _, _, hp⟩ := C262_end_partial hf hz ho
  rcases pairs_find hp [n] with ⟨h1, _⟩ | ⟨e', _, e2, _, h1, _, h3, _⟩
  · rw [obj_iff.mp hn] at h1; cases h1
  · rw [obj_iff.mp hn] at h1
    cases h1
    have := h3.1
    omega

/-- An object is added during an update, and what was set in the update is not there after its end. -/
theorem C262_violation_added_lost : ∃ f : Forest Nat, Idle f ∧
    (run f [.startUpdate [10], .set [10] [] 1 8, .add [10] 50 leaf .nil, .endUpdate [10]]).2 =
      [.ok, .ok, .ok, .err .invalidState] ∧
    read (run f [.startUpdate [10], .set [10] [] 1 8, .add [10] 50 leaf .nil, .endUpdate [10]]).1 [10] 1 = some 0 :=
  ⟨demo, by simp [Idle, Everywhere, demo, leaf], by decide +kernel, by decide +kernel⟩

/-! ## Clearing an object -/

/-- An object with a read-only property in the middle. -/
def mixed : Forest Nat :=
  .cons 10 leaf (.cons 20 { defs := [(1, any), (3, locked), (2, small)], vals := [(1, 4), (2, 6)] } .nil .nil) .nil

/-- A read-only property inside stops the clearing half way. -/
theorem C263_violation_readOnly : ∃ f : Forest Nat, Idle f ∧
    (step f (.clear [10] [] 20)).2 = .err .accessDenied ∧
    read (step f (.clear [10] [] 20)).1 [10, 20] 1 = some 0 ∧ read f [10, 20] 1 = some 4 ∧
    read (step f (.clear [10] [] 20)).1 [10, 20] 2 = some 6 :=
  ⟨mixed, by simp [Idle, Everywhere, mixed, leaf], by decide +kernel, by decide +kernel, by decide +kernel, by decide +kernel⟩

omit [DecidableEq V] in
theorem clearEach_free (ps : List (Name × Def V)) {d : Data V} (h0 : d.count = 0) (hf : d.frozen = false)
    (hr : ∀ x ∈ ps, x.2.readOnly = false) :
    ∃ vs, d.clearEach ps = ({ d with vals := vs }, .ok) ∧
      ∀ n, AList.get vs n = if n ∈ ps.map (·.1) then none else AList.get d.vals n := by
  induction ps generalizing d with
  | nil => exact ⟨d.vals, rfl, by simp⟩
  | cons x ps ih =>
    have h1 : d.clear x.1 x.2 = ({ d with vals := AList.del d.vals x.1 }, .ok) := by
      unfold Data.clear
      rw [if_neg (by rw [hf]; decide), if_neg (by rw [hr x (by simp)]; decide)]
    obtain ⟨vs, e1, e2⟩ := ih (d := { d with vals := AList.del d.vals x.1 }) h0 hf (fun y hy => hr y (by simp [hy]))
    refine ⟨vs, ?_, ?_⟩
    · unfold Data.clearEach
      rw [if_neg (by rw [hf]; decide), if_neg (by omega), h1]
      exact e1
    · intro n
      rw [e2 n]
      simp only [AList.get_del, List.map_cons, List.mem_cons]
      by_cases hn : n = x.1
      · subst hn; simp
      · by_cases h2 : n ∈ ps.map (·.1)
        · rw [if_pos h2, if_pos (.inr h2)]
        · rw [if_neg h2, if_neg hn, if_neg (by simp only [hn, false_or]; exact h2)]

omit [DecidableEq V] in
theorem first_mem {α : Type} {l : List (Name × α)} {n : Name} {a : α} (h : First l n a) : n ∈ l.map (·.1) := by
  induction h with
  | here => simp
  | later _ _ ih => simp [ih]

omit [DecidableEq V] in
theorem mem_first {α : Type} {l : List (Name × α)} {n : Name} (h : n ∈ l.map (·.1)) : ∃ a, First l n a := by
  induction l with
  | nil => cases h
  | cons x l ih =>
    by_cases hx : x.1 = n
    · subst hx; exact ⟨x.2, .here⟩
    · rw [List.map_cons, List.mem_cons] at h
      obtain ⟨a, ha⟩ := ih (h.resolve_left fun e => hx e.symm)
      exact ⟨a, .later hx ha⟩

omit [DecidableEq V] in
theorem resetOne_free {d : Data V} (hd : Free d) {b : Forest V} {x : Forest V × Res} (ho : x.2 = .ok)
    (hx : b = .nil → x.1 = .nil) :
    (resetOne d b x).2.2 = .ok ∧ Cleared d (resetOne d b x).1 ∧ (resetOne d b x).2.1 = x.1 := by
  obtain ⟨vs, h1, h2⟩ := clearEach_free d.defs hd.1 hd.2.1 hd.2.2
  have hc : Cleared d { d with vals := vs } := by
    refine ⟨fun n t ht v hv => ?_, rfl, rfl, rfl, rfl, fun n hn v => ?_⟩
    · have := h2 n
      rw [if_pos (first_mem ht), first_iff.mp hv] at this
      cases this
    · rw [first_iff, first_iff, h2 n, if_neg fun h => (mem_first h).elim hn]
  unfold resetOne
  rw [h1]
  dsimp only
  unfold clearKids
  cases b with
  | nil => exact ⟨rfl, hc, (hx rfl).symm⟩
  | cons m e b r =>
    rw [if_neg (by simp [Forest.isNil]), if_neg (by simp [hd.2.1]), if_neg (by simp [hd.1])]
    exact ⟨ho, hc, rfl⟩

omit [DecidableEq V] in
theorem resetAll_free : (f : Forest V) → Everywhere Free f → f.resetAll.2 = .ok ∧ Pairs Cleared f f.resetAll.1
  | .nil, _ => ⟨rfl, .nil⟩
  | .cons m d b r, hf => by
    obtain ⟨b1, b2⟩ := resetAll_free b hf.2.1
    obtain ⟨r1, r2⟩ := resetAll_free r hf.2.2
    obtain ⟨h1, h2, h3⟩ := resetOne_free (b := b) hf.1 b1 (fun h => by subst h; rfl)
    unfold Forest.resetAll
    generalize resetOne d b b.resetAll = x at h1 h2 h3 ⊢
    obtain ⟨d', b', x⟩ := x
    cases h1
    cases h3
    exact ⟨r1, .cons h2 b2 r2⟩

omit [DecidableEq V] in
theorem resetKid_free {f : Forest V} {n : Name} {d : Data V} {b : Forest V} (hf : f.find [n] = some (d, b)) (hd : Free d)
    (hb : Everywhere Free b) : (f.resetKid n).2 = .ok ∧
      (∃ e b', (f.resetKid n).1.find [n] = some (e, b') ∧ Cleared d e ∧ Pairs Cleared b b') ∧
      ∀ m, m ≠ n → (f.resetKid n).1.find [m] = f.find [m] := by
  induction f with
  | nil => cases hf
  | cons m d' b' r _ ih =>
    unfold Forest.resetKid
    by_cases hm : m = n
    · simp only [if_pos hm]
      subst hm
      simp only [Forest.find, if_true, Option.some.injEq, Prod.mk.injEq] at hf
      obtain ⟨rfl, rfl⟩ := hf
      obtain ⟨b1, b2⟩ := resetAll_free b' hb
      obtain ⟨h1, h2, h3⟩ := resetOne_free (b := b') hd b1 (fun h => by subst h; rfl)
      refine ⟨h1, ⟨_, _, by simp only [Forest.find, if_true]; rfl, h2, ?_⟩, fun k hk => by simp [Forest.find, hk]⟩
      rw [h3]
      exact b2
    · simp only [if_neg hm]
      have hm' : ¬ n = m := fun h => hm h.symm
      simp only [Forest.find, if_neg hm'] at hf ⊢
      obtain ⟨i1, i2, i3⟩ := ih hf
      refine ⟨i1, i2, fun k hk => ?_⟩
      rw [i3 k hk]

/-- Clearing an object property, with nothing read-only, frozen or in an update: it succeeds, the object and all objects
inside have their defaults, and everything else is as it was. -/
theorem C263_reset_partial {f : Forest V} {h : Path} {d k : Data V} {b kb : Forest V} {n : Name} (hf : Obj f h d b)
    (hd : d.count = 0 ∧ d.frozen = false) (hn : ∀ t, ¬ First d.defs n t) (hk : Obj b [n] k kb) (hfree : Free k)
    (hb : Everywhere Free kb) :
    (step f (.clear h [] n)).2 = .ok ∧
      ∃ b' e kb', Obj (step f (.clear h [] n)).1 h d b' ∧ Obj b' [n] e kb' ∧ Cleared k e ∧ Pairs Cleared kb kb' ∧
        ∀ m, m ≠ n → ∀ e b2, Obj b' [m] e b2 ↔ Obj b [m] e b2 := by
  obtain ⟨h1, h2⟩ := find_at_self (obj_iff.mp hf) (clearNamed [] n)
  obtain ⟨r1, ⟨e, kb', r2, r3, r4⟩, r5⟩ := resetKid_free (obj_iff.mp hk) hfree hb
  have hkid : b.hasKid n = true := by
    have := obj_iff.mp hk
    clear hf hk h1 h2 r1 r2 r5
    induction b with
    | nil => cases this
    | cons m d' b' r _ ih =>
      unfold Forest.hasKid
      by_cases hm : m = n
      · simp [hm]
      · have hm' : ¬ n = m := fun h => hm h.symm
        simp only [Forest.find, if_neg hm'] at this
        simp [ih this]
  have hc : clearNamed [] n d b = (d, (b.resetKid n).1, .ok) := by
    unfold clearNamed clearNow clearHere
    simp only [hd.1, hd.2, none_iff.mp hn, hkid, r1]
    simp
  rw [hc] at h1 h2
  refine ⟨h2, _, e, kb', obj_iff.mpr h1, obj_iff.mpr r2, r3, r4, fun m hm e b2 => ?_⟩
  rw [obj_iff, obj_iff, r5 m hm]

/-- After that a property of the object has its default. -/
theorem C263_default_partial {f : Forest V} {p : Path} {k e : Data V} {b : Forest V} (ho : Obj f p e b) (h : Cleared k e)
    {n : Name} {t : Def V} (ht : First k.defs n t) : Shows f p n t.dflt :=
  ⟨e, b, ho, t, h.2.1 ▸ ht, .inr ⟨h.1 n t ht, rfl⟩⟩

example : Free (V := Nat) { leaf with vals := [(1, 4)] } := by simp [Free, leaf, any, small]
example : Everywhere Free (.cons 40 leaf .nil .nil) := by simp [Everywhere, Free, leaf, any, small]

end Verif.Nest
