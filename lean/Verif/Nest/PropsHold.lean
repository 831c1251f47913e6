import Verif.Nest.Lemmas
import Verif.Nest.Demo

/-!
# While an update is in progress (C259, C260), and what calls leave alone (C264, C265)
-/

namespace Verif.Nest
open Spec

variable {V : Type} [DecidableEq V]

/-! ## C259 -/

/-- The same values and still updating or frozen. -/
def Kept (d e : Data V) : Prop :=
  Alike d e ∧ (d.frozen = true → e.frozen = true) ∧ (0 < d.count → 0 < e.count)

theorem Kept.refl (d : Data V) : Kept d d := ⟨⟨rfl, rfl⟩, fun h => h, fun h => h⟩

theorem Kept.trans (a b c : Data V) (h1 : Kept a b) (h2 : Kept b c) : Kept a c :=
  ⟨⟨h2.1.1.trans h1.1.1, h2.1.2.trans h1.1.2⟩, fun h => h2.2.1 (h1.2.1 h), fun h => h2.2.2 (h1.2.2 h)⟩

omit [DecidableEq V] in
theorem beginAll_pairs : (f : Forest V) → Pairs Kept f f.beginAll
  | .nil => .nil
  | .cons m d b r => by
    unfold Forest.beginAll
    split
    · exact .cons ⟨⟨rfl, rfl⟩, fun h => h, fun h => h⟩ (Pairs.refl (fun _ => ⟨⟨rfl, rfl⟩, fun h => h, fun h => h⟩) b) (beginAll_pairs r)
    · exact .cons ⟨⟨rfl, rfl⟩, fun h => h, fun _ => Nat.succ_pos _⟩ (beginAll_pairs b) (beginAll_pairs r)

/-- A call that is neither the end of an update nor adds an object. -/
def Within : Op V → Prop
  | .endUpdate _ => False
  | .add .. => False
  | _ => True

theorem setSelf_kept {n : Name} {v : V} {d : Data V} {b : Forest V} (h : d.frozen = true ∨ 0 < d.count) :
    Kept d (setSelf n v d b).1 ∧ (setSelf n v d b).2.1 = b := by
  unfold setSelf
  by_cases hf : d.frozen = true
  · rw [if_pos hf]
    exact ⟨Kept.refl _, rfl⟩
  · rw [if_neg hf, if_pos (h.resolve_left hf)]
    exact ⟨⟨⟨rfl, rfl⟩, fun h => h, fun h => h⟩, rfl⟩

theorem step_kept {f : Forest V} (hf : Held f) {o : Op V} (ho : Within o) : Pairs Kept f (step f o).1 := by
  cases o with
  | endUpdate h => exact ho.elim
  | add h n d b => exact ho.elim
  | set h route n v =>
    refine pairs_at Kept.refl (fun d b h1 h2 => ?_) hf h
    unfold setNamed
    cases route with
    | nil =>
      obtain ⟨a, e⟩ := setSelf_kept (n := n) (v := v) (b := b) h1
      exact ⟨a, by dsimp only; rw [e]; exact Pairs.refl Kept.refl _⟩
    | cons k q =>
      dsimp only
      split
      · exact ⟨Kept.refl _, Pairs.refl Kept.refl _⟩
      · refine ⟨Kept.refl _, pairs_at Kept.refl (fun d b h1 _ => ?_) h2 _⟩
        obtain ⟨a, e⟩ := setSelf_kept (n := n) (v := v) (b := b) h1
        exact ⟨a, by rw [e]; exact Pairs.refl Kept.refl _⟩
  | clear h route n =>
    refine pairs_at Kept.refl (fun d b h1 h2 => ?_) hf h
    unfold clearNamed
    by_cases hfr : d.frozen = true
    · rw [if_pos hfr]
      exact ⟨Kept.refl _, Pairs.refl Kept.refl _⟩
    · rw [if_neg hfr, if_pos (h1.resolve_left hfr)]
      exact ⟨⟨⟨rfl, rfl⟩, fun h => h, fun h => h⟩, Pairs.refl Kept.refl _⟩
  | startUpdate h =>
    refine pairs_at Kept.refl (fun d b h1 h2 => ?_) hf h
    unfold beginHere
    split
    · exact ⟨Kept.refl _, Pairs.refl Kept.refl _⟩
    · exact ⟨⟨⟨rfl, rfl⟩, fun h => h, fun _ => Nat.succ_pos _⟩, beginAll_pairs _⟩
  | freeze h =>
    refine pairs_at Kept.refl (fun d b h1 h2 => ?_) hf h
    exact ⟨⟨⟨rfl, rfl⟩, fun _ => rfl, fun h => h⟩, Pairs.refl Kept.refl _⟩

theorem run_kept {f : Forest V} (hf : Held f) {os : List (Op V)} (ho : ∀ o ∈ os, Within o) : Pairs Kept f (run f os).1 := by
  induction os generalizing f with
  | nil => exact Pairs.refl Kept.refl _
  | cons o os ih =>
    have h1 := step_kept hf (ho o (by simp))
    have h2 : Held (step f o).1 := everywhere_pairs (fun d e hd hr => hd.imp hr.2.1 hr.2.2) h1 hf
    exact Pairs.trans Kept.trans h1 (ih h2 fun o h => ho o (by simp [h]))

/-- Objects that are updating show the same values whatever is set, cleared, frozen or put into a further update, through
whatever object and name. -/
theorem C259_held {f : Forest V} (hf : Held f) {os : List (Op V)} (ho : ∀ o ∈ os, Within o) :
    SameValues f (run f os).1 ∧ Held (run f os).1 := by
  have h := run_kept hf ho
  exact ⟨pairs_same (Pairs.mono (fun _ _ h => h.1) h), everywhere_pairs (fun d e hd hr => hd.imp hr.2.1 hr.2.2) h hf⟩

/-- Setting and clearing during an update is recorded and reported as done, also for properties that do not exist. -/
theorem C259_recorded {f : Forest V} {h : Path} {d : Data V} {b : Forest V} (ho : Obj f h d b) (hf : d.frozen = false)
    (hc : 0 < d.count) (n : Name) :
    (∀ v, (step f (.set h [] n v)).2 = .ok ∧
      Obj (step f (.set h [] n v)).1 h { d with pending := d.pending ++ [⟨[], n, some v⟩] } b) ∧
    (∀ route, (step f (.clear h route n)).2 = .ok ∧
      Obj (step f (.clear h route n)).1 h { d with pending := d.pending ++ [⟨route, n, none⟩] } b) := by
  rw [obj_iff] at ho
  constructor
  · intro v
    obtain ⟨h1, h2⟩ := find_at_self ho (setNamed [] n v)
    have e : setNamed [] n v d b = (d.push ⟨[], n, some v⟩, b, .ok) := by
      simp [setNamed, setSelf, hf, hc]
    rw [e] at h1 h2
    exact ⟨h2, obj_iff.mpr h1⟩
  · intro route
    obtain ⟨h1, h2⟩ := find_at_self ho (clearNamed route n)
    have e : clearNamed route n d b = (d.push ⟨route, n, none⟩, b, .ok) := by
      simp [clearNamed, hf, hc]
    rw [e] at h1 h2
    exact ⟨h2, obj_iff.mpr h1⟩

/-- All objects of the demo are updating after `beginUpdate`, and the calls are of the kind meant. -/
example : Held (step demo (.startUpdate [10])).1 := by
  simp [step, demo, Held, Everywhere, Forest.at, beginHere, Forest.beginAll, leaf]
example : read (run demo [.startUpdate [10], .set [10] [20] 1 8, .clear [20] [] 1, .freeze [10, 30]]).1 [10, 20] 1 = some 0 := by
  decide +kernel
example : read (run demo [.set [10] [20] 1 8]).1 [10, 20] 1 = some 8 := by decide +kernel

/-! ## C260 -/

/-- The objects inside a frozen object are not put into the update: they change before it ends. -/
theorem C260_violation_frozen : ∃ f : Forest Nat, (run f [.freeze [10, 20], .startUpdate [10], .set [10, 20, 40] [] 1 8]).2 =
      [.ok, .ok, .ok] ∧
    read f [10, 20, 40] 1 = some 0 ∧
    read (run f [.freeze [10, 20], .startUpdate [10], .set [10, 20, 40] [] 1 8]).1 [10, 20, 40] 1 = some 8 :=
  ⟨demo, by decide +kernel, by decide +kernel, by decide +kernel⟩

/-- An object that is added during the update is not in the update. -/
theorem C260_violation_added : ∃ f : Forest Nat, (run f [.startUpdate [10], .add [10] 50 leaf .nil, .set [10] [50] 1 8]).2 =
      [.ok, .ok, .ok] ∧
    read (run f [.startUpdate [10], .add [10] 50 leaf .nil, .set [10] [50] 1 8]).1 [10, 50] 1 = some 8 :=
  ⟨demo, by decide +kernel, by decide +kernel⟩

omit [DecidableEq V] in
theorem beginAll_one {f : Forest V} (h : Everywhere (fun d => d.frozen = false) f) : Pairs OneMore f f.beginAll := by
  induction f with
  | nil => exact .nil
  | cons m d b r ih1 ih2 =>
    unfold Forest.beginAll
    rw [if_neg (by rw [h.1]; decide)]
    exact .cons rfl (ih1 h.2.1) (ih2 h.2.2)

/-- If nothing is frozen then `beginUpdate` puts the object and all objects inside it into the update, and changes nothing
else. -/
theorem C260_begin_partial {f : Forest V} {h : Path} {d : Data V} {b : Forest V} (ho : Obj f h d b) (hf : d.frozen = false)
    (hb : Everywhere (fun d => d.frozen = false) b) :
    (step f (.startUpdate h)).2 = .ok ∧
    ∃ b', Obj (step f (.startUpdate h)).1 h { d with count := d.count + 1 } b' ∧ Pairs OneMore b b' := by
  rw [obj_iff] at ho
  obtain ⟨h1, h2⟩ := find_at_self ho beginHere
  have e : beginHere d b = ({ d with count := d.count + 1 }, b.beginAll, .ok) := by simp [beginHere, hf]
  rw [e] at h1 h2
  exact ⟨h2, _, obj_iff.mpr h1, beginAll_one hb⟩

/-- A frozen object cannot be updated. -/
theorem C260_refused_partial {f : Forest V} {h : Path} {d : Data V} {b : Forest V} (ho : Obj f h d b) (hf : d.frozen = true) :
    (step f (.startUpdate h)).2 = .err .frozen ∧ Obj (step f (.startUpdate h)).1 h d b := by
  rw [obj_iff] at ho
  obtain ⟨h1, h2⟩ := find_at_self ho beginHere
  have e : beginHere d b = (d, b, .err .frozen) := by simp [beginHere, hf]
  rw [e] at h1 h2
  exact ⟨h2, obj_iff.mpr h1⟩

/-! ## C264 -/

/-- The object a call is made on. -/
def target : Op V → Path
  | .set h .. | .clear h .. | .startUpdate h | .endUpdate h | .add h .. | .freeze h => h

/-- A call on an object leaves all objects alone that are neither this object nor inside it. -/
theorem C264_local (f : Forest V) (o : Op V) {p : Path} (hp : ¬ target o <+: p) (d : Data V) :
    (∃ b, Obj (step f o).1 p d b) ↔ ∃ b, Obj f p d b := by
  have key : ((step f o).1.find p).map (·.1) = (f.find p).map (·.1) := by
    cases o <;> exact find_at_other hp _ _
  simp only [obj_iff]
  constructor
  · rintro ⟨b, h⟩
    rw [h] at key
    cases hf : f.find p with
    | none => rw [hf] at key; cases key
    | some x =>
      rw [hf] at key
      simp only [Option.map_some, Option.some.injEq] at key
      exact ⟨x.2, by rw [key]⟩
  · rintro ⟨b, h⟩
    rw [h] at key
    cases hf : (step f o).1.find p with
    | none => rw [hf] at key; cases key
    | some x =>
      rw [hf] at key
      simp only [Option.map_some, Option.some.injEq] at key
      exact ⟨x.2, by rw [← key]⟩

/-- So do many calls. -/
theorem C264_run (f : Forest V) (os : List (Op V)) {p : Path} (hp : ∀ o ∈ os, ¬ target o <+: p) (d : Data V) :
    (∃ b, Obj (run f os).1 p d b) ↔ ∃ b, Obj f p d b := by
  induction os generalizing f with
  | nil => exact Iff.rfl
  | cons o os ih =>
    exact (ih _ fun o h => hp o (by simp [h])).trans (C264_local f o (hp o (by simp)) d)

example : ¬ target (.set [10, 20] [40] 1 8 : Op Nat) <+: [10, 30] := by decide

/-! ## C265 -/

theorem set_fails {d : Data V} {b : Forest V} {n : Name} {v : V} {e : Err} (h : (d.set b n v).2 = .err e) :
    (d.set b n v).1 = d := by
  unfold Data.set at h ⊢
  repeat' split at h
  all_goals first
    | cases h; done
    | simp_all

theorem setSelf_fails {d : Data V} {b : Forest V} {n : Name} {v : V} {e : Err} (h : (setSelf n v d b).2.2 = .err e) :
    (setSelf n v d b).1 = d ∧ (setSelf n v d b).2.1 = b := by
  unfold setSelf at h ⊢
  by_cases h1 : d.frozen = true
  · rw [if_pos h1]; exact ⟨rfl, rfl⟩
  · rw [if_neg h1] at h ⊢
    by_cases h2 : d.count > 0
    · rw [if_pos h2] at h; cases h
    · rw [if_neg h2] at h ⊢
      exact ⟨set_fails h, rfl⟩

omit [DecidableEq V] in
theorem at_fails {g : Data V → Forest V → Data V × Forest V × Res}
    (hg : ∀ d b e, (g d b).2.2 = .err e → (g d b).1 = d ∧ (g d b).2.1 = b) {chk : Bool} {f : Forest V} {p : Path} {e : Err}
    (h : (f.at chk p g).2 = .err e) : (f.at chk p g).1 = f := by
  induction f generalizing p with
  | nil => rfl
  | cons m d' b' r ihb ihr =>
    cases p with
    | nil => rfl
    | cons k q =>
      unfold Forest.at at h ⊢
      by_cases hk : k = m
      · rw [if_pos hk] at h ⊢
        cases q with
        | nil =>
          obtain ⟨h1, h2⟩ := hg _ _ _ h
          dsimp only
          rw [h1, h2]
        | cons x q =>
          dsimp only at h ⊢
          split
          · rfl
          · rename_i hc
            rw [if_neg hc] at h
            dsimp only
            rw [ihb h]
      · rw [if_neg hk] at h ⊢
        dsimp only
        rw [ihr h]

/-- A set that fails changes nothing. -/
theorem C265_fails {f : Forest V} {h route : Path} {n : Name} {v : V} {e : Err}
    (hr : (step f (.set h route n v)).2 = .err e) : (step f (.set h route n v)).1 = f := by
  refine at_fails (fun d b e he => ?_) hr
  unfold setNamed at he ⊢
  cases route with
  | nil => exact setSelf_fails he
  | cons k q =>
    dsimp only at he ⊢
    by_cases hf : d.frozen = true
    · rw [if_pos hf]; exact ⟨rfl, rfl⟩
    · rw [if_neg hf] at he ⊢
      exact ⟨rfl, at_fails (fun _ _ _ => setSelf_fails) he⟩

/-- Without an update a set is done exactly if the property exists, can be written and accepts the value, and then the
property has the accepted value and all others have their old ones. -/
theorem C265_set {f : Forest V} {h : Path} {n : Name} {v : V} {d : Data V} {b : Forest V} (ho : Obj f h d b)
    (hf : d.frozen = false) (hc : d.count = 0) :
    ((step f (.set h [] n v)).2 = .ok ↔ ∃ t w, First d.defs n t ∧ t.readOnly = false ∧ t.check v = some w) ∧
    ∀ t w, First d.defs n t → t.readOnly = false → t.check v = some w →
      Shows (step f (.set h [] n v)).1 h n w ∧
      ∀ m u, m ≠ n → (Shows (step f (.set h [] n v)).1 h m u ↔ Shows f h m u) := by
  rw [obj_iff] at ho
  obtain ⟨h1, h2⟩ := find_at_self ho (setNamed [] n v)
  have e : setNamed [] n v d b = ((d.set b n v).1, b, (d.set b n v).2) := by simp [setNamed, setSelf, hf, hc]
  rw [e] at h1 h2
  change (step f (.set h [] n v)).1.find h = _ at h1
  change (step f (.set h [] n v)).2 = _ at h2
  constructor
  · rw [h2]
    unfold Data.set
    rw [if_neg (by rw [hf]; decide)]
    cases hd : AList.get d.defs n with
    | none => simp [first_iff, hd]
    | some t =>
      simp only [first_iff, hd]
      by_cases hr : t.readOnly = true
      · rw [if_pos hr]
        constructor
        · exact nofun
        · rintro ⟨t', w, ht, h3, -⟩
          cases ht
          rw [hr] at h3
          cases h3
      · rw [if_neg hr]
        cases hck : t.check v with
        | none =>
          constructor
          · exact nofun
          · rintro ⟨t', w, ht, -, h3⟩
            cases ht
            rw [hck] at h3
            cases h3
        | some w =>
          dsimp only
          constructor
          · exact fun _ => ⟨t, w, rfl, by simpa using hr, hck⟩
          · intro _
            split <;> rfl
  · intro t w ht hr hck
    rw [first_iff] at ht
    have e1 : (d.set b n v).1 = if d.current n t = w then d else { d with vals := AList.put d.vals n w } := by
      unfold Data.set
      rw [if_neg (by rw [hf]; decide), ht]
      dsimp only
      rw [if_neg (by rw [hr]; decide), hck]
      dsimp only
      split <;> rfl
    have hdefs : (d.set b n v).1.defs = d.defs := by rw [e1]; split <;> rfl
    constructor
    · rw [shows_iff]
      unfold read
      rw [h1]
      dsimp only
      rw [hdefs, ht, e1]
      simp only [Option.map_some]
      split
      · rename_i hc; rw [hc]
      · simp [Data.current, AList.get_put]
    · intro m u hm
      rw [shows_iff, shows_iff]
      unfold read
      rw [h1, ho]
      dsimp only
      rw [hdefs]
      have : (d.set b n v).1.current m = d.current m := by
        funext t'
        rw [e1]
        unfold Data.current
        split
        · rfl
        · simp [AList.get_put, hm]
      rw [this]

example : Obj demo [10, 20] leaf (.cons 40 leaf .nil .nil) := .inside .here
example : (step demo (.set [10, 20] [] 2 30)).2 = .err .refused ∧ (step demo (.set [10, 20] [] 2 8)).2 = .ok := by decide +kernel

end Verif.Nest
