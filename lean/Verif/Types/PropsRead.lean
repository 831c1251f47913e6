import Verif.Types.PropsBuild
import Verif.Types.PropsEnum
/-
C124, C125, C126: reading types and values back.
-/
namespace Verif.Types.Props
open Spec

/-! ### Values -/

mutual
theorem readVal_known (m : TMgr) : ∀ v : Val, Known m v → readVal m v = (m, .ok v)
  | .null, _ => rfl
  | .atom _ _, _ => rfl
  | .enum n vs s, h => by
    unfold Known at h
    obtain ⟨h1, h2, i, h3⟩ := h
    unfold readVal mkEnumIn
    rw [h1]
    have hs : (vs.lookup s).isSome = true := by
      cases e : vs.lookup s with
      | some _ => rfl
      | none =>
        exfalso
        exact lookup_none.mp e (List.mem_map.mpr ⟨_, h3, rfl⟩)
    cases s with
    | nil => exact absurd rfl h2
    | cons a s => simp only [mkEnum, hs, if_true]
  | .struct n fs b v, h => by
    unfold Known at h
    obtain ⟨h1, h2, h3, h4, h5, h6⟩ := h
    unfold readVal
    rw [readVals_known m v h6]
    dsimp only
    unfold mkStruct
    rw [h1]
    simp only [Option.isSome_some, Bool.and_true, Option.getD_some]
    have hc : complete fs.toList b false v.toList = (v.toList, none) := by
      apply complete_full _ _ _ _ h2 h3
      · intro e he
        obtain ⟨t, d, hf⟩ := (h4 e.1).mp ⟨e.2, he⟩
        exact ⟨_, hf, rfl⟩
      · intro f hf
        exact (h4 f.1).mpr ⟨f.2.1, f.2.2, hf⟩
      · intro f hf x hx
        exact h5 f.1 f.2.1 f.2.2 x hf hx
    rw [hc]
    dsimp only
    rw [ValL.of_to]
theorem readVals_known (m : TMgr) : ∀ v : ValL, KnownL m v → readVals m v = (m, .ok v)
  | .nil, _ => rfl
  | .cons n v r, h => by
    unfold KnownL at h
    unfold readVals
    rw [readVal_known m v h.1]
    dsimp only
    rw [readVals_known m r h.2]
end

mutual
theorem known_mono {m m' : TMgr} (hm : ∀ n t, m.types.lookup n = some t → m'.types.lookup n = some t) :
    ∀ v : Val, Known m v → Known m' v
  | .null, _ => by unfold Known; trivial
  | .atom _ _, _ => by unfold Known; trivial
  | .enum n vs s, h => by
    unfold Known at *
    exact ⟨hm _ _ h.1, h.2⟩
  | .struct n fs b v, h => by
    unfold Known at *
    exact ⟨hm _ _ h.1, h.2.1, h.2.2.1, h.2.2.2.1, h.2.2.2.2.1, knownL_mono hm v h.2.2.2.2.2⟩
theorem knownL_mono {m m' : TMgr} (hm : ∀ n t, m.types.lookup n = some t → m'.types.lookup n = some t) :
    ∀ v : ValL, KnownL m v → KnownL m' v
  | .nil, _ => by unfold KnownL; trivial
  | .cons n v r, h => by
    unfold KnownL at *
    exact ⟨known_mono hm v h.1, knownL_mono hm r h.2⟩
end

theorem knownL_iff (m : TMgr) (d : Dict) : KnownL m (ValL.ofList d) ↔ ∀ e ∈ d, Known m e.2 := by
  induction d with
  | nil => simp [ValL.ofList, KnownL]
  | cons e d ih =>
    obtain ⟨k, v⟩ := e
    simp only [ValL.ofList, KnownL, List.mem_cons, forall_eq_or_imp, ih]

/-- C125: a value whose types the manager knows, also of a manager that has learned more
types in the meantime, is read back as it was written, and reading changes no type. -/
theorem C125_value (m m' : TMgr) (v : Val) (h : Known m v)
    (hm : ∀ n t, m.types.lookup n = some t → m'.types.lookup n = some t) :
    readVal m' v = (m', .ok v) :=
  readVal_known m' v (known_mono hm v h)

/-- C125: every struct that is created with a registered type from such values is such a
value. -/
theorem C125_created (m : TMgr) (n : Name) (fs : TyL) (b : Bool) (d : Dict) (frozen : Bool) (s : Val)
    (hm : m.types.lookup n = some (.struct n fs b)) (hf : Distinct fs) (hk : Keys d)
    (hl : b = true → ∀ f ∈ fs.toList, Loose f.2.1 f.2.2 ∧ Known m f.2.2)
    (hv : ∀ e ∈ d, Known m e.2)
    (hs : (mkStruct m n (some d) frozen).res = .ok s) : Known m s := by
  obtain ⟨h1, h2, h3⟩ := C118_created m n n fs b d frozen hm hf hk
  obtain ⟨v, rfl, h5, h6, h7, _⟩ := h3 s hs
  have h8 := h2.mp ⟨_, hs⟩
  have hw : ∀ f ∈ fs.toList, ∀ x, (f.1, x) ∈ v.toList → x = want b f d := by
    intro f hf' x hx
    have e := h7 f hf'
    unfold field at e
    dsimp only at e
    rw [lookup_of_mem h5 hx] at e
    simpa using e
  have hname : ∀ k, (∃ x, (k, x) ∈ v.toList) ↔ ∃ t e, (k, t, e) ∈ fs.toList := by
    intro k
    rw [h6 k]
    constructor
    · rintro ⟨f, hf', rfl⟩; exact ⟨f.2.1, f.2.2, hf'⟩
    · rintro ⟨t, e, h⟩; exact ⟨_, h, rfl⟩
  unfold Known
  refine ⟨hm, hf, h5, hname, ?_, ?_⟩
  · intro k t e x hf' hx
    rw [hw (k, t, e) hf' x hx]
    unfold want
    dsimp only
    cases hd : d.lookup k with
    | some y => exact h8.2.1 _ hf' y (lookup_mem hd)
    | none =>
      cases b with
      | true => exact (hl rfl _ hf').1
      | false => exact .fits _ _ (.null _)
  · rw [← ValL.of_to v, knownL_iff]
    intro e he
    obtain ⟨t, x, hf'⟩ := (hname e.1).mp ⟨e.2, he⟩
    rw [hw (e.1, t, x) hf' e.2 he]
    unfold want
    dsimp only
    cases hd : d.lookup e.1 with
    | some y => exact hv _ (lookup_mem hd)
    | none =>
      cases b with
      | true => exact (hl rfl _ hf').2
      | false => unfold Known; trivial

/-- C125: so is every enumeration value that is created with a registered type, unless its
name is empty. -/
theorem C125_enumeration (m : TMgr) (n : Name) (vs : List (Name × Int)) (p : Pick) (v : Val)
    (hm : m.types.lookup n = some (.enum n vs)) (hk : ∀ e ∈ vs, e.1 ≠ [])
    (hv : mkEnumIn m n p = .ok v) : Known m v := by
  have hx : mkEnum (.enum n vs) p = .ok v := by
    unfold mkEnumIn at hv
    rw [hm] at hv
    cases p with
    | name s =>
      cases s with
      | nil => simp at hv
      | cons a s => exact hv
    | int i => exact hv
  have : ∃ s i, v = .enum n vs s ∧ (s, i) ∈ vs := by
    unfold mkEnum at hx
    cases p with
    | name s =>
      dsimp only at hx
      cases e : vs.lookup s with
      | none => simp [e] at hx
      | some i =>
        simp only [e, Option.isSome_some, if_true] at hx
        cases hx
        exact ⟨s, i, rfl, lookup_mem e⟩
    | int i =>
      dsimp only at hx
      cases e : vs.find? (fun e => (vs.lookup e.1) == some i) with
      | none => simp [e] at hx
      | some x =>
        simp only [e] at hx
        cases hx
        exact ⟨x.1, x.2, rfl, List.mem_of_find?_eq_some e⟩
  obtain ⟨s, i, rfl, h⟩ := this
  unfold Known
  exact ⟨hm, hk _ h, i, h⟩

/-- A line between two points, one of them missing. -/
example : Known { types := [(nP, .struct nP pointFields true),
    (nE, .struct nE (.cons nx (.struct nP pointFields true) .null (.cons ny (.struct nP pointFields true) .null .nil)) false)] }
    (.struct nE (.cons nx (.struct nP pointFields true) .null (.cons ny (.struct nP pointFields true) .null .nil)) false
      (.cons nx (.struct nP pointFields true (.cons ny (.atom .float 2) (.cons nx (.atom .int 5) .nil)))
        (.cons ny .null .nil))) := by
  generalize hm : ({ types := [(nP, .struct nP pointFields true), (nE, .struct nE (.cons nx (.struct nP pointFields true) .null (.cons ny (.struct nP pointFields true) .null .nil)) false)] } : TMgr) = m
  refine C125_created m nE (.cons nx (.struct nP pointFields true) .null (.cons ny (.struct nP pointFields true) .null .nil))
    false [(nx, (.struct nP pointFields true (.cons ny (.atom .float 2) (.cons nx (.atom .int 5) .nil))))] false _
    (by subst hm; rfl) (by decide +kernel) (by simp [Keys]) (by simp) ?_ (by subst hm; rfl)
  intro e he
  simp only [List.mem_singleton] at he
  subst he
  refine C125_created m nP pointFields true [(ny, .atom .float 2)] false _ (by subst hm; rfl) (by decide +kernel)
    (by simp [Keys]) ?_ ?_ (by subst hm; rfl)
  · intro _ f hf
    simp only [pointFields, TyL.toList, List.mem_cons, List.not_mem_nil, or_false] at hf
    rcases hf with rfl | rfl
    · exact ⟨.fits _ _ (.atom _ _), by unfold Known; trivial⟩
    · exact ⟨.fits _ _ (.atom _ _), by unfold Known; trivial⟩
  · intro e he
    simp only [List.mem_singleton] at he
    subst he
    unfold Known; trivial

/-! ### C126 -/

/-- C126: a struct of simple values whose type the reader does not know is read as a struct of
the same name with the same fields in the same order, if the names can be names of types and
fields and the values can be fields; its type is derived from the values.  Missing: the type
is not the one that was written, see the violations. -/
theorem C126_unknown_partial (m : TMgr) (n : Name) (fs : TyL) (b : Bool) (v : ValL)
    (hm : m.types.lookup n = none) (hk : Keys v.toList) (hv : ∀ e ∈ v.toList, e.2 = .null ∨ ∃ c k, e.2 = .atom c k)
    (hi : Ident n) (hr : ¬ Reserved n) (hn : ∀ e ∈ v.toList, Ident e.1) (hd : ∀ e ∈ v.toList, derived e.2 ≠ none) :
    ∃ fs', (readVal m (.struct n fs b v)).2 = .ok (.struct n fs' false v) ∧
      fs'.toList.map (·.1) = v.toList.map (·.1) ∧
      fs'.toList.map (fun f => some f.2.1) = v.toList.map (fun e => derived e.2) ∧
      (readVal m (.struct n fs b v)).1.types = m.types ++ [(n, .struct n fs' false)] := by
  have hkn : KnownL m v := by
    rw [← ValL.of_to v, knownL_iff]
    intro e he
    rcases hv e he with h | ⟨c, k, h⟩
    · rw [h]; unfold Known; trivial
    · rw [h]; unfold Known; trivial
  unfold readVal
  rw [readVals_known m v hkn]
  dsimp only
  obtain ⟨h1, _, h3⟩ := C118_derived m n v.toList false hm hk
  obtain ⟨s, hs⟩ := h1.mpr ⟨hi, hr, hn, hd⟩
  obtain ⟨fs', e1, _, e3, e4, e5, _⟩ := h3 s hs
  refine ⟨fs', ?_, e3, e4, e5⟩
  rw [hs, e1, ValL.of_to]

example : Ident nP := ⟨'P', [], rfl, .inl (.inr (by decide)), by simp⟩

/-- A type with a text as the default value of an integer field. -/
def oddFields : TyL := .cons nx (.simple .int) (.atom .string 1) .nil

def oddMgr : TMgr := (TMgr.add {} (.struct nP oddFields true)).1

/-- C126, violation: a struct that got such a default value cannot be read back. -/
theorem C126_violation_default : mkType nP [nx] (some [.atom .string 1]) [.simple .int] = .ok (.struct nP oddFields true) ∧
    ∃ s, (mkStruct oddMgr nP none false).res = .ok s ∧ (readVal oddMgr s).2 = .error .invalid :=
  ⟨rfl, _, rfl, rfl⟩

/-- C126, violation: after its type was removed a struct is read back as a struct of another
type, which is registered instead. -/
theorem C126_violation_removed : ∃ s s', (mkStruct pointMgr nP (some [(nx, .null)]) false).res = .ok s ∧
    (readVal (pointMgr.remove nP true).1 s).2 = .ok s' ∧ sameStruct s s' ≠ some true ∧
    (readVal (pointMgr.remove nP true).1 s).1.types =
      [(nP, .struct nP (.cons nx (.simple .undef) .null (.cons ny (.simple .float) .null .nil)) false)] :=
  ⟨_, _, rfl, rfl, by decide +kernel, rfl⟩

/-! ### C124 -/

/-- The manager has the type. -/
def Has (m : TMgr) (t : Ty) : Prop := (t.name, t) ∈ m.types

/-- The types of the manager are among `P`, under their own names. -/
structure TInv (P : Ty → Prop) (m : TMgr) : Prop where
  mem : ∀ e ∈ m.types, e.1 = e.2.name ∧ P e.2
  nodup : (m.types.map (·.1)).Nodup

/-- Types that can be in one manager together. -/
structure Fine (P : Ty → Prop) : Prop where
  ident : ∀ t, P t → Ident t.name
  free : ∀ t, P t → ¬ Reserved t.name
  one : ∀ t u, P t → P u → t.name = u.name → t = u

theorem add_fine {P : Ty → Prop} (hP : Fine P) {m : TMgr} (h : TInv P m) {t : Ty} (ht : P t) :
    ∃ m', TMgr.add m t = (m', none) ∧ TInv P m' ∧ ∀ x, Has m' x ↔ Has m x ∨ x = t := by
  cases e : m.types.lookup t.name with
  | some u =>
    have hu := h.mem _ (lookup_mem e)
    have : u = t := hP.one u t hu.2 ht hu.1.symm
    refine ⟨m, ?_, h, ?_⟩
    · unfold TMgr.add
      rw [e]
      dsimp only
      rw [if_neg (by rw [(sameTy_iff true u t).mpr this]; simp)]
      unfold Mgr.add
      have h1 := hP.ident t ht
      rw [if_neg (by rintro e; rw [e] at h1; obtain ⟨c, l, e, _⟩ := h1; cases e),
        if_neg (by rw [reserved_iff]; exact hP.free t ht), if_neg (by rw [(validName_iff _).mpr h1]; decide)]
      rw [e]
      dsimp only
      rw [if_pos this]
    · intro x
      constructor
      · exact .inl
      · rintro (hx | rfl)
        · exact hx
        · subst this; exact lookup_mem e
  | none =>
    obtain ⟨e1, e2⟩ := tadd_eq m t (hP.ident t ht) (hP.free t ht) e
    generalize TMgr.add m t = A at e1 e2
    obtain ⟨m', er⟩ := A
    dsimp only at e1 e2
    subst e2
    refine ⟨m', rfl, ⟨?_, ?_⟩, ?_⟩
    · rw [e1]
      intro a ha
      rcases List.mem_append.mp ha with ha | ha
      · exact h.mem a ha
      · simp only [List.mem_singleton] at ha; subst ha; exact ⟨rfl, ht⟩
    · rw [e1, List.map_append, List.nodup_append]
      refine ⟨h.nodup, by simp, ?_⟩
      intro a ha b hb
      simp only [List.map_cons, List.map_nil, List.mem_singleton] at hb
      subst hb
      rintro rfl
      exact lookup_none.mp e ha
    · intro x
      unfold Has
      rw [e1, List.mem_append, List.mem_singleton]
      constructor
      · rintro (hx | hx)
        · exact .inl hx
        · exact .inr (Prod.mk.inj hx).2
      · rintro (hx | rfl)
        · exact .inl hx
        · exact .inr rfl

/-- The fields without their default values. -/
def strip : TyL → TyL
  | .nil => .nil
  | .cons n t _ r => .cons n t .null (strip r)

theorem strip_plain : ∀ fs : TyL, PlainL false fs → strip fs = fs
  | .nil, _ => rfl
  | .cons n t d r, h => by
    unfold PlainL at h
    have : d = .null := by simpa using h.2.1
    subst this
    simp only [strip]
    rw [strip_plain r h.2.2]

theorem readDfls_plain (m : TMgr) (b : Bool) : ∀ fs : TyL, PlainL b fs → readDfls m (strip fs) fs = (m, .ok fs)
  | .nil, _ => by simp [strip, readDfls]
  | .cons n t d r, h => by
    unfold PlainL at h
    unfold strip readDfls
    have hd : readVal m d = (m, .ok d) := by
      rcases h.2.1 with h' | ⟨_, c, k, h'⟩ <;> subst h' <;> simp [readVal]
    rw [hd]
    dsimp only
    rw [readDfls_plain m b r h.2.2]

mutual
theorem readTy_fine {P : Ty → Prop} (hP : Fine P) : ∀ (t : Ty) (m : TMgr), TInv P m → (∀ x ∈ parts t, P x) → Plain t →
    ∃ m', readTy m t = (m', .ok t) ∧ TInv P m' ∧ ∀ x, Has m' x ↔ Has m x ∨ x ∈ parts t
  | .simple c, m, h, hp, _ => by
    obtain ⟨m', e, h', hx⟩ := add_fine hP h (hp (.simple c) (by simp [parts]))
    refine ⟨m', ?_, h', ?_⟩
    · unfold readTy; rw [e]
    · intro x; rw [hx]; simp [parts]
  | .enum n vs, m, h, hp, hg => by
    obtain ⟨m', e, h', hx⟩ := add_fine hP h (hp (.enum n vs) (by simp [parts]))
    unfold Plain at hg
    refine ⟨m', ?_, h', ?_⟩
    · unfold readTy; rw [if_neg hg, e]
    · intro x; rw [hx]; simp [parts]
  | .struct n fs b, m, h, hp, hg => by
    unfold Plain at hg
    have hp1 : ∀ x ∈ parts.partsL fs, P x := fun x hx => hp x (by unfold parts; exact List.mem_append.mpr (.inl hx))
    have hp2 : P (.struct n fs b) := hp _ (by unfold parts; simp)
    obtain ⟨m1, e1, h1, hx1⟩ := readTys_fine hP fs b m h hp1 hg.2
    obtain ⟨m2, e2, h2, hx2⟩ := add_fine hP h1 hp2
    refine ⟨m2, ?_, h2, ?_⟩
    · unfold readTy
      rw [e1]
      dsimp only
      cases b with
      | true =>
        simp only [if_true]
        rw [readDfls_plain m1 true fs hg.2]
        dsimp only
        have : decide (fs ≠ .nil) = true := by
          rw [decide_eq_true_iff]
          rintro rfl
          exact hg.1 rfl rfl
        rw [this]
        simp only [Bool.and_true]
        rw [e2]
      | false =>
        simp only [Bool.false_eq_true, if_false, Bool.false_and]
        rw [strip_plain fs hg.2, e2]
    · intro x
      rw [hx2, hx1]
      unfold parts
      rw [List.mem_append, List.mem_singleton, or_assoc]
theorem readTys_fine {P : Ty → Prop} (hP : Fine P) : ∀ (fs : TyL) (b : Bool) (m : TMgr), TInv P m →
    (∀ x ∈ parts.partsL fs, P x) → PlainL b fs →
    ∃ m', readTys m fs = (m', .ok (strip fs)) ∧ TInv P m' ∧ ∀ x, Has m' x ↔ Has m x ∨ x ∈ parts.partsL fs
  | .nil, _, m, h, _, _ => ⟨m, by simp [readTys, strip], h, by simp [parts.partsL]⟩
  | .cons n t d r, b, m, h, hp, hg => by
    unfold PlainL at hg
    unfold parts.partsL at hp
    obtain ⟨m1, e1, h1, hx1⟩ := readTy_fine hP t m h (fun x hx => hp x (List.mem_append.mpr (.inl hx))) hg.1
    obtain ⟨m2, e2, h2, hx2⟩ := readTys_fine hP r b m1 h1 (fun x hx => hp x (List.mem_append.mpr (.inr hx))) hg.2.2
    refine ⟨m2, ?_, h2, ?_⟩
    · unfold readTys
      rw [e1]
      dsimp only
      rw [e2]
      rfl
    · intro x
      rw [hx2, hx1]
      rw [show parts.partsL (.cons n t d r) = parts t ++ parts.partsL r from by rw [parts.partsL]]
      rw [List.mem_append, or_assoc]
end

theorem readTypes_fine {P : Ty → Prop} (hP : Fine P) (l : List (Name × Ty)) (m : TMgr) (h : TInv P m)
    (hp : ∀ e ∈ l, ∀ x ∈ parts e.2, P x) (hg : ∀ e ∈ l, Plain e.2) :
    ∃ m', readTypes m l = (m', .ok (l.map (·.2))) ∧ TInv P m' ∧ ∀ x, Has m' x ↔ Has m x ∨ ∃ e ∈ l, x ∈ parts e.2 := by
  induction l generalizing m with
  | nil => exact ⟨m, rfl, h, by simp⟩
  | cons e l ih =>
    obtain ⟨k, t⟩ := e
    obtain ⟨m1, e1, h1, hx1⟩ := readTy_fine hP t m h (hp _ List.mem_cons_self) (hg _ List.mem_cons_self)
    obtain ⟨m2, e2, h2, hx2⟩ := ih m1 h1 (fun e he => hp e (List.mem_cons_of_mem _ he))
      (fun e he => hg e (List.mem_cons_of_mem _ he))
    refine ⟨m2, ?_, h2, ?_⟩
    · unfold readTypes; rw [e1]; dsimp only; rw [e2]; rfl
    · intro x
      rw [hx2, hx1]
      simp only [List.mem_cons, exists_eq_or_imp, or_assoc]

theorem parts_self (t : Ty) : t ∈ parts t := by cases t <;> simp [parts]

theorem addAll_fine {P : Ty → Prop} (hP : Fine P) (l : List Ty) (m : TMgr) (h : TInv P m)
    (hp : ∀ t ∈ l, P t) (hh : ∀ t ∈ l, Has m t) : ∃ m', addAll m l = .ok m' ∧ TInv P m' ∧ ∀ x, Has m' x ↔ Has m x := by
  induction l generalizing m with
  | nil => exact ⟨m, rfl, h, fun _ => Iff.rfl⟩
  | cons t l ih =>
    obtain ⟨m1, e1, h1, hx1⟩ := add_fine hP h (hp t List.mem_cons_self)
    have hx : ∀ x, Has m1 x ↔ Has m x := by
      intro x; rw [hx1]
      constructor
      · rintro (h | rfl)
        · exact h
        · exact hh _ List.mem_cons_self
      · exact .inl
    obtain ⟨m2, e2, h2, hx2⟩ := ih m1 h1 (fun t ht => hp t (List.mem_cons_of_mem _ ht))
      (fun t ht => (hx t).mpr (hh t (List.mem_cons_of_mem _ ht)))
    refine ⟨m2, ?_, h2, fun x => by rw [hx2, hx]⟩
    unfold addAll
    rw [e1]
    exact e2

/-- C124: a type manager is read back with all its types, each under its name, and with the
types they are made of, if every type that one of them is made of has a proper name that is
not reserved, no two different ones share a name, no part is empty and default values are
simple values.  Missing: the other managers, and that there are no further types, see the
violations. -/
theorem C124_reload_partial (m : TMgr)
    (hi : ∀ e ∈ m.types, ∀ t ∈ parts e.2, Ident t.name ∧ ¬ Reserved t.name)
    (ho : ∀ e ∈ m.types, ∀ t ∈ parts e.2, ∀ e' ∈ m.types, ∀ t' ∈ parts e'.2, t.name = t'.name → t = t')
    (hp : ∀ e ∈ m.types, Plain e.2) :
    ∃ m', reload m = .ok m' ∧
      ∀ n t, m'.types.lookup n = some t ↔ n = t.name ∧ ∃ e ∈ m.types, t ∈ parts e.2 := by
  have hP : Fine (fun t => ∃ e ∈ m.types, t ∈ parts e.2) := by
    refine ⟨?_, ?_, ?_⟩
    · rintro t ⟨e, he, ht⟩; exact (hi e he t ht).1
    · rintro t ⟨e, he, ht⟩; exact (hi e he t ht).2
    · rintro t u ⟨e, he, ht⟩ ⟨e', he', hu⟩; exact ho e he t ht e' he' u hu
  obtain ⟨m1, e1, h1, hx1⟩ := readTypes_fine hP m.types {} ⟨by simp, by simp⟩ (fun e he x hx => ⟨e, he, hx⟩) hp
  have hmem : ∀ t, Has m1 t ↔ ∃ e ∈ m.types, t ∈ parts e.2 := by
    intro t; rw [hx1]
    constructor
    · rintro (h | h)
      · simp [Has] at h
      · exact h
    · exact .inr
  obtain ⟨m2, e2, h2, hx2⟩ := addAll_fine hP (m.types.map (·.2)) m1 h1
    (by
      intro t ht
      obtain ⟨e, he, rfl⟩ := List.mem_map.mp ht
      exact ⟨e, he, parts_self _⟩)
    (by
      intro t ht
      obtain ⟨e, he, rfl⟩ := List.mem_map.mp ht
      exact (hmem _).mpr ⟨e, he, parts_self _⟩)
  refine ⟨m2, ?_, ?_⟩
  · unfold reload; rw [e1]; exact e2
  · intro n t
    constructor
    · intro h
      have hm := lookup_mem h
      have := h2.mem _ hm
      exact ⟨this.1, this.2⟩
    · rintro ⟨rfl, h⟩
      exact lookup_of_mem h2.nodup ((hx2 t).mpr ((hmem t).mpr h))

example : ∀ e ∈ pointMgr.types, Plain e.2 := by
  intro e he
  simp only [pointMgr, List.mem_singleton] at he
  subst he
  simp [Plain, PlainL, pointFields, TyL.toList]

def ratioMgr : TMgr := (TMgr.add {} (.struct nP (.cons nx (.simple .ratio) .null .nil) false)).1

/-- C124, violation: a manager with a struct type that has a ratio among its fields cannot be
read back: reading adds the type of the field, whose name is reserved. -/
theorem C124_violation_ratio : ratioMgr.types = [(nP, .struct nP (.cons nx (.simple .ratio) .null .nil) false)] ∧
    ∀ m', reload ratioMgr ≠ .ok m' := by
  refine ⟨rfl, ?_⟩
  have h : ∀ m', reload ratioMgr ≠ .ok m' := by
    have e : reload ratioMgr = .error .reserved := rfl
    intro m'; rw [e]; exact fun h => by cases h
  exact h

/-- C124, violation: the types of the fields, here "int" and "float", are types of the
manager after reading, which they were not before. -/
theorem C124_violation_simple : pointMgr.list = [nP] ∧
    ∃ m', reload pointMgr = .ok m' ∧ m'.list = [['i','n','t'], ['f','l','o','a','t'], nP] :=
  ⟨rfl, _, rfl, rfl⟩

/-- An enumeration type was replaced after it was used in a struct type. -/
def replacedMgr : TMgr :=
  Mgr.run Ty.name {} [.add (.enum nE [(nx, 0)]) true, .add (.struct nP (.cons nx (.enum nE [(nx, 0)]) .null .nil) false) true,
    .remove nE true, .add (.enum nE [(ny, 0)]) true]

/-- C124, violation: then the manager cannot be read back. -/
theorem C124_violation_replaced : replacedMgr.list = [nP, nE] ∧ ∀ m', reload replacedMgr ≠ .ok m' := by
  refine ⟨by decide +kernel, ?_⟩
  have e : reload replacedMgr = .error .taken := rfl
  intro m'; rw [e]; exact fun h => by cases h

/-- C124, violation: a struct type without fields that was given an empty list of default
values is read back as one without, which is not equal. -/
theorem C124_violation_empty : mkType nP [] (some []) [] = .ok (.struct nP .nil true) ∧
    ∃ m', reload (TMgr.add {} (.struct nP .nil true)).1 = .ok m' ∧ m'.types = [(nP, .struct nP .nil false)] :=
  ⟨rfl, _, rfl, rfl⟩

end Verif.Types.Props
