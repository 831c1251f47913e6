import Verif.Types.PropsMgr
import Verif.Types.Same
/-
C118, C119, C120: structs.
-/
namespace Verif.Types.Props
open Spec

theorem TyL.of_to : ∀ fs : TyL, TyL.ofList fs.toList = fs
  | .nil => rfl
  | .cons n t d r => by simp [TyL.toList, TyL.ofList, TyL.of_to r]

theorem TyL.to_of (l : List Field) : (TyL.ofList l).toList = l := by
  induction l with
  | nil => rfl
  | cons f l ih => obtain ⟨n, t, d⟩ := f; simp [TyL.toList, TyL.ofList, ih]

theorem ValL.to_of (l : Dict) : (ValL.ofList l).toList = l := by
  induction l with
  | nil => rfl
  | cons f l ih => obtain ⟨n, t⟩ := f; simp [ValL.toList, ValL.ofList, ih]

theorem ValL.of_to : ∀ v : ValL, ValL.ofList v.toList = v
  | .nil => rfl
  | .cons n v r => by simp [ValL.toList, ValL.ofList, ValL.of_to r]

theorem check_iff (t : Ty) (v : Val) : check t v = none ↔ Loose t v := by
  cases v with
  | null => simp only [check, true_iff]; exact .fits _ _ (.null _)
  | atom c k =>
    cases t with
    | simple c' =>
      simp only [check, Ty.core, Val.core]
      constructor
      · intro h
        by_cases h1 : c' = .undef
        · subst h1; exact .fits _ _ (.any _)
        · by_cases h2 : c = c'
          · subst h2; exact .fits _ _ (.atom _ _)
          · simp [h1, h2] at h
      · intro h; cases h <;> first | (rename_i h; cases h <;> simp; done) | simp
    | enum n vs =>
      simp only [check, Ty.core, Val.core]
      constructor
      · intro h
        by_cases h2 : c = .enum
        · subst h2; exact .odd _ _ _
        · simp [h2] at h
      · intro h; cases h <;> first | (rename_i h; cases h <;> simp; done) | simp
    | struct n fs b =>
      simp only [check]
      constructor
      · intro h; cases h
      · intro h; cases h <;> first | (rename_i h; cases h <;> simp; done) | simp
  | enum n vs s =>
    cases t with
    | simple c' =>
      simp only [check, Ty.core, Val.core]
      constructor
      · intro h
        by_cases h1 : c' = .undef
        · subst h1; exact .fits _ _ (.any _)
        · by_cases h2 : CT.enum = c'
          · subst h2; exact .fits _ _ (.anyEnum _ _ _)
          · simp [h1, h2] at h
      · intro h; cases h <;> first | (rename_i h; cases h <;> simp; done) | simp
    | enum n' vs' =>
      simp only [check, Ty.core, Val.core]
      constructor
      · intro _; exact .enum _ _ _ _ _
      · intro _; simp
    | struct n' fs b =>
      simp only [check]
      constructor
      · intro h; cases h
      · intro h; cases h <;> first | (rename_i h; cases h <;> simp; done) | simp
  | struct n fs b d =>
    cases t with
    | simple c' =>
      simp only [check, Ty.core, Val.core]
      constructor
      · intro h
        by_cases h1 : c' = .undef
        · subst h1; exact .fits _ _ (.any _)
        · by_cases h2 : CT.struct = c'
          · subst h2; exact .fits _ _ (.anyStruct _ _ _ _)
          · simp [h1, h2] at h
      · intro h; cases h <;> first | (rename_i h; cases h <;> simp; done) | simp
    | enum n' vs' =>
      simp only [check, Ty.core, Val.core]
      constructor
      · intro h; simp at h
      · intro h; cases h <;> first | (rename_i h; cases h <;> simp; done) | simp
    | struct n' fs' b' =>
      simp only [check]
      have hs := sameTy_iff true (.struct n fs b) (.struct n' fs' b')
      constructor
      · intro h
        cases e : sameTy true (.struct n fs b) (.struct n' fs' b') with
        | none => simp [e] at h
        | some x =>
          cases x with
          | false => simp [e] at h
          | true =>
            have := hs.mp e
            simp only [Ty.struct.injEq] at this
            obtain ⟨rfl, rfl, rfl⟩ := this
            exact .fits _ _ (.struct _ _ _ _)
      · intro h
        cases h
        rename_i h
        cases h
        rw [hs.mpr rfl]

/-- The fields that are not given. -/
def extra (dfl : Bool) (fs : List Field) (d : Dict) : Dict :=
  (fs.filter (fun f => (d.lookup f.1).isNone)).map (fun f => (f.1, if dfl then f.2.2 else .null))

theorem lookup_snoc (d : Dict) (n k : Name) (x : Val) (h : k ≠ n) : (d ++ [(n, x)]).lookup k = d.lookup k := by
  rw [lookup_append]
  have hb : (k == n) = false := by simpa using h
  have : [(n, x)].lookup k = none := by simp only [List.lookup, hb]
  rw [this]; simp

theorem fill_ok (dfl frozen : Bool) (fs : List Field) (d : Dict) (hn : (fs.map (·.1)).Nodup)
    (hc : ∀ f ∈ fs, ∀ v, d.lookup f.1 = some v → check f.2.1 v = none)
    (hz : frozen = false ∨ ∀ f ∈ fs, d.lookup f.1 ≠ none) :
    fill dfl frozen fs d = (d ++ extra dfl fs d, none) := by
  induction fs generalizing d with
  | nil => simp [fill, extra]
  | cons f fs ih =>
    obtain ⟨n, t, x⟩ := f
    simp only [List.map_cons, List.nodup_cons] at hn
    have hne : ∀ f ∈ fs, f.1 ≠ n := fun f hf e => hn.1 (List.mem_map.mpr ⟨f, hf, e⟩)
    unfold fill
    cases e : d.lookup n with
    | some v =>
      dsimp only
      rw [hc _ List.mem_cons_self v e]
      dsimp only
      rw [ih d hn.2 (fun f hf => hc f (List.mem_cons_of_mem _ hf))
        (hz.imp id fun h f hf => h f (List.mem_cons_of_mem _ hf))]
      simp [extra, e]
    | none =>
      dsimp only
      have hz' : frozen = false := by
        rcases hz with h | h
        · exact h
        · exact absurd e (h _ List.mem_cons_self)
      rw [if_neg (by simp [hz'])]
      have hl : ∀ f ∈ fs, (d ++ [(n, if dfl then x else .null)]).lookup f.1 = d.lookup f.1 :=
        fun f hf => lookup_snoc _ _ _ _ (hne f hf)
      rw [ih _ hn.2 (fun f hf v hv => hc f (List.mem_cons_of_mem _ hf) v (by rw [← hl f hf]; exact hv)) (.inl hz')]
      have : extra dfl fs (d ++ [(n, if dfl then x else .null)]) = extra dfl fs d := by
        unfold extra
        rw [List.filter_congr (fun f hf => by rw [hl f hf])]
      rw [this]
      simp [extra, e]

theorem fill_bad (dfl frozen : Bool) (fs : List Field) (d : Dict) (hn : (fs.map (·.1)).Nodup)
    (hc : (∃ f ∈ fs, ∃ v, d.lookup f.1 = some v ∧ check f.2.1 v ≠ none) ∨
      (frozen = true ∧ ∃ f ∈ fs, d.lookup f.1 = none)) :
    (fill dfl frozen fs d).2 ≠ none := by
  induction fs generalizing d with
  | nil => rcases hc with ⟨f, hf, _⟩ | ⟨_, f, hf, _⟩ <;> simp at hf
  | cons f fs ih =>
    obtain ⟨n, t, x⟩ := f
    simp only [List.map_cons, List.nodup_cons] at hn
    have hne : ∀ f ∈ fs, f.1 ≠ n := fun f hf e => hn.1 (List.mem_map.mpr ⟨f, hf, e⟩)
    unfold fill
    cases e : d.lookup n with
    | some v =>
      dsimp only
      cases ec : check t v with
      | some er => simp
      | none =>
        dsimp only
        refine ih d hn.2 ?_
        rcases hc with ⟨f, hf, w, h1, h2⟩ | ⟨h0, f, hf, h1⟩
        · rcases List.mem_cons.mp hf with rfl | hf
          · rw [e] at h1; cases h1; exact absurd ec h2
          · exact .inl ⟨f, hf, w, h1, h2⟩
        · rcases List.mem_cons.mp hf with rfl | hf
          · rw [e] at h1; cases h1
          · exact .inr ⟨h0, f, hf, h1⟩
    | none =>
      dsimp only
      split
      · simp
      · rename_i hz
        refine ih _ hn.2 ?_
        rcases hc with ⟨f, hf, w, h1, h2⟩ | ⟨h0, _⟩
        · rcases List.mem_cons.mp hf with rfl | hf
          · rw [e] at h1; cases h1
          · exact .inl ⟨f, hf, w, by rw [lookup_snoc _ _ _ _ (hne f hf)]; exact h1, h2⟩
        · exact absurd h0 hz

theorem mem_lookup {d : Dict} (hk : Keys d) (k : Name) (v : Val) : (k, v) ∈ d ↔ d.lookup k = some v :=
  ⟨lookup_of_mem hk, lookup_mem⟩

/-- When `complete` succeeds, and what it gives then. -/
theorem complete_iff (fs : List Field) (dfl frozen : Bool) (d : Dict) (hn : (fs.map (·.1)).Nodup) (hk : Keys d) :
    ((complete fs dfl frozen d).2 = none ↔ (∀ e ∈ d, ∃ f ∈ fs, f.1 = e.1) ∧
      (∀ f ∈ fs, ∀ v, (f.1, v) ∈ d → Loose f.2.1 v) ∧ (frozen = false ∨ ∀ f ∈ fs, ∃ v, (f.1, v) ∈ d)) ∧
    ((complete fs dfl frozen d).2 = none → (complete fs dfl frozen d).1 = d ++ extra dfl fs d) := by
  have hall : d.all (fun e => (fs.map (·.1)).contains e.1) = true ↔ ∀ e ∈ d, ∃ f ∈ fs, f.1 = e.1 := by
    simp only [List.all_eq_true, List.contains_iff_mem, List.mem_map]
  unfold complete
  by_cases ha : ∀ e ∈ d, ∃ f ∈ fs, f.1 = e.1
  · rw [if_pos (hall.mpr ha)]
    by_cases hg : (∀ f ∈ fs, ∀ v, (f.1, v) ∈ d → Loose f.2.1 v) ∧ (frozen = false ∨ ∀ f ∈ fs, ∃ v, (f.1, v) ∈ d)
    · rw [fill_ok dfl frozen fs d hn (fun f hf v hv => (check_iff _ _).mpr (hg.1 f hf v (lookup_mem hv)))
        (hg.2.imp id fun h f hf => by obtain ⟨v, hv⟩ := h f hf; rw [lookup_of_mem hk hv]; simp)]
      exact ⟨⟨fun _ => ⟨ha, hg⟩, fun _ => rfl⟩, fun _ => rfl⟩
    · have : (fill dfl frozen fs d).2 ≠ none := by
        apply fill_bad _ _ _ _ hn
        by_cases h1 : ∃ f ∈ fs, ∃ v, d.lookup f.1 = some v ∧ check f.2.1 v ≠ none
        · exact .inl h1
        · right
          have h2 : ∀ f ∈ fs, ∀ v, (f.1, v) ∈ d → Loose f.2.1 v := by
            intro f hf v hv
            by_cases hl : Loose f.2.1 v
            · exact hl
            · exact absurd ⟨f, hf, v, lookup_of_mem hk hv, fun h => hl ((check_iff _ _).mp h)⟩ h1
          have h3 : ¬ (frozen = false ∨ ∀ f ∈ fs, ∃ v, (f.1, v) ∈ d) := fun h => hg ⟨h2, h⟩
          have h4 : frozen = true := by cases frozen <;> simp_all
          refine ⟨h4, ?_⟩
          by_cases h5 : ∃ f ∈ fs, d.lookup f.1 = none
          · exact h5
          · exfalso
            apply h3
            right
            intro f hf
            cases e : d.lookup f.1 with
            | none => exact absurd ⟨f, hf, e⟩ h5
            | some v => exact ⟨v, lookup_mem e⟩
      exact ⟨⟨fun h => absurd h this, fun h => absurd h.2 hg⟩, fun h => absurd h this⟩
  · rw [if_neg (fun h => ha (hall.mp h))]
    exact ⟨⟨fun h => by simp at h, fun h => absurd h.1 ha⟩, fun h => by simp at h⟩

theorem extra_keys (dfl : Bool) (fs : List Field) (d : Dict) :
    (extra dfl fs d).map (·.1) = (fs.map (·.1)).filter (fun k => !(d.map (·.1)).contains k) := by
  unfold extra
  rw [List.map_map, List.filter_map]
  congr 1
  apply List.filter_congr
  intro f _
  simp only [Function.comp]
  cases e : d.lookup f.1 with
  | none => have := lookup_none.mp e; simp; simpa using this
  | some v =>
    have h : (f.1, v) ∈ d := lookup_mem e
    simp only [Option.isNone_some]
    symm
    rw [Bool.not_eq_false', List.contains_iff_mem]
    exact List.mem_map.mpr ⟨_, h, rfl⟩

theorem filled_keys (dfl : Bool) (fs : List Field) (d : Dict) (hn : (fs.map (·.1)).Nodup) (hk : Keys d) :
    Keys (d ++ extra dfl fs d) := by
  unfold Keys
  rw [List.map_append, extra_keys, List.nodup_append]
  refine ⟨hk, hn.sublist List.filter_sublist, ?_⟩
  intro a ha b hb e
  subst e
  have := (List.mem_filter.mp hb).2
  rw [Bool.not_eq_true', ← Bool.not_eq_true, List.contains_iff_mem] at this
  exact this ha

theorem filled_lookup (dfl : Bool) (fs : List Field) (d : Dict) (hn : (fs.map (·.1)).Nodup) (f : Field) (hf : f ∈ fs) :
    (d ++ extra dfl fs d).lookup f.1 = some (want dfl f d) := by
  rw [lookup_append]
  unfold want
  cases e : d.lookup f.1 with
  | some v => simp
  | none =>
    simp only [Option.none_or]
    have hnd : ((extra dfl fs d).map (·.1)).Nodup := by
      rw [extra_keys]; exact hn.sublist List.filter_sublist
    refine lookup_of_mem hnd ?_
    unfold extra
    exact List.mem_map.mpr ⟨f, List.mem_filter.mpr ⟨hf, by simp [e]⟩, rfl⟩

theorem filled_mem (dfl : Bool) (fs : List Field) (d : Dict) (hs : ∀ e ∈ d, ∃ f ∈ fs, f.1 = e.1)
    (hn : (fs.map (·.1)).Nodup) (k : Name) :
    (∃ x, (k, x) ∈ d ++ extra dfl fs d) ↔ ∃ f ∈ fs, f.1 = k := by
  constructor
  · rintro ⟨x, hx⟩
    rcases List.mem_append.mp hx with hx | hx
    · exact hs _ hx
    · obtain ⟨f, hf, e⟩ := List.mem_map.mp hx
      cases e
      exact ⟨f, (List.mem_filter.mp hf).1, rfl⟩
  · rintro ⟨f, hf, rfl⟩
    exact ⟨_, lookup_mem (filled_lookup dfl fs d hn f hf)⟩

/-! ### C118 -/

/-- C118: creating a struct of a registered type.  It succeeds exactly when every given name
is a field of the type, every given value has the core type of its field (for fields with a
struct type: is a struct of that type; null and undefined fields always pass), and the
dictionary can be completed.  The struct then has exactly the fields of its type; each holds
what was given, else the default value, else null; the given fields come first in the given
order.  The manager never changes. -/
theorem C118_created (m : TMgr) (n tn : Name) (fs : TyL) (b : Bool) (d : Dict) (frozen : Bool)
    (hm : m.types.lookup n = some (.struct tn fs b)) (hf : Distinct fs) (hk : Keys d) :
    let r := mkStruct m n (some d) frozen
    r.mgr = m ∧
    ((∃ s, r.res = .ok s) ↔ (∀ e ∈ d, ∃ f ∈ fs.toList, f.1 = e.1) ∧
      (∀ f ∈ fs.toList, ∀ v, (f.1, v) ∈ d → Loose f.2.1 v) ∧
      (frozen = false ∨ ∀ f ∈ fs.toList, ∃ v, (f.1, v) ∈ d)) ∧
    (∀ s, r.res = .ok s → ∃ v, s = .struct tn fs b v ∧ Keys v.toList ∧
      (∀ k, (∃ x, (k, x) ∈ v.toList) ↔ ∃ f ∈ fs.toList, f.1 = k) ∧
      (∀ f ∈ fs.toList, field s f.1 = want b f d) ∧
      order s = d.map (·.1) ++ (fs.toList.map (·.1)).filter (fun k => !(d.map (·.1)).contains k)) := by
  intro r
  have hr : r = mkStruct m n (some d) frozen := rfl
  clear_value r
  subst hr
  obtain ⟨h1, h2⟩ := complete_iff fs.toList b frozen d hf hk
  unfold mkStruct
  rw [hm]
  simp only [Option.isSome_some, Bool.and_true, Option.getD_some]
  cases e : (complete fs.toList b frozen d).2 with
  | some er =>
    rw [e] at h1
    refine ⟨rfl, ?_, ?_⟩
    · constructor
      · rintro ⟨s, hs⟩; cases hs
      · intro h; exact absurd (h1.mpr h) (by simp)
    · intro s hs; cases hs
  | none =>
    have h3 := h1.mp e
    refine ⟨rfl, ⟨fun _ => h3, fun _ => ⟨_, rfl⟩⟩, ?_⟩
    intro s hs
    cases hs
    rw [h2 e]
    refine ⟨_, rfl, ?_, ?_, ?_, ?_⟩
    · rw [ValL.to_of]; exact filled_keys b _ d hf hk
    · rw [ValL.to_of]; exact filled_mem b _ d h3.1 hf
    · intro f hf'
      unfold field
      dsimp only
      rw [ValL.to_of, filled_lookup b _ d hf f hf']; rfl
    · unfold order
      dsimp only
      rw [ValL.to_of, List.map_append, extra_keys]

/-- C118: without a dictionary every field gets its default value. -/
theorem C118_null (m : TMgr) (n tn : Name) (fs : TyL) (b frozen : Bool)
    (hm : m.types.lookup n = some (.struct tn fs b)) (hf : Distinct fs) :
    ∃ s, (mkStruct m n none frozen).res = .ok s ∧ order s = fs.toList.map (·.1) ∧
      ∀ f ∈ fs.toList, field s f.1 = if b then f.2.2 else .null := by
  have e : (mkStruct m n none frozen).res = (mkStruct m n (some []) false).res := by
    unfold mkStruct; rw [hm]; simp only [Option.isSome_none, Bool.and_false, Option.getD_none, Option.isSome_some,
      Bool.and_true, Option.getD_some]
    cases (complete fs.toList b false []).2 <;> rfl
  rw [e]
  have h := C118_created m n tn fs b [] false hm hf (by simp [Keys])
  obtain ⟨s, hs⟩ := h.2.1.mpr ⟨by simp, by simp, .inl rfl⟩
  obtain ⟨v, _, _, _, h4, h5⟩ := h.2.2 s hs
  refine ⟨s, hs, by rw [h5]; simp, ?_⟩
  intro f hf'
  rw [h4 f hf']; rfl

theorem inferred_ok (v : Val) (t : Ty) :
    (inferred v = .ok t ∧ t.core.accepted = true) ↔ derived v = some t := by
  cases v with
  | null => simp only [inferred, derived]; constructor
            · rintro ⟨h, _⟩; cases h; rfl
            · intro h; cases h; exact ⟨rfl, rfl⟩
  | atom c k =>
    cases c <;> simp only [inferred, derived] <;> constructor <;> intro h <;>
      first
        | (obtain ⟨h, h'⟩ := h; cases h; first | rfl | (simp [CT.accepted, Ty.core] at h'; done))
        | (cases h; exact ⟨rfl, rfl⟩)
        | (cases h; done)
        | (obtain ⟨h, h'⟩ := h; cases h; done)
  | enum n vs s =>
    simp only [inferred, derived]; constructor
    · rintro ⟨h, _⟩; cases h; rfl
    · intro h; cases h; exact ⟨rfl, rfl⟩
  | struct n fs b d =>
    simp only [inferred, derived]; constructor
    · rintro ⟨h, _⟩; cases h; rfl
    · intro h; cases h; exact ⟨rfl, rfl⟩

theorem inferAll_ok (d : Dict) (ts : List Ty) :
    (inferAll d = .ok ts ∧ ts.all (fun t => t.core.accepted) = true) ↔ d.map (fun e => derived e.2) = ts.map some := by
  induction d generalizing ts with
  | nil =>
    simp only [inferAll, List.map_nil]
    constructor
    · rintro ⟨h, _⟩; cases h; rfl
    · intro h
      have : ts = [] := by cases ts <;> simp_all
      subst this; exact ⟨rfl, rfl⟩
  | cons e d ih =>
    obtain ⟨k, v⟩ := e
    simp only [List.map_cons]
    constructor
    · rintro ⟨h, ha⟩
      unfold inferAll at h
      cases h1 : inferred v with
      | error er => simp [h1] at h
      | ok t =>
        simp only [h1] at h
        cases h2 : inferAll d with
        | error er => simp [h2] at h
        | ok l =>
          simp only [h2] at h
          cases h
          simp only [List.all_cons, Bool.and_eq_true] at ha
          rw [(inferred_ok v t).mp ⟨h1, ha.1⟩, (ih l).mp ⟨h2, ha.2⟩]
          rfl
    · intro h
      cases ts with
      | nil => simp at h
      | cons t l =>
        simp only [List.map_cons, List.cons.injEq] at h
        obtain ⟨h1, h1'⟩ := (inferred_ok v t).mpr h.1
        obtain ⟨h2, h2'⟩ := (ih l).mpr h.2
        unfold inferAll
        rw [h1]; dsimp only; rw [h2]
        exact ⟨rfl, by simp [h1', h2']⟩

theorem zip3_fst : ∀ (ns : List Name) (ts : List Ty) (ds : List Val), ns.length = ts.length → ns.length = ds.length →
    (zip3 ns ts ds).map (·.1) = ns
  | [], [], [], _, _ => rfl
  | _ :: ns, _ :: ts, _ :: ds, h1, h2 => by
    simp only [zip3, List.map_cons]
    rw [zip3_fst ns ts ds (by simpa using h1) (by simpa using h2)]

theorem zip3_types : ∀ (ns : List Name) (ts : List Ty) (ds : List Val), ns.length = ts.length → ns.length = ds.length →
    (zip3 ns ts ds).map (·.2.1) = ts
  | [], [], [], _, _ => rfl
  | _ :: ns, _ :: ts, _ :: ds, h1, h2 => by
    simp only [zip3, List.map_cons]
    rw [zip3_types ns ts ds (by simpa using h1) (by simpa using h2)]

theorem zip3_dfl : ∀ (ns : List Name) (ts : List Ty) (ds : List Val), ns.length = ts.length → ns.length = ds.length →
    (zip3 ns ts ds).map (·.2.2) = ds
  | [], [], [], _, _ => rfl
  | _ :: ns, _ :: ts, _ :: ds, h1, h2 => by
    simp only [zip3, List.map_cons]
    rw [zip3_dfl ns ts ds (by simpa using h1) (by simpa using h2)]

theorem derived_fits (v : Val) (t : Ty) (h : derived v = some t) : Loose t v := by
  cases v with
  | null => exact .fits _ _ (.null _)
  | atom c k =>
    cases c <;> simp only [derived] at h <;> first | (cases h; exact .fits _ _ (.atom _ _)) | (cases h)
  | enum n vs s => simp only [derived] at h; cases h; exact .fits _ _ (.enum _ _ _)
  | struct n fs b d => simp only [derived] at h; cases h; exact .fits _ _ (.struct _ _ _ _)

theorem tadd_eq (m : TMgr) (t : Ty) (h1 : Ident t.name) (h2 : ¬ Reserved t.name) (h3 : m.types.lookup t.name = none) :
    (TMgr.add m t).1.types = m.types ++ [(t.name, t)] ∧ (TMgr.add m t).2 = none := by
  unfold TMgr.add
  rw [h3]
  dsimp only
  unfold Mgr.add
  rw [if_neg (by rintro e; rw [e] at h1; obtain ⟨c, l, e, _⟩ := h1; cases e), if_neg (by rw [reserved_iff]; exact h2),
      if_neg (by rw [(validName_iff _).mpr h1]; decide)]
  rw [show List.lookup t.name m.types = none from h3]
  dsimp only
  rw [tell_types]
  refine ⟨rfl, ?_⟩
  unfold Mgr.tell
  split <;> rfl

theorem tadd_bad (m : TMgr) (t : Ty) (h : ¬ (Ident t.name ∧ ¬ Reserved t.name)) (h3 : m.types.lookup t.name = none) :
    (TMgr.add m t).1 = m ∧ (TMgr.add m t).2 ≠ none := by
  unfold TMgr.add
  rw [h3]
  dsimp only
  unfold Mgr.add
  by_cases h1 : t.name = []
  · rw [if_pos h1]; simp
  rw [if_neg h1]
  by_cases h2 : reservedNames.contains (lower t.name) = true
  · rw [if_pos h2]; simp
  rw [if_neg h2]
  by_cases h3 : validName t.name = true
  · exfalso; exact h ⟨(validName_iff _).mp h3, fun hr => h2 ((reserved_iff _).mpr hr)⟩
  rw [if_pos (by simpa using h3)]
  simp

/-- C118: creating a struct whose type is not registered.  It succeeds exactly when the name
is a free identifier, the names of the fields are identifiers and the values can be fields;
then a type without default values, with the given names in the given order and the types of
the given values, is registered under that name, and nothing else changes; the struct holds
exactly the given values, and doing the same again gives the same struct. -/
theorem C118_derived (m : TMgr) (n : Name) (d : Dict) (frozen : Bool) (hm : m.types.lookup n = none) (hk : Keys d) :
    let r := mkStruct m n (some d) frozen
    ((∃ s, r.res = .ok s) ↔ Ident n ∧ ¬ Reserved n ∧ (∀ e ∈ d, Ident e.1) ∧ ∀ e ∈ d, derived e.2 ≠ none) ∧
    ((∀ s, r.res ≠ .ok s) → r.mgr = m) ∧
    (∀ s, r.res = .ok s → ∃ fs, s = .struct n fs false (ValL.ofList d) ∧ Distinct fs ∧
      fs.toList.map (·.1) = d.map (·.1) ∧ fs.toList.map (fun f => some f.2.1) = d.map (fun e => derived e.2) ∧
      r.mgr.types = m.types ++ [(n, .struct n fs false)] ∧
      (∀ frozen', (mkStruct r.mgr n (some d) frozen').res = .ok s)) := by
  intro r
  have hr : r = mkStruct m n (some d) frozen := rfl
  clear_value r
  subst hr
  have unf : mkStruct m n (some d) frozen = match inferAll d with
      | .error e => ⟨m, d, frozen, .error e⟩
      | .ok ts => match mkType n (d.map (·.1)) none ts with
        | .ok (.struct tn fs b) => match TMgr.add m (.struct tn fs b) with
          | (m', none) => ⟨m', d, true, .ok (.struct tn fs b (ValL.ofList d))⟩
          | (m', some e) => ⟨m', d, frozen, .error e⟩
        | .ok _ => ⟨m, d, frozen, .error .noIface⟩
        | .error e => ⟨m, d, frozen, .error e⟩ := by
    unfold mkStruct; rw [hm]; rfl
  by_cases hd : ∀ e ∈ d, derived e.2 ≠ none
  · -- the types exist
    obtain ⟨ts, hts⟩ : ∃ ts : List Ty, d.map (fun e => derived e.2) = ts.map some := by
      clear unf hk hm
      induction d with
      | nil => exact ⟨[], rfl⟩
      | cons e d ih =>
        obtain ⟨l, hl⟩ := ih (fun e he => hd e (List.mem_cons_of_mem _ he))
        cases h : derived e.2 with
        | none => exact absurd h (hd e List.mem_cons_self)
        | some t => exact ⟨t :: l, by simp [h, hl]⟩
    obtain ⟨hi, ha⟩ := (inferAll_ok d ts).mpr hts
    have hlen : d.length = ts.length := by have := congrArg List.length hts; simpa using this
    rw [unf, hi]
    dsimp only
    by_cases hv : ∀ e ∈ d, Ident e.1
    · have hmk : mkType n (d.map (·.1)) none ts =
          .ok (.struct n (TyL.ofList (zip3 (d.map (·.1)) ts (ts.map fun _ => .null))) false) := by
        unfold mkType
        dsimp only
        rw [if_neg (by simpa using hlen), if_neg, if_neg (by rw [ha]; decide)]
        have : (d.map (·.1)).all validName = true := by
          simp only [List.all_eq_true, List.mem_map]
          rintro _ ⟨e, he, rfl⟩
          exact (validName_iff _).mpr (hv e he)
        rw [this]; decide
      rw [hmk]
      dsimp only
      generalize hfs : TyL.ofList (zip3 (d.map (·.1)) ts (ts.map fun _ => .null)) = fs
      have hto : fs.toList = zip3 (d.map (·.1)) ts (ts.map fun _ => .null) := by rw [← hfs, TyL.to_of]
      have l1 : (d.map (·.1)).length = ts.length := by simpa using hlen
      have l2 : (d.map (·.1)).length = (ts.map fun _ => Val.null).length := by simpa using hlen
      have hn1 : fs.toList.map (·.1) = d.map (·.1) := by rw [hto, zip3_fst _ _ _ l1 l2]
      have hn2 : fs.toList.map (·.2.1) = ts := by rw [hto, zip3_types _ _ _ l1 l2]
      by_cases hid : Ident n ∧ ¬ Reserved n
      · obtain ⟨e1, e2⟩ := tadd_eq m (.struct n fs false) hid.1 hid.2 hm
        generalize hA : TMgr.add m (.struct n fs false) = A at e1 e2
        obtain ⟨m', er⟩ := A
        dsimp only at e1 e2
        subst e2
        refine ⟨⟨fun _ => ⟨hid.1, hid.2, hv, hd⟩, fun _ => ⟨_, rfl⟩⟩, fun h => absurd rfl (h _), ?_⟩
        intro s hs
        cases hs
        have hdis : Distinct fs := by unfold Distinct; rw [hn1]; exact hk
        refine ⟨fs, rfl, hdis, hn1, ?_, e1, ?_⟩
        · rw [hts, ← hn2, List.map_map]; rfl
        · intro fz
          have hl : m'.types.lookup n = some (.struct n fs false) := by
            rw [e1, lookup_append, hm]; simp [Ty.name]
          dsimp only
          have hcr := C118_created m' n n fs false d fz hl hdis hk
          have hk1 : ∀ f ∈ fs.toList, ∃ v, (f.1, v) ∈ d := by
            intro f hf
            have : f.1 ∈ d.map (·.1) := by rw [← hn1]; exact List.mem_map.mpr ⟨f, hf, rfl⟩
            obtain ⟨e, he, h⟩ := List.mem_map.mp this
            exact ⟨e.2, by rw [← h]; exact he⟩
          have hpair : ∀ (l : List Field) (dd : Dict), l.map (·.1) = dd.map (·.1) →
              l.map (fun f => some f.2.1) = dd.map (fun e => derived e.2) → (dd.map (·.1)).Nodup →
              ∀ f ∈ l, ∀ v, (f.1, v) ∈ dd → derived v = some f.2.1 := by
            intro l
            induction l with
            | nil => intro dd _ _ _ f hf; simp at hf
            | cons a l ih =>
              intro dd h1 h2 h3 f hf v hv
              cases dd with
              | nil => simp at h1
              | cons e dd =>
                simp only [List.map_cons, List.cons.injEq] at h1 h2
                simp only [List.map_cons, List.nodup_cons] at h3
                rcases List.mem_cons.mp hf with rfl | hf'
                · rcases List.mem_cons.mp hv with hv | hv
                  · rw [← hv] at h2; exact h2.1.symm
                  · exfalso; apply h3.1; rw [← h1.1]; exact List.mem_map.mpr ⟨_, hv, rfl⟩
                · rcases List.mem_cons.mp hv with hv | hv
                  · exfalso; apply h3.1; rw [← h1.2]
                    have : e.1 = f.1 := by rw [← hv]
                    rw [this]; exact List.mem_map.mpr ⟨_, hf', rfl⟩
                  · exact ih dd h1.2 h2.2 h3.2 f hf' v hv
          have hok := hcr.2.1.mpr ⟨?_, ?_, .inr hk1⟩
          · obtain ⟨s, hs⟩ := hok
            obtain ⟨v, hv1, hv2, hv3, hv4, hv5⟩ := hcr.2.2 s hs
            rw [hs, hv1]
            congr 2
            have hcomp : (complete fs.toList false fz d).1 = d := by
              have := complete_iff fs.toList false fz d hdis hk
              have hne := this.1.mpr ⟨?_, ?_, .inr hk1⟩
              · rw [this.2 hne]
                have : extra false fs.toList d = [] := by
                  have hx := extra_keys false fs.toList d
                  rw [hn1] at hx
                  have : (d.map (·.1)).filter (fun k => !(d.map (·.1)).contains k) = [] := by
                    rw [List.filter_eq_nil_iff]
                    intro a ha
                    simp only [Bool.not_eq_true', Bool.not_eq_false]
                    rw [List.contains_iff_mem]; exact ha
                  rw [this] at hx
                  exact List.map_eq_nil_iff.mp hx
                rw [this]; simp
              · exact (hcr.2.1.mp ⟨s, hs⟩).1
              · exact (hcr.2.1.mp ⟨s, hs⟩).2.1
            have hres : (mkStruct m' n (some d) fz).res = .ok (.struct n fs false (ValL.ofList d)) := by
              unfold mkStruct
              rw [hl]
              simp only [Option.isSome_some, Bool.and_true, Option.getD_some]
              have hnn : (complete fs.toList false fz d).2 = none :=
                (complete_iff fs.toList false fz d hdis hk).1.mpr (hcr.2.1.mp ⟨s, hs⟩)
              rw [hnn, hcomp]
            rw [hres, hv1] at hs
            cases hs; rfl
          · intro e he
            have : e.1 ∈ fs.toList.map (·.1) := by rw [hn1]; exact List.mem_map.mpr ⟨e, he, rfl⟩
            obtain ⟨f, hf, h⟩ := List.mem_map.mp this
            exact ⟨f, hf, h⟩
          · intro f hf v hv
            apply derived_fits
            exact hpair fs.toList d hn1 (by rw [hts, ← hn2, List.map_map]; rfl) hk f hf v hv
      · obtain ⟨e1, e2⟩ := tadd_bad m (.struct n fs false) hid hm
        generalize hA : TMgr.add m (.struct n fs false) = A at e1 e2
        obtain ⟨m', er⟩ := A
        cases er with
        | none => simp at e2
        | some er =>
          dsimp only at e1 ⊢
          refine ⟨⟨fun ⟨s, hs⟩ => (by cases hs), fun h => absurd ⟨h.1, h.2.1⟩ hid⟩, fun _ => e1, fun s hs => (by cases hs)⟩
    · have hmk : mkType n (d.map (·.1)) none ts = .error .invalid := by
        unfold mkType
        dsimp only
        rw [if_neg (by simpa using hlen), if_pos]
        have : (d.map (·.1)).all validName = false := by
          rw [Bool.eq_false_iff]
          intro h
          apply hv
          intro e he
          rw [List.all_eq_true] at h
          exact (validName_iff _).mp (h _ (List.mem_map.mpr ⟨e, he, rfl⟩))
        rw [this]; rfl
      rw [hmk]
      exact ⟨⟨fun ⟨s, hs⟩ => (by cases hs), fun h => absurd h.2.2.1 hv⟩, fun _ => rfl, fun s hs => (by cases hs)⟩
  · rw [unf]
    cases hi : inferAll d with
    | error e =>
      exact ⟨⟨fun ⟨s, hs⟩ => (by cases hs), fun h => absurd h.2.2.2 hd⟩, fun _ => rfl, fun s hs => (by cases hs)⟩
    | ok ts =>
      dsimp only
      have : ts.all (fun t => t.core.accepted) = false := by
        rw [Bool.eq_false_iff]
        intro ha
        have h := (inferAll_ok d ts).mp ⟨hi, ha⟩
        apply hd
        intro e he hn
        have : derived e.2 ∈ ts.map some := by rw [← h]; exact List.mem_map.mpr ⟨e, he, rfl⟩
        rw [hn] at this
        simp at this
      have hmk : mkType n (d.map (·.1)) none ts = .error .invalid := by
        unfold mkType
        dsimp only
        split
        · rfl
        split
        · rfl
        rw [this]; rfl
      rw [hmk]
      exact ⟨⟨fun ⟨s, hs⟩ => (by cases hs), fun h => absurd h.2.2.2 hd⟩, fun _ => rfl, fun s hs => (by cases hs)⟩

/-! Cases. -/

def nx : Name := ['x']
def ny : Name := ['y']
def nz : Name := ['z']
def nP : Name := ['P']
def nE : Name := ['E']
def nF : Name := ['F']

/-- A point: an integer without and a float with a default value. -/
def pointFields : TyL := .cons nx (.simple .int) (.atom .int 5) (.cons ny (.simple .float) (.atom .float 7) .nil)

def pointMgr : TMgr := { types := [(nP, .struct nP pointFields true)] }

example : Distinct pointFields := by decide +kernel

example : (mkStruct pointMgr nP (some [(ny, .atom .float 2)]) false).res =
    .ok (.struct nP pointFields true (.cons ny (.atom .float 2) (.cons nx (.atom .int 5) .nil))) := rfl

example : (mkStruct pointMgr nP none false).res =
    .ok (.struct nP pointFields true (.cons nx (.atom .int 5) (.cons ny (.atom .float 7) .nil))) := rfl

example : (mkStruct pointMgr nE (some [(nx, .atom .int 2), (ny, .null)]) true).res =
    .ok (.struct nE (.cons nx (.simple .int) .null (.cons ny (.simple .undef) .null .nil)) false
      (.cons nx (.atom .int 2) (.cons ny .null .nil))) := rfl

/-! ### C119 -/

/-- C119: every field of a new struct holds a value of its type, as long as no field is an
enumeration and the default values are of the types of their fields.  Missing: the values of
enumeration fields are not looked at beyond being some enumeration, and default values are
not looked at, see the violations. -/
theorem C119_fields_partial (m : TMgr) (n tn : Name) (fs : TyL) (b : Bool) (d : Dict) (frozen : Bool) (s : Val)
    (hm : m.types.lookup n = some (.struct tn fs b)) (hf : Distinct fs) (hk : Keys d)
    (hd : b = true → ∀ f ∈ fs.toList, Fits f.2.1 f.2.2)
    (he : ∀ f ∈ fs.toList, ∀ en vs, f.2.1 ≠ .enum en vs)
    (hs : (mkStruct m n (some d) frozen).res = .ok s) :
    ∀ f ∈ fs.toList, Fits f.2.1 (field s f.1) := by
  intro f hf'
  obtain ⟨h1, h2, h3⟩ := C118_created m n tn fs b d frozen hm hf hk
  obtain ⟨v, _, _, _, h4, _⟩ := h3 s hs
  have hl := (h2.mp ⟨s, hs⟩).2.1
  rw [h4 f hf']
  unfold want
  cases e : d.lookup f.1 with
  | none =>
    dsimp only
    cases b with
    | true => exact hd rfl f hf'
    | false => exact .null _
  | some x =>
    dsimp only
    have h := hl f hf' x (lookup_mem e)
    have hne := he f hf'
    generalize f.2.1 = t at h hne
    cases h with
    | fits _ _ h => exact h
    | enum n n' vs vs' s => exact absurd rfl (hne n vs)
    | odd n vs k => exact absurd rfl (hne n vs)

def enumMgr : TMgr := { types :=
  [(nE, .enum nE [(nx, 0), (ny, 1)]), (nP, .struct nP (.cons nx (.enum nE [(nx, 0), (ny, 1)]) .null .nil) false)] }

/-- C119, violation: a field with an enumeration type takes a value of another enumeration. -/
theorem C119_violation_enum : ∃ s, (mkStruct enumMgr nP (some [(nx, .enum nF [(nz, 4)] nz)]) false).res = .ok s ∧
    field s nx = .enum nF [(nz, 4)] nz ∧ ¬ Fits (.enum nE [(nx, 0), (ny, 1)]) (field s nx) := by
  refine ⟨_, rfl, rfl, ?_⟩
  intro h
  have e : field (.struct nP (.cons nx (.enum nE [(nx, 0), (ny, 1)]) .null .nil) false
      (.cons nx (.enum nF [(nz, 4)] nz) .nil)) nx = .enum nF [(nz, 4)] nz := rfl
  have h' : Fits (.enum nE [(nx, 0), (ny, 1)]) (.enum nF [(nz, 4)] nz) := h
  cases h'

/-- C119, violation: a struct type takes a text as the default value of an integer field, and
structs get it. -/
theorem C119_violation_default : ∃ t, mkType nP [nx] (some [.atom .string 1]) [.simple .int] = .ok t ∧
    ∃ s, (mkStruct (TMgr.add {} t).1 nP none false).res = .ok s ∧ field s nx = .atom .string 1 :=
  ⟨_, rfl, _, rfl, rfl⟩

/-- C119, violation: a struct type takes the same name for two fields; its structs have one. -/
theorem C119_violation_twice : ∃ t, mkType nP [nx, nx] none [.simple .int, .simple .int] = .ok t ∧
    ∃ s, (mkStruct (TMgr.add {} t).1 nP none false).res = .ok s ∧ order s = [nx] :=
  ⟨_, rfl, _, rfl, rfl⟩

/-- C119, violation: a creation that is refused has changed the dictionary of the caller. -/
theorem C119_violation_dictionary :
    (mkStruct pointMgr nP (some [(ny, .atom .string 1)]) false).res = .error .invalid ∧
    (mkStruct pointMgr nP (some [(ny, .atom .string 1)]) false).dict = [(ny, .atom .string 1), (nx, .atom .int 5)] :=
  ⟨rfl, rfl⟩

/-- C119, violation: a creation that succeeds has frozen the dictionary of the caller, so the
caller cannot use it for a second struct of another type with further fields. -/
theorem C119_violation_frozen :
    (mkStruct pointMgr nP (some [(nx, .atom .int 1)]) false).frozen = true ∧
    (mkStruct pointMgr nP (some [(nx, .atom .int 1)]) true).res = .error .frozen :=
  ⟨rfl, rfl⟩

example : Fits (.simple .int) (.atom .int 3) := .atom _ _

/-! ### C120 -/

theorem same_of_order {v v' : Dict} (hk : Keys v) (ho : v.map (·.1) = v'.map (·.1))
    (h : ∀ k, v.lookup k = v'.lookup k) : v = v' := by
  induction v generalizing v' with
  | nil => cases v' <;> simp_all
  | cons a v ih =>
    cases v' with
    | nil => simp at ho
    | cons b v' =>
      obtain ⟨k, x⟩ := a
      obtain ⟨k', x'⟩ := b
      simp only [List.map_cons, List.cons.injEq] at ho
      obtain ⟨rfl, ho⟩ := ho
      simp only [Keys, List.map_cons, List.nodup_cons] at hk
      have hx := h k
      simp only [List.lookup, beq_self_eq_true, Option.some.injEq] at hx
      subst hx
      congr 1
      apply ih hk.2 ho
      intro q
      have := h q
      by_cases e : q = k
      · subst e
        rw [lookup_none.mpr (by simpa using fun x hx => hk.1 (List.mem_map.mpr ⟨_, hx, rfl⟩)),
          lookup_none.mpr]
        intro hx
        apply hk.1
        rw [ho]
        exact hx
      · have hb : (q == k) = false := by simpa using e
        simpa only [List.lookup, hb] using this

/-- C120: comparing two structs, if it gives an answer, tells whether they have the same type,
the same value in every field and list their fields in the same order.  Missing: the order
should not matter, and there should always be an answer, see the violations. -/
theorem C120_equal_partial (n n' : Name) (fs fs' : TyL) (b b' : Bool) (v v' : ValL) (hk : Keys v.toList) :
    sameStruct (.struct n fs b v) (.struct n' fs' b' v') = some true ↔
      SameFields (.struct n fs b v) (.struct n' fs' b' v') ∧
      order (.struct n fs b v) = order (.struct n' fs' b' v') := by
  have h : sameStruct (.struct n fs b v) (.struct n' fs' b' v') = some true ↔
      Val.struct n fs b v = .struct n' fs' b' v' := sameVal_iff true _ _
  rw [h]
  simp only [SameFields, order, Val.struct.injEq]
  constructor
  · rintro ⟨h1, h2, h3, h4⟩
    rw [h4]
    exact ⟨⟨h1, h2, h3, fun _ => rfl⟩, rfl⟩
  · rintro ⟨⟨h3, h4, h5, h6⟩, h7⟩
    have := same_of_order hk h7 h6
    have := congrArg ValL.ofList this
    rw [ValL.of_to, ValL.of_to] at this
    exact ⟨h3, h4, h5, this⟩

/-- C120: equality compares nothing but the content: the answer is yes exactly for structs
with the same content, so equality is reflexive, symmetric and transitive; in particular a
struct can always be compared with itself or with a copy. -/
theorem C120_same (a b : Val) : sameStruct a b = some true ↔ a = b ∧ ∃ n fs d v, a = .struct n fs d v := by
  constructor
  · intro h
    cases a <;> cases b <;> first | (simp only [sameStruct] at h; cases h; done) | skip
    exact ⟨(sameVal_iff true _ _).mp h, _, _, _, _, rfl⟩
  · rintro ⟨rfl, n, fs, d, v, rfl⟩
    exact (sameVal_iff true _ _).mpr rfl

/-- C120: the same for types. -/
theorem C120_types (a b : Ty) : sameTy true a b = some true ↔ a = b := sameTy_iff true a b

/-- C120, violation: comparing two structs of the same type crashes when a field of one of
them is null and that of the other is a number, whichever of them is asked. -/
theorem C120_violation_null : ∃ a b,
    (mkStruct pointMgr nP (some [(nx, .null)]) false).res = .ok a ∧
    (mkStruct pointMgr nP (some [(nx, .atom .int 1)]) false).res = .ok b ∧
    sameStruct a b = none ∧ sameStruct b a = none :=
  ⟨_, _, rfl, rfl, by decide +kernel, by decide +kernel⟩

/-- C120, violation: so does comparing two struct types that differ in a default value that
is null in one of them; adding the second to a type manager that has the first is enough. -/
theorem C120_violation_type : (TMgr.add pointMgr
    (.struct nP (.cons nx (.simple .int) .null (.cons ny (.simple .float) (.atom .float 7) .nil)) true)).2 = some .crash := by
  decide +kernel

/-- C120, violation: two structs of the same type with the same value in every field are not
equal, because the fields were given in another order. -/
theorem C120_violation_order : ∃ a b,
    (mkStruct pointMgr nP (some [(nx, .atom .int 1), (ny, .atom .float 2)]) false).res = .ok a ∧
    (mkStruct pointMgr nP (some [(ny, .atom .float 2), (nx, .atom .int 1)]) false).res = .ok b ∧
    SameFields a b ∧ sameStruct a b = some false := by
  refine ⟨_, _, rfl, rfl, ⟨rfl, rfl, rfl, ?_⟩, by decide +kernel⟩
  intro k
  show List.lookup k [(nx, Val.atom .int 1), (ny, Val.atom .float 2)] =
    List.lookup k [(ny, Val.atom .float 2), (nx, Val.atom .int 1)]
  by_cases h1 : k = nx
  · subst h1; decide +kernel
  · by_cases h2 : k = ny
    · subst h2; decide +kernel
    · have a1 : (k == nx) = false := by simpa using h1
      have a2 : (k == ny) = false := by simpa using h2
      simp only [List.lookup, a1, a2]

end Verif.Types.Props
