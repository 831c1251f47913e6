import Verif.Descr.Spec
import Mathlib.Data.List.Nodup

/-!
# Helper lemmas about data descriptors
-/

namespace Verif.Descr

open Spec

theorem find_iff {p : Params} (hp : Distinct p) (k : String) (v : PVal) :
    p.find k = some v ↔ (k, v) ∈ p := by
  unfold Params.find
  induction p with
  | nil => simp
  | cons a p ih =>
    obtain ⟨k', v'⟩ := a
    have hp' : Distinct p := (List.nodup_cons.mp hp).2
    have hk : k' ∉ p.map (·.1) := (List.nodup_cons.mp hp).1
    by_cases h : k' = k
    · subst h
      simp only [List.find?_cons, BEq.rfl, Option.map_some, Option.some.injEq, List.mem_cons,
        Prod.mk.injEq, true_and]
      refine ⟨fun h => Or.inl h.symm, fun h => ?_⟩
      rcases h with h | h
      · exact h.symm
      · exact absurd (List.mem_map.mpr ⟨_, h, rfl⟩) hk
    · have hb : (k' == k) = false := by simpa using h
      have hne : ¬ k = k' := fun e => h e.symm
      rw [List.find?_cons]
      simp only [hb, List.mem_cons, Prod.mk.injEq, hne, false_and, false_or]
      exact ih hp'

theorem number_iff {p : Params} (hp : Distinct p) (k : String) :
    p.number k = true ↔ NumberAt p k := by
  unfold Params.number NumberAt
  simp only [← find_iff hp]
  cases p.find k with
  | none => simp
  | some v =>
    cases v with
    | labels l => simp [PVal.isNumber]
    | leaf l => cases l <;> simp [PVal.isNumber, Leaf.isNumber]

theorem labelsValid_cons (a : Leaf) (l : List Leaf) : labelsValid (a :: l) = true ↔
    a.labelKind ≠ .none ∧ ∀ x ∈ a :: l, x.labelKind = a.labelKind := by
  change (if a.labelKind = .none then false
    else (a :: l).all (fun b => b.labelKind = a.labelKind)) = true ↔ _
  split
  · next h => simp [h]
  · next h => rw [List.all_eq_true]; simp [h]

theorem kind_string (x : Leaf) : x.labelKind = .string ↔ ∃ s, x = .str s := by
  cases x <;> simp [Leaf.labelKind]

theorem kind_number (x : Leaf) : x.labelKind = .number ↔ (∃ i, x = .int i) ∨ ∃ w r, x = .flt w r := by
  cases x <;> simp [Leaf.labelKind]

theorem kind_range (x : Leaf) : x.labelKind = .range ↔ ∃ a b, x = .range a b := by
  cases x <;> simp [Leaf.labelKind]

theorem labelsValid_iff (l : List Leaf) : labelsValid l = true ↔ OneKind l := by
  cases l with
  | nil => simp [labelsValid, OneKind]
  | cons a l =>
    rw [labelsValid_cons]
    unfold OneKind
    simp only [← kind_string, ← kind_number, ← kind_range]
    constructor
    · rintro ⟨h1, h2⟩
      cases hk : a.labelKind with
      | none => exact absurd hk h1
      | string => rw [hk] at h2; exact Or.inl h2
      | number => rw [hk] at h2; exact Or.inr (Or.inl h2)
      | range => rw [hk] at h2; exact Or.inr (Or.inr h2)
    · rintro (h | h | h)
      all_goals
        have ha := h a (List.mem_cons_self ..)
        rw [ha]
        exact ⟨by simp, h⟩

theorem dimRule_ok_iff {r : DimRule} (hp : Distinct r.params) : r.ok = true ↔ DimParams r := by
  obtain ⟨k, p⟩ := r
  cases k with
  | other => simp [DimRule.ok, DimParams]
  | linear => simp [DimRule.ok, DimParams, number_iff hp, and_assoc]
  | logarithmic => simp [DimRule.ok, DimParams, number_iff hp, and_assoc]
  | list =>
    simp only [DimRule.ok, DimParams]
    simp only [← find_iff hp, ← labelsValid_iff]
    cases h : p.find "List" with
    | none => simp
    | some v => cases v <;> simp

theorem rule_ok_iff {r : Rule} (hp : ∀ p, r.params = some p → Distinct p) :
    r.ok = true ↔ RuleParams r := by
  obtain ⟨k, p⟩ := r
  cases p with
  | none => cases k <;> simp [Rule.ok, RuleParams]
  | some p =>
    cases k with
    | other => simp [Rule.ok, RuleParams]
    | explicit => simp [Rule.ok, RuleParams]
    | constant => simp [Rule.ok, RuleParams, List.length_eq_zero_iff]
    | linear => simp [Rule.ok, RuleParams, number_iff (hp p rfl), and_assoc]

theorem real_iff (t : SampleType) : (t.code ≤ 10 ∧ t ≠ .invalid) ↔ Real t := by
  cases t <;> simp [SampleType.code, Real]

theorem scaling_ok_iff {s : Scaling} (hp : Distinct s.params) : s.ok = true ↔ ScalingParams s := by
  have hr : ¬ (10 < s.input.code) ↔ (Real s.input ∨ s.input = .invalid) := by
    cases s.input <;> simp [SampleType.code, Real]
  unfold Scaling.ok ScalingParams
  rw [← hr, ← number_iff hp, ← number_iff hp]
  change (if 10 < s.input.code then _ else _) = true ↔ _
  split
  · next h => simp [h]
  · next h =>
    split
    · next h' => simp [h, h', and_assoc]
    · next h' => simp [h, h']

theorem partsOk_iff {b : Base} (hd : Dicts b) : b.partsOk = true ↔ Parts b := by
  obtain ⟨h1, h2, h3⟩ := hd
  unfold Base.partsOk Parts
  rw [Bool.and_eq_true, Bool.and_eq_true, List.all_eq_true, and_assoc]
  refine and_congr ?_ (and_congr ?_ ?_)
  · exact ⟨fun h d hd => (dimRule_ok_iff (h1 d hd)).mp (h d hd),
      fun h d hd => (dimRule_ok_iff (h1 d hd)).mpr (h d hd)⟩
  · cases hr : b.rule with
    | none => simp
    | some r => simpa using rule_ok_iff (fun p hp => h2 r p hr hp)
  · cases hs : b.scaling with
    | none => simp
    | some s => simpa using scaling_ok_iff (h3 s hs)

/-! ## Sizes of dimensions -/

theorem size_isSome {d : Dim} (ho : d.rule.ok = true) : (∃ n, d.size = some n) ↔ d.rule.kind ≠ .other := by
  obtain ⟨nm, u, k, p⟩ := d
  cases k with
  | other => simp [Dim.size]
  | linear =>
    have hn : p.number "size" = true := by simp [DimRule.ok] at ho; exact ho.2
    unfold Params.number at hn
    simp only [Dim.size, ho, if_true]
    cases hf : p.find "size" with
    | none => simp [hf] at hn
    | some v =>
      cases v with
      | leaf l => simp
      | labels l => simp [hf, PVal.isNumber] at hn
  | logarithmic =>
    have hn : p.number "size" = true := by simp [DimRule.ok] at ho; exact ho.1.2
    unfold Params.number at hn
    simp only [Dim.size, ho, if_true]
    cases hf : p.find "size" with
    | none => simp [hf] at hn
    | some v =>
      cases v with
      | leaf l => simp
      | labels l => simp [hf, PVal.isNumber] at hn
  | list =>
    have hn := ho
    simp only [DimRule.ok] at hn
    simp only [Dim.size, ho, if_true]
    cases hf : p.find "List" with
    | none => simp [hf] at hn
    | some v =>
      cases v with
      | leaf l => simp [hf] at hn
      | labels l => simp

theorem foldlM_size (ds : List Dim) (a : Nat) :
    (∃ n, ds.foldlM (fun n d => d.size.map fun s => n * s % 2 ^ 64) a = some n) ↔
      ∀ d ∈ ds, ∃ n, d.size = some n := by
  induction ds generalizing a with
  | nil => simp
  | cons d ds ih =>
    rw [List.foldlM_cons]
    cases hs : d.size with
    | none =>
      simp [hs]
    | some s =>
      simp only [Option.map_some, Option.bind_eq_bind, Option.bind_some, ih, List.mem_cons,
        forall_eq_or_imp, hs, Option.some.injEq, exists_eq', true_and]

theorem elementCount_isSome {b : Base} (ho : ∀ d ∈ b.dims, d.rule.ok = true) :
    (∃ n, elementCount b.dims = some n) ↔ ∀ d ∈ b.dims, d.rule.kind ≠ .other := by
  unfold elementCount
  rw [foldlM_size]
  exact ⟨fun h d hd => (size_isSome (ho d hd)).mp (h d hd),
    fun h d hd => (size_isSome (ho d hd)).mpr (h d hd)⟩

/-! ## What is checked -/

theorem checkStruct_iff (b : Base) : checkStruct b = .ok () ↔ Record b := by
  unfold checkStruct Record
  cases hr : b.rule with
  | none => simp
  | some r =>
    simp only [beq_iff_eq, Option.some.injEq, exists_eq_left']
    have hn : (∃ n, b.name = some n ∧ n ≠ "") ↔ (b.name ≠ none ∧ b.name ≠ some "") := by
      cases b.name <;> simp
    rw [hn]
    split
    · next h => simp [h]
    · next h =>
      refine ⟨fun e => (by cases e), fun e => absurd e h⟩

theorem checkScaling_iff (b : Base) (r : Rule) (hr : b.rule = some r) :
    (checkScaling b r = .ok ()) ↔ ∀ s, b.scaling = some s → b.sampleType = s.output.toSample ∧
      r.kind = .explicit ∧ b.resolution = none ∧ b.origin = some "" ∧ b.dims = [] := by
  unfold checkScaling
  cases hs : b.scaling with
  | none => simp
  | some s =>
    simp only [Option.some.injEq, forall_eq']
    by_cases h1 : b.sampleType = s.output.toSample <;>
    by_cases h2 : r.kind = .explicit <;>
    by_cases h3 : b.resolution = none <;>
    by_cases h4 : b.origin = some "" <;>
    by_cases h5 : b.dims = [] <;> simp [h1, h2, h3, h4, h5]

theorem checkRef_iff (b : Base) (r : Rule) :
    (checkRef b r = .ok ()) ↔ ∀ i, b.refInfo = some i → r.kind ≠ .constant ∧ b.scaling = none ∧
      ∀ o, i.offset = some o → o ≠ 0 → b.sampleType.code < 11 := by
  unfold checkRef
  cases hi : b.refInfo with
  | none => simp
  | some i =>
    simp only [Option.some.injEq, forall_eq']
    have hc : SampleType.rangeInt64.code = 11 := rfl
    rw [hc]
    cases ho : i.offset with
    | none =>
      by_cases h2 : r.kind = .constant <;> by_cases h3 : b.scaling = none <;> simp [h2, h3]
    | some o =>
      by_cases h1 : o = 0 <;> by_cases h0 : 11 ≤ b.sampleType.code <;>
      by_cases h2 : r.kind = .constant <;> by_cases h3 : b.scaling = none <;>
      simp [h1, h2, h3, h0] <;> omega

theorem checkCalcs_iff (b : Base) (r : Rule) :
    (checkCalcs b r = .ok ()) ↔
      ((r.kind = .constant ∨ r.kind = .linear) → b.sampleType.hasRuleCalc = true) ∧
      ∀ s, b.scaling = some s → s.hasCalc = true := by
  unfold checkCalcs
  cases hs : b.scaling with
  | none =>
    by_cases h1 : r.kind = .constant <;> by_cases h2 : r.kind = .linear <;>
    cases h3 : b.sampleType.hasRuleCalc <;> simp [h1, h2, h3]
  | some s =>
    by_cases h1 : r.kind = .constant <;> by_cases h2 : r.kind = .linear <;>
    cases h3 : b.sampleType.hasRuleCalc <;> cases h4 : s.hasCalc <;> simp [h1, h2, h3, h4]

theorem hasRuleCalc_iff (t : SampleType) : t.hasRuleCalc = true ↔ Real t ∨ t = .rangeInt64 := by
  cases t <;> simp [SampleType.hasRuleCalc, Real]

theorem code_lt_iff (t : SampleType) : t.code < 11 ↔ Real t ∨ t = .invalid := by
  cases t <;> simp [SampleType.code, Real]

theorem toSample_iff (s : Scaling) (t : SampleType) :
    (t = s.output.toSample ∧ s.hasCalc = true) ↔
      (((s.output = .float32 ∧ t = .float32) ∨ (s.output = .float64 ∧ t = .float64)) ∧
        Real s.input) := by
  obtain ⟨i, o, l, p⟩ := s
  cases o <;> cases i <;> simp [ScaledType.toSample, Scaling.hasCalc, SampleType.code, Real]

theorem ok_bind {ε α : Type} (a : Except ε Unit) (f : Unit → Except ε α) (x : α) :
    (a.bind f = .ok x) ↔ (a = .ok () ∧ f () = .ok x) := by
  cases a with
  | error e => simp [Except.bind]
  | ok u => cases u; simp [Except.bind]

theorem checkPlain_iff (b : Base) : checkPlain b = .ok () ↔ Plain b := by
  unfold checkPlain Plain
  cases hr : b.rule with
  | none => simp
  | some r =>
    simp only [Option.some.injEq, exists_eq_left']
    change ((checkScaling b r).bind _ = _) ↔ _
    rw [ok_bind]
    have hc : SampleType.rangeInt64.code = 11 := rfl
    rw [hc, checkScaling_iff b r hr]
    by_cases hl : r.kind = .linear ∧ 11 < b.sampleType.code
    · rw [if_pos hl]
      constructor
      · rintro ⟨_, h⟩; cases h
      · rintro ⟨_, h, _⟩
        have := h (Or.inl hl.1)
        exfalso
        have h2 := hl.2
        revert this h2
        cases b.sampleType <;> simp [SampleType.code, Real]
    · rw [if_neg hl]
      change (_ ∧ (checkRef b r).bind (fun _ => checkCalcs b r) = _) ↔ _
      rw [ok_bind, checkRef_iff, checkCalcs_iff]
      simp only [hasRuleCalc_iff, code_lt_iff]
      constructor
      · rintro ⟨h1, h2, h3, h4⟩
        refine ⟨fun s hs => ?_, fun h => h3 h.symm, fun i hi => ⟨(h2 i hi).1, (h2 i hi).2.2⟩⟩
        obtain ⟨a1, a2, a3, a4, a5⟩ := h1 s hs
        have := (toSample_iff s b.sampleType).mp ⟨a1, h4 s hs⟩
        refine ⟨this.1, this.2, ⟨r, hr, a2⟩, a3, a4, a5, ?_⟩
        cases hi : b.refInfo with
        | none => rfl
        | some i =>
          have := (h2 i hi).2.1
          rw [hs] at this; cases this
      · rintro ⟨h1, h2, h3⟩
        refine ⟨fun s hs => ?_, fun i hi => ⟨(h3 i hi).1, ?_, (h3 i hi).2⟩,
          fun h => h2 h.symm, fun s hs => ?_⟩
        · obtain ⟨a1, a2, ⟨r', hr', a3⟩, a4, a5, a6, a7⟩ := h1 s hs
          rw [hr] at hr'; cases hr'
          exact ⟨((toSample_iff s _).mpr ⟨a1, a2⟩).1, a3, a4, a5, a6⟩
        · cases hs : b.scaling with
          | none => rfl
          | some s =>
            have := (h1 s hs).2.2.2.2.2.2
            rw [hi] at this; cases this
        · exact ((toSample_iff s _).mpr ⟨(h1 s hs).1, (h1 s hs).2.1⟩).2

/-! ## What can be built -/

theorem construct_ok (b : Base) (l : List Sizes) :
    (∃ s, construct b l = .ok s) ↔
      ((if l = [] then checkPlain b else checkStruct b) = .ok ()) ∧
        ∃ n, elementCount b.dims = some n := by
  unfold construct
  simp only [ok_bind]
  rw [exists_and_left]
  refine and_congr Iff.rfl ?_
  cases elementCount b.dims with
  | none => simp
  | some n =>
    by_cases hl : l = [] <;> simp [hl]

theorem build_length : ∀ (ts : Trees) (l : List Sizes), ts.build = .ok l → (l = [] ↔ ts = .nil)
  | .nil, l, h => by simp [Trees.build] at h; subst h; simp
  | .cons t ts, l, h => by
    simp only [Trees.build] at h
    cases h1 : t.build with
    | error e => rw [h1] at h; cases h
    | ok s =>
      rw [h1] at h
      cases h2 : ts.build with
      | error e => rw [h2] at h; cases h
      | ok l' => rw [h2] at h; cases h; simp

theorem parts_dims {b : Base} (h : b.partsOk = true) : ∀ d ∈ b.dims, d.rule.ok = true := by
  unfold Base.partsOk at h
  rw [Bool.and_eq_true, Bool.and_eq_true, List.all_eq_true] at h
  exact h.1.1

mutual
theorem build_iff : ∀ (t : Tree), AllDicts t → ((∃ s, t.build = .ok s) ↔ Buildable t)
  | .mk b fs, hd => by
    have ih := buildF_iff fs hd.2
    simp only [Tree.build, Buildable]
    rw [← ih, ← partsOk_iff hd.1]
    cases hf : fs.build with
    | error e => simp
    | ok l =>
      simp only [Except.ok.injEq, exists_eq', true_and]
      by_cases hp : b.partsOk = true
      · rw [if_pos hp, construct_ok, elementCount_isSome (parts_dims hp)]
        have hl := build_length fs l hf
        cases fs with
        | nil => simp [hl, checkPlain_iff, hp, and_comm]
        | cons t ts =>
          have : ¬ l = [] := fun h => by simpa using hl.mp h
          simp [this, checkStruct_iff, hp, and_comm]
      · simp [hp]
theorem buildF_iff : ∀ (ts : Trees), AllDictsF ts → ((∃ l, ts.build = .ok l) ↔ BuildableF ts)
  | .nil, _ => by simp [Trees.build, BuildableF]
  | .cons t ts, hd => by
    have h1 := build_iff t hd.1
    have h2 := buildF_iff ts hd.2
    simp only [Trees.build, BuildableF]
    rw [← h1, ← h2]
    cases t.build with
    | error e => simp
    | ok s =>
      cases ts.build with
      | error e => simp
      | ok l => simp
end

/-! ## Sizes -/

theorem bytes_size (t : SampleType) : Bytes t t.size := by
  cases t
  all_goals first
    | exact .b1 (by simp) | exact .b2 (by simp) | exact .b4 (by simp) | exact .b8 (by simp)
    | exact .b16 (by simp) | exact .b0 (by simp)

theorem bytes_eq {t : SampleType} {n : Nat} (h : Bytes t n) : t.size = n := by
  cases h with
  | b1 h => rcases h with rfl | rfl <;> rfl
  | b2 h => rcases h with rfl | rfl <;> rfl
  | b4 h => rcases h with rfl | rfl | rfl <;> rfl
  | b8 h => rcases h with rfl | rfl | rfl | rfl <;> rfl
  | b16 h => rcases h with rfl | rfl <;> rfl
  | b0 h => rcases h with rfl | rfl | rfl | rfl | rfl <;> rfl

theorem toSize_int (n : Nat) : (Leaf.int n).toSize = n % 2 ^ 64 := by
  simp only [Leaf.toSize]
  generalize hm : (2 : Int) ^ 64 = m
  have : m = ((2 ^ 64 : Nat) : Int) := by rw [← hm]; rfl
  rw [this]
  generalize (2 : Nat) ^ 64 = k
  omega

theorem labels_size {d : Dim} {n : Nat} (hp : Distinct d.rule.params) (ho : d.rule.ok = true)
    (h : Labels d n) : ∃ m, d.size = some m ∧ m % 2 ^ 64 = n % 2 ^ 64 := by
  obtain ⟨nm, u, k, p⟩ := d
  rcases h with ⟨hk, h⟩ | ⟨hk, l, h, hl⟩
  · have hf := (find_iff hp _ _).mpr h
    dsimp only at hf hk
    rcases hk with rfl | rfl
    · refine ⟨(Leaf.int n).toSize, ?_, ?_⟩
      · simp only [Dim.size, ho, if_true, hf]
      · rw [toSize_int, Nat.mod_mod]
    · refine ⟨(Leaf.int n).toSize, ?_, ?_⟩
      · simp only [Dim.size, ho, if_true, hf]
      · rw [toSize_int, Nat.mod_mod]
  · have hf := (find_iff hp _ _).mpr h
    dsimp only at hf hk
    subst hk
    refine ⟨l.length, ?_, by rw [hl]⟩
    simp only [Dim.size, ho, if_true, hf]

theorem elements_fold {ds : List Dim} (hp : ∀ d ∈ ds, Distinct d.rule.params)
    (ho : ∀ d ∈ ds, d.rule.ok = true) {n : Nat} (h : Elements ds n) (a : Nat) :
    ∃ m, ds.foldlM (fun n d => d.size.map fun s => n * s % 2 ^ 64) a = some m ∧
      m % 2 ^ 64 = a * n % 2 ^ 64 := by
  induction h generalizing a with
  | nil => exact ⟨a, rfl, by rw [Nat.mul_one]⟩
  | @cons d ds n m h hs ih =>
    obtain ⟨k, hk, hkn⟩ := labels_size (hp d (List.mem_cons_self ..)) (ho d (List.mem_cons_self ..)) h
    obtain ⟨r, hr, hrm⟩ := ih (fun d hd => hp d (List.mem_cons_of_mem _ hd))
      (fun d hd => ho d (List.mem_cons_of_mem _ hd)) (a * k % 2 ^ 64)
    refine ⟨r, ?_, ?_⟩
    · rw [List.foldlM_cons, hk]
      exact hr
    · rw [hrm]
      generalize 2 ^ 64 = M at *
      rw [← Nat.mul_assoc, Nat.mod_mul_mod (a * k) m M, Nat.mul_mod (a * k) m M, Nat.mul_mod a k M, hkn,
        ← Nat.mul_mod a n M, ← Nat.mul_mod (a * n) m M]

theorem fold_lt (d : Dim) (ds : List Dim) (a m : Nat)
    (hm : (d :: ds).foldlM (fun n d => d.size.map fun s => n * s % 2 ^ 64) a = some m) :
    m < 2 ^ 64 := by
  induction ds generalizing d a with
  | nil =>
    rw [List.foldlM_cons] at hm
    cases hd : d.size with
    | none => rw [hd] at hm; cases hm
    | some s =>
      rw [hd] at hm
      simp only [Option.map_some, Option.bind_eq_bind, Option.bind_some, List.foldlM_nil] at hm
      cases hm
      exact Nat.mod_lt _ (Nat.two_pow_pos 64)
  | cons d' ds ih =>
    rw [List.foldlM_cons] at hm
    cases hd : d.size with
    | none => rw [hd] at hm; cases hm
    | some s =>
      rw [hd] at hm
      exact ih _ _ hm

theorem elements_lt {ds : List Dim} (hp : ∀ d ∈ ds, Distinct d.rule.params)
    (ho : ∀ d ∈ ds, d.rule.ok = true) {n : Nat} (h : Elements ds n) :
    ∃ m, elementCount ds = some m ∧ m = n % 2 ^ 64 := by
  obtain ⟨m, hm, hmn⟩ := elements_fold hp ho h 1
  refine ⟨m, hm, ?_⟩
  rw [Nat.one_mul] at hmn
  rw [← hmn]
  refine (Nat.mod_eq_of_lt ?_).symm
  clear hmn
  cases h with
  | nil =>
    simp only [List.foldlM_nil] at hm
    cases hm
    exact Nat.one_lt_two_pow (by decide)
  | cons h hs => exact fold_lt _ _ _ _ hm

theorem nonEmpty_pos {ds : List Dim} (hp : ∀ d ∈ ds, Distinct d.rule.params) {n : Nat}
    (h : Elements ds n) (hn : NonEmpty ds) : 0 < n := by
  induction h with
  | nil => exact Nat.one_pos
  | @cons d ds n m h hs ih =>
    cases hn with
    | @cons _ _ n' h' hn' hs' =>
      have hd := hp d (List.mem_cons_self ..)
      have : n' = n := by
        rcases h with ⟨hk, h⟩ | ⟨hk, l, h, hl⟩
        · rcases h' with ⟨_, h'⟩ | ⟨hk', _⟩
          · have a := (find_iff hd _ _).mpr h
            rw [(find_iff hd _ _).mpr h'] at a
            have : (n' : Int) = n := by simpa using a
            omega
          · rw [hk'] at hk; simp at hk
        · rcases h' with ⟨hk', _⟩ | ⟨_, l', h', hl'⟩
          · rw [hk] at hk'; simp at hk'
          · have a := (find_iff hd _ _).mpr h
            rw [(find_iff hd _ _).mpr h'] at a
            cases a
            omega
      subst this
      exact Nat.mul_pos hn' (ih (fun d hd => hp d (List.mem_cons_of_mem _ hd)) hs')

/-- The factor the code uses is the number of elements, if nothing overflows. -/
theorem factor (e n M : Nat) (hM : 0 < M) (hn : 0 < n) (hlt : e * n < M) :
    e * nonzero (n % M) % M = e * n := by
  rcases Nat.eq_zero_or_pos e with rfl | he
  · simp
  · have hnM : n < M := Nat.lt_of_le_of_lt (Nat.le_mul_of_pos_left n he) hlt
    rw [Nat.mod_eq_of_lt hnM]
    unfold nonzero
    rw [if_neg (by omega), Nat.mod_eq_of_lt hlt]

theorem foldl_sum (l : List Nat) (a M : Nat) (hlt : a + l.sum < M) :
    l.foldl (fun a s => (a + s) % M) a = a + l.sum := by
  induction l generalizing a with
  | nil => simp
  | cons x l ih =>
    rw [List.sum_cons] at hlt
    rw [List.foldl_cons, Nat.mod_eq_of_lt (by omega), ih _ (by omega), List.sum_cons]
    omega

mutual
theorem fills_size : ∀ (t : Tree) (n k : Nat) (s : Sizes), AllDicts t → Fills t n k → n < 2 ^ 64 →
    k < 2 ^ 64 → t.build = .ok s → s.sample = n ∧ s.raw = k
  | .mk b .nil, n, k, s, hd, hf, hn, hk, hb => by
    cases hf with
    | @plain _ e m k hbt hm hp hkk =>
      simp only [Tree.build, Trees.build] at hb
      by_cases hpo : b.partsOk = true
      · rw [if_pos hpo] at hb
        unfold construct at hb
        rw [ok_bind] at hb
        obtain ⟨c, hc, hce⟩ := elements_lt hd.1.1 (parts_dims hpo) hm
        have hpos := nonEmpty_pos hd.1.1 hm hp
        have hb := hb.2
        rw [hc] at hb
        simp only [if_true] at hb
        cases hb
        have hte := bytes_eq hbt
        refine ⟨?_, ?_⟩
        · simp only [plainSize, hte, hce]
          exact factor e m _ (Nat.two_pow_pos 64) hpos hn
        · rcases hkk with ⟨r, hr, hrk, rfl⟩ | ⟨r, hr, hrk, hkk⟩
          · simp [plainSize, hr, hrk]
          · rcases hkk with ⟨hs, rfl⟩ | ⟨sc, hs, hb'⟩
            · simp only [plainSize, hr, hrk, hs, hte, hce]
              rw [if_neg (by simp)]
              exact factor _ m _ (Nat.two_pow_pos 64) hpos hk
            · simp only [plainSize, hr, hrk, hs, bytes_eq hb', hce]
              rw [if_neg (by simp)]
              exact factor _ m _ (Nat.two_pow_pos 64) hpos hk
      · rw [if_neg hpo] at hb; cases hb
  | .mk b (.cons t ts), n, k, s, hd, hf, hn, hk, hb => by
    cases hf with
    | @record _ _ _ e k m hfs hm hp =>
      rw [Tree.build] at hb
      cases hl : (Trees.cons t ts).build with
      | error e => rw [hl] at hb; cases hb
      | ok l =>
        rw [hl] at hb
        dsimp only at hb
        by_cases hpo : b.partsOk = true
        · rw [if_pos hpo] at hb
          have hpos := nonEmpty_pos hd.1.1 hm hp
          have he : e < 2 ^ 64 := Nat.lt_of_le_of_lt (Nat.le_mul_of_pos_right e hpos) hn
          have hkl : k < 2 ^ 64 := Nat.lt_of_le_of_lt (Nat.le_mul_of_pos_right k hpos) hk
          have ih := fillsF_size (.cons t ts) e k l hd.2 hfs he hkl hl
          have hne : ¬ l = [] := fun h => by simpa using (build_length _ l hl).mp h
          unfold construct at hb
          rw [ok_bind] at hb
          obtain ⟨c, hc, hce⟩ := elements_lt hd.1.1 (parts_dims hpo) hm
          have hb := hb.2
          rw [hc] at hb
          simp only [if_neg hne] at hb
          cases hb
          dsimp only
          rw [foldl_sum _ 0 _ (by rw [ih.1]; omega), foldl_sum _ 0 _ (by rw [ih.2]; omega), ih.1,
            ih.2, hce, Nat.zero_add, Nat.zero_add]
          exact ⟨factor e m _ (Nat.two_pow_pos 64) hpos hn, factor k m _ (Nat.two_pow_pos 64) hpos hk⟩
        · rw [if_neg hpo] at hb; cases hb
theorem fillsF_size : ∀ (ts : Trees) (n k : Nat) (l : List Sizes), AllDictsF ts → FillsF ts n k →
    n < 2 ^ 64 → k < 2 ^ 64 → ts.build = .ok l →
    (l.map (·.sample)).sum = n ∧ (l.map (·.raw)).sum = k
  | .nil, n, k, l, _, hf, _, _, hb => by
    cases hf
    simp only [Trees.build] at hb
    cases hb
    exact ⟨rfl, rfl⟩
  | .cons t ts, n, k, l, hd, hf, hn, hk, hb => by
    cases hf with
    | @cons _ _ e k e' k' h hs =>
      rw [Trees.build] at hb
      cases h1 : t.build with
      | error e => rw [h1] at hb; cases hb
      | ok s =>
        rw [h1] at hb
        cases h2 : ts.build with
        | error e => rw [h2] at hb; cases hb
        | ok l' =>
          rw [h2] at hb
          cases hb
          have a := fills_size t e k s hd.1 h (by omega) (by omega) h1
          have c := fillsF_size ts e' k' l' hd.2 hs (by omega) (by omega) h2
          simp only [List.map_cons, List.sum_cons]
          omega
end

end Verif.Descr
