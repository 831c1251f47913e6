import Verif.Descr.Proofs

/-!
# Helper lemmas: writing and reading, and descriptors in memory
-/

namespace Verif.Descr

open Spec

/-! ## Writing and reading -/

theorem sampleType_code (t : SampleType) : SampleType.ofCode t.code = some t := by
  cases t <;> rfl

theorem dimKind_code (k : DimKind) : DimKind.ofCode k.code = some k := by cases k <;> rfl

theorem ruleKind_code (k : RuleKind) : RuleKind.ofCode k.code = some k := by cases k <;> rfl

theorem scaledType_code (k : ScaledType) : ScaledType.ofCode k.code = some k := by cases k <;> rfl

theorem loadAll_leaf (l : List Leaf) : loadAll Doc.asLeaf (l.map .leaf) = some l := by
  induction l with
  | nil => rfl
  | cons a l ih => simp [loadAll, ih, Doc.asLeaf]

theorem pval_load (v : PVal) : PVal.load v.save = some v := by
  cases v with
  | leaf l => rfl
  | labels l => simp [PVal.save, PVal.load, loadAll_leaf]

theorem params_load (p : Params) : Params.load p.save = some p := by
  unfold Params.save Params.load
  induction p with
  | nil => rfl
  | cons a p ih =>
    have ih : loadVals PVal.load (p.map fun e => (e.1, e.2.save)) = some p := ih
    change loadVals PVal.load ((a.1, a.2.save) :: p.map fun e => (e.1, e.2.save)) = _
    simp only [loadVals, pval_load, ih]

theorem dimRule_load (r : DimRule) (h : r.ok = true) : DimRule.load r.save = some r := by
  unfold DimRule.save DimRule.load getInt getParams Doc.get
  simp [dimKind_code, params_load, h]

theorem rule_load {r : Rule} (h : r.ok = true) {x : Doc} (hx : r.save = some x) :
    Rule.load x = some r := by
  obtain ⟨k, p⟩ := r
  cases p with
  | none => simp [Rule.save] at hx
  | some p =>
    simp only [Rule.save, Option.map_some, Option.some.injEq] at hx
    subst hx
    unfold Rule.load getInt getParams Doc.get
    simp [ruleKind_code, params_load, h]

theorem scaling_load (s : Scaling) (h : s.ok = true) : Scaling.load s.save = some s := by
  obtain ⟨i, o, l, p⟩ := s
  unfold Scaling.save Scaling.load getInt getParams Doc.get
  cases l <;> simp [scaledType_code, sampleType_code, params_load, h]

theorem refInfo_load (i : RefInfo) : RefInfo.load i.save = some i := by
  obtain ⟨d, o, p, u⟩ := i
  cases d <;> cases o <;> simp [RefInfo.save, RefInfo.load, optKey, getInt, getStr, Doc.get]

theorem dim_load {d : Dim} (h : d.rule.ok = true) {x : Doc} (hx : d.save = some x) :
    Dim.load x = some d := by
  obtain ⟨n, u, r⟩ := d
  cases n with
  | none => simp [Dim.save] at hx
  | some n =>
    simp only [Dim.save, Option.map_some, Option.some.injEq] at hx
    subst hx
    cases u <;> simp [Dim.load, optKey, getOpaque, getStr, Doc.get, dimRule_load r h]

theorem loadAll_save {α : Type} {f : α → Option Doc} {g : Doc → Option α} {l : List α}
    (h : ∀ a ∈ l, ∀ x, f a = some x → g x = some a) {xs : List Doc} (hx : saveAll f l = some xs) :
    loadAll g xs = some l := by
  induction l generalizing xs with
  | nil => simp [saveAll] at hx; subst hx; rfl
  | cons a l ih =>
    rw [saveAll] at hx
    cases h1 : f a with
    | none => rw [h1] at hx; cases hx
    | some y =>
      rw [h1] at hx
      cases h2 : saveAll f l with
      | none => rw [h2] at hx; cases hx
      | some ys =>
        rw [h2] at hx
        cases hx
        rw [loadAll, h a (List.mem_cons_self ..) y h1,
          ih (fun b hb => h b (List.mem_cons_of_mem _ hb)) h2]

theorem strings_load (m : List (String × String)) :
    loadVals Doc.asStr (m.map fun e => (e.1, Doc.str e.2)) = some m := by
  induction m with
  | nil => rfl
  | cons a m ih =>
    rw [List.map_cons, loadVals]
    simp only [Doc.asStr, ih]

/-- What a descriptor writes. -/
def pairs (b : Base) (n o : String) (ds : List Doc) (r : Doc) (f : List Doc) : List (String × Doc) :=
  [("name", .str n), ("sampleType", .int b.sampleType.code)] ++
    optKey "unit" .opaque b.unit ++ [("dimensions", .list ds)] ++
    optKey "valueRange" .opaque b.valueRange ++ [("rule", r)] ++
    optKey "postScaling" Scaling.save b.scaling ++ [("origin", .str o)] ++
    optKey "tickResolution" .opaque b.resolution ++
    [("metadata", .dict (b.metadata.map fun e => (e.1, .str e.2))),
      ("structFields", .list f)] ++
    optKey "referenceDomainInfo" RefInfo.save b.refInfo

theorem get_append (l m : List (String × Doc)) (k : String) :
    Doc.get (l ++ m) k = (Doc.get l k).or (Doc.get m k) := by
  unfold Doc.get
  rw [List.find?_append]
  cases List.find? (fun e => e.1 == k) l <;> simp

theorem get_opt {α : Type} (k k' : String) (f : α → Doc) (o : Option α) :
    Doc.get (optKey k f o) k' = if k = k' then o.map f else none := by
  cases o with
  | none => simp [optKey, Doc.get]
  | some a =>
    by_cases h : k = k' <;> simp [optKey, Doc.get, h]

theorem get_cons (k k' : String) (d : Doc) (l : List (String × Doc)) :
    Doc.get ((k, d) :: l) k' = if k = k' then some d else Doc.get l k' := by
  by_cases h : k = k' <;> simp [Doc.get, h]

section
variable (b : Base) (n o : String) (ds : List Doc) (r : Doc) (f : List Doc)

theorem g_name : Doc.get (pairs b n o ds r f) "name" = some (.str n) := by
  simp [pairs, get_append, get_opt, get_cons]
theorem g_type : Doc.get (pairs b n o ds r f) "sampleType" = some (.int b.sampleType.code) := by
  simp [pairs, get_append, get_opt, get_cons]
theorem g_unit : Doc.get (pairs b n o ds r f) "unit" = b.unit.map .opaque := by
  simp [pairs, get_append, get_opt, get_cons]
theorem g_dims : Doc.get (pairs b n o ds r f) "dimensions" = some (.list ds) := by
  simp [pairs, get_append, get_opt, get_cons]
theorem g_range : Doc.get (pairs b n o ds r f) "valueRange" = b.valueRange.map .opaque := by
  simp [pairs, get_append, get_opt, get_cons]
theorem g_rule : Doc.get (pairs b n o ds r f) "rule" = some r := by
  simp [pairs, get_append, get_opt, get_cons]
theorem g_scaling : Doc.get (pairs b n o ds r f) "postScaling" = b.scaling.map Scaling.save := by
  simp [pairs, get_append, get_opt, get_cons]
theorem g_origin : Doc.get (pairs b n o ds r f) "origin" = some (.str o) := by
  simp [pairs, get_append, get_opt, get_cons]
theorem g_res : Doc.get (pairs b n o ds r f) "tickResolution" = b.resolution.map .opaque := by
  simp [pairs, get_append, get_opt, get_cons]
theorem g_meta : Doc.get (pairs b n o ds r f) "metadata" =
    some (.dict (b.metadata.map fun e => (e.1, .str e.2))) := by
  simp [pairs, get_append, get_opt, get_cons]
theorem g_fields : Doc.get (pairs b n o ds r f) "structFields" = some (.list f) := by
  simp [pairs, get_append, get_opt, get_cons]
theorem g_ref : Doc.get (pairs b n o ds r f) "referenceDomainInfo" = b.refInfo.map RefInfo.save := by
  simp [pairs, get_append, get_opt, get_cons]
end

theorem opaque_load (l : List (String × Doc)) (k : String) (u : Option Nat)
    (h : Doc.get l k = u.map .opaque) : getOpaque l k = some u := by
  unfold getOpaque; rw [h]; cases u <;> rfl

theorem opt_load {α : Type} {f : Doc → Option α} {g : α → Doc} (l : List (String × Doc))
    (k : String) (u : Option α) (h : Doc.get l k = u.map g)
    (hg : ∀ a, u = some a → f (g a) = some a) : getOpt f l k = some u := by
  unfold getOpt; rw [h]
  cases u with
  | none => rfl
  | some a => simp [hg a rfl]

theorem base_load {b : Base} {n o : String} {ds : List Doc} {r : Doc} {f : List Doc}
    (hp : b.partsOk = true) (hn : b.name = some n) (ho : b.origin = some o)
    (hds : saveAll Dim.save b.dims = some ds) (hr : b.rule.bind Rule.save = some r) :
    Base.load (pairs b n o ds r f) = some b := by
  have h1 : getStr (pairs b n o ds r f) "name" = some n := by unfold getStr; rw [g_name]
  have h2 : getInt (pairs b n o ds r f) "sampleType" = some (b.sampleType.code : Int) := by
    unfold getInt; rw [g_type]
  have h3 := opaque_load _ _ _ (g_unit b n o ds r f)
  have h4 : getList (pairs b n o ds r f) "dimensions" = some ds := by unfold getList; rw [g_dims]
  have h5 := opaque_load _ _ _ (g_range b n o ds r f)
  have hp' := hp
  unfold Base.partsOk at hp'
  rw [Bool.and_eq_true, Bool.and_eq_true] at hp'
  have h6 : loadAll Dim.load ds = some b.dims :=
    loadAll_save (fun d hd x hx => dim_load (parts_dims hp d hd) hx) hds
  have h7 : ∃ ru, b.rule = some ru ∧ Rule.load r = some ru := by
    cases hru : b.rule with
    | none => rw [hru] at hr; cases hr
    | some ru =>
      rw [hru] at hr
      have := hp'.1.2
      rw [hru] at this
      exact ⟨ru, rfl, rule_load this hr⟩
  obtain ⟨ru, hru, hrl⟩ := h7
  have h8 : getOpt Scaling.load (pairs b n o ds r f) "postScaling" = some b.scaling := by
    refine opt_load _ _ _ (g_scaling b n o ds r f) fun s hs => scaling_load s ?_
    have := hp'.2
    rw [hs] at this
    exact this
  have h9 : getStr (pairs b n o ds r f) "origin" = some o := by unfold getStr; rw [g_origin]
  have h10 := opaque_load _ _ _ (g_res b n o ds r f)
  have h11 : getStrings (pairs b n o ds r f) "metadata" = some b.metadata := by
    unfold getStrings; rw [g_meta]; exact strings_load _
  have h12 : getOpt RefInfo.load (pairs b n o ds r f) "referenceDomainInfo" = some b.refInfo :=
    opt_load _ _ _ (g_ref b n o ds r f) fun i _ => refInfo_load i
  unfold Base.load
  rw [h1, h2, h3, h4, h5, g_rule, h8, h9, h10, h11, h12]
  simp only [Option.bind_some, sampleType_code, h6, hrl]
  rw [← hn, ← ho, ← hru]

/-- The fields as a list. -/
def Trees.toList : Trees → List Tree
  | .nil => []
  | .cons t ts => t :: ts.toList

theorem ofList_toList : ∀ ts : Trees, Trees.ofList ts.toList = ts
  | .nil => rfl
  | .cons t ts => by rw [Trees.toList, Trees.ofList, ofList_toList ts]

theorem buildF_cons {t : Tree} {ts : Trees} {l : List Sizes} (h : (Trees.cons t ts).build = .ok l) :
    (∃ s, t.build = .ok s) ∧ ∃ l, ts.build = .ok l := by
  rw [Trees.build] at h
  cases h1 : t.build with
  | error e => rw [h1] at h; cases h
  | ok s =>
    rw [h1] at h
    cases h2 : ts.build with
    | error e => rw [h2] at h; cases h
    | ok l => exact ⟨⟨s, rfl⟩, l, rfl⟩

theorem build_parts {b : Base} {fs : Trees} {s : Sizes} (h : (Tree.mk b fs).build = .ok s) :
    b.partsOk = true ∧ ∃ l, fs.build = .ok l := by
  rw [Tree.build] at h
  cases hl : fs.build with
  | error e => rw [hl] at h; cases h
  | ok l =>
    rw [hl] at h
    dsimp only at h
    by_cases hp : b.partsOk = true
    · exact ⟨hp, l, rfl⟩
    · rw [if_neg hp] at h; cases h

mutual
theorem tree_load : ∀ (t : Tree) (s : Sizes) (x : Doc) (n : Nat), t.build = .ok s →
    t.save = some x → levels t ≤ n → Tree.load n x = some t
  | .mk b fs, s, x, n, hb, hx, hn => by
    obtain ⟨hp, l, hl⟩ := build_parts hb
    rw [levels] at hn
    obtain ⟨n, rfl⟩ : ∃ m, n = m + 1 := ⟨n - 1, by omega⟩
    simp only [Tree.save] at hx
    cases hnm : b.name with
    | none => rw [hnm] at hx; cases hx
    | some nm =>
      cases hds : saveAll Dim.save b.dims with
      | none => rw [hnm, hds] at hx; cases hx
      | some ds =>
        cases hr : b.rule.bind Rule.save with
        | none => rw [hnm, hds, hr] at hx; cases hx
        | some r =>
          cases ho : b.origin with
          | none => rw [hnm, hds, hr, ho] at hx; cases hx
          | some o =>
            cases hf : fs.save with
            | none => rw [hnm, hds, hr, ho, hf] at hx; cases hx
            | some f =>
              rw [hnm, hds, hr, ho, hf] at hx
              simp only [Option.some.injEq] at hx
              have hx : x = .obj "DataDescriptor" (pairs b nm o ds r f) := hx.symm
              subst hx
              have h1 := base_load (f := f) hp hnm ho hds hr
              have h2 : getList (pairs b nm o ds r f) "structFields" = some f := by
                unfold getList; rw [g_fields]
              have h3 := trees_load fs l f n hl hf (by omega)
              rw [Tree.load, h1, h2]
              simp only [Option.bind_some, h3, ofList_toList, hb]
theorem trees_load : ∀ (ts : Trees) (l : List Sizes) (xs : List Doc) (n : Nat), ts.build = .ok l →
    ts.save = some xs → levelsF ts ≤ n → loadAll (Tree.load n) xs = some ts.toList
  | .nil, l, xs, n, _, hx, _ => by
    simp only [Trees.save] at hx
    cases hx
    rfl
  | .cons t ts, l, xs, n, hb, hx, hn => by
    obtain ⟨⟨s, hs⟩, l', hl'⟩ := buildF_cons hb
    rw [levelsF] at hn
    rw [Trees.save] at hx
    cases h1 : t.save with
    | none => rw [h1] at hx; cases hx
    | some y =>
      cases h2 : ts.save with
      | none => rw [h1, h2] at hx; cases hx
      | some ys =>
        rw [h1, h2] at hx
        cases hx
        rw [loadAll, tree_load t s y n hs h1 (by omega), trees_load ts l' ys n hl' h2 (by omega),
          Trees.toList]
end

theorem saveAll_some {α : Type} {f : α → Option Doc} {l : List α} (h : ∀ a ∈ l, ∃ x, f a = some x) :
    ∃ xs, saveAll f l = some xs := by
  induction l with
  | nil => exact ⟨[], rfl⟩
  | cons a l ih =>
    obtain ⟨x, hx⟩ := h a (List.mem_cons_self ..)
    obtain ⟨xs, hxs⟩ := ih fun b hb => h b (List.mem_cons_of_mem _ hb)
    exact ⟨x :: xs, by rw [saveAll, hx, hxs]⟩

mutual
theorem complete_save : ∀ t : Tree, Complete t → ∃ x, t.save = some x
  | .mk b fs, hc => by
    obtain ⟨hn, ho, hd, ⟨r, hr, hrp⟩, hf⟩ := hc
    obtain ⟨f, hf⟩ := completeF_save fs hf
    obtain ⟨ds, hds⟩ : ∃ ds, saveAll Dim.save b.dims = some ds := by
      refine saveAll_some fun d h => ?_
      cases hdn : d.name with
      | none => exact absurd hdn (hd d h)
      | some n => exact ⟨_, by rw [Dim.save, hdn]; rfl⟩
    obtain ⟨n, hn⟩ := Option.ne_none_iff_exists'.mp hn
    obtain ⟨o, ho⟩ := Option.ne_none_iff_exists'.mp ho
    obtain ⟨p, hp⟩ := Option.ne_none_iff_exists'.mp hrp
    obtain ⟨x, hx⟩ : ∃ x, b.rule.bind Rule.save = some x := by
      rw [hr, Option.bind_some, Rule.save, hp]; exact ⟨_, rfl⟩
    refine ⟨.obj "DataDescriptor" (pairs b n o ds x f), ?_⟩
    simp only [Tree.save]
    rw [hn, hds, hx, ho, hf]
    rfl
theorem completeF_save : ∀ ts : Trees, CompleteF ts → ∃ xs, ts.save = some xs
  | .nil, _ => ⟨[], by rw [Trees.save]⟩
  | .cons t ts, hc => by
    obtain ⟨x, hx⟩ := complete_save t hc.1
    obtain ⟨xs, hxs⟩ := completeF_save ts hc.2
    exact ⟨x :: xs, by rw [Trees.save, hx, hxs]⟩
end

/-! ## Memory -/

/-- What a step keeps: frozen cells stay as they are. -/
theorem op_frozen (h : Heap) (o : Op) (a : Addr) (c : Cell) (hc : h[a]? = some c)
    (hf : c.frozen = true) : (o.run h)[a]? = some c := by
  have hlt : a < h.length := by
    rw [List.getElem?_eq_some_iff] at hc; exact hc.1
  cases o with
  | edit b x =>
    simp only [Op.run, Heap.edit]
    cases hb : h[b]? with
    | none => exact hc
    | some c' =>
      dsimp only
      split
      · exact hc
      · next hnf =>
        rw [List.getElem?_set]
        by_cases hba : b = a
        · subst hba
          rw [hc] at hb; cases hb
          exact absurd hf hnf
        · rw [if_neg hba]; exact hc
  | freeze b =>
    simp only [Op.run, Heap.freeze]
    cases hb : h[b]? with
    | none => exact hc
    | some c' =>
      dsimp only
      rw [List.getElem?_set]
      by_cases hba : b = a
      · subst hba
        rw [hc] at hb; cases hb
        rw [if_pos rfl, if_pos hlt]
        obtain ⟨fz, ct⟩ := c
        cases hf
        rfl
      · rw [if_neg hba]; exact hc
  | alloc c' =>
    simp only [Op.run]
    rw [List.getElem?_append_left hlt]
    exact hc

theorem ops_frozen (ops : List Op) (h : Heap) (a : Addr) (c : Cell) (hc : h[a]? = some c)
    (hf : c.frozen = true) : (runOps h ops)[a]? = some c := by
  unfold runOps
  induction ops generalizing h with
  | nil => exact hc
  | cons o ops ih => exact ih _ (op_frozen h o a c hc hf)

/-- Two memories agree on everything that is frozen in the first. -/
def Keeps (h g : Heap) : Prop := ∀ (a : Nat) (c : Cell), h[a]? = some c → c.frozen = true → g[a]? = some c

theorem keeps_ops (h : Heap) (ops : List Op) : Keeps h (runOps h ops) :=
  fun a c hc hf => ops_frozen ops h a c hc hf

theorem keeps_frozen {h g : Heap} (hk : Keeps h g) {a : Addr} (hf : Frozen h a) : g[a]? = h[a]? := by
  obtain ⟨c, hc, hcf⟩ := hf
  rw [hk a c hc hcf, hc]

theorem keeps_params {h g : Heap} (hk : Keeps h g) {a : Addr} (hf : FrozenParams h a) :
    g.params a = h.params a := by
  obtain ⟨p, hp, hr⟩ := hf
  unfold Heap.params Heap.rawParams
  rw [hk a _ hp rfl, hp]
  refine List.map_congr_left fun e he => ?_
  obtain ⟨k, v⟩ := e
  cases v with
  | leaf l => rfl
  | ref b =>
    simp only [HVal.view, Heap.labels]
    rw [keeps_frozen hk (hr k b he)]

theorem keeps_base {h g : Heap} (hk : Keeps h g) {d : HDescr} (hf : Fixed h d) :
    d.base g = d.base h := by
  cases hf with
  | @mk _ ds m fs hd hds hm hr hs hf hfs =>
    have h1 : g.rawDims d.dims = ds := by unfold Heap.rawDims; rw [hk _ _ hd rfl]
    have h2 : h.rawDims d.dims = ds := by unfold Heap.rawDims; rw [hd]
    have h3 : g.metadata d.metadata = h.metadata d.metadata := by
      unfold Heap.metadata; rw [hk _ _ hm rfl, hm]
    have h4 : d.rule.map (·.view g) = d.rule.map (·.view h) := by
      cases hru : d.rule with
      | none => rfl
      | some r =>
        simp only [Option.map_some, HRule.view]
        cases hp : r.params with
        | none => rfl
        | some a => simp only [Option.map_some]; rw [keeps_params hk (hr r a hru hp)]
    have h5 : d.scaling.map (·.view g) = d.scaling.map (·.view h) := by
      cases hsc : d.scaling with
      | none => rfl
      | some s =>
        simp only [Option.map_some, HScaling.view]
        rw [keeps_params hk (hs s hsc)]
    have h6 : ds.map (·.view g) = ds.map (·.view h) := by
      refine List.map_congr_left fun x hx => ?_
      simp only [HDim.view]
      rw [keeps_params hk (hds x hx)]
    unfold HDescr.base
    rw [h1, h2, h3, h4, h5, h6]

theorem keeps_fields {h g : Heap} (hk : Keeps h g) {d : HDescr} (hf : Fixed h d) :
    g.fields d.fields = h.fields d.fields := by
  cases hf with
  | mk hd hds hm hr hs hf hfs => unfold Heap.fields; rw [hk _ _ hf rfl, hf]

theorem keeps_view {h g : Heap} (hk : Keeps h g) (n : Nat) {d : HDescr} (hf : Fixed h d) :
    d.view g n = d.view h n := by
  induction n generalizing d with
  | zero => simp only [HDescr.view]; rw [keeps_base hk hf]
  | succ n ih =>
    simp only [HDescr.view]
    rw [keeps_base hk hf, keeps_fields hk hf]
    congr 2
    cases hf with
    | @mk _ ds m fs hd hds hm hr hs hf' hfs =>
      have : h.fields d.fields = fs := by unfold Heap.fields; rw [hf']
      rw [this]
      exact List.map_congr_left fun x hx => ih (hfs x hx)

/-! ## Freezing does not change what is shown -/

theorem freeze_get (h : Heap) (a b : Addr) :
    (h.freeze a)[b]? = h[b]? ∨ ∃ c, h[b]? = some c ∧ (h.freeze a)[b]? = some { c with frozen := true } := by
  unfold Heap.freeze
  cases ha : h[a]? with
  | none => exact Or.inl rfl
  | some c =>
    dsimp only
    rw [List.getElem?_set]
    by_cases hab : a = b
    · subst hab
      have : a < h.length := by rw [List.getElem?_eq_some_iff] at ha; exact ha.1
      rw [if_pos rfl, if_pos this]
      exact Or.inr ⟨c, ha, rfl⟩
    · rw [if_neg hab]; exact Or.inl rfl

theorem freeze_self (h : Heap) (a : Addr) (c : Cell) (hc : h[a]? = some c) :
    (h.freeze a)[a]? = some { c with frozen := true } := by
  unfold Heap.freeze
  rw [hc]
  have : a < h.length := by rw [List.getElem?_eq_some_iff] at hc; exact hc.1
  simp [this]

/-- Same contents everywhere. -/
def Same (h g : Heap) : Prop := ∀ a : Nat, (g[a]?).map (·.content) = (h[a]?).map (·.content)

theorem same_freeze (h : Heap) (a : Addr) : Same h (h.freeze a) := by
  intro b
  rcases freeze_get h a b with hb | ⟨c, hc, hb⟩
  · rw [hb]
  · rw [hb, hc]; rfl

theorem Same.trans {h g k : Heap} (a : Same h g) (b : Same g k) : Same h k := fun x => (b x).trans (a x)

theorem same_seal (h : Heap) (d : HDescr) : Same h (sealParts h d) := by
  unfold sealParts
  dsimp only
  split
  · exact (same_freeze h _).trans (same_freeze _ _)
  · exact (same_freeze h _).trans ((same_freeze _ _).trans (same_freeze _ _))

theorem labels_content (h : Heap) (a : Addr) : h.labels a =
    match (h[a]?).map (·.content) with | some (.labels l) => l | _ => [] := by
  unfold Heap.labels
  cases h[a]? with
  | none => rfl
  | some c => obtain ⟨f, x⟩ := c; cases x <;> rfl

theorem rawParams_content (h : Heap) (a : Addr) : h.rawParams a =
    match (h[a]?).map (·.content) with | some (.params l) => l | _ => [] := by
  unfold Heap.rawParams
  cases h[a]? with
  | none => rfl
  | some c => obtain ⟨f, x⟩ := c; cases x <;> rfl

theorem rawDims_content (h : Heap) (a : Addr) : h.rawDims a =
    match (h[a]?).map (·.content) with | some (.dims l) => l | _ => [] := by
  unfold Heap.rawDims
  cases h[a]? with
  | none => rfl
  | some c => obtain ⟨f, x⟩ := c; cases x <;> rfl

theorem metadata_content (h : Heap) (a : Addr) : h.metadata a =
    match (h[a]?).map (·.content) with | some (.metadata l) => l | _ => [] := by
  unfold Heap.metadata
  cases h[a]? with
  | none => rfl
  | some c => obtain ⟨f, x⟩ := c; cases x <;> rfl

theorem fields_content (h : Heap) (a : Addr) : h.fields a =
    match (h[a]?).map (·.content) with | some (.fields l) => l | _ => [] := by
  unfold Heap.fields
  cases h[a]? with
  | none => rfl
  | some c => obtain ⟨f, x⟩ := c; cases x <;> rfl

theorem same_params {h g : Heap} (hs : Same h g) (a : Addr) : g.params a = h.params a := by
  unfold Heap.params
  rw [rawParams_content, rawParams_content, hs a]
  refine List.map_congr_left fun e _ => ?_
  obtain ⟨k, v⟩ := e
  cases v with
  | leaf l => rfl
  | ref b =>
    simp only [HVal.view]
    rw [labels_content, labels_content, hs b]

theorem same_fields {h g : Heap} (hs : Same h g) (a : Addr) : g.fields a = h.fields a := by
  rw [fields_content, fields_content, hs a]

theorem same_base {h g : Heap} (hs : Same h g) (d : HDescr) : d.base g = d.base h := by
  have hp : g.params = h.params := funext (same_params hs)
  have h1 : HRule.view g = HRule.view h := by funext r; simp only [HRule.view, hp]
  have h2 : HScaling.view g = HScaling.view h := by funext r; simp only [HScaling.view, hp]
  have h3 : HDim.view g = HDim.view h := by funext r; simp only [HDim.view, hp]
  have h4 : g.rawDims d.dims = h.rawDims d.dims := by
    rw [rawDims_content, rawDims_content, hs]
  have h5 : g.metadata d.metadata = h.metadata d.metadata := by
    rw [metadata_content, metadata_content, hs]
  unfold HDescr.base
  rw [h1, h2, h3, h4, h5]

theorem same_view {h g : Heap} (hs : Same h g) (n : Nat) (d : HDescr) : d.view g n = d.view h n := by
  induction n generalizing d with
  | zero => simp only [HDescr.view]; rw [same_base hs]
  | succ n ih =>
    simp only [HDescr.view]
    rw [same_base hs, same_fields hs]
    congr 2
    exact List.map_congr_left fun x _ => ih x

/-- Frozen stays frozen under freezing. -/
theorem freeze_keeps (h : Heap) (a : Addr) : Keeps h (h.freeze a) :=
  fun b c hc hf => op_frozen h (.freeze a) b c hc hf

theorem Keeps.trans {h g k : Heap} (x : Keeps h g) (y : Keeps g k) : Keeps h k :=
  fun a c hc hf => y a c (x a c hc hf) hf

theorem seal_keeps (h : Heap) (d : HDescr) : Keeps h (sealParts h d) := by
  unfold sealParts
  dsimp only
  split
  · exact (freeze_keeps h _).trans (freeze_keeps _ _)
  · exact (freeze_keeps h _).trans ((freeze_keeps _ _).trans (freeze_keeps _ _))

theorem freeze_idem {h : Heap} {a : Addr} (hf : Frozen h a) : h.freeze a = h := by
  obtain ⟨c, hc, hcf⟩ := hf
  unfold Heap.freeze
  rw [hc]
  obtain ⟨fz, ct⟩ := c
  cases hcf
  rw [List.getElem?_eq_some_iff] at hc
  obtain ⟨hlt, he⟩ := hc
  dsimp only
  conv => rhs; rw [← List.set_getElem_self hlt]
  rw [he]

theorem freeze_none {h : Heap} {a : Addr} (hn : h[a]? = none) : h.freeze a = h := by
  unfold Heap.freeze; rw [hn]

theorem freeze_eq {h : Heap} {a : Addr} (hf : h[a]? = none ∨ Frozen h a) : h.freeze a = h := by
  rcases hf with hf | hf
  · exact freeze_none hf
  · exact freeze_idem hf

theorem freeze_done (h : Heap) (a : Addr) : (h.freeze a)[a]? = none ∨ Frozen (h.freeze a) a := by
  cases hc : h[a]? with
  | none => left; rw [freeze_none hc]; exact hc
  | some c => right; exact ⟨_, freeze_self h a c hc, rfl⟩

theorem freeze_done' (h : Heap) (a b : Addr) (hb : h[b]? = none ∨ Frozen h b) :
    (h.freeze a)[b]? = none ∨ Frozen (h.freeze a) b := by
  rcases hb with hb | ⟨c, hc, hcf⟩
  · left
    rcases freeze_get h a b with e | ⟨c, hc, _⟩
    · rw [e]; exact hb
    · rw [hb] at hc; cases hc
  · right; exact ⟨c, freeze_keeps h a b c hc hcf, hcf⟩

theorem seal_idem (h : Heap) (d : HDescr) : sealParts (sealParts h d) d = sealParts h d := by
  have hfs : (sealParts h d).fields d.fields = h.fields d.fields := same_fields (same_seal h d) _
  have hm : (sealParts h d)[d.metadata]? = none ∨ Frozen (sealParts h d) d.metadata := by
    unfold sealParts; exact freeze_done _ _
  have hd : (sealParts h d)[d.dims]? = none ∨ Frozen (sealParts h d) d.dims := by
    unfold sealParts; exact freeze_done' _ _ _ (freeze_done _ _)
  have hf : h.fields d.fields ≠ [] →
      ((sealParts h d)[d.fields]? = none ∨ Frozen (sealParts h d) d.fields) := by
    intro hne
    unfold sealParts
    simp only [if_neg hne]
    exact freeze_done' _ _ _ (freeze_done' _ _ _ (freeze_done _ _))
  generalize hg : sealParts h d = g at *
  unfold sealParts
  dsimp only
  rw [hfs]
  split
  · rw [freeze_eq hd, freeze_eq hm]
  · next hne => rw [freeze_eq (hf hne), freeze_eq hd, freeze_eq hm]

theorem fixed_keeps {h g : Heap} (hk : Keeps h g) {d : HDescr} (hf : Fixed h d) : Fixed g d := by
  have hp : ∀ a, FrozenParams h a → FrozenParams g a := by
    rintro a ⟨p, hp, hr⟩
    refine ⟨p, hk a _ hp rfl, fun k b hb => ?_⟩
    obtain ⟨c, hc, hcf⟩ := hr k b hb
    exact ⟨c, hk b c hc hcf, hcf⟩
  induction hf with
  | mk hd hds hm hr hs hf hfs ih =>
    exact .mk (hk _ _ hd rfl) (fun x hx => hp _ (hds x hx)) (hk _ _ hm rfl)
      (fun r a h1 h2 => hp _ (hr r a h1 h2)) (fun s h1 => hp _ (hs s h1)) (hk _ _ hf rfl) ih

theorem frozenParams_keeps {h g : Heap} (hk : Keeps h g) {a : Addr} (hf : FrozenParams h a) :
    FrozenParams g a := by
  obtain ⟨p, hp, hr⟩ := hf
  refine ⟨p, hk a _ hp rfl, fun k b hb => ?_⟩
  obtain ⟨c, hc, hcf⟩ := hr k b hb
  exact ⟨c, hk b c hc hcf, hcf⟩

theorem seal_dims (h : Heap) (d : HDescr) (c : Cell) (hc : h[d.dims]? = some c) :
    (sealParts h d)[d.dims]? = some { c with frozen := true } := by
  unfold sealParts
  dsimp only
  refine freeze_keeps _ _ _ _ ?_ rfl
  split
  · exact freeze_self _ _ _ hc
  · rcases freeze_get h d.fields d.dims with e | ⟨c', hc', e⟩
    · rw [← e] at hc; exact freeze_self _ _ _ hc
    · rw [hc] at hc'; cases hc'
      have := freeze_self _ _ _ e
      exact this

theorem content_freeze (h : Heap) (a b : Addr) (c : Cell) (hc : h[b]? = some c) :
    ∃ f, (h.freeze a)[b]? = some ⟨f, c.content⟩ := by
  rcases freeze_get h a b with e | ⟨c', hc', e⟩
  · exact ⟨c.frozen, by rw [e, hc]⟩
  · rw [hc] at hc'; cases hc'; exact ⟨true, e⟩

theorem seal_meta (h : Heap) (d : HDescr) (c : Cell) (hc : h[d.metadata]? = some c) :
    (sealParts h d)[d.metadata]? = some { c with frozen := true } := by
  unfold sealParts
  dsimp only
  have step : ∀ g : Heap, (∃ f, g[d.metadata]? = some ⟨f, c.content⟩) →
      ((g.freeze d.dims).freeze d.metadata)[d.metadata]? = some { c with frozen := true } := by
    rintro g ⟨f, hg⟩
    obtain ⟨f', hf'⟩ := content_freeze g d.dims d.metadata _ hg
    have := freeze_self _ _ _ hf'
    exact this
  split
  · exact step h ⟨c.frozen, hc⟩
  · exact step _ (content_freeze h d.fields d.metadata c hc)

theorem seal_fields (h : Heap) (d : HDescr) (c : Cell) (hc : h[d.fields]? = some c)
    (hne : h.fields d.fields ≠ []) :
    (sealParts h d)[d.fields]? = some { c with frozen := true } := by
  unfold sealParts
  dsimp only
  rw [if_neg hne]
  exact freeze_keeps _ _ _ _ (freeze_keeps _ _ _ _ (freeze_self _ _ _ hc) rfl) rfl

theorem buildH_some {h h' : Heap} {b d : HDescr} (hb : buildH h b = some (d, h')) :
    ∃ s, construct (b.base h) ((h.fields b.fields).map (·.sizes)) = .ok s ∧
      d = { b with sizes := s } ∧ h' = sealParts h b := by
  unfold buildH at hb
  cases hc : construct (b.base h) ((h.fields b.fields).map (·.sizes)) with
  | error e => rw [hc] at hb; cases hb
  | ok s =>
    rw [hc] at hb
    cases hb
    exact ⟨s, rfl, rfl, rfl⟩

theorem base_sizes (h : Heap) (b : HDescr) (s : Sizes) :
    HDescr.base h { b with sizes := s } = b.base h := rfl

theorem view_sizes (h : Heap) (b : HDescr) (s : Sizes) (n : Nat) :
    HDescr.view h n { b with sizes := s } = b.view h n := by cases n <;> rfl

end Verif.Descr
