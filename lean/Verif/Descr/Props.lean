import Verif.Descr.Proofs2
import Verif.Descr.Demo

/-!
# Properties of data descriptors (C180–C189)
-/

namespace Verif.Descr.Props

open Verif.Descr Spec Demo

/-! ## C180, C181: how much room a sample takes -/

/-- A descriptor that could be built reports exactly the bytes the documentation promises, both for
the values and for what travels: element size times the sizes of the dimensions, and for records
the fields one after the other. -/
theorem C180_size (t : Tree) (s : Sizes) (n k : Nat) (hd : AllDicts t) (hb : t.build = .ok s)
    (hf : Fills t n k) (hn : n < 2 ^ 64) (hk : k < 2 ^ 64) : s.sample = n ∧ s.raw = k :=
  fills_size t n k s hd hf hn hk hb

example : rec2.build = .ok ⟨208, 200⟩ := rfl

example : matrix.build = .ok ⟨48, 48⟩ ∧ clock.build = .ok ⟨8, 0⟩ ∧ scaled.build = .ok ⟨4, 2⟩ :=
  ⟨rfl, rfl, rfl⟩

example : Fills matrix 48 48 := by
  have h1 : Labels (linearDim 3) 3 := .inl ⟨.inl rfl, by simp [linearDim]⟩
  have h2 : Labels (listDim [.str "x", .str "y"]) 2 := .inr ⟨rfl, _, List.mem_singleton.mpr rfl, rfl⟩
  exact Fills.plain (e := 8) (n := 3 * (2 * 1)) (k := 8) (.b8 (by simp [plain]))
    (.cons h1 (.cons h2 .nil)) (.cons h1 (by decide) (.cons h2 (by decide) .nil))
    (.inr ⟨explicitRule, rfl, rfl, .inl ⟨rfl, rfl⟩⟩)

/-- No descriptor with a wrong size is built, as long as there are no empty dimensions and the
total fits 64 bits. -/
theorem C181_size_partial (t : Tree) (s : Sizes) (n k : Nat) (hd : AllDicts t) (hb : t.build = .ok s)
    (hf : Fills t n k) (hn : n < 2 ^ 64) (hk : k < 2 ^ 64) : s.sample = n ∧ s.raw = k :=
  fills_size t n k s hd hf hn hk hb

/-- A sample of 2^32 times 2^32 bytes is said to take one byte. -/
theorem C181_violation_overflow :
    Elements huge.base.dims (2 ^ 64) ∧ Bytes huge.base.sampleType 1 ∧ huge.build = .ok ⟨1, 1⟩ := by
  refine ⟨?_, .b1 (.inl rfl), rfl⟩
  have h1 : Labels (linearDim (2 ^ 32)) (2 ^ 32) := .inl ⟨.inl rfl, by simp [linearDim]⟩
  exact Elements.cons (n := 2 ^ 32) (m := 2 ^ 32 * 1) h1 (.cons (n := 2 ^ 32) (m := 1) h1 .nil)

/-- A sample without any element is said to take the room of one. -/
theorem C181_violation_empty_dimension :
    Elements empty.base.dims 0 ∧ Bytes empty.base.sampleType 8 ∧ empty.build = .ok ⟨8, 8⟩ := by
  refine ⟨?_, .b8 (by simp [empty, Tree.base, plain]), rfl⟩
  exact Elements.cons (n := 0) (m := 1) (.inr ⟨rfl, _, List.mem_singleton.mpr rfl, rfl⟩) .nil

/-! ## C182: exactly which descriptors can be built -/

/-- A descriptor can be built exactly if its parts have the parameters their rules need, every
dimension has a size, and it is either a record as described or plain values as described. -/
theorem C182_buildable (t : Tree) (hd : AllDicts t) : (∃ s, t.build = .ok s) ↔ Buildable t :=
  build_iff t hd

example : ∃ s, rec2.build = .ok s := ⟨_, rfl⟩

example : (Tree.mk { plain .string with rule := clock.base.rule } .nil).build = .error .sampleType ∧
    (Tree.mk { plain .struct with name := some "" } (.cons matrix .nil)).build = .error .invalidState ∧
    (Tree.mk (plain .int8 [⟨none, none, .other, []⟩]) .nil).build = .error .unknownRule ∧
    (Tree.mk { clock.base with rule := some ⟨.constant, some []⟩ } .nil).build = .error .parameter :=
  ⟨rfl, rfl, rfl, rfl⟩

/-! ## C183: post scaling -/

/-- Whenever a descriptor with post scaling was built, the sample type is that of the scaled
values, the input is a real number type, the values come explicitly and one at a time, and neither
a resolution nor an origin is configured. -/
theorem C183_scaling (t : Tree) (s : Sizes) (sc : Scaling) (hb : t.build = .ok s)
    (hs : t.base.scaling = some sc) : Scaled t.base sc := by
  obtain ⟨b, fs⟩ := t
  obtain ⟨hp, l, hl⟩ := build_parts hb
  rw [Tree.build, hl] at hb
  dsimp only at hb
  rw [if_pos hp] at hb
  have hc := ((construct_ok b l).mp ⟨s, hb⟩).1
  change b.scaling = some sc at hs
  by_cases hn : l = []
  · rw [if_pos hn, checkPlain_iff] at hc
    obtain ⟨r, _, h, _⟩ := hc
    exact h sc hs
  · rw [if_neg hn, checkStruct_iff] at hc
    have := hc.2.2.2.1
    rw [hs] at this; cases this

example : scaled.build = .ok ⟨4, 2⟩ ∧ scaled.base.scaling.isSome = true := ⟨rfl, rfl⟩

/-! ## C184: records -/

/-- A record has a name and is explicit, and nothing that describes single values is configured;
reference domains and metadata are left out. -/
theorem C184_record_partial (b : Base) (t : Tree) (ts : Trees) (s : Sizes)
    (hb : (Tree.mk b (.cons t ts)).build = .ok s) (hm : b.metadata = []) (hr : b.refInfo = none) :
    OnlyNameAndDimensions b ∧ ∃ n, b.name = some n ∧ n ≠ "" := by
  obtain ⟨hp, l, hl⟩ := build_parts hb
  rw [Tree.build, hl] at hb
  dsimp only at hb
  rw [if_pos hp] at hb
  have hc := ((construct_ok b l).mp ⟨s, hb⟩).1
  have hn : ¬ l = [] := fun h => by simpa using (build_length _ l hl).mp h
  rw [if_neg hn, checkStruct_iff] at hc
  obtain ⟨h1, h2, h3, h4, h5, h6, h7, h8⟩ := hc
  exact ⟨⟨h1, h3, h5, h2, h4, h7, h6, hm, hr⟩, h8⟩

example : rec2.base.metadata = [] ∧ rec2.base.refInfo = none ∧ rec2.build = .ok ⟨208, 200⟩ :=
  ⟨rfl, rfl, rfl⟩

/-- A record with a reference domain (and an offset) and with metadata is built as well. -/
theorem C184_violation_reference : recRef.build = .ok ⟨48, 48⟩ ∧ ¬ OnlyNameAndDimensions recRef.base := by
  refine ⟨rfl, ?_⟩
  rintro ⟨_, _, _, _, _, _, _, _, h⟩
  cases h

/-! ## C185: offsets of reference domains -/

/-- Values with an offset of their reference domain have a numeric type; integer, if not floating
point or undefined. -/
theorem C185_offset_partial (b : Base) (s : Sizes) (i : RefInfo) (o : Int)
    (hb : (Tree.mk b .nil).build = .ok s) (hi : b.refInfo = some i) (ho : i.offset = some o)
    (hz : o ≠ 0) (hf : b.sampleType ≠ .float32 ∧ b.sampleType ≠ .float64 ∧ b.sampleType ≠ .invalid) :
    Integer b.sampleType := by
  obtain ⟨hp, l, hl⟩ := build_parts hb
  rw [Tree.build, hl] at hb
  dsimp only at hb
  rw [if_pos hp] at hb
  have hc := ((construct_ok b l).mp ⟨s, hb⟩).1
  have hn : l = [] := (build_length _ l hl).mpr rfl
  rw [if_pos hn, checkPlain_iff] at hc
  obtain ⟨r, _, _, _, h⟩ := hc
  rcases (h i hi).2 o ho hz with h | h
  · exact ⟨h, hf.1, hf.2.1⟩
  · exact absurd h hf.2.2

example : clock.build = .ok ⟨8, 0⟩ ∧ clock.base.refInfo.isSome = true := ⟨rfl, rfl⟩

/-- Floating point values with an offset are accepted. -/
theorem C185_violation_float : fltRef.build = .ok ⟨8, 8⟩ ∧ ¬ Integer fltRef.base.sampleType ∧
    ∃ i, fltRef.base.refInfo = some i ∧ i.offset = some 5 :=
  ⟨rfl, fun h => h.2.2 rfl, _, rfl, rfl⟩

/-! ## C186: a built descriptor does not change -/

/-- Whatever happens after building, the list of dimensions and the metadata stay, and so does the
list of fields if it was not empty. -/
theorem C186_lists_partial (h h' : Heap) (b d : HDescr) (hb : buildH h b = some (d, h'))
    (hd : h[b.dims]? ≠ none) (hm : h[b.metadata]? ≠ none) (ops : List Op) :
    (runOps h' ops).rawDims d.dims = h.rawDims b.dims ∧
    (runOps h' ops).metadata d.metadata = h.metadata b.metadata ∧
    (h.fields b.fields ≠ [] → (runOps h' ops).fields d.fields = h.fields b.fields) := by
  obtain ⟨s, _, rfl, rfl⟩ := buildH_some hb
  obtain ⟨c, hc⟩ := Option.ne_none_iff_exists'.mp hd
  obtain ⟨m, hm⟩ := Option.ne_none_iff_exists'.mp hm
  refine ⟨?_, ?_, fun hne => ?_⟩
  · rw [rawDims_content, rawDims_content, ops_frozen ops _ _ _ (seal_dims h b c hc) rfl, hc]
    rfl
  · rw [metadata_content, metadata_content, ops_frozen ops _ _ _ (seal_meta h b m hm) rfl, hm]
    rfl
  · cases hf : h[b.fields]? with
    | none => exact absurd (by rw [fields_content, hf]; rfl) hne
    | some f =>
      rw [fields_content, fields_content, ops_frozen ops _ _ _ (seal_fields h b f hf hne) rfl, hf]
      rfl

/-- If all parts were frozen when the descriptor was built (dimension rules without lists of labels
or with frozen ones, post scaling from a builder) and it has fields that are fixed, nothing it
shows ever changes, however deep one looks. -/
theorem C186_fixed_partial (h h' : Heap) (b d : HDescr) (ds : List HDim) (m : List (String × String))
    (fs : List HDescr) (c1 c2 c3 : Bool) (hb : buildH h b = some (d, h'))
    (hd : h[b.dims]? = some ⟨c1, .dims ds⟩) (hds : ∀ x ∈ ds, FrozenParams h x.rule.params)
    (hm : h[b.metadata]? = some ⟨c2, .metadata m⟩)
    (hr : ∀ r a, b.rule = some r → r.params = some a → FrozenParams h a)
    (hs : ∀ s, b.scaling = some s → FrozenParams h s.params)
    (hf : h[b.fields]? = some ⟨c3, .fields fs⟩) (hne : fs ≠ [] ∨ c3 = true)
    (hfs : ∀ x ∈ fs, Fixed h x) (ops : List Op) (n : Nat) :
    d.view (runOps h' ops) n = b.view h n ∧ Fixed (runOps h' ops) d := by
  obtain ⟨s, _, rfl, rfl⟩ := buildH_some hb
  have hk := seal_keeps h b
  have hf' : (sealParts h b)[b.fields]? = some ⟨true, .fields fs⟩ := by
    rcases hne with hne | rfl
    · have : h.fields b.fields ≠ [] := by unfold Heap.fields; rw [hf]; exact hne
      exact seal_fields h b _ hf this
    · exact hk _ _ hf rfl
  have hfix : Fixed (sealParts h b) { b with sizes := s } :=
    .mk (seal_dims h b _ hd) (fun x hx => frozenParams_keeps hk (hds x hx)) (seal_meta h b _ hm)
      (fun r a h1 h2 => frozenParams_keeps hk (hr r a h1 h2))
      (fun s h1 => frozenParams_keeps hk (hs s h1)) hf' (fun x hx => fixed_keeps hk (hfs x hx))
  refine ⟨?_, fixed_keeps (keeps_ops _ ops) hfix⟩
  rw [keeps_view (keeps_ops _ ops) n hfix, view_sizes]
  exact same_view (same_seal h b) n b

/-- Rules freeze their parameters: which parameters there are, and all that are not lists, never
change again; and so does post scaling that comes from a builder. -/
theorem C186_rules_partial (h h' : Heap) (a : Addr) (p : List (String × HVal)) (c : Bool)
    (ha : h[a]? = some ⟨c, .params p⟩)
    (hm : (∃ k r, mkDimRule h k a = some (r, h')) ∨ (∃ k r, mkRule h k (some a) = some (r, h')) ∨
      ∃ i o l s, mkScalingB h i o l a = some (s, h')) (ops : List Op) :
    (runOps h' ops).rawParams a = p := by
  have hh : h' = h.freeze a := by
    rcases hm with ⟨k, r, hm⟩ | ⟨k, r, hm⟩ | ⟨i, o, l, s, hm⟩
    · unfold mkDimRule at hm
      split at hm
      · cases hm; rfl
      · cases hm
    · unfold mkRule at hm
      split at hm
      · cases hm; rfl
      · cases hm
    · unfold mkScalingB at hm
      split at hm
      · cases hm; rfl
      · cases hm
  subst hh
  unfold Heap.rawParams
  rw [ops_frozen ops _ _ _ (freeze_self h a _ ha) rfl]

example : (mkDimRule heap .list 4).isSome = true ∧ (mkRule heap .explicit (some 0)).isSome = true ∧
    (mkScalingB heap .int16 .float32 true 2).isSome = true := by
  refine ⟨?_, ?_, ?_⟩ <;> decide +kernel

/-- The record of the example keeps every condition. -/
example : buildH heapRec bldRec = some ({ bldRec with sizes := ⟨6, 6⟩ }, sealParts heapRec bldRec) ∧
    FrozenParams heapRec 1 ∧ ∀ x ∈ heapRec.fields 7, Fixed heapRec x := by
  refine ⟨rfl, ⟨_, rfl, fun k b hb => ?_⟩, fun x hx => ?_⟩
  · simp at hb
  · obtain rfl := List.mem_singleton.mp hx
    refine .mk rfl (fun x hx => (by cases hx)) rfl (fun r a h1 h2 => ?_) (fun s h => (by cases h)) rfl
      (fun x hx => (by cases hx))
    cases h1; cases h2
    exact ⟨[], rfl, fun k b hb => (by cases hb)⟩

/-- Post scaling made with its usual constructor can be changed after the descriptor was built. -/
theorem C186_violation_scaling :
    ∃ s h1 d h2 ops, mkScaling heap .int16 .float32 true 2 = some (s, h1) ∧
      buildH h1 { bld .float32 with scaling := some s } = some (d, h2) ∧
      d.view (runOps h2 ops) 0 ≠ d.view h2 0 := by
  refine ⟨_, _, _, _, [.edit 2 (.params [("scale", .leaf (.int 7)), ("offset", .leaf (.int 0))])], rfl, rfl, ?_⟩
  decide +kernel

/-- The labels of a dimension, and with them its size, can be changed after the descriptor was
built, while the sample size stays. -/
theorem C186_violation_labels :
    ∃ d h2 ops, buildH (heapDims [hList]) (bld .float64) = some (d, h2) ∧ d.sizes = ⟨16, 16⟩ ∧
      (((runOps h2 ops).rawDims d.dims).map fun x => (x.view (runOps h2 ops)).size) = [some 3] ∧
      ((h2.rawDims d.dims).map fun x => (x.view h2).size) = [some 2] := by
  refine ⟨_, _, [.edit 3 (.labels [.str "x", .str "y", .str "z"])], rfl, rfl, ?_, ?_⟩
  · decide +kernel
  · decide +kernel

/-- A descriptor of plain values can get fields after it was built. -/
theorem C186_violation_fields :
    ∃ d h2 ops, buildH heap (bld .float64) = some (d, h2) ∧ h2.fields d.fields = [] ∧
      (runOps h2 ops).fields d.fields = [d] ∧ d.view (runOps h2 ops) 1 ≠ d.view h2 1 := by
  refine ⟨_, _, [.edit 7 (.fields [{ bld .float64 with sizes := ⟨8, 8⟩ }])], rfl, ?_, ?_, ?_⟩
  · decide +kernel
  · decide +kernel
  · decide +kernel

/-! ## C187, C188: written and read back -/

/-- What was built and written is read back as the same descriptor, whatever its depth. -/
theorem C187_round_trip (t : Tree) (s : Sizes) (x : Doc) (n : Nat) (hb : t.build = .ok s)
    (hx : t.save = some x) (hn : levels t ≤ n) : Tree.load n x = some t :=
  tree_load t s x n hb hx hn

example : rec2.build = .ok ⟨208, 200⟩ ∧ rec2.save.isSome = true ∧ levels rec2 = 2 ∧
    rec2.save.bind (Tree.load 2) = some rec2 := by
  refine ⟨rfl, ?_, ?_, ?_⟩ <;> decide +kernel

/-- Whatever is read, from any document, is a descriptor that could have been built: documents that describe no valid
descriptor are refused. -/
theorem C187_read_valid (n : Nat) (x : Doc) (t : Tree) (h : Tree.load n x = some t) : ∃ s, t.build = .ok s := by
  cases n with
  | zero => simp [Tree.load] at h
  | succ n =>
    unfold Tree.load at h
    split at h
    · split at h
      · split at h
        · rename_i s hs
          cases h
          exact ⟨s, hs⟩
        · cases h
      · cases h
    · cases h

/-- A descriptor that was built with names, origins and rule parameters everywhere can be
written, and is read back the same. -/
theorem C188_written_partial (t : Tree) (s : Sizes) (hb : t.build = .ok s) (hc : Complete t) :
    ∃ x, t.save = some x ∧ Tree.load (levels t) x = some t := by
  obtain ⟨x, hx⟩ := complete_save t hc
  exact ⟨x, hx, tree_load t s x _ hb hx (Nat.le_refl _)⟩

example : Complete rec2 ∧ rec2.build = .ok ⟨208, 200⟩ := by
  refine ⟨?_, rfl⟩
  simp [Complete, CompleteF, rec2, matrix, scaled, plain, linearDim, listDim, explicitRule]

/-- A descriptor without a name, or with an explicit rule without parameters, is built but cannot
be written. -/
theorem C188_violation_missing : unnamed.build = .ok ⟨4, 4⟩ ∧ unnamed.save.isSome = false ∧
    noParams.build = .ok ⟨4, 4⟩ ∧ noParams.save.isSome = false := by
  refine ⟨rfl, ?_, rfl, ?_⟩ <;> decide +kernel

/-! ## C189: a builder that starts from a descriptor -/

/-- A builder made from a descriptor builds the same descriptor again, and nothing anybody sees
changes. -/
theorem C189_copy (h h' : Heap) (b d : HDescr) (hb : buildH h b = some (d, h')) :
    buildH h' (copyBuilder d) = some (d, h') := by
  obtain ⟨s, hc, rfl, rfl⟩ := buildH_some hb
  have h1 : HDescr.base (sealParts h b) { b with sizes := s } = b.base h := by
    rw [base_sizes]; exact same_base (same_seal h b) b
  have h2 : (sealParts h b).fields b.fields = h.fields b.fields := same_fields (same_seal h b) _
  have h3 : sealParts (sealParts h b) { b with sizes := s } = sealParts h b := seal_idem h b
  unfold buildH copyBuilder
  rw [h1]
  dsimp only
  rw [h2, hc]
  dsimp only
  rw [h3]

/-- And it still does at any later time if all parts of the descriptor are frozen. -/
theorem C189_copy_later (h h' : Heap) (b d : HDescr) (hb : buildH h b = some (d, h'))
    (hf : Fixed h' d) (ops : List Op) :
    buildH (runOps h' ops) (copyBuilder d) = some (d, runOps h' ops) := by
  have h0 := C189_copy h h' b d hb
  obtain ⟨s, hc, he, _⟩ := buildH_some h0
  have hk := keeps_ops h' ops
  have hg := fixed_keeps hk hf
  generalize runOps h' ops = g at *
  have hseal : sealParts g d = g := by
    cases hg with
    | mk hd _ hm _ _ hfl _ =>
      have a1 : Frozen g d.dims := ⟨_, hd, rfl⟩
      have a2 : Frozen g d.metadata := ⟨_, hm, rfl⟩
      have a3 : Frozen g d.fields := ⟨_, hfl, rfl⟩
      unfold sealParts
      dsimp only
      split
      · rw [freeze_idem a1, freeze_idem a2]
      · rw [freeze_idem a3, freeze_idem a1, freeze_idem a2]
  unfold copyBuilder at hc he ⊢
  unfold buildH
  rw [keeps_base hk hf, keeps_fields hk hf, hc]
  dsimp only
  rw [hseal, ← he]

example : buildH heapRec bldRec = some ({ bldRec with sizes := ⟨6, 6⟩ }, sealParts heapRec bldRec) := rfl

end Verif.Descr.Props
