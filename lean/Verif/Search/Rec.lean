import Verif.Search.Lemmas

/-! The recursive listings as reachability. -/

namespace Verif.Search

open Spec

/-! ### Nodes -/

theorem self_mem_nodes (c : Comp) : c ∈ nodes c := by
  cases c; rw [nodes]; exact List.mem_cons_self

theorem mem_nodesOf {e d : Comp} {cs : List Comp} (he : e ∈ cs) (hd : d ∈ nodes e) : d ∈ nodesOf cs := by
  induction cs with
  | nil => exact absurd he (by simp)
  | cons c cs ih =>
    rw [nodesOf]
    rcases List.mem_cons.mp he with rfl | he
    · exact List.mem_append_left _ hd
    · exact List.mem_append_right _ (ih he)

theorem inside_nodes {c d : Comp} (h : Inside c d) : d ∈ nodes c := by
  induction h with
  | self => exact self_mem_nodes _
  | @step c e d he _ ih =>
    cases c
    rw [nodes]
    exact List.mem_cons_of_mem _ (mem_nodesOf he ih)

theorem DistinctIds.unique {c : Comp} (h : DistinctIds c) : UniqueIds c :=
  fun _ _ ha hb he => List.inj_on_of_nodup_map h (inside_nodes ha) (inside_nodes hb) he

theorem nodesOf_sound {d : Comp} (n : Nat) : ∀ cs : List Comp, sizeOf cs < n → d ∈ nodesOf cs →
    ∃ e ∈ cs, Inside e d := by
  induction n with
  | zero => intro cs h; omega
  | succ n ih =>
    intro cs hn h
    match cs with
    | [] => exact absurd h (by simp [nodesOf])
    | .mk i ds :: rest =>
      simp only [List.cons.sizeOf_spec, Comp.mk.sizeOf_spec] at hn
      rw [nodesOf, nodes] at h
      rcases List.mem_append.mp h with h | h
      · rcases List.mem_cons.mp h with rfl | h
        · exact ⟨_, List.mem_cons_self, .self⟩
        · obtain ⟨e, he, hi⟩ := ih ds (by omega) h
          exact ⟨_, List.mem_cons_self, .step he hi⟩
      · obtain ⟨e, he, hi⟩ := ih rest (by omega) h
        exact ⟨e, List.mem_cons_of_mem _ he, hi⟩

theorem mem_nodes {c d : Comp} : d ∈ nodes c ↔ Inside c d := by
  refine ⟨fun h => ?_, inside_nodes⟩
  cases c with
  | mk i cs =>
    rw [nodes] at h
    rcases List.mem_cons.mp h with rfl | h
    · exact .self
    · obtain ⟨e, he, hi⟩ := nodesOf_sound _ cs (Nat.lt_succ_self _) h
      exact .step he hi

/-! ### Channels -/

theorem ioChannel_cons {v : Info → Prop} {c ch : Comp} {rest : List Comp} :
    IoChannel v (c :: rest) ch ↔ (c = ch ∧ ch.info.kind = .channel) ∨
      (c.info.kind = .ioFolder ∧ v c.info ∧ IoChannel v c.items ch) ∨ IoChannel v rest ch := by
  constructor
  · intro h
    cases h with
    | here h hk =>
      rcases List.mem_cons.mp h with rfl | h
      · exact .inl ⟨rfl, hk⟩
      · exact .inr (.inr (.here h hk))
    | deeper he hk hv hi =>
      rcases List.mem_cons.mp he with rfl | he
      · exact .inr (.inl ⟨hk, hv, hi⟩)
      · exact .inr (.inr (.deeper he hk hv hi))
  · rintro (⟨rfl, hk⟩ | ⟨hk, hv, hi⟩ | h)
    · exact .here List.mem_cons_self hk
    · exact .deeper List.mem_cons_self hk hv hi
    · cases h with
      | here h hk => exact .here (List.mem_cons_of_mem _ h) hk
      | deeper he hk hv hi => exact .deeper (List.mem_cons_of_mem _ he) hk hv hi

theorem not_ioChannel_nil {v : Info → Prop} {ch : Comp} : ¬ IoChannel v [] ch := by
  intro h
  cases h with
  | here h _ => exact absurd h (by simp)
  | deeper h _ _ _ => exact absurd h (by simp)

theorem mem_channelsFrom (f : Filter) (b : Bool) (d : Comp) (n : Nat) : ∀ l : List Comp, sizeOf l < n →
    (d ∈ channelsFrom f b l ↔ IoChannel (Enters f) l d ∧ (b = true → Wants f d.info)) := by
  induction n with
  | zero => intro l h; omega
  | succ n ih =>
    intro l hn
    match l with
    | [] => simp [channelsFrom, not_ioChannel_nil]
    | .mk i cs :: rest =>
      simp only [List.cons.sizeOf_spec, Comp.mk.sizeOf_spec] at hn
      rw [channelsFrom, channelsAt, List.mem_append, ih rest (by omega), ioChannel_cons]
      by_cases hk : i.kind = .channel
      · have h1 : i.kind.supports .channel = true := (channel_iff _).mpr hk
        have h2 : ¬ (i.kind = .ioFolder) := by rw [hk]; decide
        rw [if_pos h1]
        constructor
        · rintro (h | h)
          · split at h
            · exact absurd h (by simp)
            · rename_i ha
              rw [List.mem_singleton] at h
              subst h
              refine ⟨.inl ⟨rfl, hk⟩, fun hb => (accepts_iff f _).mp ?_⟩
              simpa [hb, Comp.info] using ha
          · exact ⟨.inr (.inr h.1), h.2⟩
        · rintro ⟨⟨rfl, _⟩ | ⟨hio, _⟩ | h, hw⟩
          · left
            rw [if_neg]
            · exact List.mem_singleton.mpr rfl
            · intro hc
              simp only [Bool.and_eq_true, Bool.not_eq_true'] at hc
              have := (accepts_iff f i).mpr (hw hc.1)
              rw [this] at hc
              exact absurd hc.2 (by simp)
          · exact absurd hio h2
          · exact .inr ⟨h, hw⟩
      · have h1 : ¬ (i.kind.supports .channel = true) := fun h => hk ((channel_iff _).mp h)
        rw [if_neg h1]
        by_cases hio : i.kind = .ioFolder ∧ Enters f i
        · rw [if_pos (by simp [(ioFolder_iff _).mpr hio.1, (visit_iff f i).mpr hio.2]), ih cs (by omega)]
          constructor
          · rintro (h | h)
            · exact ⟨.inr (.inl ⟨hio.1, hio.2, h.1⟩), h.2⟩
            · exact ⟨.inr (.inr h.1), h.2⟩
          · rintro ⟨⟨rfl, h⟩ | ⟨_, _, h⟩ | h, hw⟩
            · exact absurd h hk
            · exact .inl ⟨h, hw⟩
            · exact .inr ⟨h, hw⟩
        · rw [if_neg (by
            rw [Bool.and_eq_true, ioFolder_iff, visit_iff]; exact hio)]
          constructor
          · rintro (h | h)
            · exact absurd h (by simp)
            · exact ⟨.inr (.inr h.1), h.2⟩
          · rintro ⟨⟨rfl, h⟩ | ⟨h1, h2, _⟩ | h, hw⟩
            · exact absurd h hk
            · exact absurd ⟨h1, h2⟩ hio
            · exact .inr ⟨h, hw⟩

theorem channels_iff (f : Filter) (c d : Comp) :
    d ∈ channelsFrom f true (part .io c).items ↔ HasChannel (Enters f) c d ∧ Wants f d.info := by
  rw [mem_channelsFrom f true d _ _ (Nat.lt_succ_self _)]
  have : IoChannel (Enters f) (part .io c).items d ↔ HasChannel (Enters f) c d := by
    unfold part HasChannel
    rw [find_congr]
    cases h : c.items.find? (fun x => decide (x.info.role = some .io)) with
    | none => simp [Comp.items, not_ioChannel_nil]
    | some x => simp
  rw [this]; simp

theorem channelsFrom_sublist (f : Filter) (b : Bool) (n : Nat) : ∀ l : List Comp, sizeOf l < n →
    (channelsFrom f b l).Sublist (nodesOf l) := by
  induction n with
  | zero => intro l h; omega
  | succ n ih =>
    intro l hn
    match l with
    | [] => simp [channelsFrom]
    | .mk i cs :: rest =>
      simp only [List.cons.sizeOf_spec, Comp.mk.sizeOf_spec] at hn
      rw [channelsFrom, channelsAt, nodesOf, nodes]
      refine List.Sublist.append ?_ (ih rest (by omega))
      split
      · split
        · exact List.nil_sublist _
        · exact List.Sublist.cons_cons _ (List.nil_sublist _)
      · split
        · exact (ih cs (by omega)).cons _
        · exact List.nil_sublist _

theorem nodesOf_sublist {cs : List Comp} {e : Comp} (h : e ∈ cs) : (nodes e).Sublist (nodesOf cs) := by
  induction cs with
  | nil => exact absurd h (by simp)
  | cons c cs ih =>
    rw [nodesOf]
    rcases List.mem_cons.mp h with rfl | h
    · exact List.sublist_append_left _ _
    · exact (ih h).trans (List.sublist_append_right _ _)

theorem items_sublist (c : Comp) : (nodesOf c.items).Sublist (nodes c) := by
  cases c; rw [nodes]; exact List.Sublist.cons _ (List.Sublist.refl _)

theorem EachOnce.sublist {l l' : List Comp} (h : EachOnce l') (hs : l.Sublist l') : EachOnce l :=
  List.Nodup.sublist (hs.map _) h

theorem self_sublist (cs : List Comp) : cs.Sublist (nodesOf cs) := by
  induction cs with
  | nil => exact List.nil_sublist _
  | cons c cs ih =>
    rw [nodesOf]
    cases c
    rw [nodes]
    exact List.Sublist.cons_cons _ (ih.trans (List.sublist_append_right _ _))

theorem part_nodes (r : Role) (c : Comp) : (nodesOf (part r c).items).Sublist (nodes c) := by
  rcases part_or r c with h | h
  · exact (items_sublist _).trans ((nodesOf_sublist h).trans (items_sublist c))
  · rw [h]; exact List.nil_sublist _

theorem part_once (r : Role) {c : Comp} (h : DistinctIds c) : EachOnce (part r c).items :=
  EachOnce.sublist h ((self_sublist _).trans (part_nodes r c))

/-! ### Loops over a default folder -/

theorem find_role {i : Info} {ds rest : List Comp} (r : Role) :
    (Comp.mk i ds :: rest).find? (fun x => decide (x.info.role = some r)) =
      if i.role = some r then some (.mk i ds)
      else rest.find? (fun x => decide (x.info.role = some r)) := by
  rw [List.find?_cons]
  by_cases h : i.role = some r <;> simp [Comp.info, h]

theorem mem_sigOf (f : Filter) (d : Comp) (cs : List Comp) :
    d ∈ sigOf f cs ↔ ∃ e ∈ cs, Enters f e.info ∧ d ∈ sigRec f e := by
  induction cs with
  | nil => simp [sigOf]
  | cons c cs ih =>
    rw [sigOf, List.mem_append, ih, List.exists_mem_cons_iff, ← visit_iff]
    refine or_congr ?_ Iff.rfl
    by_cases hv : f.visit c.info = true <;> simp [hv]

theorem mem_sigPart (f : Filter) (r : Role) (d : Comp) (i : Info) (cs : List Comp) :
    d ∈ sigPart f r cs ↔ ∃ e, Holds r (.mk i cs) e ∧ Enters f e.info ∧ d ∈ sigRec f e := by
  induction cs with
  | nil => simp [sigPart, Holds, Comp.items]
  | cons c cs ih =>
    cases c with
    | mk j ds =>
      rw [sigPart]
      simp only [Holds, Comp.items, find_role] at ih ⊢
      by_cases h : j.role = some r
      · simp only [h, beq_self_eq_true, if_true, mem_sigOf, Option.some.injEq]
        constructor
        · rintro ⟨e, he, h1, h2⟩; exact ⟨e, ⟨_, rfl, he⟩, h1, h2⟩
        · rintro ⟨e, ⟨fo, rfl, he⟩, h1, h2⟩; exact ⟨e, he, h1, h2⟩
      · rw [if_neg (by simpa using h), if_neg h]; exact ih

theorem mem_sigCh (f : Filter) (d : Comp) (n : Nat) : ∀ l : List Comp, sizeOf l < n →
    (d ∈ sigCh f l ↔ ∃ ch, IoChannel (Enters f) l ch ∧ Enters f ch.info ∧ d ∈ sigRec f ch) := by
  induction n with
  | zero => intro l h; omega
  | succ n ih =>
    intro l hn
    match l with
    | [] => simp [sigCh, not_ioChannel_nil]
    | .mk i cs :: rest =>
      simp only [List.cons.sizeOf_spec, Comp.mk.sizeOf_spec] at hn
      rw [sigCh, List.mem_append, ih rest (by omega)]
      simp only [ioChannel_cons]
      by_cases hk : i.kind = .channel
      · have h1 : i.kind.supports .channel = true := (channel_iff _).mpr hk
        have h2 : ¬ (i.kind = .ioFolder) := by rw [hk]; decide
        rw [if_pos h1]
        constructor
        · rintro (h | ⟨ch, h⟩)
          · split at h
            · rename_i hv
              exact ⟨.mk i cs, .inl ⟨rfl, hk⟩, (visit_iff f _).mp hv, h⟩
            · exact absurd h (by simp)
          · exact ⟨ch, .inr (.inr h.1), h.2⟩
        · rintro ⟨ch, ⟨rfl, _⟩ | ⟨hio, _⟩ | h, hv, hd⟩
          · left
            rw [if_pos ((visit_iff f i).mpr hv)]; exact hd
          · exact absurd hio h2
          · exact .inr ⟨ch, h, hv, hd⟩
      · have h1 : ¬ (i.kind.supports .channel = true) := fun h => hk ((channel_iff _).mp h)
        rw [if_neg h1]
        by_cases hio : i.kind = .ioFolder ∧ Enters f i
        · rw [if_pos (by simp [(ioFolder_iff _).mpr hio.1, (visit_iff f i).mpr hio.2]), ih cs (by omega)]
          constructor
          · rintro (⟨ch, h⟩ | ⟨ch, h⟩)
            · exact ⟨ch, .inr (.inl ⟨hio.1, hio.2, h.1⟩), h.2⟩
            · exact ⟨ch, .inr (.inr h.1), h.2⟩
          · rintro ⟨ch, ⟨rfl, h⟩ | ⟨_, _, h⟩ | h, hw⟩
            · exact absurd h hk
            · exact .inl ⟨ch, h, hw⟩
            · exact .inr ⟨ch, h, hw⟩
        · rw [if_neg (by
            rw [Bool.and_eq_true, ioFolder_iff, visit_iff]; exact hio)]
          constructor
          · rintro (h | ⟨ch, h⟩)
            · exact absurd h (by simp)
            · exact ⟨ch, .inr (.inr h.1), h.2⟩
          · rintro ⟨ch, ⟨rfl, h⟩ | ⟨h1, h2, _⟩ | h, hw⟩
            · exact absurd h hk
            · exact absurd ⟨h1, h2⟩ hio
            · exact .inr ⟨ch, h, hw⟩

theorem mem_sigIo (f : Filter) (d : Comp) (i : Info) (cs : List Comp) :
    d ∈ sigIo f cs ↔ ∃ ch, HasChannel (Enters f) (.mk i cs) ch ∧ Enters f ch.info ∧ d ∈ sigRec f ch := by
  induction cs with
  | nil => simp [sigIo, HasChannel, Comp.items]
  | cons c cs ih =>
    cases c with
    | mk j ds =>
      rw [sigIo]
      simp only [HasChannel, Comp.items, find_role] at ih ⊢
      by_cases h : j.role = some .io
      · simp only [h, beq_self_eq_true, if_true, mem_sigCh f d _ ds (Nat.lt_succ_self _), Option.some.injEq]
        constructor
        · rintro ⟨e, he, h1, h2⟩; exact ⟨e, ⟨_, rfl, he⟩, h1, h2⟩
        · rintro ⟨e, ⟨fo, rfl, he⟩, h1, h2⟩; exact ⟨e, he, h1, h2⟩
      · rw [if_neg (by simpa using h), if_neg h]; exact ih

/-- The list a recursive search for signals puts into its set: own signals, or signals of something
one step away. -/
theorem sigRec_list (f : Filter) (c : Comp) : ∃ l, sigRec f c = ordSet l ∧ ∀ d, d ∈ l ↔
    d ∈ getItems f (part .sig c) ∨ ∃ e, Step (Enters f) c e ∧ d ∈ sigRec f e := by
  cases c with
  | mk i cs =>
    rw [sigRec]
    by_cases hk : i.kind = .device
    · rw [if_pos ((device_iff _).mpr hk)]
      refine ⟨_, rfl, fun d => ?_⟩
      simp only [List.mem_append, mem_sigIo f d i, mem_sigPart f _ d i, Step, Comp.info, hk, true_and]
      constructor
      · rintro (((⟨e, h1, h2, h3⟩ | h) | ⟨e, h1, h2, h3⟩) | ⟨e, h1, h2, h3⟩)
        · exact .inr ⟨e, ⟨h2, .inr (.inr h1)⟩, h3⟩
        · exact .inl h
        · exact .inr ⟨e, ⟨h2, .inl h1⟩, h3⟩
        · exact .inr ⟨e, ⟨h2, .inr (.inl h1)⟩, h3⟩
      · rintro (h | ⟨e, ⟨h2, h1 | h1 | h1⟩, h3⟩)
        · exact .inl (.inl (.inr h))
        · exact .inl (.inr ⟨e, h1, h2, h3⟩)
        · exact .inr ⟨e, h1, h2, h3⟩
        · exact .inl (.inl (.inl ⟨e, h1, h2, h3⟩))
    · rw [if_neg (fun h => hk ((device_iff _).mp h))]
      refine ⟨_, rfl, fun d => ?_⟩
      simp only [List.mem_append, mem_sigPart f _ d i, Step, Comp.info, hk, false_and, or_false]
      refine or_congr Iff.rfl ⟨?_, ?_⟩
      · rintro ⟨e, h1, h2, h3⟩; exact ⟨e, ⟨h2, h1⟩, h3⟩
      · rintro ⟨e, ⟨h2, h1⟩, h3⟩; exact ⟨e, h1, h2, h3⟩

open Relation in
/-- A recursive listing whose set is filled from own items and from the same listing one step away returns
exactly the own items of everything reachable. -/
theorem rec_iff {R : Comp → Comp → Prop} (hR : ∀ c e, R c e → Inside c e ∧ sizeOf e < sizeOf c)
    (F : Comp → List Comp) (own : Comp → Comp → Prop)
    (hown : ∀ c d, own c d → Inside c d)
    (hF : ∀ c, ∃ l, F c = ordSet l ∧ ∀ d, d ∈ l ↔ own c d ∨ ∃ e, R c e ∧ d ∈ F e) :
    (∀ n c, sizeOf c < n → ∀ d, d ∈ F c → ∃ o, ReflTransGen R c o ∧ own o d) ∧
    (∀ c d, UniqueIds c → (∃ o, ReflTransGen R c o ∧ own o d) → d ∈ F c) := by
  have sound : ∀ n c, sizeOf c < n → ∀ d, d ∈ F c → ∃ o, ReflTransGen R c o ∧ own o d := by
    intro n
    induction n with
    | zero => intro c h; omega
    | succ n ih =>
      intro c hn d hd
      obtain ⟨l, hl, hm⟩ := hF c
      rw [hl] at hd
      rcases (hm d).mp (mem_ordSet hd) with h | ⟨e, he, h⟩
      · exact ⟨c, .refl, h⟩
      · obtain ⟨o, h1, h2⟩ := ih e (by have := (hR c e he).2; omega) d h
        exact ⟨o, .head he h1, h2⟩
  have hins : ∀ c o, ReflTransGen R c o → Inside c o := by
    intro c o h
    induction h using ReflTransGen.head_induction_on with
    | refl => exact .self
    | head h _ ih => exact (hR _ _ h).1.trans ih
  refine ⟨sound, ?_⟩
  rintro c d hu ⟨o, hr, ho⟩
  have key : ∀ c, UniqueIds c → ∀ x, ((∃ l, F c = ordSet l ∧ ∀ d, d ∈ l ↔ own c d ∨ ∃ e, R c e ∧ d ∈ F e) →
      (own c x ∨ ∃ e, R c e ∧ x ∈ F e) → x ∈ F c) := by
    rintro c hu x ⟨l, hl, hm⟩ hx
    rw [hl, mem_ordSet_iff hu _ x]
    · exact (hm x).mpr hx
    · intro y hy
      rcases (hm y).mp hy with h | ⟨e, he, h⟩
      · exact hown c y h
      · obtain ⟨o', h1, h2⟩ := sound _ e (Nat.lt_succ_self _) y h
        exact (hR c e he).1.trans ((hins e o' h1).trans (hown o' y h2))
  revert hu
  induction hr using ReflTransGen.head_induction_on with
  | refl => intro hu; exact key _ hu d (hF _) (.inl ho)
  | head h _ ih =>
    intro hu
    exact key _ hu d (hF _) (.inr ⟨_, h, ih (hu.sub (hR _ _ h).1)⟩)

theorem once_of_list {F : Comp → List Comp} {c : Comp} {p : Comp → Prop}
    (h : ∃ l, F c = ordSet l ∧ ∀ d, d ∈ l ↔ p d) : EachOnce (F c) := by
  obtain ⟨l, hl, _⟩ := h
  rw [hl]; exact ordSet_once l

/-! ### Ports, channels, devices, function blocks of devices -/

theorem mem_portOf (f : Filter) (d : Comp) (cs : List Comp) :
    d ∈ portOf f cs ↔ ∃ e ∈ cs, Enters f e.info ∧ d ∈ portRec f e := by
  induction cs with
  | nil => simp [portOf]
  | cons c cs ih =>
    rw [portOf, List.mem_append, ih, List.exists_mem_cons_iff, ← visit_iff]
    refine or_congr ?_ Iff.rfl
    by_cases hv : f.visit c.info = true <;> simp [hv]

theorem mem_portPart (f : Filter) (d : Comp) (i : Info) (cs : List Comp) :
    d ∈ portPart f cs ↔ ∃ e, Holds .fb (.mk i cs) e ∧ Enters f e.info ∧ d ∈ portRec f e := by
  induction cs with
  | nil => simp [portPart, Holds, Comp.items]
  | cons c cs ih =>
    cases c with
    | mk j ds =>
      rw [portPart]
      simp only [Holds, Comp.items, find_role] at ih ⊢
      by_cases h : j.role = some .fb
      · simp only [h, beq_self_eq_true, if_true, mem_portOf, Option.some.injEq]
        constructor
        · rintro ⟨e, he, h1, h2⟩; exact ⟨e, ⟨_, rfl, he⟩, h1, h2⟩
        · rintro ⟨e, ⟨fo, rfl, he⟩, h1, h2⟩; exact ⟨e, he, h1, h2⟩
      · rw [if_neg (by simpa using h), if_neg h]; exact ih

theorem portRec_list (f : Filter) (c : Comp) : ∃ l, portRec f c = ordSet l ∧ ∀ d, d ∈ l ↔
    d ∈ getItems f (part .ip c) ∨ ∃ e, FbStep (Enters f) c e ∧ d ∈ portRec f e := by
  cases c with
  | mk i cs =>
    rw [portRec]
    refine ⟨_, rfl, fun d => ?_⟩
    simp only [List.mem_append, mem_portPart f d i, FbStep, and_assoc]

theorem mem_chOf (f : Filter) (d : Comp) (cs : List Comp) :
    d ∈ chOf f cs ↔ ∃ e ∈ cs, Enters f e.info ∧ d ∈ chRec f e := by
  induction cs with
  | nil => simp [chOf]
  | cons c cs ih =>
    rw [chOf, List.mem_append, ih, List.exists_mem_cons_iff, ← visit_iff]
    refine or_congr ?_ Iff.rfl
    by_cases hv : f.visit c.info = true <;> simp [hv]

theorem mem_chPart (f : Filter) (d : Comp) (i : Info) (cs : List Comp) :
    d ∈ chPart f cs ↔ ∃ e, Holds .dev (.mk i cs) e ∧ Enters f e.info ∧ d ∈ chRec f e := by
  induction cs with
  | nil => simp [chPart, Holds, Comp.items]
  | cons c cs ih =>
    cases c with
    | mk j ds =>
      rw [chPart]
      simp only [Holds, Comp.items, find_role] at ih ⊢
      by_cases h : j.role = some .dev
      · simp only [h, beq_self_eq_true, if_true, mem_chOf, Option.some.injEq]
        constructor
        · rintro ⟨e, he, h1, h2⟩; exact ⟨e, ⟨_, rfl, he⟩, h1, h2⟩
        · rintro ⟨e, ⟨fo, rfl, he⟩, h1, h2⟩; exact ⟨e, he, h1, h2⟩
      · rw [if_neg (by simpa using h), if_neg h]; exact ih

theorem chRec_list (f : Filter) (c : Comp) : ∃ l, chRec f c = ordSet l ∧ ∀ d, d ∈ l ↔
    (HasChannel (Enters f) c d ∧ Wants f d.info) ∨ ∃ e, DevStep (Enters f) c e ∧ d ∈ chRec f e := by
  cases c with
  | mk i cs =>
    rw [chRec]
    refine ⟨_, rfl, fun d => ?_⟩
    simp only [List.mem_append, mem_chPart f d i, channels_iff, DevStep, and_assoc]

theorem mem_devOf (f : Filter) (d : Comp) (cs : List Comp) :
    d ∈ devOf f cs ↔ ∃ e ∈ cs, Enters f e.info ∧ d ∈ devRec f e := by
  induction cs with
  | nil => simp [devOf]
  | cons c cs ih =>
    rw [devOf, List.mem_append, ih, List.exists_mem_cons_iff, ← visit_iff]
    refine or_congr ?_ Iff.rfl
    by_cases hv : f.visit c.info = true <;> simp [hv]

theorem mem_devPart (f : Filter) (d : Comp) (i : Info) (cs : List Comp) :
    d ∈ devPart f cs ↔ ∃ e, Holds .dev (.mk i cs) e ∧ Enters f e.info ∧ d ∈ devRec f e := by
  induction cs with
  | nil => simp [devPart, Holds, Comp.items]
  | cons c cs ih =>
    cases c with
    | mk j ds =>
      rw [devPart]
      simp only [Holds, Comp.items, find_role] at ih ⊢
      by_cases h : j.role = some .dev
      · simp only [h, beq_self_eq_true, if_true, mem_devOf, Option.some.injEq]
        constructor
        · rintro ⟨e, he, h1, h2⟩; exact ⟨e, ⟨_, rfl, he⟩, h1, h2⟩
        · rintro ⟨e, ⟨fo, rfl, he⟩, h1, h2⟩; exact ⟨e, he, h1, h2⟩
      · rw [if_neg (by simpa using h), if_neg h]; exact ih

theorem mem_part_filter (f : Filter) (r : Role) (c d : Comp) :
    d ∈ (part r c).items.filter (fun c => f.accepts c.info) ↔ Holds r c d ∧ Wants f d.info := by
  rw [List.mem_filter, part_items, accepts_iff]

theorem devRec_list (f : Filter) (c : Comp) : ∃ l, devRec f c = ordSet l ∧ ∀ d, d ∈ l ↔
    (Holds .dev c d ∧ Wants f d.info) ∨ ∃ e, DevStep (Enters f) c e ∧ d ∈ devRec f e := by
  cases c with
  | mk i cs =>
    rw [devRec]
    refine ⟨_, rfl, fun d => ?_⟩
    simp only [List.mem_append, mem_devPart f d i, mem_part_filter, DevStep, and_assoc]

theorem mem_devFbOf (f : Filter) (d : Comp) (cs : List Comp) :
    d ∈ devFbOf f cs ↔ ∃ e ∈ cs, Enters f e.info ∧ d ∈ devFbRec f e := by
  induction cs with
  | nil => simp [devFbOf]
  | cons c cs ih =>
    rw [devFbOf, List.mem_append, ih, List.exists_mem_cons_iff, ← visit_iff]
    refine or_congr ?_ Iff.rfl
    by_cases hv : f.visit c.info = true <;> simp [hv]

theorem mem_devFbPart (f : Filter) (d : Comp) (i : Info) (cs : List Comp) :
    d ∈ devFbPart f cs ↔ ∃ e, Holds .dev (.mk i cs) e ∧ Enters f e.info ∧ d ∈ devFbRec f e := by
  induction cs with
  | nil => simp [devFbPart, Holds, Comp.items]
  | cons c cs ih =>
    cases c with
    | mk j ds =>
      rw [devFbPart]
      simp only [Holds, Comp.items, find_role] at ih ⊢
      by_cases h : j.role = some .dev
      · simp only [h, beq_self_eq_true, if_true, mem_devFbOf, Option.some.injEq]
        constructor
        · rintro ⟨e, he, h1, h2⟩; exact ⟨e, ⟨_, rfl, he⟩, h1, h2⟩
        · rintro ⟨e, ⟨fo, rfl, he⟩, h1, h2⟩; exact ⟨e, he, h1, h2⟩
      · rw [if_neg (by simpa using h), if_neg h]; exact ih

theorem devFbRec_list (f : Filter) (c : Comp) : ∃ l, devFbRec f c = ordSet l ∧ ∀ d, d ∈ l ↔
    (Holds .fb c d ∧ Wants f d.info) ∨ ∃ e, DevStep (Enters f) c e ∧ d ∈ devFbRec f e := by
  cases c with
  | mk i cs =>
    rw [devFbRec]
    refine ⟨_, rfl, fun d => ?_⟩
    simp only [List.mem_append, mem_devFbPart f d i, mem_part_filter, DevStep, and_assoc]

/-! ### Function blocks of function blocks -/

/-- The listing of function blocks when no cast fails. -/
theorem fbOf_some (f : Filter) (cs : List Comp) (h : ∀ e ∈ cs, Enters f e.info → (fbRec f e).isSome = true) :
    ∃ l, fbOf f cs = some l ∧ ∀ d, d ∈ l ↔ ∃ e ∈ cs, Enters f e.info ∧ ∃ r, fbRec f e = some r ∧ d ∈ r := by
  induction cs with
  | nil => exact ⟨[], by rw [fbOf], by simp⟩
  | cons c cs ih =>
    obtain ⟨l, hl, hm⟩ := ih fun e he => h e (List.mem_cons_of_mem _ he)
    rw [fbOf, hl]
    by_cases hv : f.visit c.info = true
    · obtain ⟨r, hr⟩ := Option.isSome_iff_exists.mp (h c List.mem_cons_self ((visit_iff f _).mp hv))
      refine ⟨r ++ l, by simp [hv, hr], fun d => ?_⟩
      rw [List.mem_append, hm, List.exists_mem_cons_iff]
      refine or_congr ?_ Iff.rfl
      simp [← visit_iff, hv, hr]
    · refine ⟨l, by simp [hv], fun d => ?_⟩
      rw [hm, List.exists_mem_cons_iff, ← visit_iff]
      simp [hv]

theorem fbPart_some (f : Filter) (i : Info) (cs : List Comp)
    (h : ∀ e, Holds .fb (.mk i cs) e → Enters f e.info → (fbRec f e).isSome = true) :
    ∃ l, fbPart f cs = some l ∧ ∀ d, d ∈ l ↔
      ∃ e, Holds .fb (.mk i cs) e ∧ Enters f e.info ∧ ∃ r, fbRec f e = some r ∧ d ∈ r := by
  induction cs with
  | nil => exact ⟨[], by rw [fbPart], by simp [Holds, Comp.items]⟩
  | cons c cs ih =>
    cases c with
    | mk j ds =>
      rw [fbPart]
      simp only [Holds, Comp.items, find_role] at ih h ⊢
      by_cases hr : j.role = some .fb
      · simp only [hr, beq_self_eq_true, if_true, Option.some.injEq] at h ⊢
        obtain ⟨l, hl, hm⟩ := fbOf_some f ds fun e he hv => h e ⟨_, rfl, he⟩ hv
        refine ⟨l, hl, fun d => ?_⟩
        rw [hm]
        constructor
        · rintro ⟨e, he, h1, h2⟩; exact ⟨e, ⟨_, rfl, he⟩, h1, h2⟩
        · rintro ⟨e, ⟨fo, rfl, he⟩, h1, h2⟩; exact ⟨e, he, h1, h2⟩
      · rw [if_neg (by simpa using hr)]
        simp only [hr, if_false] at h ⊢
        exact ih h

end Verif.Search
