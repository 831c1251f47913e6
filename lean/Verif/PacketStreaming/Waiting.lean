import Verif.PacketStreaming.Client

/-! Packets that arrive before their domain packet (helper lemmas). -/

namespace Verif.PacketStreaming

def witems (w : WBuf) : List Item := (w.sig :: w.additional).map (fun s => ⟨s, w.id, w.domain, w.payload⟩)

@[simp] theorem outItems_append (a b) : outItems (a ++ b) = outItems a ++ outItems b := by simp [outItems]

theorem outItems_data (l : List Nat) (q : CPacket) :
    outItems (l.map (fun s => CItem.data s q)) = l.map (fun s => ⟨s, q.src, q.domain, q.payload⟩) := by
  induction l with
  | nil => rfl
  | cons a l ih => simp only [List.map_cons, outItems, List.filterMap_cons] at ih ⊢; rw [ih]

theorem toPacket_fields (b : WBuf) (d : Option Desc) (dom : Option Nat) :
    (b.toPacket d dom).src = b.id ∧ (b.toPacket d dom).domain = dom ∧
    (b.toPacket d dom).payload = b.payload := by
  unfold WBuf.toPacket
  split
  · rename_i h; simp [h]
  · rename_i h
    split <;> simp [h]

def ids (l : List WBuf) : List Nat := l.map WBuf.id

theorem mem_ids {l : List WBuf} {i : Nat} : i ∈ ids l ↔ ∃ w ∈ l, w.id = i := by simp [ids]

theorem eq_of_ids {l : List WBuf} (h : (ids l).Nodup) {a b : WBuf} (ha : a ∈ l) (hb : b ∈ l)
    (e : a.id = b.id) : a = b := by
  induction l with
  | nil => cases ha
  | cons x l ih =>
    simp only [ids, List.map_cons, List.nodup_cons] at h
    rcases List.mem_cons.mp ha with rfl | ha' <;> rcases List.mem_cons.mp hb with rfl | hb'
    · rfl
    · exact absurd (List.mem_map.mpr ⟨b, hb', e.symm⟩) h.1
    · exact absurd (List.mem_map.mpr ⟨a, ha', e⟩) h.1
    · exact ih h.2 ha' hb'

/-- Conditions on the client under which processing is described. -/
structure Ready (c : Cli) : Prop where
  nd : (ids c.waiting).Nodup
  lt : ∀ w ∈ c.waiting, ∀ d, w.domain = some d → d < w.id
  reg : ∀ w ∈ c.waiting, (c.descs.get w.sig).isSome

/-- Removing waiting buffers. -/
def without (R : List WBuf) (l : List WBuf) : List WBuf := l.filter (fun w => !(ids R).contains w.id)

theorem mem_without {R l : List WBuf} {w : WBuf} : w ∈ without R l ↔ w ∈ l ∧ w.id ∉ ids R := by
  simp [without]

theorem without_append (R S l : List WBuf) : without S (without R l) = without (R ++ S) l := by
  unfold without
  rw [List.filter_filter]
  refine List.filter_congr ?_
  intro w _
  simp [ids, Bool.and_comm]

theorem ready_without {c c' : Cli} {R : List WBuf} (h : Ready c) (hw : c'.waiting = without R c.waiting)
    (hd : c'.descs = c.descs) : Ready c' := by
  obtain ⟨h1, h2, h3⟩ := h
  refine ⟨?_, ?_, ?_⟩
  · rw [hw]; exact h1.sublist ((List.filter_sublist).map _)
  · intro w hwm; rw [hw, mem_without] at hwm; exact h2 w hwm.1
  · intro w hwm; rw [hw, mem_without] at hwm; rw [hd]; exact h3 w hwm.1

/-- The packet object was made from the buffer. -/
def IsOf (w : WBuf) (o : CPacket) : Prop := o.src = w.id ∧ o.domain = w.domain ∧ o.payload = w.payload

/-- Result of processing a buffer and everything waiting for it, directly or indirectly. `R` are the
buffers that stop waiting. -/
structure Processed (c c' : Cli) (bid lo : Nat) (R : List WBuf) (newKeys : Nat → Prop)
    (newVals : Nat → CPacket → Prop) (newItems : List Item) : Prop where
  descs : c'.descs = c.descs
  doms : c'.domDescs = c.domDescs
  waiting : c'.waiting = without R c.waiting
  sub : ∀ r ∈ R, r ∈ c.waiting ∧ bid < r.id ∧ ∃ d, r.domain = some d ∧ lo ≤ d
  nd : (ids R).Nodup
  done : ∀ w ∈ c'.waiting, ∀ r ∈ R, w.domain ≠ some r.id
  keys : ∀ i, c'.refPackets.has i = true ↔ c.refPackets.has i = true ∨ newKeys i ∨
    ∃ r ∈ R, r.id = i ∧ r.flags % 2 ≠ 1
  vals : ∀ i o, c'.refPackets.get i = some o → c.refPackets.get i = some o ∨ newVals i o ∨
    ∃ r ∈ R, r.id = i ∧ IsOf r o
  items : (outItems c'.out).Perm (outItems c.out ++ newItems ++ R.flatMap witems)

theorem has_add (m : AList Nat CPacket) (k i : Nat) (v : CPacket) :
    (m.add k v).has i = true ↔ m.has i = true ∨ i = k := by
  rw [AList.has_iff, AList.has_iff, AList.get_add]
  by_cases h : i = k
  · simp [h]
  · simp [h]

theorem process_spec (fuel : Nat) : ∀ (c : Cli) (b : WBuf) (dom : Option Nat),
    c.waiting.countP (fun w => decide (b.id < w.id)) < fuel → Ready c → (c.descs.get b.sig).isSome →
    ∃ c' p R, Cli.process fuel c b dom = .ok (c', p) ∧ p.src = b.id ∧ p.domain = dom ∧
      p.payload = b.payload ∧
      Processed c c' b.id b.id R (fun i => i = b.id ∧ b.flags % 2 ≠ 1)
        (fun i o => i = b.id ∧ o.src = b.id ∧ o.domain = dom ∧ o.payload = b.payload)
        [⟨b.sig, b.id, dom, b.payload⟩] ∧
      (∀ w ∈ c'.waiting, w.domain ≠ some b.id) ∧
      (∀ i, i ∈ c'.refBufs ↔ i ∈ c.refBufs ∧ i ∉ ids R) := by
  induction fuel with
  | zero => intro c b dom h; omega
  | succ fuel ih =>
    intro c b dom hfuel hr hreg
    obtain ⟨desc, hdesc⟩ := Option.isSome_iff_exists.mp hreg
    -- the loop over the buffers waiting for `b`
    let f : Cli → WBuf → Except CliErr Cli := fun c w => do
      let c' : Cli := { c with refBufs := c.refBufs.filter (· != w.id) }
      let (c'', q) ← Cli.process fuel c' w (some b.id)
      pure { c'' with out := c''.out ++ w.additional.map (fun s => CItem.data s q) }
    have loop : ∀ (l : List WBuf) (c1 : Cli), Ready c1 → (ids l).Nodup →
        (∀ w ∈ l, w ∈ c1.waiting ∧ w.domain = some b.id) →
        c1.waiting.countP (fun w => decide (b.id < w.id)) < fuel + 1 →
        ∃ c2 R, l.foldlM f c1 = .ok c2 ∧
          Processed c1 c2 b.id (b.id + 1) R (fun i => ∃ x ∈ l, x.id = i ∧ x.flags % 2 ≠ 1)
            (fun i o => ∃ x ∈ l, x.id = i ∧ IsOf x o) (l.flatMap witems) ∧
          (∀ w ∈ c2.waiting, ∀ x ∈ l, w.domain ≠ some x.id) ∧
          (∀ i, i ∈ c2.refBufs ↔ i ∈ c1.refBufs ∧ i ∉ ids R ∧ i ∉ ids l) := by
      intro l
      induction l with
      | nil =>
        intro c1 _ _ _ _
        exact ⟨c1, [], rfl, ⟨rfl, rfl, (List.filter_eq_self.mpr (by simp [ids])).symm, by simp, by simp [ids], by simp, by simp,
          fun i o h => .inl h, by simp⟩, by simp, by intro i; simp [ids]⟩
      | cons x l ihl =>
        intro c1 hr1 hnd hl hf
        obtain ⟨hx1, hx2⟩ := hl x (by simp)
        have hxlt : b.id < x.id := hr1.lt x hx1 _ hx2
        have hnd' : (ids l).Nodup := (List.nodup_cons.mp hnd).2
        have hxl : x.id ∉ ids l := (List.nodup_cons.mp hnd).1
        let c1' : Cli := { c1 with refBufs := c1.refBufs.filter (· != x.id) }
        have hcnt : c1'.waiting.countP (fun w => decide (x.id < w.id)) < fuel := by
          have key : ∀ (W : List WBuf), x ∈ W → W.countP (fun w => decide (x.id < w.id)) + 1 ≤
              W.countP (fun w => decide (b.id < w.id)) := by
            have mono : ∀ (W : List WBuf), W.countP (fun w => decide (x.id < w.id)) ≤
                W.countP (fun w => decide (b.id < w.id)) := by
              intro W
              refine List.countP_mono_left ?_
              intro w _ hw
              simp at hw ⊢; omega
            intro W
            induction W with
            | nil => intro h; cases h
            | cons a W ihW =>
              intro h
              rw [List.countP_cons, List.countP_cons]
              rcases List.mem_cons.mp h with rfl | h
              · have := mono W
                simp [hxlt]; omega
              · have := ihW h
                by_cases h1 : x.id < a.id
                · have : b.id < a.id := by omega
                  simp [h1, this]; omega
                · simp only [h1, decide_false, Bool.false_eq_true, if_false]; omega
          have := key c1.waiting hx1
          show c1.waiting.countP _ < fuel
          omega
        obtain ⟨c2, q, R1, e, q1, q2, q3, hp, hdn, hrb⟩ := ih c1' x (some b.id) hcnt
          ⟨hr1.nd, hr1.lt, hr1.reg⟩ (hr1.reg x hx1)
        let c3 : Cli := { c2 with out := c2.out ++ x.additional.map (fun s => CItem.data s q) }
        have hw3 : c3.waiting = without R1 c1.waiting := hp.waiting
        have hr3 : Ready c3 := ready_without hr1 hw3 hp.descs
        have hl3 : ∀ w ∈ l, w ∈ c3.waiting ∧ w.domain = some b.id := by
          intro w hw
          obtain ⟨h1, h2⟩ := hl w (by simp [hw])
          refine ⟨?_, h2⟩
          rw [hw3, mem_without]
          refine ⟨h1, ?_⟩
          intro hin
          obtain ⟨r, hr', he⟩ := mem_ids.mp hin
          obtain ⟨s1, s2, d, s3, s4⟩ := hp.sub r hr'
          have : r = w := eq_of_ids hr1.nd s1 h1 he
          subst this
          rw [h2] at s3
          simp at s3
          omega
        have hf3 : c3.waiting.countP (fun w => decide (b.id < w.id)) < fuel + 1 := by
          rw [hw3]
          exact Nat.lt_of_le_of_lt (List.filter_sublist.countP_le) hf
        obtain ⟨c4, R2, e4, hp4, hdn4, hrb4⟩ := ihl c3 hr3 hnd' hl3 hf3
        refine ⟨c4, R1 ++ R2, ?_, ?_, ?_, ?_⟩
        · rw [List.foldlM_cons]
          have : f c1 x = .ok c3 := by
            show (do let (c'', q) ← Cli.process fuel c1' x (some b.id); pure _) = _
            rw [e]; rfl
          rw [this]; exact e4
        · refine ⟨hp4.descs.trans hp.descs, hp4.doms.trans hp.doms, ?_, ?_, ?_, ?_, ?_, ?_, ?_⟩
          · rw [hp4.waiting, hw3, without_append]
          · intro r hr'
            rcases List.mem_append.mp hr' with hr' | hr'
            · obtain ⟨s1, s2, d, s3, s4⟩ := hp.sub r hr'
              exact ⟨s1, by omega, d, s3, by omega⟩
            · obtain ⟨s1, s2, s3⟩ := hp4.sub r hr'
              rw [hw3, mem_without] at s1
              exact ⟨s1.1, s2, s3⟩
          · simp only [ids, List.map_append]
            refine List.nodup_append.mpr ⟨hp.nd, hp4.nd, ?_⟩
            intro a ha a' ha' haa
            subst haa
            obtain ⟨r, hr', he⟩ := mem_ids.mp ha'
            have := (hp4.sub r hr').1
            rw [hw3, mem_without] at this
            exact this.2 (by rw [he]; exact ha)
          · intro w hw r hr'
            rcases List.mem_append.mp hr' with hr' | hr'
            · refine hp.done w ?_ r hr'
              rw [hp4.waiting, mem_without] at hw
              exact hw.1
            · exact hp4.done w hw r hr'
          · intro i
            rw [hp4.keys]
            have : c3.refPackets.has i = true ↔ _ := hp.keys i
            rw [this]
            simp only [List.mem_append, List.mem_cons]
            constructor
            · rintro ((h | ⟨h1, h2⟩ | ⟨r, h1, h2⟩) | ⟨y, h1, h2⟩ | ⟨r, h1, h2⟩)
              · exact .inl h
              · exact .inr (.inl ⟨x, .inl rfl, h1.symm, h2⟩)
              · exact .inr (.inr ⟨r, .inl h1, h2⟩)
              · exact .inr (.inl ⟨y, .inr h1, h2⟩)
              · exact .inr (.inr ⟨r, .inr h1, h2⟩)
            · rintro (h | ⟨y, rfl | h1, h2⟩ | ⟨r, h1 | h1, h2⟩)
              · exact .inl (.inl h)
              · exact .inl (.inr (.inl ⟨h2.1.symm, h2.2⟩))
              · exact .inr (.inl ⟨y, h1, h2⟩)
              · exact .inl (.inr (.inr ⟨r, h1, h2⟩))
              · exact .inr (.inr ⟨r, h1, h2⟩)
          · intro i o ho
            rcases hp4.vals i o ho with h | ⟨y, h1, h2⟩ | ⟨r, h1, h2⟩
            · rcases hp.vals i o h with h | ⟨h1, h2, h3, h4⟩ | ⟨r, h1, h2⟩
              · exact .inl h
              · exact .inr (.inl ⟨x, by simp, h1.symm, h2, h3.trans hx2.symm, h4⟩)
              · exact .inr (.inr ⟨r, by simp [h1], h2⟩)
            · exact .inr (.inl ⟨y, by simp [h1], h2⟩)
            · exact .inr (.inr ⟨r, by simp [h1], h2⟩)
          · have h3 : outItems c3.out = outItems c2.out ++
                x.additional.map (fun s => (⟨s, x.id, some b.id, x.payload⟩ : Item)) := by
              show outItems (c2.out ++ _) = _
              rw [outItems_append, outItems_data, q1, q2, q3]
            refine hp4.items.trans ?_
            rw [h3]
            have hwi : witems x = ⟨x.sig, x.id, some b.id, x.payload⟩ ::
                x.additional.map (fun s => (⟨s, x.id, some b.id, x.payload⟩ : Item)) := by
              simp [witems, hx2]
            simp only [List.flatMap_cons, List.flatMap_append, hwi]
            have hpi := hp.items
            show List.Perm _ (outItems c1.out ++ _ ++ _)
            have hpi' : (outItems c2.out).Perm (outItems c1.out ++
              [⟨x.sig, x.id, some b.id, x.payload⟩] ++ R1.flatMap witems) := hpi
            generalize outItems c2.out = o2 at hpi'
            generalize outItems c1.out = o1 at hpi'
            generalize x.additional.map (fun s => (⟨s, x.id, some b.id, x.payload⟩ : Item)) = A
            generalize R1.flatMap witems = B1 at hpi'
            generalize R2.flatMap witems = B2
            generalize l.flatMap witems = L
            rw [List.perm_iff_count] at hpi' ⊢
            intro i
            have := hpi' i
            simp only [List.count_append, List.count_cons, List.count_nil, List.cons_append] at this ⊢
            omega
        · intro w hw y hy
          rcases List.mem_cons.mp hy with rfl | hy
          · rw [hp4.waiting, mem_without] at hw
            exact hdn w hw.1
          · exact hdn4 w hw y hy
        · intro i
          rw [hrb4]
          show (i ∈ c2.refBufs ∧ _) ↔ _
          rw [hrb]
          show (i ∈ c1.refBufs.filter (· != x.id) ∧ _) ∧ _ ↔ _
          simp only [List.mem_filter, bne_iff_ne, ids, List.map_append, List.mem_append, List.map_cons,
            List.mem_cons]
          constructor
          · rintro ⟨⟨⟨h1, h2⟩, h3⟩, h4, h5⟩
            exact ⟨h1, fun h => h.elim h3 h4, fun h => h.elim h2 h5⟩
          · rintro ⟨h1, h2, h3⟩
            exact ⟨⟨⟨h1, fun h => h3 (.inl h)⟩, fun h => h2 (.inl h)⟩, fun h => h2 (.inr h), fun h => h3 (.inr h)⟩
    -- the packet itself, then the loop
    let p := b.toPacket desc dom
    obtain ⟨p1, p2, p3⟩ := toPacket_fields b desc dom
    let c1 : Cli := { c with out := c.out ++ [.data b.sig p] }
    let mine := c1.waiting.filter (fun w => decide (w.domain = some b.id))
    have hr1 : Ready c1 := ⟨hr.nd, hr.lt, hr.reg⟩
    have hmine : ∀ w ∈ mine, w ∈ c1.waiting ∧ w.domain = some b.id := by
      intro w hw
      simpa [mine] using hw
    have hmnd : (ids mine).Nodup := hr.nd.sublist ((List.filter_sublist).map _)
    obtain ⟨c2, R, e2, hp2, hdn2, hrb2⟩ := loop mine c1 hr1 hmnd hmine hfuel
    let c3 : Cli := { c2 with waiting := c2.waiting.filter (fun w => !decide (w.domain = some b.id)) }
    let c4 : Cli := if b.flags % 2 = 1 then c3 else { c3 with refPackets := c3.refPackets.add b.id p }
    have hw3 : c3.waiting = without (R ++ mine) c.waiting := by
      show c2.waiting.filter _ = _
      rw [hp2.waiting, ← without_append]
      show List.filter _ (without R c.waiting) = List.filter _ (without R c.waiting)
      refine List.filter_congr ?_
      intro w hw
      rw [mem_without] at hw
      congr 1
      rw [Bool.eq_iff_iff]
      simp only [decide_eq_true_eq, List.contains_iff_mem]
      constructor
      · intro h
        exact mem_ids.mpr ⟨w, by simp [mine, c1, hw.1, h], rfl⟩
      · intro h
        obtain ⟨y, hy, he⟩ := mem_ids.mp h
        obtain ⟨hy1, hy2⟩ := hmine y hy
        have : y = w := eq_of_ids hr.nd hy1 hw.1 he
        rw [← this]; exact hy2
    have h4w : c4.waiting = c3.waiting := by simp only [c4]; split <;> rfl
    have h4d : c4.descs = c2.descs := by simp only [c4]; split <;> rfl
    have h4m : c4.domDescs = c2.domDescs := by simp only [c4]; split <;> rfl
    have h4o : c4.out = c2.out := by simp only [c4]; split <;> rfl
    have h4b : c4.refBufs = c2.refBufs := by simp only [c4]; split <;> rfl
    have h4k : ∀ i, c4.refPackets.has i = true ↔ c2.refPackets.has i = true ∨ (i = b.id ∧ b.flags % 2 ≠ 1) := by
      intro i
      simp only [c4]
      by_cases hfl : b.flags % 2 = 1
      · rw [if_pos hfl]; simp [c3, hfl]
      · rw [if_neg hfl]
        show (c3.refPackets.add b.id p).has i = true ↔ _
        rw [has_add]; simp [c3, hfl]
    have hdisj : ∀ r ∈ R, r.id ∉ ids mine := by
      intro r hr' hin
      obtain ⟨y, hy, he⟩ := mem_ids.mp hin
      obtain ⟨s1, s2, d, s3, s4⟩ := hp2.sub r hr'
      have : y = r := eq_of_ids hr.nd (hmine y hy).1 s1 he
      subst this
      rw [(hmine y hy).2] at s3
      simp at s3
      omega
    have hdomw : ∀ w ∈ c4.waiting, w.domain ≠ some b.id ∧ w ∈ c2.waiting := by
      intro w hw
      rw [h4w] at hw
      have : w ∈ c2.waiting.filter (fun w => !decide (w.domain = some b.id)) := hw
      simp only [List.mem_filter, Bool.not_eq_true', decide_eq_false_iff_not] at this
      exact ⟨this.2, this.1⟩
    refine ⟨c4, p, R ++ mine, ?_, p1, p2, p3, ?_, fun w hw => (hdomw w hw).1, ?_⟩
    · rw [Cli.process, hdesc]
      show (match mine.foldlM f c1 with | .error e => Except.error e | .ok c2 => _) = _
      rw [e2]
    · refine ⟨h4d.trans hp2.descs, h4m.trans hp2.doms, h4w.trans hw3, ?_, ?_, ?_, ?_, ?_, ?_⟩
      · intro r hr'
        rcases List.mem_append.mp hr' with hr' | hr'
        · obtain ⟨s1, s2, d, s3, s4⟩ := hp2.sub r hr'
          exact ⟨s1, s2, d, s3, by omega⟩
        · obtain ⟨s1, s2⟩ := hmine r hr'
          exact ⟨s1, hr.lt r s1 _ s2, b.id, s2, Nat.le_refl _⟩
      · simp only [ids, List.map_append]
        refine List.nodup_append.mpr ⟨hp2.nd, hmnd, ?_⟩
        intro a ha a' ha' haa
        subst haa
        obtain ⟨r, hr', he⟩ := mem_ids.mp ha
        exact hdisj r hr' (by rw [he]; exact ha')
      · intro w hw r hr'
        obtain ⟨_, hw2⟩ := hdomw w hw
        rcases List.mem_append.mp hr' with hr' | hr'
        · exact hp2.done w hw2 r hr'
        · exact hdn2 w hw2 r hr'
      · intro i
        rw [h4k, hp2.keys]
        show ((c.refPackets.has i = true ∨ _) ∨ _) ↔ _
        simp only [List.mem_append]
        constructor
        · rintro ((h | ⟨x, h1, h2⟩ | ⟨r, h1, h2⟩) | h)
          · exact .inl h
          · exact .inr (.inr ⟨x, .inr h1, h2⟩)
          · exact .inr (.inr ⟨r, .inl h1, h2⟩)
          · exact .inr (.inl h)
        · rintro (h | h | ⟨r, h1 | h1, h2⟩)
          · exact .inl (.inl h)
          · exact .inr h
          · exact .inl (.inr (.inr ⟨r, h1, h2⟩))
          · exact .inl (.inr (.inl ⟨r, h1, h2⟩))
      · intro i o ho
        have hcase : c2.refPackets.get i = some o ∨ (i = b.id ∧ o = p) := by
          simp only [c4] at ho
          by_cases hfl : b.flags % 2 = 1
          · rw [if_pos hfl] at ho; exact .inl ho
          · rw [if_neg hfl] at ho
            have ho' : (c2.refPackets.add b.id p).get i = some o := ho
            rw [AList.get_add] at ho'
            by_cases hi : i = b.id
            · rw [if_pos hi] at ho'
              cases hg : c2.refPackets.get b.id with
              | none => rw [hg] at ho'; simp at ho'; exact .inr ⟨hi, ho'.symm⟩
              | some v => rw [hg] at ho'; simp at ho'; left; rw [hi, hg, ho']
            · rw [if_neg hi] at ho'; exact .inl ho'
        rcases hcase with h | ⟨rfl, rfl⟩
        · rcases hp2.vals i o h with h | ⟨x, h1, h2⟩ | ⟨r, h1, h2⟩
          · exact .inl h
          · exact .inr (.inr ⟨x, by simp [h1], h2⟩)
          · exact .inr (.inr ⟨r, by simp [h1], h2⟩)
        · exact .inr (.inl ⟨rfl, p1, p2, p3⟩)
      · have ho : outItems c1.out = outItems c.out ++ [⟨b.sig, b.id, dom, b.payload⟩] := by
          show outItems (c.out ++ _) = _
          rw [outItems_append]
          congr 1
          show [(⟨b.sig, p.src, p.domain, p.payload⟩ : Item)] = _
          rw [p1, p2, p3]
        have hpi := hp2.items
        rw [ho] at hpi
        rw [h4o]
        rw [List.perm_iff_count] at hpi ⊢
        intro i
        have := hpi i
        simp only [List.count_append, List.flatMap_append] at this ⊢
        omega
    · intro i
      rw [h4b, hrb2]
      show (i ∈ c.refBufs ∧ _) ↔ _
      simp only [ids, List.map_append, List.mem_append, not_or]

end Verif.PacketStreaming
