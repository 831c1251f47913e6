import Verif.DataPacket.Rules

/-! # Lemmas about packets: what `getData` computes, and the invariant of a packet's history -/

namespace Verif.DataPacket

theorem Descr.size_pos {V : Type} {d : Descr V} (h : d.validate = true) : 0 < d.sampleSize ∧ 0 < d.rawTypeSize := by
  unfold Descr.validate at h
  simp only [Bool.and_eq_true, decide_eq_true_eq] at h
  exact ⟨h.1.2, h.2⟩

theorem Descr.raw_pos {V : Type} {d : Descr V} (h : d.validate = true) (he : d.rule.isExplicit = true) :
    0 < d.rawSampleSize := by
  unfold Descr.rawSampleSize
  rw [if_pos he]
  have := Descr.size_pos h
  split <;> omega

/-- Cases of a good descriptor. -/
theorem Descr.Good.cases {V : Type} {d : Descr V} (h : d.Good) :
    (d.rule = .explicit ∧ ∃ s, d.scaling = some s ∧ d.refOffset = none) ∨
    (d.rule = .explicit ∧ d.scaling = none ∧ d.hasRef = false) ∨
    (d.rule = .explicit ∧ d.scaling = none ∧ d.hasRef = true ∧ d.kind = .int) ∨
    (∃ a b, d.rule = .linear a b ∧ d.scaling = none ∧ (d.hasRef = true → d.kind = .int)) := by
  obtain ⟨hv, hc, ho, hk⟩ := h
  obtain ⟨rule, scaling, ref, kind, ss, rs⟩ := d
  cases rule with
  | explicit =>
    cases scaling with
    | some s =>
      left
      refine ⟨rfl, s, rfl, ?_⟩
      cases ref with
      | none => rfl
      | some o => simp [Descr.validate, Rule.isExplicit] at hv
    | none =>
      right
      cases hr : Descr.hasRef (V := V) ⟨.explicit, none, ref, kind, ss, rs⟩ with
      | false => exact Or.inl ⟨rfl, rfl, rfl⟩
      | true => exact Or.inr (Or.inl ⟨rfl, rfl, rfl, hk hr⟩)
  | linear a b =>
    refine Or.inr (Or.inr (Or.inr ⟨a, b, rfl, ?_, hk⟩))
    cases scaling with
    | none => rfl
    | some s => simp [Descr.validate, Rule.isExplicit] at hv
  | constant => cases hc
  | other => exact absurd rfl ho

/-- Raw memory holds the raw samples `f`: with an explicit rule and at least one sample it is there and big
enough. -/
def HasCells {V : Type} (p : Pkt V) (f : Nat → V) : Prop :=
  p.descr.rule.isExplicit = true → 0 < p.count → p.data = .cells f ∧ p.count * p.descr.rawSampleSize ≤ p.room

theorem HasCells.rawRoom {V : Type} {p : Pkt V} {f : Nat → V} (h : HasCells p f) (hg : p.descr.validate = true)
    (he : p.descr.rule.isExplicit = true) (h0 : 0 < p.count) : p.data = .cells f ∧ p.count ≤ p.rawRoom := by
  obtain ⟨h1, h2⟩ := h he h0
  refine ⟨h1, ?_⟩
  unfold Pkt.rawRoom
  exact (Nat.le_div_iff_mul_le (Descr.raw_pos hg he)).mpr h2

theorem addRef_take {V : Type} (A : Arith V) (d : Descr V) (l : List V) (n : Nat) (g : Nat → V)
    (hk : d.kind = .int) (hl : n ≤ l.length) (hg : l.take n = (List.range n).map g) :
    ∃ o', addRef A d.kind (d.refOffset.getD 0) (l.take n) = .ok o' ∧ o'.length = n ∧
      o' = (List.range n).map fun i => A.add (g i) (A.ofOffset (d.refOffset.getD 0)) := by
  unfold addRef
  rw [if_pos hk, hg]
  refine ⟨_, rfl, by simp, ?_⟩
  rw [List.map_map]; rfl

/-- The computation behind `getData` yields the samples of the specification. -/
theorem compute_spec {V : Type} (A : Arith V) (p : Pkt V) (junk : V) (cap : Nat) (f : Nat → V)
    (hg : p.descr.Good) (h0 : 0 < p.count) (hc : HasCells p f) (hd : p.dataSize = p.count * p.descr.sampleSize)
    (hcap : p.dataSize ≤ cap) (hr : p.descr.rawOnly = false) :
    ∃ o, p.compute A junk cap = .ok o ∧ p.count ≤ o.length ∧
      o.take p.count = specData A p.descr p.offset f p.count := by
  have hpos := (Descr.size_pos hg.1).1
  have hlen : p.count ≤ (List.replicate (cap / p.descr.sampleSize) junk).length := by
    rw [List.length_replicate]
    exact (Nat.le_div_iff_mul_le hpos).mpr (by omega)
  rcases hg.cases with ⟨hru, s, hs, hro⟩ | ⟨hru, hs, hrf⟩ | ⟨hru, hs, hrf, hk⟩ | ⟨a, b, hru, hs, hk⟩
  · obtain ⟨hdat, hroom⟩ := hc.rawRoom hg.1 (by rw [hru]; rfl) h0
    obtain ⟨o, e, l, t⟩ := fill_take (fun i => s (f i)) p.count _ hlen
    have hrf : p.descr.hasRef = false := by unfold Descr.hasRef; rw [hro]
    refine ⟨o, ?_, by omega, ?_⟩
    · unfold Pkt.compute
      rw [hs, hdat]
      dsimp only
      rw [if_pos hroom, e]
      dsimp only
      rw [if_neg (by rw [hrf]; decide)]
    · rw [t]; unfold specData specSample
      rw [hru, hs, hro]
  · exfalso
    unfold Descr.rawOnly Descr.hasRule at hr
    rw [hru, hs, hrf] at hr
    cases hr
  · obtain ⟨hdat, hroom⟩ := hc.rawRoom hg.1 (by rw [hru]; rfl) h0
    have hraw : p.descr.rawSampleSize = p.descr.sampleSize := by
      unfold Descr.rawSampleSize; rw [hru, hs]; rfl
    have hr2 : p.dataSize ≤ p.room := by
      have := (hc (by rw [hru]; rfl) h0).2
      rw [hraw] at this; omega
    have hdv : p.dataSize / p.descr.sampleSize = p.count := by
      rw [hd, Nat.mul_div_cancel _ hpos]
    obtain ⟨o, e, l, t⟩ := fill_take f p.count _ hlen
    obtain ⟨o', e', l', t'⟩ := addRef_take A p.descr o p.count f hk (by omega) t
    refine ⟨o' ++ o.drop p.count, ?_, by rw [List.length_append]; omega, ?_⟩
    · unfold Pkt.compute
      rw [hs, hru, hdat]
      dsimp only
      rw [if_pos hr2, hdv, e]
      dsimp only
      rw [if_pos hrf, if_pos (by omega), e']
    · rw [List.take_append_of_le_length (by omega), List.take_of_length_le (by omega), t']
      unfold specData
      apply List.map_congr_left
      intro i _
      unfold specSample
      rw [hru, hs]
      unfold Descr.hasRef at hrf
      cases ho : p.descr.refOffset with
      | none => rw [ho] at hrf; cases hrf
      | some x =>
        rw [ho] at hrf
        have : x ≠ 0 := by simpa using hrf
        dsimp only [Option.getD]
        rw [if_neg this]
  · obtain ⟨o, e, l, t⟩ := fill_take
      (fun i => A.add (A.mul a (A.ofIndex i)) (A.add (A.ofOffset p.offset) b)) p.count _ hlen
    replace e : linearRule A a b p.offset p.count (List.replicate (cap / p.descr.sampleSize) junk) = some o := e
    cases hrf : p.descr.hasRef with
    | false =>
      refine ⟨o, ?_, by omega, ?_⟩
      · unfold Pkt.compute
        rw [hs, hru]
        dsimp only
        rw [e]
        dsimp only
        rw [hrf, if_neg (by decide)]
      · rw [t]; unfold specData specSample
        rw [hru]
        unfold Descr.hasRef at hrf
        cases ho : p.descr.refOffset with
        | none => rfl
        | some x =>
          rw [ho] at hrf
          have : x = 0 := by simpa using hrf
          simp only [if_pos this]
    | true =>
      obtain ⟨o', e', l', t'⟩ := addRef_take A p.descr o p.count _ (hk hrf) (by omega) t
      refine ⟨o' ++ o.drop p.count, ?_, by rw [List.length_append]; omega, ?_⟩
      · unfold Pkt.compute
        rw [hs, hru]
        dsimp only
        rw [e]
        dsimp only
        rw [hrf, if_pos rfl, if_pos (by omega), e']
      · rw [List.take_append_of_le_length (by omega), List.take_of_length_le (by omega), t']
        unfold specData
        apply List.map_congr_left
        intro i _
        unfold specSample
        rw [hru]
        unfold Descr.hasRef at hrf
        cases ho : p.descr.refOffset with
        | none => rw [ho] at hrf; cases hrf
        | some x =>
          rw [ho] at hrf
          have : x ≠ 0 := by simpa using hrf
          dsimp only [Option.getD]
          rw [if_neg this]

/-- A raw-only good descriptor: the samples are the raw samples. -/
theorem rawOnly_spec {V : Type} (A : Arith V) (d : Descr V) (hg : d.Good) (hr : d.rawOnly = true) (off : Int)
    (f : Nat → V) : d.rule = .explicit ∧ d.scaling = none ∧ ∀ i, specSample A d off f i = f i := by
  have hrf : d.hasRef = false := by
    unfold Descr.rawOnly at hr
    cases h : d.hasRef with
    | false => rfl
    | true => rw [h] at hr; simp at hr
  rcases hg.cases with ⟨hru, s, hs, hro⟩ | ⟨hru, hs, _⟩ | ⟨hru, hs, h, _⟩ | ⟨a, b, hru, hs, _⟩
  · unfold Descr.rawOnly at hr; rw [hs] at hr; cases hr
  · refine ⟨hru, hs, fun i => ?_⟩
    unfold specSample
    rw [hru, hs]
    unfold Descr.hasRef at hrf
    cases ho : d.refOffset with
    | none => rfl
    | some x =>
      rw [ho] at hrf
      have : x = 0 := by simpa using hrf
      simp only [if_pos this]
  · rw [hrf] at h; cases h
  · unfold Descr.rawOnly Descr.hasRule at hr; rw [hru, hs] at hr; cases hr

/-- Invariant of a packet's history: the packet agrees with the view. -/
structure Inv {V : Type} (A : Arith V) (p : Pkt V) (w : View V) : Prop where
  descr : p.descr = w.descr
  good : w.descr.Good
  fits : Fits w.descr w.count
  count : p.count = w.count
  offset : p.offset = w.offset
  dataSize : p.dataSize = w.count * w.descr.sampleSize
  mem : ∃ m, p.memorySize = some m ∧ m ≤ p.room ∧
    (p.data = .null ∧ m = 0 ∨ p.data = .cells w.cells)
  cells : HasCells p w.cells
  valid : p.valid = true → ∃ g, w.seen = some g ∧ p.count ≤ p.scaled.length ∧
    p.scaled.take p.count = specData A w.descr w.offset g w.count
  fresh : p.valid = false → w.descr.rawOnly = true ∨ w.count = 0 ∨ w.seen = none

/-- Reading a packet under the invariant. -/
theorem Inv.getData {V : Type} {A : Arith V} {p : Pkt V} {w : View V} (h : Inv A p w) (junk : V) :
    Inv A (p.getData A junk).1 (w.next (.data, .none)) ∧
    (p.getData A junk).2.list =
      some (specData A w.descr w.offset (if w.descr.rawOnly then w.cells else w.seen.getD w.cells) w.count) := by
  unfold Pkt.getData
  by_cases hr : w.descr.rawOnly = true
  · rw [if_pos (show p.descr.rawOnly = true by rw [h.descr]; exact hr), if_pos hr]
    obtain ⟨hru, hs, hsp⟩ := rawOnly_spec A w.descr h.good hr w.offset w.cells
    obtain ⟨m, hm, hmr, hdat⟩ := h.mem
    have hInv : Inv A p (w.next (.data, .none)) :=
      ⟨h.descr, h.good, h.fits, h.count, h.offset, h.dataSize, h.mem, h.cells,
        fun hv => by
          obtain ⟨g, hg, r⟩ := h.valid hv
          exact ⟨g, by show some (w.seen.getD w.cells) = _; rw [hg]; rfl, r⟩,
        fun _ => Or.inl hr⟩
    have hspec : specData A w.descr w.offset w.cells w.count = (List.range w.count).map w.cells := by
      unfold specData
      exact List.map_congr_left fun i _ => hsp i
    have hex : w.descr.rule.isExplicit = true := by rw [hru]; rfl
    by_cases h0 : 0 < p.count
    · obtain ⟨hd1, hd2⟩ := h.cells.rawRoom (by rw [h.descr]; exact h.good.1) (by rw [h.descr]; exact hex) h0
      rw [hd1]
      dsimp only
      rw [if_pos hd2]
      exact ⟨hInv, by rw [hspec, h.count]; rfl⟩
    · have hz : w.count = 0 := by have := h.count; omega
      rcases hdat with ⟨hd, _⟩ | hd
      · rw [hd]; exact ⟨hInv, by rw [hspec, hz]; rfl⟩
      · rw [hd]
        dsimp only
        rw [if_pos (by omega)]
        exact ⟨hInv, by rw [hspec, h.count]; rfl⟩
  · rw [if_neg (show ¬ p.descr.rawOnly = true by rw [h.descr]; exact hr), if_neg hr]
    by_cases hv : p.valid = true
    · rw [if_pos hv]
      obtain ⟨g, hg, hl, ht⟩ := h.valid hv
      rw [if_pos hl]
      refine ⟨⟨h.descr, h.good, h.fits, h.count, h.offset, h.dataSize, h.mem, h.cells, ?_, ?_⟩, ?_⟩
      · intro _
        exact ⟨g, by show some (w.seen.getD w.cells) = _; rw [hg]; rfl, hl, ht⟩
      · intro hf; rw [hv] at hf; cases hf
      · rw [ht, hg]; rfl
    · rw [if_neg hv]
      by_cases hz : p.count = 0 ∨ p.dataSize = 0
      · rw [if_pos hz]
        have hz' : w.count = 0 := by
          rcases hz with hz | hz
          · have := h.count; omega
          · rw [h.dataSize] at hz
            have := (Descr.size_pos h.good.1).1
            rcases Nat.mul_eq_zero.mp hz with h1 | h1
            · exact h1
            · omega
        refine ⟨⟨h.descr, h.good, h.fits, h.count, h.offset, h.dataSize, h.mem, h.cells, ?_, ?_⟩, ?_⟩
        · intro hf; exact absurd hf hv
        · intro _; exact Or.inr (Or.inl hz')
        · rw [hz']; rfl
      · rw [if_neg hz]
        have hs : w.seen = none := by
          rcases h.fresh (by cases e : p.valid <;> simp_all) with h1 | h1 | h1
          · exact absurd h1 hr
          · have := h.count; omega
          · exact h1
        dsimp only
        have hcp := compute_spec A { p with capacity := if p.capacity < p.dataSize then p.dataSize else p.capacity }
          junk (if p.capacity < p.dataSize then p.dataSize else p.capacity) w.cells
          (by rw [show ({ p with capacity := if p.capacity < p.dataSize then p.dataSize else p.capacity } : Pkt V).descr
                = p.descr from rfl, h.descr]; exact h.good)
          (by show 0 < p.count; omega) h.cells
          (by show p.dataSize = p.count * p.descr.sampleSize; rw [h.dataSize, h.count, h.descr])
          (by show p.dataSize ≤ _; split <;> omega)
          (by show p.descr.rawOnly = false; rw [h.descr]; simpa using hr)
        obtain ⟨o, e, l, t⟩ := hcp
        dsimp only at l t
        rw [e]
        dsimp only
        rw [if_pos l]
        refine ⟨⟨h.descr, h.good, h.fits, h.count, h.offset, h.dataSize, h.mem, h.cells, ?_, ?_⟩, ?_⟩
        · intro _
          refine ⟨w.cells, by show some (w.seen.getD w.cells) = _; rw [hs]; rfl, l, ?_⟩
          show o.take p.count = _
          rw [t, h.descr, h.offset, h.count]; rfl
        · intro hf; cases hf
        · show some (o.take p.count) = _
          rw [t, hs, h.descr, h.offset, h.count]; rfl

/-- Reusing a packet under the invariant. -/
theorem Inv.reuse {V : Type} {A : Arith V} {p : Pkt V} {w : View V} (h : Inv A p w) (d : Option (Descr V))
    (n : Option Nat) (off : Option Int) (c : Bool) (f : Nat → V)
    (ok : OpOk w (.reuse d n off c f)) :
    Inv A (p.reuse d n off c f).1 (w.next (.reuse d n off c f, .reused (p.reuse d n off c f).2)) := by
  obtain ⟨m, hm, hmr, hdat⟩ := h.mem
  obtain ⟨okg, okf⟩ := ok
  unfold Pkt.reuse
  dsimp only
  rw [hm]
  dsimp only
  have e1 : d.getD p.descr = d.getD w.descr := by rw [h.descr]
  have e2 : n.getD p.count = n.getD w.count := by rw [h.count]
  have e3 : off.getD p.offset = off.getD w.offset := by rw [h.offset]
  rw [e1, e2, e3]
  generalize hd' : d.getD w.descr = d' at okg okf
  generalize hn' : n.getD w.count = n' at okg okf
  obtain ⟨f1, f2, f3⟩ := okf
  by_cases hc : n' * d'.rawSampleSize > m ∧ ((!c) = true ∨ p.external = true)
  · rw [if_pos hc]
    exact h
  · rw [if_neg hc]
    show Inv A _ ⟨d.getD w.descr, n.getD w.count, off.getD w.offset, f, none⟩
    rw [hd', hn']
    by_cases hm' : n' * d'.rawSampleSize > m
    · rw [if_pos hm']
      refine ⟨rfl, okg, ⟨f1, f2, f3⟩, Nat.mod_eq_of_lt f1, rfl, ?_, ?_, ?_, ?_, fun _ => Or.inr (Or.inr rfl)⟩
      · show (n' % U32 * d'.sampleSize) % U32 = _
        rw [Nat.mod_eq_of_lt f1, Nat.mod_eq_of_lt f2]
      · exact ⟨_, rfl, by rw [Nat.mod_eq_of_lt f3]; exact Nat.le_refl _, Or.inr rfl⟩
      · intro _ _
        refine ⟨rfl, ?_⟩
        exact Nat.mul_le_mul_right _ (Nat.mod_le _ _)
      · intro hv; cases hv
    · rw [if_neg hm']
      refine ⟨rfl, okg, ⟨f1, f2, f3⟩, Nat.mod_eq_of_lt f1, rfl, ?_, ?_, ?_, ?_, fun _ => Or.inr (Or.inr rfl)⟩
      · show (n' % U32 * d'.sampleSize) % U32 = _
        rw [Nat.mod_eq_of_lt f1, Nat.mod_eq_of_lt f2]
      · refine ⟨m, rfl, hmr, ?_⟩
        rcases hdat with ⟨hd, h0⟩ | hd
        · left; exact ⟨by dsimp only; rw [hd], h0⟩
        · right; dsimp only; rw [hd]
      · intro hex h0
        replace h0 : 0 < n' % U32 := h0
        rw [Nat.mod_eq_of_lt f1] at h0
        have hpos : 0 < n' * d'.rawSampleSize := Nat.mul_pos h0 (Descr.raw_pos okg.1 hex)
        refine ⟨?_, ?_⟩
        · dsimp only
          rcases hdat with ⟨_, hz⟩ | hd
          · omega
          · rw [hd]
        · show n' % U32 * d'.rawSampleSize ≤ p.room
          rw [Nat.mod_eq_of_lt f1]; omega
      · intro hv; cases hv

theorem Inv.write {V : Type} {A : Arith V} {p : Pkt V} {w : View V} (h : Inv A p w) (f : Nat → V) :
    Inv A (p.write f) (w.next (.write f, .none)) := by
  obtain ⟨m, hm, hmr, hdat⟩ := h.mem
  unfold Pkt.write
  rcases hdat with ⟨hd, h0⟩ | hd
  · rw [hd]
    refine ⟨h.descr, h.good, h.fits, h.count, h.offset, h.dataSize, ⟨m, hm, hmr, Or.inl ⟨hd, h0⟩⟩, ?_,
      h.valid, h.fresh⟩
    intro hex hc
    have := (h.cells hex hc).1
    rw [hd] at this; cases this
  · rw [hd]
    exact ⟨h.descr, h.good, h.fits, h.count, h.offset, h.dataSize, ⟨m, hm, hmr, Or.inr rfl⟩,
      fun hex hc => ⟨rfl, (h.cells hex hc).2⟩, h.valid, h.fresh⟩

theorem Inv.step {V : Type} {A : Arith V} {p : Pkt V} {w : View V} (h : Inv A p w) (junk : V) (op : Op V)
    (ok : OpOk w op) :
    Inv A (step A junk p op).1 (w.next (op, (step A junk p op).2)) := by
  cases op with
  | write f => exact h.write f
  | data => exact (h.getData junk).1
  | reuse d n off c f => exact h.reuse d n off c f ok

theorem Inv.run {V : Type} {A : Arith V} (junk : V) :
    ∀ (ops : List (Op V)) (p : Pkt V) (w : View V), Inv A p w → OpsOk A junk p w ops →
      Inv A (runTrace (DataPacket.step A junk) p ops).1 (w.run (runTrace (DataPacket.step A junk) p ops).2) := by
  intro ops
  induction ops with
  | nil => intro p w h _; exact h
  | cons op ops ih =>
    intro p w h ok
    have := ih _ _ (h.step junk op ok.1) ok.2
    unfold View.run at this ⊢
    simpa [runTrace] using this

theorem Inv.create {V : Type} (A : Arith V) (d : Descr V) (n : Nat) (off : Int) (f : Nat → V) (hg : d.Good)
    (hf : Fits d n) : Inv A (Pkt.create d n off f) ⟨d, n, off, f, none⟩ := by
  obtain ⟨f1, f2, f3⟩ := hf
  unfold Pkt.create
  dsimp only
  rw [Nat.mod_eq_of_lt f1, Nat.mod_eq_of_lt f2, Nat.mod_eq_of_lt f3]
  refine ⟨rfl, hg, ⟨f1, f2, f3⟩, rfl, rfl, rfl, ⟨_, rfl, Nat.le_refl _, ?_⟩, ?_, ?_, fun _ => Or.inr (Or.inr rfl)⟩
  · by_cases h : n * d.rawSampleSize > 0
    · right; exact if_pos h
    · left; exact ⟨if_neg h, by show n * d.rawSampleSize = 0; omega⟩
  · intro hex hc
    have : n * d.rawSampleSize > 0 := Nat.mul_pos hc (Descr.raw_pos hg.1 hex)
    exact ⟨if_pos this, Nat.le_refl _⟩
  · intro hv; cases hv

theorem Inv.createExternal {V : Type} (A : Arith V) (d : Descr V) (n : Nat) (off : Int) (f : Nat → V)
    (room : Nat) (hg : d.Good) (hf : Fits d n) (hroom : n * d.rawSampleSize ≤ room) :
    Inv A (Pkt.createExternal d n off (.cells f) room none) ⟨d, n, off, f, none⟩ := by
  obtain ⟨f1, f2, f3⟩ := hf
  unfold Pkt.createExternal
  dsimp only
  rw [Nat.mod_eq_of_lt f1, Nat.mod_eq_of_lt f2, Nat.mod_eq_of_lt f3]
  exact ⟨rfl, hg, ⟨f1, f2, f3⟩, rfl, rfl, rfl, ⟨_, rfl, hroom, Or.inr rfl⟩, fun _ _ => ⟨rfl, hroom⟩,
    fun hv => (nomatch hv), fun _ => Or.inr (Or.inr rfl)⟩

end Verif.DataPacket
