import Verif.Bulk.Layout
import Verif.Bulk.Step
import Mathlib.Data.List.Nodup

/-!
# Packets that share one block of memory: properties
-/

namespace Verif.Bulk.Props

open Spec

/-! ## C90: the pieces fit into the block and do not overlap -/

theorem create_some {debug : Bool} {c : Cfg} {items : List Item} {m : Nat} {ps : List Piece}
    (h : create debug c items = some (m, ps)) :
    1 ≤ items.length ∧ 1 ≤ c.align ∧ m = memSize c items ∧ ps = pieces c items := by
  unfold create at h
  split at h
  · simp at h
  · simp at h
    exact ⟨by omega, by omega, h.1.symm, h.2.symm⟩

/-- Which calls are refused. -/
theorem C90_accepted (debug : Bool) (c : Cfg) (items : List Item) :
    (create debug c items).isSome ↔ items ≠ [] ∧ 1 ≤ c.align ∧ (debug = true →
      (∀ i ∈ items, i.domInt64 = true ∧ i.domRule = c.rule) ∧ (c.rule = .linear → c.offsets = true)) := by
  unfold create
  have hd : debugCheck c items = true ↔
      (∀ i ∈ items, i.domInt64 = true ∧ i.domRule = c.rule) ∧ (c.rule = .linear → c.offsets = true) := by
    simp only [debugCheck, Bool.and_eq_true, List.all_eq_true, beq_iff_eq, Bool.or_eq_true, bne_iff_ne]
    refine and_congr Iff.rfl ?_
    by_cases h : c.rule = .linear <;> simp [h]
  have hl : items.length < 1 ↔ items = [] := by rw [← List.length_eq_zero_iff]; omega
  rw [← hd]
  split
  · rename_i h
    simp only [Option.isSome_none, Bool.false_eq_true, false_iff]
    rintro ⟨h1, h2, h3⟩
    rcases h with h | h | ⟨h, h'⟩
    · exact h1 (hl.mp h)
    · omega
    · rw [h3 h] at h'; simp at h'
  · rename_i h
    simp only [Option.isSome_some, true_iff]
    refine ⟨fun e => h (.inl (hl.mpr e)), by omega, fun e => ?_⟩
    cases hx : debugCheck c items with
    | true => rfl
    | false => exact absurd (.inr (.inr ⟨e, hx⟩)) h

theorem layout (c : Cfg) (items : List Item) (hk : 1 ≤ c.align) (hf : ∀ i ∈ items, Fit c i)
    (ht : total c items + c.align < 18446744073709551616) :
    (∀ x ∈ place c 0 20 (headSize c items.length) items,
      Within 20 (headSize c items.length) (headSize c items.length) (total c items) x ∧ Al c.align x) ∧
    (place c 0 20 (headSize c items.length) items).Pairwise Apart ∧ 20 ≤ headSize c items.length ∧
    headSize c items.length ≤ total c items := by
  have hh := headSize_eq c items.length hk (by unfold total at ht; omega)
  have hge := up_ge c.align (20 + ((if c.offsets then c.intSize else 0) + 2 * c.pktSize) * items.length) hk
  have h := place_ok c hk items hf (headSize c items.length) (total c items) 0 20 (headSize c items.length)
    (by rw [hh]; exact hge) (Nat.le_refl _) (by rw [hh]; exact up_dvd _ _) (by unfold total; rw [hh]) ht
  exact ⟨h.1, h.2, by rw [hh]; omega, by unfold total; rw [hh]; omega⟩

/-- Every object and every buffer lies in the block that is allocated. -/
theorem C90_inside (debug : Bool) (c : Cfg) (items : List Item) (m : Nat) (ps : List Piece)
    (h : create debug c items = some (m, ps)) (hf : ∀ i ∈ items, Fit c i)
    (ht : total c items + c.align < 18446744073709551616) : ∀ p ∈ ps, p.pos + p.size ≤ m := by
  obtain ⟨hl, hk, rfl, rfl⟩ := create_some h
  rw [memSize_eq c items hk ht]
  obtain ⟨h1, _, h3, h4⟩ := layout c items hk hf ht
  intro p hp
  rcases List.mem_cons.mp hp with rfl | hp
  · show 0 + 20 ≤ _; omega
  · have := (h1 p hp).1
    unfold Within at this
    split at this <;> first | exact this.elim | omega

/-- No two of them overlap. -/
theorem C90_apart (debug : Bool) (c : Cfg) (items : List Item) (m : Nat) (ps : List Piece)
    (h : create debug c items = some (m, ps)) (hf : ∀ i ∈ items, Fit c i)
    (ht : total c items + c.align < 18446744073709551616) : ps.Pairwise Apart := by
  obtain ⟨hl, hk, rfl, rfl⟩ := create_some h
  obtain ⟨h1, h2, h3, h4⟩ := layout c items hk hf ht
  refine List.pairwise_cons.mpr ⟨fun p hp => ?_, h2⟩
  have := (h1 p hp).1
  unfold Within at this
  unfold Apart
  dsimp only
  split at this <;> first | exact this.elim | omega

/-- The buffers start at multiples of the alignment, counted from the start of the block, and a packet without a buffer has
no samples to store. -/
theorem C90_aligned (debug : Bool) (c : Cfg) (items : List Item) (m : Nat) (ps : List Piece)
    (h : create debug c items = some (m, ps)) (hf : ∀ i ∈ items, Fit c i)
    (ht : total c items + c.align < 18446744073709551616) (p : Piece) (hp : p ∈ ps) :
    (p.what = .valueData ∨ p.what = .domainData → c.align ∣ p.pos) ∧ (p.what = .nullData → p.size = 0) := by
  obtain ⟨hl, hk, rfl, rfl⟩ := create_some h
  obtain ⟨h1, _, h3, h4⟩ := layout c items hk hf ht
  rcases List.mem_cons.mp hp with rfl | hp
  · simp
  · refine ⟨fun hw => (h1 p hp).2 hw.symm, fun hw => ?_⟩
    have := (h1 p hp).1
    unfold Within at this
    rw [hw] at this
    exact this.2

theorem place_value (c : Cfg) (items : List Item) (j : Nat) (i : Item) (hi : items[j]? = some i) :
    ∀ k p d, ∃ q, ⟨.valueData, k + j, q, valBytes i⟩ ∈ place c k p d items ∧
      (∃ q, ⟨.value, k + j, q, c.pktSize⟩ ∈ place c k p d items) ∧
      (∃ q, ⟨.domain, k + j, q, c.pktSize⟩ ∈ place c k p d items) ∧
      (c.offsets = true → ∃ q, ⟨.offset, k + j, q, c.intSize⟩ ∈ place c k p d items) ∧
      (c.rule = .explicit → ∃ q, ⟨.domainData, k + j, q, domBytes i⟩ ∈ place c k p d items) := by
  induction items generalizing j with
  | nil => simp at hi
  | cons a items ih =>
    intro k p d
    rw [place_cons]
    cases j with
    | zero =>
      simp at hi
      subst hi
      simp only [Nat.add_zero, List.mem_append]
      refine ⟨_, .inl (by simp [one]; exact .inr rfl), ⟨_, .inl (by simp [one]; exact .inl rfl)⟩,
        ⟨_, .inl (by simp [one]; exact .inl rfl)⟩, fun ho => ⟨p, .inl ?_⟩,
        fun hr => ⟨d, .inl ?_⟩⟩
      · simp [one, ho]
      · simp [one, hr]
    | succ j =>
      simp at hi
      obtain ⟨q, h1, ⟨q2, h2⟩, ⟨q3, h3⟩, h4, h5⟩ := ih j hi (k + 1)
        ((if c.offsets then p + c.intSize else p) + c.pktSize + c.pktSize)
        ((if c.rule = .explicit then d + alignTo (wrap (8 * a.samples)) c.align else d) +
          alignTo (wrap (a.rawSize * a.samples)) c.align)
      rw [show k + 1 + j = k + (j + 1) by omega] at *
      refine ⟨q, List.mem_append.mpr (.inr h1), ⟨q2, List.mem_append.mpr (.inr h2)⟩, ⟨q3, List.mem_append.mpr (.inr h3)⟩,
        fun ho => ?_, fun hr => ?_⟩
      · obtain ⟨q4, h⟩ := h4 ho; exact ⟨q4, List.mem_append.mpr (.inr h)⟩
      · obtain ⟨q5, h⟩ := h5 hr; exact ⟨q5, List.mem_append.mpr (.inr h)⟩

/-- Every packet has its objects and buffers, of the size its samples need. -/
theorem C90_complete (debug : Bool) (c : Cfg) (items : List Item) (m : Nat) (ps : List Piece)
    (h : create debug c items = some (m, ps)) (j : Nat) (i : Item) (hi : items[j]? = some i) (hf : Fit c i)
    (hv : i.rawSize * i.samples < 4294967296) (hd : 8 * i.samples < 4294967296) :
    (∃ q, ⟨.valueData, j, q, i.rawSize * i.samples⟩ ∈ ps) ∧ (∃ q, ⟨.value, j, q, c.pktSize⟩ ∈ ps) ∧
    (∃ q, ⟨.domain, j, q, c.pktSize⟩ ∈ ps) ∧ (c.offsets = true → ∃ q, ⟨.offset, j, q, c.intSize⟩ ∈ ps) ∧
    (c.rule = .explicit → ∃ q, ⟨.domainData, j, q, 8 * i.samples⟩ ∈ ps) := by
  obtain ⟨hl, hk, rfl, rfl⟩ := create_some h
  obtain ⟨q, h1, ⟨q2, h2⟩, ⟨q3, h3⟩, h4, h5⟩ := place_value c items j i hi 0 20 (headSize c items.length)
  rw [Nat.zero_add] at *
  have ev : valBytes i = i.rawSize * i.samples := by unfold valBytes wrap32 wrap; omega
  have mem : ∀ x, x ∈ place c 0 20 (headSize c items.length) items → x ∈ pieces c items := fun x hx => List.mem_cons_of_mem _ hx
  rw [ev] at h1
  refine ⟨⟨q, mem _ h1⟩, ⟨q2, mem _ h2⟩, ⟨q3, mem _ h3⟩, fun ho => ?_, fun hr => ?_⟩
  · obtain ⟨q4, h⟩ := h4 ho; exact ⟨q4, mem _ h⟩
  · obtain ⟨q5, h⟩ := h5 hr
    unfold Fit at hf
    rw [if_pos hr] at hf
    have ed : domBytes i = 8 * i.samples := by
      unfold domBytes; rw [hf]
      have e1 : wrap32 i.samples = i.samples := Nat.mod_eq_of_lt (by omega)
      have e2 : wrap32 8 = 8 := rfl
      rw [e1, e2]
      unfold wrap32; omega
    rw [ed] at h
    exact ⟨q5, mem _ h⟩

def cfgE : Cfg := ⟨56, 200, .explicit, false, 64⟩
def itemsE : List Item := [⟨10, 8, .explicit, 8, true⟩, ⟨7, 4, .explicit, 8, true⟩]
def cfgL : Cfg := ⟨56, 200, .linear, true, 128⟩
def itemsL : List Item := [⟨10, 8, .linear, 0, true⟩, ⟨0, 4, .linear, 0, true⟩, ⟨3, 2, .linear, 0, true⟩]

example : create true cfgE itemsE = some (1216,
    [⟨.header, 0, 0, 20⟩, ⟨.domain, 0, 20, 200⟩, ⟨.value, 0, 220, 200⟩, ⟨.domainData, 0, 832, 80⟩, ⟨.valueData, 0, 960, 80⟩,
      ⟨.domain, 1, 420, 200⟩, ⟨.value, 1, 620, 200⟩, ⟨.domainData, 1, 1088, 56⟩, ⟨.valueData, 1, 1152, 28⟩]) ∧
    (∀ i ∈ itemsE, Fit cfgE i) ∧ total cfgE itemsE = 1216 := by decide +kernel

example : create true cfgL itemsL = some (1664,
    [⟨.header, 0, 0, 20⟩, ⟨.offset, 0, 20, 56⟩, ⟨.domain, 0, 76, 200⟩, ⟨.value, 0, 276, 200⟩, ⟨.nullData, 0, 0, 0⟩,
      ⟨.valueData, 0, 1408, 80⟩, ⟨.offset, 1, 476, 56⟩, ⟨.domain, 1, 532, 200⟩, ⟨.value, 1, 732, 200⟩, ⟨.nullData, 1, 0, 0⟩,
      ⟨.valueData, 1, 1536, 0⟩, ⟨.offset, 2, 932, 56⟩, ⟨.domain, 2, 988, 200⟩, ⟨.value, 2, 1188, 200⟩, ⟨.nullData, 2, 0, 0⟩,
      ⟨.valueData, 2, 1536, 6⟩]) ∧ (∀ i ∈ itemsL, Fit cfgL i) ∧ total cfgL itemsL = 1664 := by decide +kernel

/-! ## C91: what the documentation promises about alignment and descriptors -/

/-- `dataAlign` is "the alignment in bytes of packet data memory", but only the distance from the start of the block is a
multiple of it. `malloc` aligns to 16 bytes. -/
theorem C91_align_violation : ∃ (base : Nat) (ps : List Piece) (m : Nat), 16 ∣ base ∧ create true cfgE itemsE = some (m, ps) ∧
    ∃ p ∈ ps, p.what = .valueData ∧ ¬ cfgE.align ∣ base + p.pos :=
  ⟨16, (create true cfgE itemsE).get!.2, 1216, by decide, by decide +kernel, ⟨.valueData, 0, 960, 80⟩, by decide +kernel, rfl,
    by decide⟩

/-- "The function will fail if the domain is not of the same type for all packets": a release build makes a domain packet
without memory for its samples. -/
theorem C91_mixed_violation : ∃ (c : Cfg) (items : List Item) (m : Nat) (ps : List Piece),
    create false c items = some (m, ps) ∧ create true c items = none ∧
    ∃ p ∈ ps, p.what = .nullData ∧ 0 < p.size :=
  ⟨cfgL, [⟨10, 8, .linear, 0, true⟩, ⟨10, 8, .explicit, 8, true⟩], _, _, rfl, by decide +kernel,
    ⟨.nullData, 1, 0, 80⟩, by decide +kernel, rfl, by decide⟩

/-- The buffer of an explicit domain has eight bytes per sample, also when a sample of the domain has more, for instance
because of its dimensions; a debug build accepts that too. The samples of the domain packet then overlap the values. -/
theorem C91_overlap_violation : ∃ (c : Cfg) (items : List Item) (m : Nat) (ps : List Piece),
    create true c items = some (m, ps) ∧ ¬ ps.Pairwise Apart :=
  ⟨cfgE, [⟨10, 8, .explicit, 80, true⟩], _, _, rfl, by decide +kernel⟩

/-- What holds: an aligned block gives aligned buffers. -/
theorem C91_align_partial (debug : Bool) (c : Cfg) (items : List Item) (m : Nat) (ps : List Piece) (base : Nat)
    (h : create debug c items = some (m, ps)) (hf : ∀ i ∈ items, Fit c i)
    (ht : total c items + c.align < 18446744073709551616) (hb : c.align ∣ base) (p : Piece) (hp : p ∈ ps)
    (hw : p.what = .valueData ∨ p.what = .domainData) : c.align ∣ base + p.pos :=
  (Nat.dvd_add_right hb).mpr ((C90_aligned debug c items m ps h hf ht p hp).1 hw)

/-! ## C92: the block is freed once, when nothing of it is used any more -/

theorem init_cnt (k : Nat) (hper : k = 2 ∨ k = 3) (count x : Nat) :
    (if x < k * count then 1 else 0) = (if x < k * count ∧ x % k = k - 1 then 1 else 0) + 0 +
      pts (if x + 1 < k * count then if (x + 1) % k = 0 then none else some (x + 1 - 1) else none) x := by
  simp only [pts, Nat.add_zero]
  by_cases hx : x < k * count
  · rw [if_pos hx]
    by_cases hm : x % k = k - 1
    · rw [if_pos ⟨hx, hm⟩]
      have : (x + 1) % k = 0 := by rcases hper with rfl | rfl <;> omega
      simp [this]
    · rw [if_neg (by omega)]
      have h1 : (x + 1) % k ≠ 0 := by rcases hper with rfl | rfl <;> omega
      have h2 : x + 1 < k * count := by rcases hper with rfl | rfl <;> omega
      simp [h1, h2]
  · rw [if_neg hx, if_neg (by omega), if_neg (show ¬ (x + 1 < k * count) by omega)]
    simp

theorem init_inv (offsets : Bool) (count : Nat) (hc : 0 < count) : Inv offsets (St.init offsets count) := by
  have hper : per offsets = 2 ∨ per offsets = 3 := by cases offsets <;> simp [per]
  have hz : ∀ g, sumC g ([] : List (List Frame)) = 0 := fun _ => rfl
  refine ⟨rfl, ?_, fun x => by simp [St.init, hz], fun x _ => by simp [St.init, hz], ?_, ?_, ?_, by simp [St.init, hz], ?_, ?_, ?_, rfl, ?_, ?_⟩
  · intro x
    exact init_cnt (per offsets) hper count x
  · intro x hx
    simp only [St.init] at hx ⊢
    exact ⟨if_neg (by omega), hz _⟩
  · intro x
    simp only [St.init, hz, chk]
    by_cases hx : x < per offsets * count
    · simp [hx]
    · simp [hx]
  · show ((count * per offsets : Nat) : Int) = ((bsum (alive (St.init offsets count)) (per offsets * count) : Nat) : Int)
    have : ∀ m, m ≤ per offsets * count → bsum (alive (St.init offsets count)) m = m := by
      intro m hm
      induction m with
      | zero => rfl
      | succ m ih =>
        simp only [bsum]
        rw [ih (by omega)]
        have : alive (St.init offsets count) m = 1 := by
          unfold alive
          have : (St.init offsets count).count m = 1 := if_pos (by omega)
          rw [this]
          rfl
        rw [this]
    rw [this _ (Nat.le_refl _), Nat.mul_comm]
  · intro _
    have h1 : sumC nd (St.init offsets count).calls = 0 := rfl
    have h2 : (St.init offsets count).blk = ((count * per offsets : Nat) : Int) := rfl
    have h3 : 0 < count * per offsets := Nat.mul_pos hc (by omega)
    rw [h1, h2]; omega
  · intro h; simp [St.init] at h
  · intro x y h; simp [St.init] at h
  · intro c h; simp [St.init] at h
  · show 0 < per offsets * count
    exact Nat.mul_pos (by omega) hc

/-- No interleaving of the calls uses memory that was freed, or a counter below zero. -/
theorem C92_no_use_after_free (offsets : Bool) (count : Nat) (hc : 0 < count) (ops : List Op) :
    ((St.init offsets count).run ops).ub = false :=
  (inv_run (init_inv offsets count hc) ops).ub

/-- As long as a client owns a reference to any of the objects, none is destroyed, and the packets know their domain
packets and offsets. -/
theorem C92_alive (offsets : Bool) (count : Nat) (hc : 0 < count) (ops : List Op) (s : St)
    (hs : s = (St.init offsets count).run ops) (x : Nat) (hx : 0 < s.held x) :
    s.freed = false ∧ s.destroyed = [] ∧ s.child x = keeps offsets x := by
  have h := inv_run (init_inv offsets count hc) ops
  rw [← hs] at h
  have := h.cnt x
  obtain ⟨h1, h2, _⟩ := h.not_freed (x := x) (.inl (by omega))
  refine ⟨h1, by rw [h.destr, h1]; rfl, ?_⟩
  rw [h.ch x]; unfold chk; rw [if_pos ⟨h2, .inl (by omega)⟩]
  cases offsets <;> simp [child0, per, keeps]

/-- The objects are destroyed once each and the block is freed, or nothing of that has happened. -/
theorem C92_once (offsets : Bool) (count : Nat) (hc : 0 < count) (ops : List Op) (s : St)
    (hs : s = (St.init offsets count).run ops) :
    s.destroyed = if s.freed then List.range s.n else [] := by
  have h := inv_run (init_inv offsets count hc) ops
  rw [← hs] at h
  exact h.destr

/-- When the clients have released everything and no call is in progress, the block is freed. -/
theorem C92_no_leak (offsets : Bool) (count : Nat) (hc : 0 < count) (ops : List Op) (s : St)
    (hs : s = (St.init offsets count).run ops) (hh : ∀ x, s.held x = 0) (hcalls : s.calls = []) : s.freed = true := by
  have h := inv_run (init_inv offsets count hc) ops
  rw [← hs] at h
  have hz : ∀ g, sumC g s.calls = 0 := fun g => by rw [hcalls]; rfl
  have h0 : ∀ k x, s.n ≤ x + k → s.count x = 0 := by
    intro k
    induction k with
    | zero => intro x hx; exact (h.out x hx).1
    | succ k ih =>
      intro x hx
      have h1 := ih (x + 1) (by omega)
      have h2 := h.ch (x + 1)
      unfold chk at h2
      rw [h1, hz, if_neg (by omega)] at h2
      have h3 := h.cnt x
      rw [hh, hz] at h3
      unfold par at h3
      rw [h2] at h3
      simpa [pts] using h3
  have hb : s.blk = 0 := by
    rw [h.blk, bsum_zero]
    · rfl
    · intro x _
      unfold alive
      rw [h0 s.n x (by omega), hz]
      rfl
  cases hf : s.freed with
  | true => rfl
  | false =>
    have := (h.live hf).mpr hb
    rw [hz] at this
    omega

/-- The last references released by two threads at the same time. -/
def race : List Op := [.getChild 2, .step 0, .step 0, .release 2, .release 1, .step 0, .step 0, .step 1, .step 0, .step 0,
  .step 0, .step 0, .step 0, .step 0, .step 0, .step 0, .step 0]

example : ((St.init true 1).run race).freed = true ∧ ((St.init true 1).run race).calls = [] ∧
    ((St.init true 1).run race).destroyed = [0, 1, 2] := by decide +kernel

example : ((St.init true 1).run (race.take 5)).held 2 = 0 ∧ ((St.init true 1).run (race.take 3)).held 1 = 1 ∧
    ((St.init true 1).run (race.take 3)).child 1 = some 0 := by decide +kernel

/-! ## C93: when the owner of a packet is told that it is destroyed -/

/-- Release the reference of `x` and run to the end. -/
def done (x : Nat) : List Op := .release x :: List.replicate 12 (.step 0)

/-- A packet that nobody references any more is destroyed, and its destruct callback called, only with the last of the
packets created together with it. -/
theorem C93_late_violation : ∃ s, s = (St.init false 2).run (done 3) ∧ s.calls = [] ∧ s.count 3 = 0 ∧ s.count 2 = 0 ∧
    s.notified [3] = [] ∧ (s.run (done 1)).notified [3] = [3] :=
  ⟨_, rfl, by decide +kernel⟩

/-- The same happens to a single packet whose domain packet is kept. -/
theorem C93_domain_violation : ∃ s, s = (St.init true 1).run ([.getChild 2, .step 0, .step 0] ++ done 2) ∧ s.calls = [] ∧
    s.count 2 = 0 ∧ s.held 1 = 1 ∧ s.notified [2] = [] :=
  ⟨_, rfl, by decide +kernel⟩

/-- What holds: in the end every subscriber was told once. -/
theorem C93_notified_partial (offsets : Bool) (count : Nat) (hc : 0 < count) (ops : List Op) (s : St)
    (hs : s = (St.init offsets count).run ops) (hh : ∀ x, s.held x = 0) (hcalls : s.calls = []) (subs : List Nat) (x : Nat)
    (hx : x < s.n) : (s.notified subs).count x = if x ∈ subs then 1 else 0 := by
  have hf := C92_no_leak offsets count hc ops s hs hh hcalls
  have h1 := C92_once offsets count hc ops s hs
  rw [hf, if_pos rfl] at h1
  unfold St.notified
  rw [h1]
  split
  · rename_i hm
    rw [List.count_filter (by simpa using hm)]
    exact List.count_eq_one_of_mem List.nodup_range (by simpa using hx)
  · rename_i hm
    rw [List.count_eq_zero]
    simp [hm]

end Verif.Bulk.Props
