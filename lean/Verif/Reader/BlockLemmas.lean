import Verif.Reader.StreamAvail
import Verif.Reader.BlockSpec

/-! Helper lemmas for the block reader (no claims here). -/

namespace Verif.Reader.Block

open Connection (Packet EventKind DomPacket DomDesc wadd wsub W)

def tot (l : List DP) : Nat := (l.map DP.n).sum

@[simp] theorem tot_nil : tot [] = 0 := rfl
@[simp] theorem tot_cons (d l) : tot (d :: l) = d.n + tot l := by simp [tot]
@[simp] theorem tot_append (a b) : tot (a ++ b) = tot a + tot b := by simp [tot]
@[simp] theorem tot_reverse (a) : tot a.reverse = tot a := by
  induction a with
  | nil => rfl
  | cons d a ih => simp [ih]; omega

theorem tot_uniform (z : Nat) (l : List DP) (h : ∀ d ∈ l, d.n = z) : tot l = l.length * z := by
  induction l with
  | nil => simp
  | cons d l ih =>
    rw [tot_cons, ih (fun d hd => h d (by simp [hd])), h d (by simp), List.length_cons, Nat.succ_mul]; omega

def toks (l : List DP) : List Tok := l.flatMap fun d => slice d.id 0 d.n

@[simp] theorem toks_nil : toks [] = [] := rfl
@[simp] theorem toks_cons (d l) : toks (d :: l) = slice d.id 0 d.n ++ toks l := by simp [toks]
@[simp] theorem toks_append (a b) : toks (a ++ b) = toks a ++ toks b := by simp [toks]

theorem toks_length (l) : (toks l).length = tot l := by
  induction l with
  | nil => rfl
  | cons d l ih => simp [ih]

theorem slice_take_drop (id n p k : Nat) (h : p + k ≤ n) : ((slice id 0 n).drop p).take k = slice id p k := by
  simp only [slice, ← List.map_drop, ← List.map_take, Nat.zero_add]
  apply List.ext_getElem?
  intro i
  simp only [List.getElem?_map, List.getElem?_take, List.getElem?_drop]
  by_cases hi : i < k
  · rw [if_pos hi, List.getElem?_range (by omega), List.getElem?_range hi]; rfl
  · rw [if_neg hi, List.getElem?_eq_none (by simp; omega)]; rfl

theorem toks_read (a : List DP) (cur : DP) (b : List DP) (x : List Tok) (p k : Nat) (h : p + k ≤ cur.n) :
    ((toks (a ++ cur :: b) ++ x).drop (tot a + p)).take k = slice cur.id p k := by
  rw [toks_append, toks_cons, List.append_assoc, List.append_assoc, ← toks_length, List.drop_append,
    Nat.add_sub_cancel_left, List.drop_eq_nil_of_le (by omega), List.nil_append, List.drop_append, List.take_append,
    slice_take_drop _ _ _ _ h]
  have : k - ((slice cur.id 0 cur.n).drop p).length = 0 := by simp; omega
  rw [this]; simp

/-- The data packets among the packets. -/
def dataOf : List Packet → List DP
  | [] => []
  | .data id n dom :: ps => ⟨id, n, dom⟩ :: dataOf ps
  | _ :: ps => dataOf ps

@[simp] theorem dataOf_append (a b) : dataOf (a ++ b) = dataOf a ++ dataOf b := by
  induction a with
  | nil => rfl
  | cons q a ih => cases q <;> simp [dataOf, ih]

theorem dataOf_mem (ps : List Packet) (d : DP) (h : d ∈ dataOf ps) : Packet.data d.id d.n d.dom ∈ ps := by
  induction ps with
  | nil => exact nomatch h
  | cons q ps ih =>
    cases q with
    | data i n dom =>
      simp only [dataOf, List.mem_cons] at h
      rcases h with h | h
      · rw [h]; simp
      · exact List.mem_cons_of_mem _ (ih h)
    | event i k => exact List.mem_cons_of_mem _ (ih h)
    | none i => exact List.mem_cons_of_mem _ (ih h)

theorem segment_append (cfg : Cfg) (pre ps : List Packet) (h : ∀ q ∈ pre, ends cfg q = false) :
    segment cfg (pre ++ ps) = toks (dataOf pre) ++ segment cfg ps := by
  induction pre with
  | nil => rfl
  | cons q pre ih =>
    have hq := h q (by simp)
    have ih := ih (fun q hq => h q (by simp [hq]))
    cases q with
    | data i n dom => simp [segment, dataOf, ih, slice]
    | event i k => simp only [List.cons_append, segment, dataOf, hq]; simpa using ih
    | none i => simp only [List.cons_append, segment, dataOf, hq]; simpa using ih

theorem afterEnd_append (cfg : Cfg) (pre ps : List Packet) (q : Packet) (h : ∀ q ∈ pre, ends cfg q = false)
    (hq : ends cfg q = true) : afterEnd cfg (pre ++ q :: ps) = ps := by
  induction pre with
  | nil => simp [afterEnd, hq]
  | cons p pre ih =>
    simp only [List.cons_append, afterEnd, h p (by simp)]
    simpa using ih (fun q hq => h q (by simp [hq]))

theorem firstEnd_append (cfg : Cfg) (pre ps : List Packet) (h : ∀ q ∈ pre, ends cfg q = false) :
    firstEnd cfg (pre ++ ps) = firstEnd cfg ps := by
  induction pre with
  | nil => rfl
  | cons q pre ih =>
    have hq := h q (by simp)
    have ih := ih (fun q hq => h q (by simp [hq]))
    cases q with
    | data i n dom => simpa [firstEnd] using ih
    | event i k => simp only [List.cons_append, firstEnd, hq]; simpa using ih
    | none i => simpa [firstEnd] using ih

/-! ### Rewinding -/

theorem rewind_zero (behind : List DP) (cur : DP) (ahead : List DP) (p : Nat) :
    rewind behind cur ahead p 0 = some (behind, cur, ahead, p) := by
  cases behind <;> simp [rewind]

theorem rewind_spec (z : Nat) (behind : List DP) (cur : DP) (ahead : List DP) (p r : Nat)
    (hb : ∀ d ∈ behind, d.n = z) (hc : cur.n = z) (hp : p ≤ z) (hr : 1 ≤ r) (hle : r ≤ tot behind + p) :
    ∃ behind' cur' ahead' p', rewind behind cur ahead p r = some (behind', cur', ahead', p') ∧
      behind'.reverse ++ cur' :: ahead' = behind.reverse ++ cur :: ahead ∧
      tot behind' + p' + r = tot behind + p ∧ p' < z ∧ cur'.n = z ∧
      (∃ l, cur' :: ahead' = l ++ cur :: ahead ∧ tot behind' + tot l = tot behind) := by
  induction behind generalizing cur ahead p r with
  | nil =>
    simp only [tot_nil, Nat.zero_add] at hle
    refine ⟨[], cur, ahead, p - r, ?_, rfl, by simp; omega, by omega, hc, [], rfl, rfl⟩
    rw [rewind, if_neg (by omega), if_neg (by omega)]
  | cons b bs ih =>
    have hbz : b.n = z := hb b (by simp)
    have hbs : ∀ d ∈ bs, d.n = z := fun d hd => hb d (by simp [hd])
    rw [tot_cons, hbz] at hle
    rw [rewind]
    by_cases h1 : r > cur.n
    · rw [if_pos h1]
      obtain ⟨b', c', a', p', e1, e2, e3, e4, e5, l, e6, e7⟩ :=
        ih b (cur :: ahead) p (r - cur.n) hbs hbz hp (by omega) (by omega)
      refine ⟨b', c', a', p', e1, by rw [e2]; simp, by rw [tot_cons, hbz]; omega, e4, e5, l ++ [b], by rw [e6]; simp, ?_⟩
      rw [tot_append, tot_cons, tot_cons, tot_nil]; omega
    · rw [if_neg h1]
      by_cases h2 : p < r
      · rw [if_pos h2]
        obtain ⟨b', c', a', p', e1, e2, e3, e4, e5, l, e6, e7⟩ :=
          ih b (cur :: ahead) b.n (r - p) hbs hbz (by omega) (by omega) (by omega)
        refine ⟨b', c', a', p', e1, by rw [e2]; simp, by rw [tot_cons, hbz]; omega, e4, e5, l ++ [b], by rw [e6]; simp, ?_⟩
        rw [tot_append, tot_cons, tot_cons, tot_nil]; omega
      · rw [if_neg h2]
        exact ⟨b :: bs, cur, ahead, p - r, rfl, rfl, by rw [tot_cons]; omega, by omega, hc, [], rfl, rfl⟩

/-! ### Trimming -/

theorem keepCount_spec (z ov : Nat) (hz : 1 ≤ z) :
    ov ≤ keepCount z ov * z ∧ keepCount z ov * z < ov + z ∧ (1 ≤ ov → 1 ≤ keepCount z ov) := by
  unfold keepCount
  have h := Nat.div_add_mod ov z
  have hm := Nat.mod_lt ov (show 0 < z by omega)
  rw [Nat.mul_comm] at h
  by_cases h0 : ov % z = 0
  · rw [if_pos h0, Nat.add_zero]
    refine ⟨by omega, by omega, fun h1 => ?_⟩
    rcases Nat.eq_zero_or_pos (ov / z) with h2 | h2
    · rw [h2] at h; omega
    · exact h2
  · rw [if_neg h0, Nat.succ_mul]
    exact ⟨by omega, by omega, fun _ => Nat.le_add_left 1 _⟩

/-- What is left behind the read position after a packet was finished. -/
theorem trim_spec (cfg : Cfg) (cur : DP) (behind ahead dropped : List DP) (K Kc pos : Nat)
    (hn : 1 ≤ cur.n)
    (hsz : cfg.ov = 0 ∨ (cfg.ov ≤ cfg.step ∧ (∀ d ∈ dropped ++ behind.reverse ++ cur :: ahead, d.n = cur.n)))
    (hpos : tot dropped + tot behind + cur.n = pos)
    (h1 : Kc * cfg.step ≤ pos) (h1' : K * cfg.step ≤ pos) (h2 : pos ≤ (Kc + 1) * cfg.step + cfg.ov)
    (hE : ∀ l last, ahead = l ++ [last] → pos + tot l + 1 ≤ K * cfg.step + cfg.ov)
    (hK : K ≤ Kc)
    (hC : tot dropped ≤ (Kc + 1) * cfg.step) :
    ∃ behind' gone, trim cfg cur.n (cur :: behind) ahead = .ok behind' ∧
      (cur :: behind) = behind' ++ gone ∧ tot (dropped ++ gone.reverse) ≤ (Kc + 1) * cfg.step := by
  obtain ⟨k1, k2, k3⟩ := keepCount_spec cur.n cfg.ov hn
  have hmono : K * cfg.step ≤ Kc * cfg.step := Nat.mul_le_mul_right _ hK
  have hKs : (Kc + 1) * cfg.step = Kc * cfg.step + cfg.step := Nat.succ_mul _ _
  rcases hsz with h0 | ⟨hov, hu⟩
  · have ha : ahead = [] := by
      rcases List.eq_nil_or_concat ahead with h | ⟨l, last, h⟩
      · exact h
      · rw [List.concat_eq_append] at h
        have := hE l last h
        omega
    subst ha
    have hkeep : keepCount cur.n cfg.ov = 0 := by simp [keepCount, h0]
    refine ⟨[], cur :: behind, ?_, rfl, ?_⟩
    · simp only [trim]
      rw [if_neg (by omega), if_neg (by simp)]
      simp [hkeep]
    · simp only [tot_append, tot_reverse, tot_cons]; omega
  · have hua : ∀ d ∈ ahead, d.n = cur.n := fun d hd => hu d (by simp [hd])
    have hub : ∀ d ∈ cur :: behind, d.n = cur.n := by
      intro d hd
      rcases List.mem_cons.mp hd with h | h
      · rw [h]
      · exact hu d (by simp [h])
    generalize hz : cur.n = z at *
    generalize hc : keepCount z cfg.ov = c at *
    have htb : tot (cur :: behind) = (behind.length + 1) * z := by
      rw [tot_uniform z _ hub]; rfl
    have htb' : z + tot behind = (behind.length + 1) * z := by rw [← htb, tot_cons, hz]
    -- the packets ahead
    have hal : ahead = [] ∨ (1 ≤ ahead.length ∧ pos + (ahead.length - 1) * z + 1 ≤ K * cfg.step + cfg.ov) := by
      rcases List.eq_nil_or_concat ahead with h | ⟨l, last, h⟩
      · exact .inl h
      · rw [List.concat_eq_append] at h
        have := hE l last h
        rw [tot_uniform z l (fun d hd => hua d (by rw [h]; simp [hd]))] at this
        rw [h]
        simp only [List.length_append, List.length_cons, List.length_nil, Nat.add_sub_cancel]
        exact .inr ⟨by omega, by omega⟩
    have hlen : ahead.length ≤ c ∨ ahead = [] := by
      rcases hal with h | ⟨h3, h4⟩
      · exact .inr h
      · left
        apply Nat.le_of_not_lt
        intro hlt
        have : c * z ≤ (ahead.length - 1) * z := Nat.mul_le_mul_right _ (by omega)
        omega
    refine ⟨(cur :: behind).take (c - ahead.length), (cur :: behind).drop (c - ahead.length), ?_,
      (List.take_append_drop _ _).symm, ?_⟩
    · simp only [trim]
      rw [if_neg (by omega), if_neg, hc]
      rw [hc]
      rintro ⟨h3, h4⟩
      rcases hlen with h | h
      · omega
      · exact h4 h
    · rw [tot_append, tot_reverse]
      have hg : tot ((cur :: behind).drop (c - ahead.length)) = (behind.length + 1 - (c - ahead.length)) * z := by
        rw [tot_uniform z _ (fun d hd => hub d (List.mem_of_mem_drop hd))]; simp
      rw [hg]
      by_cases hle : behind.length + 1 ≤ c - ahead.length
      · rw [Nat.sub_eq_zero_of_le hle, Nat.zero_mul]; omega
      · have hsum : (behind.length + 1 - (c - ahead.length)) * z + (c - ahead.length) * z = (behind.length + 1) * z := by
          rw [← Nat.add_mul]; congr 1; omega
        rcases hal with h | ⟨h3, h4⟩
        · rw [h] at hsum ⊢
          simp only [List.length_nil, Nat.sub_zero] at hsum ⊢
          omega
        · have hla : ahead.length ≤ c := by
            rcases hlen with h | h
            · exact h
            · rw [h]; exact Nat.zero_le _
          have hca : (c - ahead.length) * z + ahead.length * z = c * z := by
            rw [← Nat.add_mul]; congr 1; omega
          have haz : ahead.length * z = (ahead.length - 1) * z + z := by
            rw [← Nat.succ_mul]; congr 1; omega
          by_cases hzo : z ≤ cfg.ov
          · omega
          · -- one packet is kept
            have hc1 : c = 1 := by
              have := k3
              rcases Nat.lt_or_ge c 1 with h | h
              · have : c = 0 := by omega
                rw [this] at k1 k3
                have : cfg.ov = 0 := by omega
                omega
              · apply Nat.le_antisymm _ h
                apply Nat.le_of_not_lt
                intro hlt
                have : 2 * z ≤ c * z := Nat.mul_le_mul_right _ hlt
                omega
            have : ahead.length = 1 := by omega
            rw [this] at hca haz h4
            omega

/-! ### The state between two samples -/

theorem ov_le (cfg : Cfg) (h : cfg.overlap < 100) (hb : 0 < cfg.block) : cfg.ov < cfg.block := by
  unfold Cfg.ov
  rw [Nat.div_lt_iff_lt_mul (by omega)]
  exact Nat.mul_lt_mul_of_pos_left h hb

/-- `w`: packets since the last event; block `K` is in progress, `wr` samples of it have been written. -/
structure Z (cfg : Cfg) (w : List Packet) (K wr : Nat) (s : B) (pre : List Packet) (dropped : List DP) : Prop where
  split : w = pre ++ s.conn
  noEnd : ∀ q ∈ pre, ends cfg q = false
  data : dataOf pre = dropped ++ s.behind.reverse ++ s.ahead
  prev0 : s.ahead = [] → s.prev = 0
  prevLt : ∀ cur rest, s.ahead = cur :: rest → s.prev < cur.n
  pos : tot dropped + tot s.behind + s.prev = K * cfg.step + wr
  wrLt : wr < cfg.block
  written : s.written % cfg.block = wr
  last : ∀ l last, s.ahead = l ++ [last] → l ≠ [] → tot dropped + tot s.behind + tot l + 1 ≤ K * cfg.step + cfg.ov
  cover : tot dropped ≤ (K + 1) * cfg.step
  typed : s.typed = true ∨ ((∀ q ∈ pre, ∃ i, q = Packet.none i) ∧ startsTyped s.conn = true)

theorem dataOf_none {pre : List Packet} (h : ∀ q ∈ pre, ∃ i, q = Packet.none i) : dataOf pre = [] := by
  induction pre with
  | nil => rfl
  | cons q pre ih =>
    obtain ⟨i, rfl⟩ := h q (by simp)
    exact ih fun q hq => h q (by simp [hq])

/-- Hypotheses about the configuration and the packets of the segment. -/
structure Good (cfg : Cfg) (w : List Packet) : Prop where
  block : 0 < cfg.block
  overlap : cfg.overlap < 100
  pos : ∀ d ∈ dataOf w, 1 ≤ d.n ∧ d.n < W
  sizes : cfg.ov = 0 ∨ (cfg.ov ≤ cfg.step ∧ ∃ z, ∀ d ∈ dataOf w, d.n = z)

theorem blocks_succ (cfg : Cfg) (l : List Tok) (k j : Nat) :
    blocks cfg l k (j + 1) = blocks cfg l k j ++ blockAt cfg l (k + j) := by
  simp [blocks, List.range_succ]

theorem blockAt_eq (cfg : Cfg) (l : List Tok) (k : Nat) : blockAt cfg l k = (l.drop (k * cfg.step)).take cfg.block := rfl

/-- The buffer contents: `j` whole blocks from block `K0` on and `wr` samples of the next one. -/
def written (cfg : Cfg) (l : List Tok) (K0 j wr : Nat) : List Tok :=
  blocks cfg l K0 j ++ (l.drop ((K0 + j) * cfg.step)).take wr

theorem written_add (cfg : Cfg) (l : List Tok) (K0 j wr k : Nat) :
    written cfg l K0 j wr ++ (l.drop ((K0 + j) * cfg.step + wr)).take k = written cfg l K0 j (wr + k) := by
  simp only [written, List.append_assoc]
  rw [List.take_add, List.drop_drop]

theorem written_block (cfg : Cfg) (l : List Tok) (K0 j : Nat) :
    written cfg l K0 j cfg.block = written cfg l K0 (j + 1) 0 := by
  simp only [written, blocks_succ, blockAt_eq, List.take_zero, List.append_nil]

structure AccOk (cfg : Cfg) (m : Mode) (l : List Tok) (K0 c j wr : Nat) (a : Acc) : Prop where
  le : j ≤ c
  rem : (j < c ∧ a.rem + wr = (c - j) * cfg.step + cfg.ov) ∨ (j = c ∧ a.rem = 0 ∧ wr = 0)
  vals : a.vals = written cfg l K0 j wr
  doms : m = .withDomain → a.doms = a.vals
  offset : a.offset = a.vals.head?
  bound : 0 < j → (K0 + j) * cfg.step + cfg.ov ≤ l.length

theorem wsub_le {a b : Nat} (h : b ≤ a) (hb : b < W) : wsub a b = a - b := by
  simp only [wsub]; rw [Nat.mod_eq_of_lt hb, if_pos h]

theorem finish_ok {cfg : Cfg} {w : List Packet} {s1 : B} {pre : List Packet} {dropped behind ahead : List DP}
    {cur : DP} {K Kc wr p : Nat} (hg : Good cfg w)
    (split : w = pre ++ s1.conn) (noEnd : ∀ q ∈ pre, ends cfg q = false)
    (data : dataOf pre = dropped ++ behind.reverse ++ cur :: ahead)
    (hp : p ≤ cur.n) (pos : tot dropped + tot behind + p = Kc * cfg.step + wr) (wrLt : wr < cfg.block)
    (hss : cfg.step + cfg.ov = cfg.block)
    (hwritten : s1.written % cfg.block = wr)
    (hK : K ≤ Kc) (hKpos : K * cfg.step ≤ Kc * cfg.step + wr)
    (last : ∀ l last, cur :: ahead = l ++ [last] → l ≠ [] →
      tot dropped + tot behind + tot l + 1 ≤ K * cfg.step + cfg.ov)
    (cover : tot dropped ≤ (Kc + 1) * cfg.step) (typed : s1.typed = true) :
    ∃ s2 dropped', finish cfg cur.n s1 behind cur ahead p = .ok s2 ∧ Z cfg w Kc wr s2 pre dropped' ∧
      s2.written = s1.written ∧ s2.conn = s1.conn ∧ s2.invalid = s1.invalid ∧ s2.typed = true := by
  have hmem : ∀ d ∈ dropped ++ behind.reverse ++ cur :: ahead, d ∈ dataOf w := by
    intro d hd; rw [split, dataOf_append, data]; exact List.mem_append_left _ hd
  have hcur : 1 ≤ cur.n := (hg.pos cur (hmem cur (by simp))).1
  have hmono : K * cfg.step ≤ Kc * cfg.step := Nat.mul_le_mul_right _ hK
  unfold finish
  by_cases hpn : p = cur.n
  · rw [if_pos hpn]
    have hE : ∀ l x, ahead = l ++ [x] → (Kc * cfg.step + wr) + tot l + 1 ≤ K * cfg.step + cfg.ov := by
      intro l x h
      have := last (cur :: l) x (by rw [h]; rfl) (by simp)
      rw [tot_cons] at this; omega
    obtain ⟨behind', gone, h1, h2, h3⟩ := trim_spec cfg cur behind ahead dropped K Kc (Kc * cfg.step + wr) hcur
      (by
        rcases hg.sizes with h | ⟨h, z, hz⟩
        · exact .inl h
        · refine .inr ⟨h, fun d hd => ?_⟩
          rw [hz d (hmem d hd), hz cur (hmem cur (by simp))])
      (by omega) (by omega) hKpos (by rw [Nat.succ_mul]; omega) hE hK cover
    rw [h1]
    refine ⟨{ s1 with behind := behind', ahead, prev := 0 }, dropped ++ gone.reverse, rfl, ?_, rfl, rfl, rfl, typed⟩
    have htot : tot (cur :: behind) = tot behind' + tot gone := by rw [h2, tot_append]
    rw [tot_cons] at htot
    constructor
    · exact split
    · exact noEnd
    · dsimp only
      rw [data]
      have : (cur :: behind).reverse = gone.reverse ++ behind'.reverse := by rw [h2, List.reverse_append]
      rw [List.reverse_cons] at this
      have e : dropped ++ behind.reverse ++ cur :: ahead = dropped ++ (behind.reverse ++ [cur]) ++ ahead := by simp
      rw [e, this]; simp
    · intro _; rfl
    · intro c r h
      dsimp only at h ⊢
      exact (hg.pos c (hmem c (by rw [h]; simp))).1
    · dsimp only; rw [tot_append, tot_reverse]; omega
    · exact wrLt
    · exact hwritten
    · intro l x h hl
      dsimp only at h ⊢
      have := last (cur :: l) x (by rw [h]; rfl) (by simp)
      rw [tot_cons] at this
      rw [tot_append, tot_reverse]; omega
    · exact h3
    · exact .inl typed
  · rw [if_neg hpn]
    refine ⟨{ s1 with behind, ahead := cur :: ahead, prev := p }, dropped, rfl, ?_, rfl, rfl, rfl, typed⟩
    constructor
    · exact split
    · exact noEnd
    · exact data
    · intro h; exact nomatch h
    · intro c r h
      injection h with h _
      subst h
      dsimp only; omega
    · exact pos
    · exact wrLt
    · exact hwritten
    · intro l x h hl
      have := last l x h hl
      dsimp only; omega
    · exact cover
    · exact .inl typed

/-- One call of `readPacketData` on a well-formed state. -/
theorem readPacketData_ok {cfg : Cfg} {m : Mode} {w : List Packet} {K0 c j wr : Nat} {s : B} {a : Acc}
    {pre : List Packet} {dropped : List DP} {cur : DP} {ahead : List DP} (hg : Good cfg w)
    (hz : Z cfg w (K0 + j) wr s pre dropped) (ha : AccOk cfg m (segment cfg w) K0 c j wr a)
    (hah : s.ahead = cur :: ahead) (hrem : a.rem ≠ 0) (hW : c * cfg.block + cfg.block < W)
    (hd : m = .withDomain → ∀ d ∈ dataOf w, d.dom ≠ none) :
    ∃ s' a' dropped' j' wr', readPacketData cfg m s cur ahead (noteOffset a cur s.prev) = (s', a', none) ∧
      Z cfg w (K0 + j') wr' s' pre dropped' ∧ AccOk cfg m (segment cfg w) K0 c j' wr' a' ∧
      j' * cfg.block + wr' = j * cfg.block + wr + (s'.written - s.written) ∧ s.written < s'.written ∧
      s'.conn = s.conn ∧ s'.invalid = s.invalid ∧ s'.typed = true := by
  have hov : cfg.ov < cfg.block := ov_le cfg hg.overlap hg.block
  have hstep : cfg.step + cfg.ov = cfg.block := by unfold Cfg.step; omega
  have hjc : j < c := by
    rcases ha.rem with h | h
    · exact h.1
    · exact absurd h.2.1 hrem
  have hrem' : a.rem + wr = (c - j) * cfg.step + cfg.ov := by
    rcases ha.rem with h | h
    · exact h.2
    · exact absurd h.2.1 hrem
  have hmem : ∀ d ∈ dropped ++ s.behind.reverse ++ cur :: ahead, d ∈ dataOf w := by
    intro d hd; rw [hz.split, dataOf_append, hz.data, hah]; exact List.mem_append_left _ hd
  obtain ⟨hn1, hnW⟩ := hg.pos cur (hmem cur (by simp))
  have hprev := hz.prevLt cur ahead hah
  have htyped : s.typed = true := by
    rcases hz.typed with h | ⟨h, -⟩
    · exact h
    · have h := dataOf_none h
      rw [hz.data, hah] at h; simp at h
  have hk : takeCount cfg s cur = min (cfg.block - wr) (cur.n - s.prev) := by
    unfold takeCount; rw [hz.written, wsub_le (by omega) (by omega)]
  generalize hkk : takeCount cfg s cur = k at *
  have hk1 : 1 ≤ k := by have := hz.wrLt; omega
  have hkb : wr + k ≤ cfg.block := by have := hz.wrLt; omega
  have hkn : s.prev + k ≤ cur.n := by omega
  have hfull : wr + k = cfg.block ∨ s.prev + k = cur.n := by omega
  have hcj : (c - j) * cfg.step = (c - j - 1) * cfg.step + cfg.step := by
    rw [← Nat.succ_mul]; congr 1; omega
  have hkr : k ≤ a.rem := by omega
  have hremW : a.rem < W := by
    have h1 : (c - j) * cfg.step ≤ c * cfg.block := Nat.mul_le_mul (by omega) (by omega)
    omega
  have hsl : slice cur.id s.prev k = ((segment cfg w).drop ((K0 + j) * cfg.step + wr)).take k := by
    rw [hz.split, segment_append cfg _ _ hz.noEnd, hz.data, hah, ← hz.pos]
    have := toks_read (dropped ++ s.behind.reverse) cur ahead (segment cfg s.conn) s.prev k hkn
    rw [tot_append, tot_reverse] at this
    exact this.symm
  -- the accumulated buffers
  have hvals : (noteOffset a cur s.prev).vals = a.vals := by unfold noteOffset; split <;> rfl
  have hdoms : (noteOffset a cur s.prev).doms = a.doms := by unfold noteOffset; split <;> rfl
  have hremn : (noteOffset a cur s.prev).rem = a.rem := by unfold noteOffset; split <;> rfl
  have hoff : (noteOffset a cur s.prev).offset = (a.vals ++ slice cur.id s.prev k).head? := by
    have ho := ha.offset
    unfold noteOffset
    cases hv : a.vals with
    | nil =>
      rw [hv] at ho
      rw [if_pos (by rw [ho]; rfl)]
      obtain ⟨i, rfl⟩ : ∃ i, k = i + 1 := ⟨k - 1, by omega⟩
      simp [slice, List.range_succ_eq_map]
    | cons x xs =>
      rw [hv] at ho
      rw [if_neg (by rw [ho]; simp), ho]; rfl
  generalize hb : noteOffset a cur s.prev = b at *
  have hnewvals : b.vals ++ slice cur.id s.prev k = written cfg (segment cfg w) K0 j (wr + k) := by
    rw [hvals, ha.vals, hsl, written_add]
  have hdom : ¬ (m = .withDomain ∧ cur.dom = none) := fun h => hd h.1 cur (hmem cur (by simp)) h.2
  have hlast : ∀ l x, cur :: ahead = l ++ [x] → l ≠ [] →
      tot dropped + tot s.behind + tot l + 1 ≤ (K0 + j) * cfg.step + cfg.ov := by
    intro l x h; exact hz.last l x (by rw [hah, h])
  have hpos' : tot dropped + tot s.behind + (s.prev + k) = (K0 + j) * cfg.step + (wr + k) := by
    have := hz.pos; omega
  have hKs : ∀ x, (x + 1) * cfg.step = x * cfg.step + cfg.step := fun x => Nat.succ_mul _ _
  simp only [readPacketData, hkk]
  rw [if_neg (by rw [htyped]; simp), if_neg (by omega), if_neg hdom, hremn, wsub_le hkr (by omega)]
  -- accumulators after this packet, in the middle of a block
  have acc_mid : wr + k < cfg.block → AccOk cfg m (segment cfg w) K0 c j (wr + k)
      { rem := a.rem - k, vals := b.vals ++ slice cur.id s.prev k
        doms := if m = .withDomain then b.doms ++ slice cur.id s.prev k else b.doms
        offset := b.offset } := by
    intro hlt
    refine ⟨ha.le, .inl ⟨hjc, by dsimp only; omega⟩, hnewvals, ?_, ?_, ?_⟩
    · intro hm; dsimp only; rw [if_pos hm, hdoms, ha.doms hm, hvals]
    · dsimp only; rw [hoff, hvals]
    · exact ha.bound
  have hrem0 : wr + k = cfg.block → a.rem - k = (c - j - 1) * cfg.step := by intro h; omega
  have acc_end : ∀ r, wr + k = cfg.block →
      (r = (if (c - j - 1) * cfg.step = 0 then 0 else (c - j - 1) * cfg.step + cfg.ov)) →
      AccOk cfg m (segment cfg w) K0 c (j + 1) 0
      { rem := r, vals := b.vals ++ slice cur.id s.prev k
        doms := if m = .withDomain then b.doms ++ slice cur.id s.prev k else b.doms
        offset := b.offset } := by
    intro r hfull hr
    refine ⟨hjc, ?_, ?_, ?_, ?_, ?_⟩
    · dsimp only
      by_cases hc : j + 1 = c
      · right
        rw [show c - j - 1 = 0 by omega, Nat.zero_mul, if_pos rfl] at hr
        exact ⟨hc, hr, rfl⟩
      · left
        refine ⟨by omega, ?_⟩
        have hpos : (c - j - 1) * cfg.step ≠ 0 := by
          apply Nat.ne_of_gt
          exact Nat.mul_pos (by omega) (by omega)
        rw [if_neg hpos] at hr
        rw [hr, show c - (j + 1) = c - j - 1 by omega]
        rfl
    · dsimp only; rw [hnewvals, hfull, written_block]
    · intro hm; dsimp only; rw [if_pos hm, hdoms, ha.doms hm, hvals]
    · dsimp only; rw [hoff, hvals]
    · intro _
      have hseg : tot dropped + tot s.behind + cur.n ≤ (segment cfg w).length := by
        rw [hz.split, segment_append cfg _ _ hz.noEnd, List.length_append, toks_length, hz.data, hah]
        simp only [tot_append, tot_reverse, tot_cons]; omega
      rw [← Nat.add_assoc, hKs]; omega
  by_cases hblk : wr + k = cfg.block
  · -- a block is complete
    have hw0 : (s.written + k) % cfg.block = 0 := by
      rw [Nat.add_mod, hz.written]
      by_cases hkB : k < cfg.block
      · rw [Nat.mod_eq_of_lt hkB, hblk, Nat.mod_self]
      · have : k = cfg.block := by omega
        have hwr0 : wr = 0 := by omega
        rw [hwr0, this, Nat.mod_self]; simp
    have hah0 : ahead = [] := by
      rcases List.eq_nil_or_concat ahead with h | ⟨l, x, h⟩
      · exact h
      · rw [List.concat_eq_append] at h
        have := hlast (cur :: l) x (by rw [h]; rfl) (by simp)
        rw [tot_cons] at this
        omega
    have hcount : (j + 1) * cfg.block + 0 = j * cfg.block + wr + (s.written + k - s.written) := by
      rw [Nat.succ_mul]; omega
    by_cases hper : cfg.overlap ≠ 0
    · rw [if_pos ⟨hper, hw0⟩]
      by_cases ho0 : cfg.ov = 0
      · rw [ho0, rewind_zero]
        obtain ⟨s2, dropped', f1, f2, f3, f4, f5, f6⟩ := finish_ok (s1 := { s with written := s.written + k })
          (K := K0 + j) (Kc := K0 + (j + 1)) (wr := 0) (p := s.prev + k) hg hz.split hz.noEnd (by rw [hz.data, hah]) hkn
          (by rw [hpos', hblk, ← Nat.add_assoc, hKs]; omega) hg.block
          hstep hw0 (by omega)
          (by rw [← Nat.add_assoc, hKs]; omega) hlast
          (by have := hz.cover; rw [hKs, ← Nat.add_assoc, hKs]; rw [hKs] at this; omega) htyped
        dsimp only
        rw [f1]
        refine ⟨s2, _, dropped', j + 1, 0, rfl, f2, ?_, ?_, ?_, f4, f5, f6⟩
        · refine acc_end _ hblk ?_
          rw [hrem0 hblk, ho0]
          split
          · rfl
          · rw [Connection.wadd_eq (by omega)]
        · rw [f3]; exact hcount
        · rw [f3]; dsimp only; omega
      · -- move back by the overlap
        obtain ⟨hos, z, hzz⟩ : cfg.ov ≤ cfg.step ∧ ∃ z, ∀ d ∈ dataOf w, d.n = z := by
          rcases hg.sizes with h | h
          · exact absurd h ho0
          · exact h
        have hcov := hz.cover
        rw [hKs] at hcov
        obtain ⟨b', c', a', p', e1, e2, e3, e4, e5, l, e6, e7⟩ := rewind_spec z s.behind cur ahead (s.prev + k) cfg.ov
          (fun d hd => hzz d (hmem d (by simp [hd]))) (hzz cur (hmem cur (by simp)))
          (by rw [← hzz cur (hmem cur (by simp))]; exact hkn) (by omega) (by omega)
        rw [e1]
        have hcz : cur.n = z := hzz cur (hmem cur (by simp))
        have hnf : p' ≠ cur.n := by omega
        have hfin : finish cfg cur.n { s with written := s.written + k } b' c' a' p' =
            .ok { s with written := s.written + k, behind := b', ahead := c' :: a', prev := p' } := by
          unfold finish; rw [if_neg hnf]
        dsimp only
        rw [hfin]
        refine ⟨_, _, dropped, j + 1, 0, rfl, ?_, ?_, ?_, ?_, rfl, rfl, htyped⟩
        · constructor
          · exact hz.split
          · exact hz.noEnd
          · dsimp only
            rw [hz.data, hah, List.append_assoc, List.append_assoc, e2]
          · intro h; exact nomatch h
          · intro x y h
            injection h with h _
            subst h
            dsimp only; omega
          · dsimp only; rw [← Nat.add_assoc, hKs]; omega
          · exact hg.block
          · exact hw0
          · intro l' x h hl'
            dsimp only at h ⊢
            rw [hah0] at e6
            rw [e6] at h
            have : l = l' := (List.append_inj' h rfl).1
            rw [← this, ← Nat.add_assoc, hKs]
            omega
          · rw [← Nat.add_assoc, hKs, hKs]; omega
          · exact .inl htyped
        · refine acc_end _ hblk ?_
          rw [hrem0 hblk]
          split
          · rfl
          · rw [Connection.wadd_eq]
            have h1 : (c - j - 1) * cfg.step ≤ c * cfg.block := Nat.mul_le_mul (by omega) (by omega)
            omega
        · exact hcount
        · dsimp only; omega
    · rw [if_neg (fun h => hper h.1)]
      have ho0 : cfg.ov = 0 := by
        have : cfg.overlap = 0 := by omega
        simp [Cfg.ov, this]
      obtain ⟨s2, dropped', f1, f2, f3, f4, f5, f6⟩ := finish_ok (s1 := { s with written := s.written + k })
          (K := K0 + j) (Kc := K0 + (j + 1)) (wr := 0) (p := s.prev + k) hg hz.split hz.noEnd (by rw [hz.data, hah]) hkn
          (by rw [hpos', hblk, ← Nat.add_assoc, hKs]; omega) hg.block
          hstep hw0 (by omega)
          (by rw [← Nat.add_assoc, hKs]; omega) hlast
          (by have := hz.cover; rw [hKs, ← Nat.add_assoc, hKs]; rw [hKs] at this; omega) htyped
      rw [f1]
      refine ⟨s2, _, dropped', j + 1, 0, rfl, f2, ?_, ?_, ?_, f4, f5, f6⟩
      · refine acc_end _ hblk ?_
        rw [hrem0 hblk, ho0]
        split
        · assumption
        · rfl
      · rw [f3]; exact hcount
      · rw [f3]; dsimp only; omega
  · have hlt : wr + k < cfg.block := by omega
    have hend : s.prev + k = cur.n := by omega
    have hmod : (s.written + k) % cfg.block = wr + k := by
      rw [Nat.add_mod, hz.written, Nat.mod_eq_of_lt (show k < cfg.block by omega), Nat.mod_eq_of_lt hlt]
    rw [if_neg (fun h => by
      have := h.2
      rw [hmod] at this; omega)]
    obtain ⟨s2, dropped', f1, f2, f3, f4, f5, f6⟩ := finish_ok (s1 := { s with written := s.written + k })
      (K := K0 + j) (Kc := K0 + j) (wr := wr + k) (p := s.prev + k) hg hz.split hz.noEnd (by rw [hz.data, hah]) hkn
      hpos' hlt
      hstep hmod (Nat.le_refl _) (by omega) hlast hz.cover htyped
    rw [f1]
    refine ⟨s2, _, dropped', j, wr + k, rfl, f2, acc_mid hlt, ?_, ?_, f4, f5, f6⟩
    · rw [f3]; dsimp only; omega
    · rw [f3]; dsimp only; omega

end Verif.Reader.Block
