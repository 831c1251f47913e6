import Verif.Multi.Reading

/-! # Calls while data flows -/

namespace Verif.Multi

open Spec

/-- All signals are synchronised and only data is waiting. -/
structure Flowing (m : MR) : Prop where
  live : ∀ s ∈ m.sigs, Live s
  some : m.sigs ≠ []
  valid : m.invalid = false
  quiet : m.nextEvent = false
  unit : 0 < m.lcm

/-- The signals before and after a call that takes `k` common samples. -/
def Moved (k : Nat) (m m' : MR) (w : List (List Tok)) : Prop :=
  m'.sigs.length = m.sigs.length ∧ ∀ (i : Nat) (s : Sig), m.sigs[i]? = .some s → ∃ s', m'.sigs[i]? = .some s' ∧ s'.div = s.div ∧
    pending s' = (pending s).drop (k / s.div) ∧ w.getD i [] = toks ((pending s).take (k / s.div)) ∧
    k / s.div ≤ (pending s).length

theorem moved_zero {m m' : MR} (hl : m'.sigs.length = m.sigs.length)
    (h : ∀ (i : Nat) (s : Sig), m.sigs[i]? = some s → ∃ s', m'.sigs[i]? = some s' ∧ s'.div = s.div ∧ pending s' = pending s) :
    Moved 0 m m' [] := by
  refine ⟨hl, fun i s hi => ?_⟩
  obtain ⟨s', h1, h2, h3⟩ := h i s hi
  exact ⟨s', h1, h2, by simp [h3], by simp [toks], by simp⟩

theorem firsts {sigs : List Sig} (h : ∀ s ∈ sigs, Live s) :
    (∀ s ∈ sigs.map (fun s => s.isFirst.1), Live s) ∧
    ∀ (i : Nat) (s : Sig), sigs[i]? = some s → ∃ s', (sigs.map fun s => s.isFirst.1)[i]? = some s' ∧ s'.div = s.div ∧
      pending s' = pending s := by
  constructor
  · intro s hs
    obtain ⟨t, ht, rfl⟩ := List.mem_map.mp hs
    exact (isFirst_live (h t ht)).2.1
  · intro i s hi
    have hm := isFirst_live (h s (List.mem_of_getElem? hi))
    exact ⟨s.isFirst.1, by simp [hi], hm.2.2.2, hm.2.2.1⟩

theorem ready_live {sigs : List Sig} (h : ∀ s ∈ sigs, Live s) (b : Bool) :
    (ready sigs b).1 = sigs.map (fun s => s.isFirst.1) := by
  induction sigs generalizing b with
  | nil => rfl
  | cons s r ih =>
    have h1 := (isFirst_live (h s (by simp))).1
    unfold ready
    simp only [h1, Bool.false_eq_true, if_false, List.map_cons]
    rw [ih fun t ht => h t (by simp [ht])]

theorem synchronize_live {cfg : Cfg} {m : MR} (h : Flowing m) :
    synchronize cfg m = (m, minAvail m.sigs, .synced, false) := by
  unfold synchronize
  simp [syncStatus_live h.live h.some]

/-- What remains after one call of `readPackets`. -/
theorem readPackets_live {cfg : Cfg} {m : MR} (h : Flowing m) :
    ∃ m' w k, readPackets cfg m = .ok (m', [], w) ∧ Flowing m' ∧ k ≤ m.remaining ∧ m'.remaining = m.remaining - k ∧
      Moved k m m' w ∧ m'.lcm = m.lcm ∧ m'.buf = m.buf ∧
      k = min m.remaining (minAvail (m.sigs.map fun s => s.isFirst.1)) := by
  obtain ⟨hf1, hf2⟩ := firsts h.live
  have hru : m.sigs.map Sig.readUntil = m.sigs.map fun s => (s.isFirst.1, none) :=
    List.map_congr_left fun s hs => readUntil_live (h.live s hs)
  let m1 : MR := { m with sigs := m.sigs.map fun s => s.isFirst.1 }
  have hfl : Flowing m1 := ⟨hf1, by simpa [m1] using h.some, h.valid, h.quiet, h.unit⟩
  have hinv : (m.invalid || (m.sigs.map Sig.readUntil).any fun x => x.1.invalid) = false := by
    rw [hru, h.valid, Bool.false_or, List.any_eq_false]
    intro x hx
    obtain ⟨s, hs, rfl⟩ := List.mem_map.mp hx
    simp [(isFirst_live (h.live s hs)).2.1.valid]
  have hany : (((m.sigs.map Sig.readUntil).map (·.2)).any (·.isSome)) = false := by
    rw [hru, List.map_map, List.any_eq_false]
    intro x hx
    obtain ⟨s, hs, rfl⟩ := List.mem_map.mp hx
    simp
  have hm1 : ({ m with
      sigs := (m.sigs.map Sig.readUntil).map (·.1),
      invalid := (m.invalid || (m.sigs.map Sig.readUntil).any (fun x => x.1.invalid)) } : MR) = m1 := by
    rw [hinv, hru, List.map_map]
    simp [m1, Function.comp_def, h.valid]
  have hras : readAndSync cfg m (m.remaining == 0) =
      if m.remaining = 0 then .stop m1 [] [] else .go m1 (minAvail m1.sigs) .synced := by
    unfold readAndSync
    dsimp only
    rw [hm1]
    simp only [hany, Bool.false_eq_true, if_false]
    rw [synchronize_live hfl]
    dsimp only
    have hno : (m1.sigs.any fun s => s.queue.any fun p => !p.isData) = false := by
      rw [List.any_eq_false]
      intro s hs
      rw [Bool.not_eq_true, List.any_eq_false]
      intro p hp
      obtain ⟨d, rfl⟩ := (hf1 s hs).data p hp
      simp [Pkt.isData]
    simp [hno]
  have hmoved0 : Moved 0 m m1 [] := moved_zero (by simp [m1]) hf2
  unfold readPackets
  rw [hras]
  by_cases h0 : m.remaining = 0
  · rw [if_pos h0]
    exact ⟨m1, [], 0, rfl, hfl, Nat.zero_le _, by simp [m1], hmoved0, rfl, rfl, by simp [h0]⟩
  · rw [if_neg h0]
    dsimp only
    by_cases ha : 0 < minAvail m1.sigs
    · rw [if_pos ⟨rfl, ha⟩]
      obtain ⟨sigs', w, hr, hall⟩ := readSamples_spec (n := min m1.remaining (minAvail m1.sigs)) (sigs := m1.sigs) (by
        intro s hs
        have hl := hf1 s hs
        exact ⟨hl.within, hl.div, Nat.le_trans (Nat.min_le_right _ _) (minAvail_le_pending hs hl.within)⟩)
      rw [hr]
      refine ⟨_, w, min m1.remaining (minAvail m1.sigs), rfl, ?_, Nat.min_le_left _ _, rfl, ?_, rfl, rfl, rfl⟩
      · refine ⟨?_, ?_, h.valid, h.quiet, h.unit⟩
        · intro s' hs'
          obtain ⟨s, hs, v, hok⟩ := hall.mem hs'
          exact hok.live (hf1 s hs)
        · intro he
          have := hall.length
          rw [show sigs' = [] from he] at this
          exact hfl.some (List.length_eq_zero_iff.mp this.symm)
      · refine ⟨by show sigs'.length = _; rw [hall.length]; simp [m1], fun i s hi => ?_⟩
        obtain ⟨s1, hs1, hd1, hp1⟩ := hf2 i s hi
        obtain ⟨s', v, h1, h2, hok⟩ := hall.get hs1
        have hm := List.mem_of_getElem? hs1
        have hle := minAvail_le_pending hm (hf1 s1 hm).within
        rw [hp1, hd1] at hle
        rw [hd1] at hok
        refine ⟨s', h1, by rw [hok.div, hd1], by rw [hok.rest, hp1], ?_, ?_⟩
        · rw [List.getD_eq_getElem?_getD, h2, Option.getD_some, hok.written, hp1]
        · exact Nat.div_le_of_le_mul (by rw [Nat.mul_comm]; exact Nat.le_trans (Nat.min_le_right _ _) hle)
    · rw [if_neg (fun x => ha x.2)]
      have : minAvail m1.sigs = 0 := by omega
      exact ⟨m1, [], 0, rfl, hfl, Nat.zero_le _, by simp [m1], hmoved0, rfl, rfl, by
        show 0 = min _ (minAvail m1.sigs); omega⟩

theorem flowing_calls {m : MR} (h : Flowing m) (c : Nat) : Flowing { m with calls := c } := ⟨h.live, h.some, h.valid, h.quiet, h.unit⟩

theorem flowing_prep {m : MR} (h : Flowing m) (k : Nat) (b : Option Nat) : Flowing { m with remaining := k, buf := b } :=
  ⟨h.live, h.some, h.valid, h.quiet, h.unit⟩

/-- What a call does while data flows: `k` common samples are taken, and `g` is what arrives. -/
structure Stepped (m m' : MR) (op : Op) (res : Res) : Prop where
  flowing : Flowing m'
  lcm : m'.lcm = m.lcm
  length : m'.sigs.length = m.sigs.length
  good : ∀ b, res ≠ .bad b
  sigs : ∀ (i : Nat) (s : Sig), m.sigs[i]? = some s → ∃ s', m'.sigs[i]? = some s' ∧ s'.div = s.div ∧
    ((counts [res]).map (· / s.div)).sum ≤ (pending s).length ∧
    pending s' = (pending s).drop ((counts [res]).map (· / s.div)).sum ++ given i [op] ∧
    delivered i [res] = toks ((pending s).take ((counts [res]).map (· / s.div)).sum)

theorem stepped_read {m m' : MR} {w : List (List Tok)} {op : Op} {k : Nat} {b : Option Nat} (hf : Flowing m')
    (hl : m'.lcm = m.lcm) (h : Moved k m m' w) (hop : ∀ i, given i [op] = []) : Stepped m m' op (.read k [] w b) := by
  refine ⟨hf, hl, h.1, (fun b h => by cases h), fun i s hi => ?_⟩
  obtain ⟨s', h1, h2, h3, h4, h5⟩ := h.2 i s hi
  refine ⟨s', h1, h2, by simpa [counts] using h5, by simp [counts, h3, hop], ?_⟩
  simp only [delivered, counts, List.append_nil, List.map_cons, List.map_nil, List.sum_cons, List.sum_nil, Nat.add_zero]
  exact h4

theorem stepped_same {m : MR} {op : Op} {res : Res} (hf : Flowing m) (hop : ∀ i, given i [op] = []) (hc : counts [res] = [])
    (hb : ∀ b, res ≠ .bad b) (hd : ∀ i, delivered i [res] = []) : Stepped m m op res :=
  ⟨hf, rfl, rfl, hb, fun i s hi => ⟨s, hi, rfl, by simp [hc], by simp [hc, hop], by simp [hc, hd, toks]⟩⟩

theorem front_append {q : List Pkt} (h : ∀ x ∈ q, ∃ p, x = .data p) (p : DP) : front (q ++ [.data p]) = front q ++ [p] := by
  induction q with
  | nil => rfl
  | cons x q ih =>
    obtain ⟨d, rfl⟩ := h x (by simp)
    simp [front, ih fun y hy => h y (by simp [hy])]

theorem stepped_push {m : MR} (h : Flowing m) (j : Nat) (p : DP) : Stepped m (push m j (.data p)) (.push j (.data p)) .none := by
  have hlive : ∀ s, Live s → Live { s with queue := s.queue ++ [.data p] } := by
    intro s hs
    refine ⟨hs.within, ?_, hs.div, hs.sync, hs.valid⟩
    intro x hx
    rcases List.mem_append.mp hx with hx | hx
    · exact hs.data x hx
    · exact ⟨p, by simpa using hx⟩
  have hsigs : ∀ (i : Nat) (s : Sig), m.sigs[i]? = some s → (m.sigs.modify j fun s => { s with queue := s.queue ++ [.data p] })[i]? =
      some (if j = i then { s with queue := s.queue ++ [.data p] } else s) := by
    intro i s hi
    rw [List.getElem?_modify, hi]
    by_cases hji : j = i <;> simp [hji]
  have hall : ∀ s ∈ m.sigs.modify j fun s => { s with queue := s.queue ++ [.data p] }, Live s := by
    intro s hs
    obtain ⟨i, hi⟩ := List.getElem?_of_mem hs
    have hlt : i < m.sigs.length := by
      have := (List.getElem?_eq_some_iff.mp hi).1; simpa using this
    have hg := hsigs i m.sigs[i] (by simp [hlt])
    rw [hi] at hg
    have hl := h.live m.sigs[i] (by simp)
    rw [Option.some.inj hg]
    split
    · exact hlive _ hl
    · exact hl
  obtain ⟨hf1, hf2⟩ := firsts hall
  have hp : push m j (.data p) = { m with sigs := (m.sigs.modify j fun s => { s with queue := s.queue ++ [.data p] }).map fun s => s.isFirst.1 } := by
    unfold push
    dsimp only
    rw [h.valid, ready_live hall]
    rfl
  rw [hp]
  refine ⟨⟨hf1, by simpa using h.some, h.valid, h.quiet, h.unit⟩, rfl, by simp, (fun b h => by cases h), fun i s hi => ?_⟩
  obtain ⟨s', h1, h2, h3⟩ := hf2 i _ (hsigs i s hi)
  refine ⟨s', h1, ?_, by simp [counts], ?_, by simp [counts, delivered, toks]⟩
  · rw [h2]; split <;> rfl
  · rw [h3]
    have hs := h.live s (List.mem_of_getElem? hi)
    by_cases hji : j = i
    · simp [hji, counts, given, pending, front_append hs.data]
    · simp [hji, counts, given, Ne.symm hji]

theorem read_flow {cfg : Cfg} {m : MR} (h : Flowing m) (d : Bool) (c : Nat) :
    Stepped m (read cfg m d c false).1 (.read d c false) (read cfg m d c false).2 := by
  unfold read
  split
  · exact stepped_same h (fun _ => rfl) rfl (fun b h => by cases h) (fun _ => rfl)
  · rw [h.quiet, h.valid]
    have hu : ¬ m.lcm = 0 := by have := h.unit; omega
    simp only [Bool.false_eq_true, if_false, false_and, and_false, hu]
    obtain ⟨m', w, k, h1, h2, h3, h4, h5, h6, h7, _⟩ := readPackets_live (cfg := cfg)
      (flowing_prep h (c / m.lcm * m.lcm) (some m.calls))
    simp only [h.quiet, h.valid] at h1
    rw [h1]
    dsimp only
    have : c / m.lcm * m.lcm - m'.remaining = k := by rw [h4]; exact Nat.sub_sub_self h3
    rw [this]
    exact stepped_read h2 h6 h5 (fun _ => rfl)

theorem skip_flow {cfg : Cfg} {m : MR} (h : Flowing m) (c : Nat) :
    Stepped m (skip cfg m c).1 (.skip c) (skip cfg m c).2 := by
  unfold skip
  rw [if_neg (by simp [h.valid])]
  split
  · exact stepped_same h (fun _ => rfl) rfl (fun b h => by cases h) (fun _ => rfl)
  · obtain ⟨m', w, k, h1, h2, h3, h4, h5, h6, h7, _⟩ := readPackets_live (cfg := cfg) (flowing_prep h c none)
    rw [h1]
    dsimp only
    have : c - m'.remaining = k := by rw [h4]; exact Nat.sub_sub_self h3
    rw [this]
    exact stepped_read h2 h6 h5 (fun _ => rfl)

theorem step_flow {cfg : Cfg} {m : MR} (h : Flowing m) {op : Op} (hop : Flow op) :
    Stepped m (step cfg m op).1 op (step cfg m op).2 := by
  have hc := flowing_calls h (m.calls + 1)
  have lift : ∀ {m' : MR} {op : Op} {r : Res}, Stepped { m with calls := m.calls + 1 } m' op r → Stepped m m' op r :=
    fun x => ⟨x.flowing, x.lcm, x.length, x.good, x.sigs⟩
  cases op with
  | push j x =>
    cases x with
    | data p => exact lift (stepped_push hc j p)
    | event e => exact absurd hop (by simp [Flow])
  | read d c n =>
    change n = false at hop
    subst hop
    exact lift (read_flow hc d c)
  | skip c => exact lift (skip_flow hc c)
  | available =>
    apply lift
    unfold step available
    dsimp only
    rw [synchronize_live hc]
    have hu := hc.unit
    rw [if_neg (by simp), if_neg (by rintro ⟨_, h0⟩; change m.lcm = 0 at h0; change 0 < m.lcm at hu; omega)]
    exact stepped_same hc (fun _ => rfl) rfl (fun b h => by cases h) (fun _ => rfl)
  | empty =>
    apply lift
    unfold step empty
    dsimp only
    rw [ready_live hc.live]
    obtain ⟨hf1, hf2⟩ := firsts hc.live
    refine ⟨⟨hf1, by simpa using h.some, h.valid, h.quiet, h.unit⟩, rfl, by simp, (fun b h => by cases h), fun i s hi => ?_⟩
    obtain ⟨s', h1, h2, h3⟩ := hf2 i s hi
    exact ⟨s', h1, h2, by simp [counts], by simp [counts, given, h3], by simp [counts, delivered, toks]⟩

theorem counts_cons (r : Res) (l : List Res) : counts (r :: l) = counts [r] ++ counts l := by cases r <;> rfl

theorem delivered_cons (i : Nat) (r : Res) (l : List Res) : delivered i (r :: l) = delivered i [r] ++ delivered i l := by
  cases r <;> simp [delivered]

theorem given_cons (i : Nat) (op : Op) (l : List Op) : given i (op :: l) = given i [op] ++ given i l := by
  cases op with
  | push j x => cases x <;> simp [given]
  | _ => rfl

theorem run_flow {cfg : Cfg} {ops : List Op} (hops : ∀ op ∈ ops, Flow op) : ∀ {m : MR}, Flowing m →
    Flowing (run cfg m ops).1 ∧ (run cfg m ops).1.lcm = m.lcm ∧ (∀ b, .bad b ∉ (run cfg m ops).2) ∧
    ∀ (i : Nat) (s : Sig), m.sigs[i]? = some s → ∃ s', (run cfg m ops).1.sigs[i]? = some s' ∧ s'.div = s.div ∧
      ((counts (run cfg m ops).2).map (· / s.div)).sum ≤ (pending s ++ given i ops).length ∧
      pending s' = (pending s ++ given i ops).drop ((counts (run cfg m ops).2).map (· / s.div)).sum ∧
      delivered i (run cfg m ops).2 = toks ((pending s ++ given i ops).take ((counts (run cfg m ops).2).map (· / s.div)).sum) := by
  induction ops with
  | nil =>
    intro m h
    exact ⟨h, rfl, by simp [run], fun i s hi => ⟨s, hi, rfl, by simp [run, counts], by simp [run, counts, given], by simp [run, counts, delivered, toks]⟩⟩
  | cons op ops ih =>
    intro m h
    have hs := step_flow (cfg := cfg) h (hops op (by simp))
    obtain ⟨i1, i2, i3, i4⟩ := ih (fun o ho => hops o (by simp [ho])) hs.flowing
    refine ⟨i1, i2.trans hs.lcm, ?_, fun i s hi => ?_⟩
    · intro b hb
      rcases List.mem_cons.mp hb with hb | hb
      · exact hs.good b hb.symm
      · exact i3 b hb
    · obtain ⟨s1, g1, g2, g3, g4, g5⟩ := hs.sigs i s hi
      obtain ⟨s', k1, k2, k3, k4, k5⟩ := i4 i s1 g1
      rw [g2] at k3 k4 k5
      show ∃ s', (run cfg (step cfg m op).1 ops).1.sigs[i]? = some s' ∧ _
      simp only [run]
      rw [counts_cons, delivered_cons, given_cons, List.map_append, List.sum_append]
      generalize hA : ((counts [(step cfg m op).2]).map (· / s.div)).sum = A at *
      generalize hB : ((counts (run cfg (step cfg m op).1 ops).2).map (· / s.div)).sum = B at *
      have hsplit : (pending s ++ (given i [op] ++ given i ops)).drop A = pending s1 ++ given i ops := by
        rw [g4, List.drop_append_of_le_length g3, List.append_assoc]
      refine ⟨s', k1, k2.trans g2, ?_, ?_, ?_⟩
      · have := congrArg List.length hsplit
        rw [List.length_drop] at this
        simp only [List.length_append] at this k3 g3 ⊢
        omega
      · rw [← List.drop_drop, hsplit]; exact k4
      · rw [List.take_add, hsplit, toks_append, ← k5, g5, List.take_append_of_le_length g3]

end Verif.Multi
