import Verif.Multi.Amount
import Verif.Multi.Start

/-! # C62: the signals of a multi reader start at the same instant -/

namespace Verif.Multi.Props

open Spec

theorem flow_length {cfg : Cfg} {ops : List Op} (hops : ∀ op ∈ ops, Flow op) : ∀ {m : MR}, Flowing m →
    (run cfg m ops).1.sigs.length = m.sigs.length := by
  induction ops with
  | nil => intro m h; rfl
  | cons op ops ih =>
    intro m h
    have hs := step_flow (cfg := cfg) h (hops op (by simp))
    exact (ih (fun o ho => hops o (by simp [ho])) hs.flowing).trans hs.length

theorem early_length {cfg : Cfg} {x : Int × Int × Int} {D : Nat → Dom} {T : Int} {δ : Nat → Int} {ops : List Op} :
    ∀ {L : Nat → List (Tok × Int)} {m : MR}, Early cfg x D T δ L m →
    (∀ op ∈ ops, FlowD δ m.sigs.length op) → AllGood D T δ (fun i => L i ++ given i ops) m.sigs.length →
    (run cfg m ops).1.sigs.length = m.sigs.length := by
  induction ops with
  | nil => intro L m _ _ _; rfl
  | cons op ops ih =>
    intro L m h hops hg
    obtain ⟨_, _, o3, o4⟩ := early_step h (fun i hi => (hg i hi).pre) (hops op (by simp))
    have hlist : ∀ i, (L i ++ given i [op]) ++ given i ops = L i ++ given i (op :: ops) := fun i => by
      rw [given_cons i op ops, List.append_assoc]
    rcases o4 with ⟨p1, _⟩ | ⟨f1, _⟩
    · refine (ih p1 (by rw [o3]; exact fun op' h' => hops op' (List.mem_cons_of_mem _ h')) ?_).trans o3
      rw [o3]
      intro i hi
      dsimp only
      rw [hlist i]
      exact hg i hi
    · exact (flow_length (fun op' h' => (hops op' (List.mem_cons_of_mem _ h')).1) f1).trans o3

theorem ended_amount {cfg : Cfg} {x : Int × Int × Int} {D : Nat → Dom} {T : Int} {δ : Nat → Int} {L : Nat → List (Tok × Int)}
    {m m' : MR} {rs : List Res} (h : Ended cfg x D T δ L m m' rs) (hg : AllGood D T δ L m'.sigs.length)
    (hs : ∀ i, i < m'.sigs.length → ∃ s, m.sigs[i]? = some s ∧
      ((counts rs).map (· / s.div)).sum < ((L i).dropWhile (before (D i) T)).length)
    (d : Bool) {c : Nat} (hc : cfg.minRead ≤ c) (hu : m'.lcm ≤ c) :
    ∃ k ev w b, (step cfg m' (.read d c false)).2 = .read k ev w b ∧ 0 < k := by
  rcases h with ⟨h, _⟩ | ⟨hf, hp⟩
  · exact early_amount (h.tick (m'.calls + 1)) hg (fun i hi => by
      obtain ⟨s, _, h2⟩ := hs i hi
      intro h0
      rw [h0] at h2
      simp at h2) d hc hu
  · obtain ⟨w, b, e⟩ := read_amount (cfg := cfg) (flowing_calls hf (m'.calls + 1)) d hc
    refine ⟨_, _, w, b, e, ?_⟩
    have h1 : 0 < c / m'.lcm * m'.lcm := Nat.mul_pos (Nat.div_pos hu hf.unit) hf.unit
    have h2 : 0 < inCommon m'.sigs := inCommon_pos fun s hm => by
      obtain ⟨i, hi⟩ := List.mem_iff_getElem?.mp hm
      obtain ⟨s0, g1, g2⟩ := hs i (List.getElem?_eq_some_iff.mp hi).1
      obtain ⟨_, l2⟩ := hp i s0 s g1 hi
      refine ⟨(hf.live s hm).div, fun h0 => ?_⟩
      rw [h0] at l2
      have := congrArg List.length l2
      rw [List.length_drop] at this
      simp at this
      omega
    show 0 < min (c / m'.lcm * m'.lcm) (inCommon m'.sigs)
    omega

/-- C62: there is one instant from which the samples of all signals are delivered, whatever arrives and however it is read. It is not
before the next sample of any signal, it lies on the raster of the common rate, and it is the first such instant unless all
signals are before the common origin. Each signal delivers exactly its samples from that instant on, and a call reads something as
soon as each signal has a sample from that instant on. -/
theorem C62_start {cfg : Cfg} {m : MR} {ops : List Op} {num den epoch : Int} {P : Nat → DP} {Dm : Nat → Dom} {δ : Nat → Int}
    (h : Ready cfg m ops num den epoch P Dm δ) (hf : ∀ op ∈ ops, Flow op) :
    ∃ T : Rat, (∀ (i : Nat) (s : Sig), m.sigs[i]? = some s → next s (P i) (Dm i) ≤ T) ∧
      (∃ z : Int, T = (epoch : Rat) / 1000000000 + z * raster cfg m) ∧
      ((∃ i s, m.sigs[i]? = some s ∧ (epoch : Rat) / 1000000000 ≤ next s (P i) (Dm i)) → ∀ T' : Rat,
        (∀ (i : Nat) (s : Sig), m.sigs[i]? = some s → next s (P i) (Dm i) ≤ T') →
        (∃ z : Int, T' = (epoch : Rat) / 1000000000 + z * raster cfg m) → T ≤ T') ∧
      (∀ b, .bad b ∉ (run cfg m ops).2) ∧
      (∀ (i : Nat) (s : Sig), m.sigs[i]? = some s →
        let l := fromTime (time (Dm i).num (Dm i).den (Dm i).epoch) T (pending s ++ given i ops)
        let k := ((counts (run cfg m ops).2).map (· / s.div)).sum
        k ≤ l.length ∧ delivered i (run cfg m ops).2 = toks (l.take k)) ∧
      ((∀ (i : Nat) (s : Sig), m.sigs[i]? = some s → ((counts (run cfg m ops).2).map (· / s.div)).sum <
          (fromTime (time (Dm i).num (Dm i).den (Dm i).epoch) T (pending s ++ given i ops)).length) →
        ∀ (d : Bool) (c : Nat), cfg.minRead ≤ c → m.lcm ≤ c →
          ∃ k ev w b, (step cfg (run cfg m ops).1 (.read d c false)).2 = .read k ev w b ∧ 0 < k) := by
  obtain ⟨x, D, t, hw, hg, h1, h2, h3, h4⟩ := ready_waiting h
  have hfd : ∀ op ∈ ops, FlowD δ m.sigs.length op := fun op ho =>
    ⟨hf op ho, fun j p e hj => h.deltas j p (e ▸ ho) hj⟩
  obtain ⟨r1, r2, r3, r4⟩ := run_early (Or.inr hw) hfd hg
  refine ⟨time num den epoch t, h1, h2, h3, r1, ?_, ?_⟩
  · intro i s hi
    obtain ⟨s', _, _, g3, g4⟩ := r4 i s hi
    rw [h4 i s hi] at g3 g4
    exact ⟨g3, g4⟩
  · intro hall d c hc hu
    have hlen : ∀ i, i < (run cfg m ops).1.sigs.length → i < m.sigs.length := by
      intro i hi
      have : (run cfg m ops).1.sigs.length = m.sigs.length := early_length (Or.inr hw) hfd hg
      omega
    refine ended_amount r3 ?_ ?_ d hc (by rw [r2]; exact hu)
    · have : (run cfg m ops).1.sigs.length = m.sigs.length := early_length (Or.inr hw) hfd hg
      rw [this]
      exact hg
    · intro i hi
      obtain ⟨s, hs⟩ : ∃ s, m.sigs[i]? = some s := ⟨m.sigs[i]'(hlen i hi), List.getElem?_eq_getElem (hlen i hi)⟩
      refine ⟨s, hs, ?_⟩
      have := hall i s hs
      rw [← h4 i s hs] at this
      exact this

/-- A descriptor with resolution, origin and delta. -/
def desc (num den epoch delta : Int) : Pkt := .event (.desc (some true) (some ⟨num, den, epoch, delta, true⟩))

/-- A data packet. -/
def data (id n : Nat) (first delta : Int) : Pkt := .data ⟨id, n, first, delta⟩

/-- A reader of two signals with the given descriptors. -/
def two (cfg : Cfg) (a b : Pkt) (ops : List Op) : MR × List Res :=
  run cfg (run cfg (fresh [7, 9]) [.push 0 a, .push 1 b, .read false 0 false]).1 ops

/-- 1000 Hz and 500 Hz; the origin of the second signal is one second later. -/
def before : MR := (two {} (desc 1 1000 0 1) (desc 1 500 1000000000 1) [.push 0 (data 1 5 1000 1), .push 1 (data 2 4 2 1)]).1

def after : List Op := [.read false 4 false, .push 0 (data 3 3 1005 1), .available, .read false 100 false]

instance (num den : Int) (d : Dom) (t : Int) : Decidable (Small num den d t) := by unfold Small; infer_instance

/-- The hypotheses can be met: here the common start is at 1.004 s. -/
theorem before_ready : Ready {} before after 1 1000 0 (fun i => if i = 0 then ⟨1, 5, 1000, 1⟩ else ⟨2, 4, 2, 1⟩)
    (fun i => if i = 0 then ⟨1, 1000, 0, 1, 1, 0⟩ else ⟨1, 500, 1000000000, 1, 1, 0⟩) (fun _ => 1) := by
  have hs : before.sigs = [⟨[], some ⟨1, 5, 1000, 1⟩, 0, some ⟨1, 1000, 0, 1, 1, 0⟩, 1000, 1, .unsync, false⟩,
    ⟨[], some ⟨2, 4, 2, 1⟩, 0, some ⟨1, 500, 1000000000, 1, 1, 0⟩, 500, 2, .unsync, false⟩] := by decide +kernel
  have h0 : before.start = none := by decide +kernel
  have hl : before.lcm = 2 := by decide +kernel
  have hc : before.common = 1000 := by decide +kernel
  refine ⟨by rw [hs]; simp, by decide +kernel, by decide +kernel, fun t ht => absurd (h0.symm.trans ht) (by simp), ?_, by rw [hl]; decide, by rw [hc]; decide,
    ⟨by decide, by decide, ?_, ?_, ?_⟩, ⟨2, ?_⟩, ?_, ?_⟩
  · rw [hs]; exact ⟨_, List.mem_cons_self, rfl⟩
  · rw [hs]; exact ⟨_, List.mem_cons_self, _, rfl, by decide⟩
  · rw [hs]; exact ⟨_, List.mem_cons_self, _, rfl, rfl⟩
  · rw [hs]
    intro s h d hd
    simp only [List.mem_cons, List.not_mem_nil, or_false] at h
    rcases h with rfl | rfl
    · cases hd
      exact ⟨by decide, by decide, by decide, ⟨1, by decide⟩, ⟨0, by decide⟩⟩
    · cases hd
      exact ⟨by decide, by decide, by decide, ⟨2, by decide⟩, ⟨1000, by decide⟩⟩
  · unfold raster
    rw [hl, hc]
    norm_num
  · rw [hs]
    intro i s hi
    rcases i with _ | _ | i
    · cases hi
      refine ⟨rfl, by decide, rfl, by decide, rfl, by simp, by decide, by decide, ?_, by decide, by decide, by decide⟩
      simp [Regular, packets, samples, front, given, after, data, List.range_succ]
    · cases hi
      refine ⟨rfl, by decide, rfl, by decide, rfl, by simp, by decide, by decide, ?_, by decide, by decide, by decide⟩
      simp [Regular, packets, samples, front, given, after, data, List.range_succ]
    · cases hi
  · rw [hs]
    intro i p hp _
    simp [after, data] at hp
    rw [hp.2]

example : ∃ T : Rat, 0 ≤ T ∧ ∀ (i : Nat) (s : Sig), before.sigs[i]? = some s → ∃ f : Int → Rat,
    delivered i (run {} before after).2 = toks ((fromTime f T (pending s ++ given i after)).take
      ((counts (run {} before after).2).map (· / s.div)).sum) := by
  obtain ⟨T, h⟩ := C62_start before_ready (by simp [after, Flow, data])
  have h0 : ∃ s, before.sigs[0]? = some s ∧ s.prev = 0 := by decide +kernel
  obtain ⟨s, hs, hp⟩ := h0
  refine ⟨T, le_trans ?_ (h.1 0 s hs), fun i s hi => ⟨_, (h.2.2.2.2.1 i s hi).2⟩⟩
  simp [next, time, hp]

example : (run {} before after).2 = [.read 1 [] [[(1, 4)], []] (some 6), .none, .count 2,
    .read 3 [] [[(3, 0), (3, 1), (3, 2)], [(2, 0)]] (some 9)] := by decide +kernel

/-! The conditions are needed. -/

/-- Resolutions 1/2 and 1/3 (not whole multiples of a finest one): samples are read beyond the end of the packet. -/
theorem C62_violation_beyond : (two {} (desc 1 2 0 1) (desc 1 3 0 1) [.push 0 (data 1 10 0 1), .push 1 (data 2 10 12 1),
    .read false 6 false]).2.getLast? = some (.read 6 [] [[(1, 12), (1, 13)], [(2, 0), (2, 1), (2, 2)]] (some 6)) := by
  decide +kernel

/-- Nanoseconds since 1970, 1000 Hz: the first sample of the first signal is delivered although it is before the start. -/
theorem C62_violation_early : (two {} (desc 1 1000000000 0 1000000) (desc 1 1000000000 0 1000000)
    [.push 0 (data 1 10 1699999999999999999 1000000), .push 1 (data 2 10 1700000000000000000 1000000), .read false 1 false]).2.getLast? =
    some (.read 1 [] [[(1, 0)], [(2, 0)]] (some 6)) := by
  decide +kernel

/-- Nanoseconds since 1970, 10 MHz: although both signals have the sample at 1700000000 s nothing is read, and the packet of the
second signal is lost. -/
theorem C62_violation_lost :
    let x := two {} (desc 1 1000000000 0 100) (desc 1 1000000000 0 100)
      [.push 0 (data 1 10 1699999999999999900 100), .push 1 (data 2 10 1700000000000000000 100), .read false 1 false]
    x.2.getLast? = some (.read 0 [] [] (some 6)) ∧ x.1.sigs.map (fun s => s.cur.isSome) = [true, false] := by
  decide +kernel

/-- Packets that leave out the start: nothing is ever read, and the packets are lost. -/
theorem C62_violation_gap : (two {} (desc 1 1000 0 1) (desc 1 1000 0 1) [.push 0 (data 1 10 0 1), .push 1 (data 2 200 105 1),
    .read false 6 false, .push 0 (data 3 10 200 1), .read false 6 false, .push 0 (data 4 10 210 1), .read false 6 false]).2 =
    [.none, .none, .read 0 [] [] (some 6), .none, .read 0 [] [] (some 8), .none, .read 0 [] [] (some 10)] := by
  decide +kernel

/-- A coarser resolution at the same rate: the old start is kept as a number of the new ticks, and nothing is read. -/
theorem C62_violation_stale : (two {} (desc 1 1000 0 1000) (desc 1 1000 0 1000)
    [.push 0 (data 1 2 5000 1000), .push 1 (data 2 2 5000 1000), .read false 2 false,
      .push 0 (desc 1 1 0 1), .push 1 (desc 1 1 0 1), .read false 0 false,
      .push 0 (data 3 2 7 1), .push 1 (data 4 2 7 1), .read false 2 false]).2.getLast? = some (.read 0 [] [] (some 12)) := by
  decide +kernel

/-- The reader says it is synchronised when it only knows the start. -/
theorem C62_violation_synchronized : isSynchronized (two {} (desc 1 1000 0 1) (desc 1 1000 0 1) [.push 0 (data 1 10 0 1),
    .push 1 (data 2 200 105 1), .read false 6 false]).1 = true := by
  decide +kernel

end Verif.Multi.Props
