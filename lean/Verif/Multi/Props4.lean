import Verif.Multi.Events
import Verif.Multi.Props

/-! # C73: what a multi reader reports, and what follows from it -/

namespace Verif.Multi.Props

open Spec

/-- The reader when its signals have taken their events. -/
def took (m : MR) : MR := { m with
  sigs := (m.sigs.map Sig.readUntil).map (·.1),
  invalid := m.invalid || (m.sigs.map Sig.readUntil).any fun x => x.1.invalid }

theorem events_read {cfg : Cfg} {m : MR} (h : ∃ s ∈ m.sigs, report s ≠ none) :
    readPackets cfg m = .ok ((synchronize cfg (update cfg (took m))).1, m.sigs.map report, []) := by
  have he : (m.sigs.map Sig.readUntil).map (·.2) = m.sigs.map report := by
    rw [List.map_map]
    exact List.map_congr_left fun s _ => (readUntil_took s).1
  have hany : (m.sigs.map report).any (·.isSome) = true := by
    obtain ⟨s, hs, hr⟩ := h
    exact List.any_eq_true.mpr ⟨report s, List.mem_map_of_mem hs, Option.isSome_iff_ne_none.mpr hr⟩
  have : readAndSync cfg m (m.remaining == 0) = .stop (synchronize cfg (update cfg (took m))).1 (m.sigs.map report) [] := by
    unfold readAndSync
    dsimp only
    rw [he, hany, if_pos rfl, if_pos rfl]
    rfl
  unfold readPackets
  rw [this]

theorem synced_kept (cfg : Cfg) (m : MR) : (synchronize cfg (update cfg (took m))).1.remaining = m.remaining ∧
    (synchronize cfg (update cfg (took m))).1.buf = m.buf := by
  have h1 := synchronize_kept cfg (update cfg (took m))
  obtain ⟨h2, h3, _⟩ := update_kept cfg (took m)
  exact ⟨h1.remaining.trans h3, h1.buf.trans h2⟩

/-- The reader when a call to read begins. -/
def begun (m : MR) (count : Nat) (null : Bool) : MR :=
  { m with calls := m.calls + 1, remaining := count / m.lcm * m.lcm, buf := if null then none else some (m.calls + 1) }

theorem read_events {cfg : Cfg} {m : MR} {d : Bool} {c : Nat} {null : Bool} (hr : Reads cfg m d c null)
    (h : ∃ s ∈ m.sigs, report s ≠ none) : step cfg m (.read d c null) =
      ((synchronize cfg (update cfg (took (begun m c null)))).1,
       .read 0 (m.sigs.map report) [] (if null then none else some (m.calls + 1))) := by
  have e : readPackets cfg (begun m c null) = _ := events_read (cfg := cfg) (m := begun m c null) h
  obtain ⟨k1, k2⟩ := synced_kept cfg (begun m c null)
  show read cfg { m with calls := m.calls + 1 } d c null = _
  unfold read
  rw [if_neg ?_, if_neg (by rw [hr.quiet]; decide), if_neg (by rw [hr.valid]; decide), if_neg hr.lcm, if_neg ?_]
  · dsimp only
    change (match readPackets cfg (begun m c null) with | .error b => _ | .ok x => _) = _
    rw [e]
    dsimp only
    rw [k1, k2]
    have : (begun m c null).remaining = c / m.lcm * m.lcm := rfl
    rw [this, Nat.sub_self]
    rfl
  · rintro ⟨h1, h2, _⟩
    rw [hr.buffers h1] at h2
    cases h2
  · rintro ⟨h1, h2⟩
    obtain ⟨h3, h4⟩ := hr.count h1
    rcases h2 with h2 | h2
    · rw [h3] at h2; cases h2
    · omega

/-- C73: when a signal has something to report, a call reads no samples, and reports for each signal the last descriptors of the events
before its next data or gap, or the gap. -/
theorem C73_report {cfg : Cfg} {m : MR} {d : Bool} {c : Nat} {null : Bool} (hr : Reads cfg m d c null)
    (h : ∃ s ∈ m.sigs, report s ≠ none) :
    (step cfg m (.read d c null)).2 = .read 0 (m.sigs.map report) [] (if null then none else some (m.calls + 1)) := by
  rw [read_events hr h]

theorem took_invalid {cfg : Cfg} {m : MR} (h : (took m).invalid = true) :
    (synchronize cfg (update cfg (took m))).1.invalid = true := by
  rw [(synchronize_kept cfg _).invalid]
  exact (update_kept cfg (took m)).2.2.2.2 h

/-- C73: descriptors with which a signal cannot be read make the reader invalid. -/
theorem C73_invalid {cfg : Cfg} {m : MR} {d : Bool} {c : Nat} {null : Bool} (hr : Reads cfg m d c null)
    {s : Sig} (hs : s ∈ m.sigs) {e : Ev} (he : report s = some e) (hu : Unusable s.rate e) :
    (step cfg m (.read d c null)).1.invalid = true := by
  rw [read_events hr ⟨s, hs, by rw [he]; simp⟩]
  refine took_invalid ?_
  have : s.readUntil.1.invalid = true := (readUntil_took s).2.unusable e he hu
  show (m.invalid || _) = true
  rw [Bool.or_eq_true]
  right
  exact List.any_eq_true.mpr ⟨s.readUntil, List.mem_map_of_mem hs, this⟩

/-- C73: otherwise it stays valid, when the rates can be read together. -/
theorem C73_valid {cfg : Cfg} {m : MR} {d : Bool} {c : Nat} {null : Bool} (hr : Reads cfg m d c null)
    (h : ∃ s ∈ m.sigs, report s ≠ none) (hv : ∀ s ∈ m.sigs, s.invalid = false)
    (hu : ∀ s ∈ m.sigs, ∀ e, report s = some e → ¬ Unusable s.rate e) (r : Sig → Nat)
    (hrate : ∀ s ∈ m.sigs, 0 < r s ∧ RateAfter s (r s)) (hreq : 0 < cfg.required → ∀ s ∈ m.sigs, r s ∣ cfg.required)
    (hdiff : cfg.required = 0 → cfg.allowDiff = true ∨ ∀ s ∈ m.sigs, ∀ t ∈ m.sigs, r s = r t) :
    (step cfg m (.read d c null)).1.invalid = false := by
  rw [read_events hr h]
  show (synchronize cfg (update cfg (took (begun m c null)))).1.invalid = false
  rw [(synchronize_kept cfg _).invalid]
  have hsig : ∀ s ∈ m.sigs, s.readUntil.1.invalid = false ∧ s.readUntil.1.rate = r s := by
    intro s hs
    obtain ⟨_, k⟩ := readUntil_took s
    refine ⟨?_, k.rate _ (hu s hs) (hrate s hs).2⟩
    cases he : report s with
    | none => rw [(k.nothing he).1]; exact hv s hs
    | some e => exact k.usable e he (hu s hs e he) (hv s hs)
  have hin : (took (begun m c null)).invalid = false := by
    show (m.invalid || (m.sigs.map Sig.readUntil).any fun x => x.1.invalid) = false
    rw [hr.valid, Bool.false_or, List.any_eq_false]
    intro x hx
    obtain ⟨s, hs, rfl⟩ := List.mem_map.mp hx
    rw [(hsig s hs).1]
    decide
  have hmem : ∀ t ∈ (took (begun m c null)).sigs, ∃ s ∈ m.sigs, t = s.readUntil.1 := by
    intro t ht
    change t ∈ (m.sigs.map Sig.readUntil).map (·.1) at ht
    rw [List.map_map] at ht
    obtain ⟨s, hs, rfl⟩ := List.mem_map.mp ht
    exact ⟨s, hs, rfl⟩
  have hcr : (cfg.rate (took (begun m c null)).sigs).2 = true ∧ 0 < (cfg.rate (took (begun m c null)).sigs).1 ∧
      ∀ t ∈ (took (begun m c null)).sigs, t.rate.toNat ∣ (cfg.rate (took (begun m c null)).sigs).1 := by
    unfold Cfg.rate
    by_cases hq : 0 < cfg.required
    · rw [if_pos hq]
      refine ⟨rfl, hq, fun t ht => ?_⟩
      obtain ⟨s, hs, rfl⟩ := hmem t ht
      rw [(hsig s hs).2]
      exact hreq hq s hs
    · rw [if_neg hq]
      generalize hg : (took (begun m c null)).sigs = sigs at hmem
      cases sigs with
      | nil => exact ⟨rfl, Nat.one_pos, fun t ht => by cases ht⟩
      | cons t0 rest =>
        dsimp only
        have hc := commonRate_lcm (allow := cfg.allowDiff) (first := t0.rate) (sigs := t0 :: rest) (by
          refine (hdiff (by omega)).imp id fun hh t ht => ?_
          obtain ⟨s, hs, rfl⟩ := hmem t ht
          obtain ⟨s0, hs0, e0⟩ := hmem t0 (by simp)
          rw [e0, (hsig s hs).2, (hsig s0 hs0).2, hh s hs s0 hs0]) (c := 1)
        rw [hc]
        obtain ⟨_, h2, h3, _⟩ := foldl_lcm (l := (t0 :: rest).map fun s => s.rate.natAbs) (a := 1)
        have hn : ∀ t ∈ t0 :: rest, t.rate.toNat = t.rate.natAbs ∧ 0 < t.rate.natAbs := by
          intro t ht
          obtain ⟨s, hs, rfl⟩ := hmem t ht
          rw [(hsig s hs).2]
          have := (hrate s hs).1
          omega
        refine ⟨rfl, h3 (by decide) ?_, fun t ht => ?_⟩
        · intro x hx
          obtain ⟨t, ht, rfl⟩ := List.mem_map.mp hx
          exact (hn t ht).2
        · rw [(hn t ht).1]
          exact h2 _ (List.mem_map_of_mem (f := fun s : Sig => s.rate.natAbs) ht)
  obtain ⟨c1, c2, c3⟩ := hcr
  have hex := setRates_exact c2 (sigs := (took (begun m c null)).sigs) fun t ht => by
    refine ⟨?_, c3 t ht, ?_⟩
    · obtain ⟨s, hs, rfl⟩ := hmem t ht
      rw [(hsig s hs).2]
      have := (hrate s hs).1
      omega
    · obtain ⟨s, hs, rfl⟩ := hmem t ht
      exact (hsig s hs).1
  unfold update
  dsimp only
  rw [c1, hex, if_neg (by decide), if_neg (by simp)]
  exact hin

/-- C73: an invalid reader stays so, and reads no samples. -/
theorem C73_stays {cfg : Cfg} {ops : List Op} : ∀ {m : MR}, m.invalid = true →
    (run cfg m ops).1.invalid = true ∧ ∀ n ∈ counts (run cfg m ops).2, n = 0 := by
  induction ops with
  | nil => intro m h; exact ⟨h, fun n hn => by cases hn⟩
  | cons op ops ih =>
    intro m h
    have hstep : (step cfg m op).1.invalid = true ∧ ∀ n ∈ counts [(step cfg m op).2], n = 0 := by
      match op with
      | .push i p =>
        refine ⟨?_, fun n hn => by cases hn⟩
        show (push { m with calls := m.calls + 1 } i p).invalid = true
        unfold push
        dsimp only
        rw [if_pos h]
        split <;> exact h
      | .read d c null =>
        show (read cfg { m with calls := m.calls + 1 } d c null).1.invalid = true ∧
          ∀ n ∈ counts [(read cfg { m with calls := m.calls + 1 } d c null).2], n = 0
        unfold read
        split
        · exact ⟨h, fun n hn => by cases hn⟩
        · split
          · cases e : readPackets cfg { m with calls := m.calls + 1 } with
            | error b => exact ⟨h, fun n hn => by cases hn⟩
            | ok x => exact ⟨(readPackets_wrote e).invalid h, fun n hn => List.mem_singleton.mp hn⟩
          · exact ⟨h, fun n hn => List.mem_singleton.mp hn⟩
      | .skip c =>
        show (skip cfg { m with calls := m.calls + 1 } c).1.invalid = true ∧
          ∀ n ∈ counts [(skip cfg { m with calls := m.calls + 1 } c).2], n = 0
        unfold skip
        rw [if_pos h]
        exact ⟨h, fun n hn => List.mem_singleton.mp hn⟩
      | .available =>
        show (available cfg { m with calls := m.calls + 1 }).1.invalid = true ∧
          ∀ n ∈ counts [(available cfg { m with calls := m.calls + 1 }).2], n = 0
        have hk := (synchronize_kept cfg { m with calls := m.calls + 1 }).invalid
        unfold available
        dsimp only
        split
        · exact ⟨hk.trans h, fun n hn => by cases hn⟩
        · split
          · exact ⟨hk.trans h, fun n hn => by cases hn⟩
          · exact ⟨hk.trans h, fun n hn => by cases hn⟩
      | .empty => exact ⟨h, fun n hn => by cases hn⟩
    obtain ⟨h1, h2⟩ := ih hstep.1
    refine ⟨h1, ?_⟩
    have hc : ∀ (x : Res) (l : List Res), counts (x :: l) = counts [x] ++ counts l := by
      intro x l; cases x <;> rfl
    show ∀ n ∈ counts ((step cfg m op).2 :: (run cfg (step cfg m op).1 ops).2), n = 0
    rw [hc]
    intro n hn
    rcases List.mem_append.mp hn with hn | hn
    · exact hstep.2 n hn
    · exact h2 n hn

theorem setCommon_same (s : Sig) (c : Nat) : (s.setCommon c).queue = s.queue ∧ (s.setCommon c).cur = s.cur ∧
    (s.setCommon c).sync = s.sync := by
  unfold Sig.setCommon
  split <;> exact ⟨rfl, rfl, rfl⟩

theorem setRates_get {c : Nat} {sigs : List Sig} : ∀ {i : Nat} {s : Sig}, sigs[i]? = some s →
    ∃ s', (setRates c sigs).1[i]? = some s' ∧ s'.queue = s.queue ∧ s'.cur = s.cur ∧ s'.sync = s.sync := by
  induction sigs with
  | nil => intro i s h; cases h
  | cons a r ih =>
    intro i s h
    unfold setRates
    split
    · cases i with
      | zero => cases h; exact ⟨_, rfl, setCommon_same a c⟩
      | succ i => exact ⟨s, h, rfl, rfl, rfl⟩
    · cases i with
      | zero => cases h; exact ⟨_, rfl, setCommon_same a c⟩
      | succ i => exact ih h

theorem update_get {cfg : Cfg} {m : MR} {i : Nat} {s : Sig} (h : m.sigs[i]? = some s) :
    ∃ s', (update cfg m).sigs[i]? = some s' ∧ s'.queue = s.queue ∧ s'.cur = s.cur ∧ s'.sync = s.sync := by
  unfold update
  dsimp only
  split
  · exact ⟨s, h, rfl, rfl, rfl⟩
  · split
    · exact setRates_get h
    · exact setRates_get h

theorem foldl_min_zero {l : List Nat} : ∀ {a : Nat}, a = 0 ∨ 0 ∈ l → l.foldl min a = 0 := by
  induction l with
  | nil => intro a h; exact h.resolve_right (by simp)
  | cons x l ih =>
    intro a h
    refine ih ?_
    rcases h with rfl | h
    · exact Or.inl (Nat.zero_min x)
    · rcases List.mem_cons.mp h with h | h
      · exact Or.inl (by rw [← h]; exact Nat.min_zero a)
      · exact Or.inr h

theorem sync_waits {cfg : Cfg} {m : MR} {i : Nat} {s : Sig} (h : m.sigs[i]? = some s) (hc : s.cur = none) :
    (synchronize cfg m).1 = m := by
  have : minAvail m.sigs = 0 := by
    refine foldl_min_zero (Or.inr (List.mem_map.mpr ⟨s, List.mem_of_getElem? h, ?_⟩))
    rw [hc]
    rfl
  unfold synchronize
  dsimp only
  rw [if_pos (Or.inl this)]

theorem setCommon_res (s : Sig) (c : Nat) : resOf (s.setCommon c) = resOf s := by
  unfold Sig.setCommon
  split <;> rfl

theorem setRates_res {c : Nat} {sigs : List Sig} : (setRates c sigs).1.map resOf = sigs.map resOf := by
  induction sigs with
  | nil => rfl
  | cons a r ih =>
    unfold setRates
    split
    · rw [List.map_cons, List.map_cons, setCommon_res]
    · rw [List.map_cons, List.map_cons, setCommon_res, ih]

theorem update_res (cfg : Cfg) (m : MR) : (update cfg m).sigs.map resOf = m.sigs.map resOf := by
  unfold update
  dsimp only
  split
  · rfl
  · split <;> exact setRates_res

theorem syncLoop_dom {d : Dom} {T : Int} {q : List Pkt} : ∀ {s : Sig} {p : DP}, (syncLoop d T s p q).1.dom = s.dom := by
  induction q with
  | nil =>
    intro s p
    unfold syncLoop
    split <;> rfl
  | cons x q ih =>
    intro s p
    unfold syncLoop
    split
    · rfl
    · cases x with
      | data p => exact ih
      | event e => rfl

theorem isFirst_dom (s : Sig) : s.isFirst.1.dom = s.dom := by
  unfold Sig.isFirst
  split
  · rfl
  · split <;> rfl

theorem syncTo_dom (s : Sig) (T : Int) : (s.syncTo T).1.dom = s.dom := by
  unfold Sig.syncTo
  split
  · rfl
  · dsimp only
    split
    · exact isFirst_dom s
    · split
      · rw [syncLoop_dom]; exact isFirst_dom s
      · exact isFirst_dom s

theorem syncAll_res (m : MR) (a : Nat) (st : Sync) : (syncAll m a st).1.sigs.map resOf = m.sigs.map resOf := by
  unfold syncAll
  split
  · rfl
  · dsimp only
    rw [List.map_map]
    exact List.map_congr_left fun s _ => congrArg (Option.map _) (syncTo_dom s _)

theorem setStart_res (cfg : Cfg) (m : MR) : (setStart cfg m).1.sigs.map resOf = m.sigs.map resOf := by
  have hd : ∀ x : Int × Int × Int, (m.sigs.map fun s => { s with dom := s.dom.map fun d => d.adjust x.1 x.2.1 x.2.2, sync := .unsync }).map
      resOf = m.sigs.map resOf := fun x => by
    rw [List.map_map]
    refine List.map_congr_left fun s _ => ?_
    show (s.dom.map _).map _ = s.dom.map _
    rw [Option.map_map]
    rfl
  unfold setStart
  split
  · rfl
  · dsimp only
    split
    · exact hd _
    · split <;> exact hd _

theorem synchronize_res (cfg : Cfg) (m : MR) : (synchronize cfg m).1.sigs.map resOf = m.sigs.map resOf := by
  unfold synchronize
  dsimp only
  split
  · rfl
  · split
    · exact syncAll_res m _ _
    · split
      · exact (syncAll_res _ _ _).trans (setStart_res cfg m)
      · exact setStart_res cfg m

/-- C73: from then on the samples of a signal are placed with the resolution and the origin that were reported. -/
theorem C73_domain {cfg : Cfg} {m : MR} {d : Bool} {c : Nat} {null : Bool} (hr : Reads cfg m d c null)
    {i : Nat} {s : Sig} (hi : m.sigs[i]? = some s) {v : Option Bool} {x : DomDesc} (hx : report s = some (.desc v (some x)))
    (hok : x.ok = true) : ∃ s' o, (step cfg m (.read d c null)).1.sigs[i]? = some s' ∧ s'.dom = some o ∧
      o.num = x.num ∧ o.den = x.den ∧ o.epoch = x.epoch := by
  rw [read_events hr ⟨s, List.mem_of_getElem? hi, by rw [hx]; simp⟩]
  have ht : ((took (begun m c null)).sigs.map resOf)[i]? = some (some (x.num, x.den, x.epoch)) := by
    show (((m.sigs.map Sig.readUntil).map (·.1)).map resOf)[i]? = _
    rw [List.getElem?_map, List.getElem?_map, List.getElem?_map, hi]
    exact congrArg some ((readUntil_took s).2.dom v x hx hok)
  rw [← update_res cfg, ← synchronize_res cfg, List.getElem?_map] at ht
  obtain ⟨s', h1, h2⟩ := Option.map_eq_some_iff.mp ht
  obtain ⟨o, h3, h4⟩ := Option.map_eq_some_iff.mp h2
  exact ⟨s', o, h1, h3, congrArg (·.1) h4, congrArg (·.2.1) h4, congrArg (·.2.2) h4⟩

/-- C73: reading goes on behind a gap that was reported, and the signal is not synchronised any more: what `C62_start` says of the
next samples applies again. -/
theorem C73_gap {cfg : Cfg} {m : MR} {d : Bool} {c : Nat} {null : Bool} (hr : Reads cfg m d c null)
    {i : Nat} {s : Sig} (hi : m.sigs[i]? = some s) (hg : report s = some .gap) :
    ∃ (s' : Sig) (pre : List Ev), (step cfg m (.read d c null)).1.sigs[i]? = some s' ∧ s'.cur = none ∧ s'.sync = .unsync ∧
      s.queue = pre.map Pkt.event ++ .event .gap :: s'.queue ∧ Ev.gap ∉ pre ∧
      (step cfg m (.read d c null)).1.start = m.start := by
  have hs := List.mem_of_getElem? hi
  rw [read_events hr ⟨s, hs, by rw [hg]; simp⟩]
  obtain ⟨k1, k2, pre, k3, k4⟩ := (readUntil_took s).2.gap hg
  have ht : (took (begun m c null)).sigs[i]? = some s.readUntil.1 := by
    show ((m.sigs.map Sig.readUntil).map (·.1))[i]? = _
    rw [List.getElem?_map, List.getElem?_map, hi]
    rfl
  obtain ⟨s', u1, u2, u3, u4⟩ := update_get (cfg := cfg) ht
  dsimp only
  rw [sync_waits u1 (u3.trans k1)]
  refine ⟨s', pre, u1, u3.trans k1, u4.trans k2, by rw [u2]; exact k3, k4, ?_⟩
  unfold update
  dsimp only
  split
  · rfl
  · split <;> rfl

/-- C73: an invalid reader still reports new descriptors, and drops the samples in front of them. -/
theorem C73_told {cfg : Cfg} {m : MR} (hm : m.invalid = true) {i : Nat} {s : Sig} (hi : m.sigs[i]? = some s)
    (hq : ∀ e, Pkt.event e ∈ s.queue → e = .gap) {v : Option Bool} {d : Option DomDesc} (hvd : v.isSome ∨ d.isSome)
    {c : Nat} (hc : c ≠ 0 → cfg.minRead ≤ c) :
    ∃ evs b, (step cfg (step cfg m (.push i (.event (.desc v d)))).1 (.read false c false)).2 = .read 0 evs [] b ∧
      evs[i]? = some (some (.desc v d)) := by
  have hdrop : (s.queue ++ [Pkt.event (.desc v d)]).dropWhile (fun p => !p.isEvent) = [.event (.desc v d)] := by
    rw [List.dropWhile_append_of_pos]
    · rfl
    · intro p hp
      match p with
      | .data _ => rfl
      | .event e => rw [hq e hp]; rfl
  let s1 : Sig := { s with queue := [.event (.desc v d)], cur := none, prev := 0 }
  let m1 : MR := { m with
    sigs := (m.sigs.modify i fun s => { s with queue := s.queue ++ [.event (.desc v d)] }).set i s1,
    nextEvent := true, calls := m.calls + 1 }
  have hskip : ({ s with queue := s.queue ++ [.event (.desc v d)] } : Sig).skipUntilLast = (s1, true) := by
    unfold Sig.skipUntilLast
    dsimp only
    rw [hdrop]
    rfl
  have hpush : (step cfg m (.push i (.event (.desc v d)))).1 = m1 := by
    show push { m with calls := m.calls + 1 } i (.event (.desc v d)) = _
    unfold push
    dsimp only
    rw [if_pos hm]
    have : (m.sigs.modify i fun s => { s with queue := s.queue ++ [.event (.desc v d)] })[i]? =
        some { s with queue := s.queue ++ [.event (.desc v d)] } := by
      rw [List.getElem?_modify, hi]; simp
    rw [this]
    dsimp only
    rw [hskip]
  have hlt : i < m.sigs.length := (List.getElem?_eq_some_iff.mp hi).1
  have hget : m1.sigs[i]? = some s1 := by
    show ((m.sigs.modify i _).set i s1)[i]? = _
    rw [List.getElem?_set_self (by rw [List.length_modify]; exact hlt)]
  have hrep : report s1 = some (.desc v d) := by
    show news [.event (.desc v d)] = _
    unfold news
    simp only [leading, takeWhile_desc, List.takeWhile_nil, List.map_cons, List.map_nil, lastGiven, valOf, domOf]
    rw [if_pos (by rcases hvd with h | h <;> simp [h])]
  have hev := events_read (cfg := cfg) (m := { m1 with calls := m1.calls + 1 })
    ⟨s1, List.mem_of_getElem? hget, by rw [hrep]; simp⟩
  rw [hpush]
  refine ⟨m1.sigs.map report, m.buf, ?_, by rw [List.getElem?_map, hget]; exact congrArg some hrep⟩
  show (read cfg { m1 with calls := m1.calls + 1 } false c false).2 = _
  unfold read
  rw [if_neg ?_, if_pos rfl, hev]
  · dsimp only
    rw [(synced_kept cfg _).2]
    rfl
  · rintro ⟨h1, h2 | h2⟩
    · cases h2
    · have := hc h1; omega

/-! Cases: two signals of 1000 Hz that were read for a while. -/

/-- The first signal has a gap, the second new descriptors twice. -/
def busy : MR := (two {} (desc 1 1000 0 1) (desc 1 1000 0 1) [.push 0 (data 1 4 0 1), .push 1 (data 2 4 0 1), .read false 4 false,
  .push 0 (.event .other), .push 0 (.event .gap), .push 1 (.event (.desc (some true) none)), .push 1 (desc 2 1000 0 1),
  .push 1 (.event .other), .push 1 (desc 1 1000 0 1)]).1

instance (d : DomDesc) (r : Int) : Decidable (HasRate d r) := by unfold HasRate; infer_instance

theorem busy_reads : Reads {} busy false 5 false := by
  refine ⟨by decide, ?_, ?_, ?_, by decide⟩ <;> decide +kernel

example : busy.sigs.map report = [some .gap, some (.desc (some true) (some ⟨1, 1000, 0, 1, true⟩))] := by decide +kernel

example : (step {} busy (.read false 5 false)).2 =
    .read 0 [some .gap, some (.desc (some true) (some ⟨1, 1000, 0, 1, true⟩))] [] (some 13) := by
  rw [C73_report busy_reads (by decide +kernel)]
  decide +kernel

/-- The hypotheses of `C73_valid` can be met. -/
example : (step {} busy (.read false 5 false)).1.invalid = false := by
  have hs : ∀ s ∈ busy.sigs, s.invalid = false ∧ s.rate = 1000 ∧ ∀ e, report s = some e → e = .gap ∨
      e = .desc (some true) (some ⟨1, 1000, 0, 1, true⟩) := by
    have : ∀ s ∈ busy.sigs, s.invalid = false ∧ s.rate = 1000 ∧ (report s = some .gap ∨
      report s = some (.desc (some true) (some ⟨1, 1000, 0, 1, true⟩))) := by decide +kernel
    intro s h
    obtain ⟨h1, h2, h3⟩ := this s h
    refine ⟨h1, h2, fun e he => ?_⟩
    rw [he] at h3
    exact h3.imp Option.some.inj Option.some.inj
  have hrate : HasRate ⟨1, 1000, 0, 1, true⟩ 1000 := by decide
  refine C73_valid busy_reads (by decide +kernel) (fun s h => (hs s h).1) ?_ (fun _ => 1000) ?_ (by decide) (fun _ => Or.inl rfl)
  · intro s h e he hu
    rcases (hs s h).2.2 e he with rfl | rfl
    · exact hu
    · rcases hu with hu | ⟨x, hx, hu | hu | hu⟩
      · cases hu
      · cases hx; cases hu
      · cases hx; exact hu 1000 hrate
      · cases hx; rw [(hs s h).2.1] at hu; exact hu.2 hrate
  · intro s h
    refine ⟨by decide, ?_⟩
    have h2 := (hs s h).2.1
    have h3 := (hs s h).2.2
    unfold RateAfter
    cases hr : report s with
    | none => exact h2
    | some e =>
      rcases h3 e hr with rfl | rfl
      · exact h2
      · exact ⟨hrate, Or.inr h2⟩

/-- Another rate. -/
def faster : MR := (two {} (desc 1 1000 0 1) (desc 1 1000 0 1) [.push 0 (data 1 4 0 1), .push 1 (data 2 4 0 1), .read false 4 false,
  .push 1 (desc 1 2000 0 1)]).1

example : (step {} faster (.read false 5 false)).1.invalid = true := by
  have : ∃ s ∈ faster.sigs, report s = some (.desc (some true) (some ⟨1, 2000, 0, 1, true⟩)) ∧ s.rate = 1000 := by decide +kernel
  obtain ⟨s, hs, hr, h1⟩ := this
  refine C73_invalid (m := faster) (null := false) ⟨by decide, by decide +kernel, by decide +kernel, by decide +kernel, by decide⟩ hs hr ?_
  refine Or.inr ⟨_, rfl, Or.inr (Or.inr ?_)⟩
  rw [h1]
  refine ⟨by decide, ?_⟩
  rintro ⟨_, h⟩
  revert h
  decide

/-- After the gap: the data arrives, and the signals start together again, with the sample at 0.013 s. -/
def resumed : MR := (run {} busy [.read false 5 false, .push 0 (data 3 8 10 1), .push 1 (data 4 9 4 1)]).1

theorem resumed_ready : Ready {} resumed [.push 1 (data 5 5 13 1), .read false 100 false] 1 1000 0
    (fun i => if i = 0 then ⟨3, 8, 10, 1⟩ else ⟨4, 9, 4, 1⟩) (fun _ => ⟨1, 1000, 0, 1, 1, 0⟩) (fun _ => 1) := by
  have hs : resumed.sigs = [⟨[], some ⟨3, 8, 10, 1⟩, 0, some ⟨1, 1000, 0, 1, 1, 0⟩, 1000, 1, .unsync, false⟩,
    ⟨[], some ⟨4, 9, 4, 1⟩, 0, some ⟨1, 1000, 0, 1, 1, 0⟩, 1000, 1, .unsync, false⟩] := by decide +kernel
  have h0 : resumed.start = some 0 := by decide +kernel
  have hl : resumed.lcm = 1 := by decide +kernel
  have hc : resumed.common = 1000 := by decide +kernel
  refine ⟨by rw [hs]; simp, by decide +kernel, by decide +kernel, ?_, ?_, by rw [hl]; decide, by rw [hc]; decide,
    ⟨by decide, by decide, ?_, ?_, ?_⟩, ⟨1, ?_⟩, ?_, ?_⟩
  · intro t ht
    rw [h0] at ht
    cases ht
    refine ⟨0, _, by rw [hs]; rfl, ?_⟩
    norm_num [time]
  · rw [hs]; exact ⟨_, List.mem_cons_self, rfl⟩
  · rw [hs]; exact ⟨_, List.mem_cons_self, _, rfl, by decide⟩
  · rw [hs]; exact ⟨_, List.mem_cons_self, _, rfl, rfl⟩
  · rw [hs]
    intro s h d hd
    simp only [List.mem_cons, List.not_mem_nil, or_false] at h
    rcases h with rfl | rfl
    · cases hd
      exact ⟨by decide, by decide, by decide, ⟨1, by decide⟩, ⟨0, by decide⟩⟩
    · cases hd
      exact ⟨by decide, by decide, by decide, ⟨1, by decide⟩, ⟨0, by decide⟩⟩
  · unfold raster
    rw [hl, hc]
    norm_num
  · rw [hs]
    intro i s hi
    rcases i with _ | _ | i
    · cases hi
      refine ⟨rfl, by decide, rfl, by decide, rfl, by simp, by decide, by decide, ?_, by decide, by decide, by decide⟩
      simp [Regular, packets, samples, front, given, data, List.range_succ]
    · cases hi
      refine ⟨rfl, by decide, rfl, by decide, rfl, by simp, by decide, by decide, ?_, by decide, by decide, by decide⟩
      simp [Regular, packets, samples, front, given, data, List.range_succ]
    · cases hi
  · rw [hs]
    intro i p hp _
    simp [data] at hp
    rw [hp.2]

example : (run {} resumed [.push 1 (data 5 5 13 1), .read false 100 false]).2 =
    [.none, .read 8 [] [[(3, 0), (3, 1), (3, 2), (3, 3), (3, 4), (3, 5), (3, 6), (3, 7)],
      [(4, 6), (4, 7), (4, 8), (5, 0), (5, 1), (5, 2), (5, 3), (5, 4)]] (some 17)] := by decide +kernel

/-- An invalid reader is told of descriptors. -/
example : ∃ evs b, (step {} (step {} (step {} faster (.read false 5 false)).1 (.push 1 (desc 1 1000 0 1))).1 (.read false 0 false)).2 =
    .read 0 evs [] b ∧ evs[1]? = some (some (.desc (some true) (some ⟨1, 1000, 0, 1, true⟩))) := by
  have : ∃ s, (step {} faster (.read false 5 false)).1.sigs[1]? = some s ∧ s.queue = [] := by decide +kernel
  obtain ⟨s, hs, hq⟩ := this
  exact C73_told (by decide +kernel) hs (by rw [hq]; simp) (Or.inl rfl) (by simp)

end Verif.Multi.Props
