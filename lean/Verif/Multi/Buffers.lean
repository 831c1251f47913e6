import Verif.Multi.Flow

/-! # The buffers samples are written to -/

namespace Verif.Multi

open Spec

theorem takeCur_length (s : Sig) (rem : Nat) : (s.takeCur rem).2.1.length + (s.takeCur rem).2.2 = rem := by
  unfold Sig.takeCur
  split
  · rename_i h; simp [h]
  · split
    · simp
    · simp only [List.length_map, List.length_range]
      have := Nat.min_le_left rem (wrapSub (by assumption : DP).n s.prev)
      omega

theorem takeCur_div (s : Sig) (rem : Nat) : (s.takeCur rem).1.div = s.div := by
  unfold Sig.takeCur
  split
  · rfl
  · split
    · rfl
    · dsimp only
      split <;> rfl

theorem handleDesc_div (s : Sig) (v : Option Bool) (d : Option DomDesc) : (s.handleDesc v d).div = s.div := by
  unfold Sig.handleDesc
  dsimp only
  cases v <;> cases d <;> dsimp only <;> (repeat' split) <;> rfl

/-- Never more is written than is asked for. -/
theorem readGo_length {q : List Pkt} : ∀ {s : Sig} {rem : Nat} {x : Sig × List Tok}, readGo q s rem = some x → x.2.length ≤ rem := by
  induction q with
  | nil =>
    intro s rem x h
    unfold readGo at h
    dsimp only at h
    have := takeCur_length s rem
    split at h
    · cases h; show (s.takeCur rem).2.1.length ≤ _; omega
    · cases h
  | cons y q ih =>
    intro s rem x h
    have := takeCur_length s rem
    cases y with
    | data p =>
      unfold readGo at h
      dsimp only at h
      split at h
      · cases h; show (s.takeCur rem).2.1.length ≤ _; omega
      · obtain ⟨z, hz, rfl⟩ := Option.map_eq_some_iff.mp h
        have := ih hz
        show ((s.takeCur rem).2.1 ++ z.2).length ≤ _
        rw [List.length_append]
        omega
    | event e =>
      unfold readGo at h
      dsimp only at h
      split at h
      · cases h; show (s.takeCur rem).2.1.length ≤ _; omega
      · cases e with
        | desc v d =>
          dsimp only at h
          split at h
          · cases h; show (s.takeCur rem).2.1.length ≤ _; omega
          · obtain ⟨z, hz, rfl⟩ := Option.map_eq_some_iff.mp h
            have := ih hz
            show ((s.takeCur rem).2.1 ++ z.2).length ≤ _
            rw [List.length_append]
            omega
        | gap =>
          obtain ⟨z, hz, rfl⟩ := Option.map_eq_some_iff.mp h
          have := ih hz
          show ((s.takeCur rem).2.1 ++ z.2).length ≤ _
          rw [List.length_append]
          omega
        | other =>
          obtain ⟨z, hz, rfl⟩ := Option.map_eq_some_iff.mp h
          have := ih hz
          show ((s.takeCur rem).2.1 ++ z.2).length ≤ _
          rw [List.length_append]
          omega

theorem readSamples_length {n : Nat} {sigs : List Sig} : ∀ {x : List Sig × List (List Tok)}, readSamples n sigs = .ok x →
    ∀ (i : Nat) (v : List Tok), x.2[i]? = some v → ∃ s, sigs[i]? = some s ∧ v.length ≤ n / s.div := by
  induction sigs with
  | nil =>
    intro x h i v hv
    unfold readSamples at h
    cases h
    simp at hv
  | cons s r ih =>
    intro x h i v hv
    unfold readSamples at h
    split at h
    · cases h
    · split at h
      · cases h
      · rename_i y hy
        split at h
        · cases h
        · rename_i z hz
          cases h
          cases i with
          | zero =>
            cases hv
            exact ⟨s, rfl, readGo_length hy⟩
          | succ i => exact ih hz i v hv

theorem isFirst_div (s : Sig) : s.isFirst.1.div = s.div := by
  unfold Sig.isFirst
  split
  · rfl
  · split <;> rfl

theorem readUntil_quiet_div {s : Sig} (h : s.readUntil.2 = none) : s.readUntil.1.div = s.div := by
  unfold Sig.readUntil at *
  dsimp only at *
  split at h
  · rename_i hf
    rw [if_pos hf]
    exact isFirst_div s
  · rename_i hf
    rw [if_neg hf]
    split at h
    · cases h
    · rename_i h1
      rw [if_neg h1]
      split at h
      · cases h
      · rename_i h2
        rw [if_neg h2]
        dsimp only
        split
        · exact isFirst_div s
        · exact isFirst_div s

theorem syncLoop_div {d : Dom} {T : Int} {q : List Pkt} : ∀ {s : Sig} {p : DP}, (syncLoop d T s p q).1.div = s.div := by
  induction q with
  | nil =>
    intro s p
    unfold syncLoop
    split <;> rfl
  | cons x q ih =>
    intro s p
    unfold syncLoop
    split
    · rfl
    · cases x with
      | data p => exact ih
      | event e => rfl

theorem syncTo_div (s : Sig) (T : Int) : (s.syncTo T).1.div = s.div := by
  unfold Sig.syncTo
  split
  · rfl
  · dsimp only
    split
    · exact isFirst_div s
    · split
      · rw [syncLoop_div]; exact isFirst_div s
      · exact isFirst_div s

/-- What `synchronize` leaves as it is. -/
structure Kept (m m' : MR) : Prop where
  buf : m'.buf = m.buf
  remaining : m'.remaining = m.remaining
  nextEvent : m'.nextEvent = m.nextEvent
  invalid : m'.invalid = m.invalid
  calls : m'.calls = m.calls
  divs : m'.sigs.map (fun s => s.div) = m.sigs.map fun s => s.div

theorem Kept.refl (m : MR) : Kept m m := ⟨rfl, rfl, rfl, rfl, rfl, rfl⟩

theorem syncAll_kept (m : MR) (a : Nat) (st : Sync) : Kept m (syncAll m a st).1 := by
  unfold syncAll
  split
  · exact Kept.refl m
  · refine ⟨rfl, rfl, rfl, rfl, rfl, ?_⟩
    dsimp only
    rw [List.map_map]
    exact List.map_congr_left fun s _ => syncTo_div s _

theorem setStart_kept (cfg : Cfg) (m : MR) : Kept m (setStart cfg m).1 := by
  have hd : ∀ x : Int × Int × Int, (m.sigs.map fun s => { s with dom := s.dom.map fun d => d.adjust x.1 x.2.1 x.2.2, sync := .unsync }).map
      (fun s : Sig => s.div) = m.sigs.map fun s => s.div := fun x => by
    rw [List.map_map]
    exact List.map_congr_left fun s _ => rfl
  unfold setStart
  split
  · exact Kept.refl m
  · dsimp only
    split
    · exact ⟨rfl, rfl, rfl, rfl, rfl, hd _⟩
    · split
      · exact ⟨rfl, rfl, rfl, rfl, rfl, hd _⟩
      · exact ⟨rfl, rfl, rfl, rfl, rfl, hd _⟩

theorem Kept.trans {a b c : MR} (h : Kept a b) (g : Kept b c) : Kept a c :=
  ⟨g.buf.trans h.buf, g.remaining.trans h.remaining, g.nextEvent.trans h.nextEvent, g.invalid.trans h.invalid,
    g.calls.trans h.calls, g.divs.trans h.divs⟩

theorem synchronize_kept (cfg : Cfg) (m : MR) : Kept m (synchronize cfg m).1 := by
  unfold synchronize
  dsimp only
  split
  · exact Kept.refl m
  · split
    · exact syncAll_kept m _ _
    · split
      · exact (setStart_kept cfg m).trans (syncAll_kept _ _ _)
      · exact setStart_kept cfg m

/-- What `update` leaves as it is. -/
theorem update_kept (cfg : Cfg) (m : MR) : (update cfg m).buf = m.buf ∧ (update cfg m).remaining = m.remaining ∧
    (update cfg m).nextEvent = m.nextEvent ∧ (update cfg m).calls = m.calls ∧ (m.invalid = true → (update cfg m).invalid = true) := by
  unfold update
  dsimp only
  generalize cfg.rate m.sigs = c
  split
  · exact ⟨rfl, rfl, rfl, rfl, fun _ => rfl⟩
  · split
    · exact ⟨rfl, rfl, rfl, rfl, fun _ => rfl⟩
    · exact ⟨rfl, rfl, rfl, rfl, fun h => h⟩

/-- What a reader keeps when it reads, and what it writes. -/
structure Wrote (cfg : Cfg) (m m' : MR) (w : List (List Tok)) : Prop where
  buf : m'.buf = m.buf
  nextEvent : m'.nextEvent = m.nextEvent
  invalid : m.invalid = true → m'.invalid = true
  calls : m'.calls = m.calls
  bound : cfg.minRead ≤ 1 → ∀ (i : Nat) (v : List Tok), w[i]? = some v → ∃ s, m.sigs[i]? = some s ∧ v.length ≤ m.remaining / s.div

theorem get_div {a b : List Sig} (h : b.map (fun s => s.div) = a.map fun s => s.div) {i : Nat} {s : Sig} (hi : b[i]? = some s) :
    ∃ t, a[i]? = some t ∧ t.div = s.div := by
  have : (b.map fun s => s.div)[i]? = some s.div := by rw [List.getElem?_map, hi]; rfl
  rw [h, List.getElem?_map] at this
  obtain ⟨t, ht, e⟩ := Option.map_eq_some_iff.mp this
  exact ⟨t, ht, e⟩

theorem readPackets_wrote {cfg : Cfg} {m : MR} {y : MR × List (Option Ev) × List (List Tok)} (h : readPackets cfg m = .ok y) :
    Wrote cfg m y.1 y.2.2 := by
  -- the reader after the events were read
  let r := m.sigs.map Sig.readUntil
  let m1 : MR := { m with sigs := r.map (·.1), invalid := m.invalid || r.any (fun x => x.1.invalid) }
  let m2 : MR := if (r.map (·.2)).any (·.isSome) then update cfg m1 else m1
  have k1 : m2.buf = m.buf ∧ m2.remaining = m.remaining ∧ m2.nextEvent = m.nextEvent ∧ m2.calls = m.calls ∧
      (m.invalid = true → m2.invalid = true) := by
    have hinv : m.invalid = true → m1.invalid = true := by
      intro hh
      show (m.invalid || r.any (fun x => x.1.invalid)) = true
      rw [hh]
      rfl
    show _
    simp only [m2]
    split
    · obtain ⟨a1, a2, a3, a4, a5⟩ := update_kept cfg m1
      exact ⟨a1, a2, a3, a4, fun hh => a5 (hinv hh)⟩
    · exact ⟨rfl, rfl, rfl, rfl, hinv⟩
  have hk := synchronize_kept cfg m2
  have hbase : ∀ (m3 : MR) (w : List (List Tok)), m3.buf = (synchronize cfg m2).1.buf → m3.nextEvent = (synchronize cfg m2).1.nextEvent →
      m3.invalid = (synchronize cfg m2).1.invalid → m3.calls = (synchronize cfg m2).1.calls →
      (cfg.minRead ≤ 1 → ∀ (i : Nat) (v : List Tok), w[i]? = some v → ∃ s, m.sigs[i]? = some s ∧ v.length ≤ m.remaining / s.div) →
      Wrote cfg m m3 w := by
    intro m3 w e1 e2 e3 e4 e5
    refine ⟨by rw [e1, hk.buf, k1.1], by rw [e2, hk.nextEvent, k1.2.2.1], ?_, by rw [e4, hk.calls, k1.2.2.2.1], e5⟩
    intro hh
    rw [e3, hk.invalid]
    exact k1.2.2.2.2 hh
  have hnil : ∀ (i : Nat) (v : List Tok), (([] : List (List Tok)))[i]? = some v → ∃ s, m.sigs[i]? = some s ∧ v.length ≤ m.remaining / s.div := by
    intro i v hv
    simp at hv
  have hdivs : (r.map (·.2)).any (·.isSome) = false → (synchronize cfg m2).1.sigs.map (fun s => s.div) = m.sigs.map fun s => s.div := by
    intro hq
    rw [hk.divs]
    simp only [m2, hq]
    show (r.map (·.1)).map (fun s => s.div) = _
    simp only [r]
    rw [List.map_map, List.map_map]
    refine List.map_congr_left fun s hs => ?_
    refine readUntil_quiet_div ?_
    rw [List.any_eq_false] at hq
    have := hq s.readUntil.2 (List.mem_map_of_mem (List.mem_map_of_mem hs))
    cases hh : s.readUntil.2 with
    | none => rfl
    | some e => rw [hh] at this; simp at this
  have hrem : (synchronize cfg m2).1.remaining = m.remaining := by rw [hk.remaining, k1.2.1]
  have e : readAndSync cfg m (m.remaining == 0) =
      if (r.map (·.2)).any (·.isSome) = true then .stop (synchronize cfg m2).1 (r.map (·.2)) []
      else if (synchronize cfg m2).2.2.2 = true then .stop (synchronize cfg m2).1 [] []
      else if (m.remaining == 0) = true then
        if (synchronize cfg m2).2.1 < cfg.minRead ∧ (synchronize cfg m2).1.sigs.any (fun s => s.queue.any fun p => !p.isData) = true then
          match readSamples (synchronize cfg m2).2.1 (synchronize cfg m2).1.sigs with
          | .error b => .bad b
          | .ok x => .stop { (synchronize cfg m2).1 with sigs := x.1 } [] x.2
        else .stop (synchronize cfg m2).1 [] []
      else .go (synchronize cfg m2).1 (synchronize cfg m2).2.1 (synchronize cfg m2).2.2.1 := rfl
  unfold readPackets at h
  rw [e] at h
  generalize synchronize cfg m2 = z at *
  by_cases c1 : (r.map (·.2)).any (·.isSome) = true
  · rw [if_pos c1] at h
    cases h
    exact hbase z.1 [] rfl rfl rfl rfl fun _ => hnil
  · rw [if_neg c1] at h
    have hdv := hdivs (by simpa using c1)
    by_cases c2 : z.2.2.2 = true
    · rw [if_pos c2] at h
      cases h
      exact hbase z.1 [] rfl rfl rfl rfl fun _ => hnil
    · rw [if_neg c2] at h
      by_cases c3 : (m.remaining == 0) = true
      · rw [if_pos c3] at h
        by_cases c4 : z.2.1 < cfg.minRead ∧ z.1.sigs.any (fun s => s.queue.any fun p => !p.isData) = true
        · rw [if_pos c4] at h
          cases hr : readSamples z.2.1 z.1.sigs with
          | error b => rw [hr] at h; cases h
          | ok x =>
            rw [hr] at h
            cases h
            refine hbase _ _ rfl rfl rfl rfl fun hmin i v hv => ?_
            obtain ⟨s, hs, hl⟩ := readSamples_length hr i v hv
            obtain ⟨t, ht, ed⟩ := get_div hdv hs
            refine ⟨t, ht, ?_⟩
            have hz : z.2.1 = 0 := by omega
            rw [hz, Nat.zero_div] at hl
            exact Nat.le_trans hl (Nat.zero_le _)
        · rw [if_neg c4] at h
          cases h
          exact hbase z.1 [] rfl rfl rfl rfl fun _ => hnil
      · rw [if_neg c3] at h
        dsimp only at h
        by_cases c5 : z.2.2.1 = .synced ∧ 0 < z.2.1
        · rw [if_pos c5] at h
          cases hr : readSamples (min z.1.remaining z.2.1) z.1.sigs with
          | error b => rw [hr] at h; cases h
          | ok x =>
            rw [hr] at h
            cases h
            refine hbase _ _ rfl rfl rfl rfl fun hmin i v hv => ?_
            obtain ⟨s, hs, hl⟩ := readSamples_length hr i v hv
            obtain ⟨t, ht, ed⟩ := get_div hdv hs
            refine ⟨t, ht, Nat.le_trans hl ?_⟩
            rw [ed]
            exact Nat.div_le_div_right (by rw [hrem]; exact Nat.min_le_left _ _)
        · rw [if_neg c5] at h
          cases h
          exact hbase z.1 [] rfl rfl rfl rfl fun _ => hnil

/-- An event is announced only for a reader that has become invalid. -/
def Announced (m : MR) : Prop := m.nextEvent = true → m.invalid = true

theorem announced_step {cfg : Cfg} {m : MR} (h : Announced m) (op : Op) : Announced (step cfg m op).1 := by
  have hrp : ∀ {m' : MR} {y : MR × List (Option Ev) × List (List Tok)}, Announced m' → readPackets cfg m' = .ok y → Announced y.1 := by
    intro m' y ha hy hn
    have hw := readPackets_wrote hy
    exact hw.invalid (ha (by rw [← hw.nextEvent]; exact hn))
  have h' : Announced { m with calls := m.calls + 1 } := h
  cases op with
  | push i p =>
    show Announced (push { m with calls := m.calls + 1 } i p)
    revert h'
    generalize ({ m with calls := m.calls + 1 } : MR) = m
    intro h
    unfold push
    dsimp only
    split
    · rename_i hi
      split
      · exact h
      · exact fun _ => hi
    · exact h
  | read d c n =>
    show Announced (read cfg { m with calls := m.calls + 1 } d c n).1
    revert h'
    generalize ({ m with calls := m.calls + 1 } : MR) = m
    intro h
    unfold read
    split
    · exact h
    · split
      · split
        · exact h
        · rename_i hy; exact hrp h hy
      · split
        · exact h
        · split
          · exact h
          · split
            · exact h
            · dsimp only
              split
              · exact h
              · rename_i hy
                exact hrp (m' := { m with remaining := c / m.lcm * m.lcm, buf := if n = true then none else some m.calls }) h hy
  | skip c =>
    show Announced (skip cfg { m with calls := m.calls + 1 } c).1
    revert h'
    generalize ({ m with calls := m.calls + 1 } : MR) = m
    intro h
    unfold skip
    split
    · exact h
    · split
      · exact h
      · split
        · exact h
        · rename_i hy
          exact hrp (m' := { m with remaining := c, buf := none }) h hy
  | available =>
    show Announced (available cfg { m with calls := m.calls + 1 }).1
    revert h'
    generalize ({ m with calls := m.calls + 1 } : MR) = m
    intro h
    have hk := synchronize_kept cfg m
    have hs : Announced (synchronize cfg m).1 := fun hn => by
      rw [hk.invalid]
      exact h (by rw [← hk.nextEvent]; exact hn)
    unfold available
    dsimp only
    split
    · exact hs
    · split <;> exact hs
  | empty => exact h

theorem announced_run {cfg : Cfg} {ops : List Op} : ∀ {m : MR}, Announced m → Announced (run cfg m ops).1 := by
  induction ops with
  | nil => intro m h; exact h
  | cons op ops ih => intro m h; exact ih (announced_step h op)

end Verif.Multi
