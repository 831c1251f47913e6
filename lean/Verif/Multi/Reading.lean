import Verif.Multi.Spec

/-! # Reading samples of the signals -/

namespace Verif.Multi

open Spec

theorem samples_length (p : DP) : (samples p).length = p.n := by simp [samples]

theorem toks_append (a b : List (Tok × Int)) : toks (a ++ b) = toks a ++ toks b := by simp [toks]

theorem untilEvent_eq (q : List Pkt) : untilEvent q = ((front q).flatMap samples).length := by
  induction q with
  | nil => rfl
  | cons x q ih =>
    cases x with
    | data p => simp [untilEvent, front, ih, samples_length]
    | event e => rfl

theorem wrapSub_of_le {a b : Nat} (h : b ≤ a) : wrapSub a b = a - b := by simp [wrapSub, h]

theorem pending_length {s : Sig} (h : Within s) :
    (pending s).length = s.left + untilEvent s.queue := by
  unfold Within at h
  unfold Sig.left
  unfold pending
  rw [untilEvent_eq]
  cases hc : s.cur with
  | none => simp
  | some p =>
    rw [hc] at h
    simp [samples_length, wrapSub_of_le h]

theorem avail_false {s : Sig} (h : Within s) : s.avail false = (pending s).length * s.div := by
  rw [pending_length h]; simp [Sig.avail]

theorem range_slice (a : Nat) (n k : Nat) (h : k + a ≤ n) :
    ((List.range n).drop a).take k = (List.range k).map (a + ·) := by
  apply List.ext_getElem
  · simp; omega
  · intro i h1 h2; simp

theorem samples_slice (p : DP) (a k : Nat) (h : k + a ≤ p.n) :
    toks (((samples p).drop a).take k) = (List.range k).map fun i => (p.id, a + i) := by
  unfold samples toks
  rw [← List.map_drop, ← List.map_take, range_slice a p.n k h]
  simp [Function.comp_def]

/-- Reading from the packet at hand. -/
theorem takeCur_spec {s : Sig} (h : Within s) {rem : Nat} {l : List DP} {q : List Pkt} (hq : s.queue = l.map .data ++ q) :
    (s.takeCur rem).1.queue = s.queue ∧ Within (s.takeCur rem).1 ∧ (s.takeCur rem).1.sync = s.sync ∧
    (s.takeCur rem).1.div = s.div ∧ (s.takeCur rem).1.dom = s.dom ∧ (s.takeCur rem).1.rate = s.rate ∧
    (s.takeCur rem).1.invalid = s.invalid ∧
    (s.takeCur rem).2.2 + (s.takeCur rem).2.1.length = rem ∧
    (s.takeCur rem).2.1 = toks ((pending s).take (s.takeCur rem).2.1.length) ∧
    pending (s.takeCur rem).1 = (pending s).drop (s.takeCur rem).2.1.length ∧
    ((s.takeCur rem).2.2 ≠ 0 → (s.takeCur rem).1.cur = none ∧ (s.takeCur rem).1.prev = 0) := by
  unfold Within at h
  unfold Sig.takeCur
  by_cases hr : rem = 0
  · rw [if_pos hr]
    refine ⟨rfl, h, rfl, rfl, rfl, rfl, rfl, by simp [hr], by simp [toks], by simp, by simp⟩
  · rw [if_neg hr]
    cases hc : s.cur with
    | none =>
      rw [hc] at h
      refine ⟨rfl, by unfold Within; rw [hc]; exact h, rfl, rfl, rfl, rfl, rfl, by simp, by simp [toks], by simp, fun _ => ⟨hc, h⟩⟩
    | some p =>
      rw [hc] at h
      change s.prev ≤ p.n at h
      dsimp only
      rw [wrapSub_of_le h]
      have hk : min rem (p.n - s.prev) + s.prev ≤ p.n := by omega
      have hlen : (List.map (fun i => (p.id, s.prev + i)) (List.range (min rem (p.n - s.prev)))).length = min rem (p.n - s.prev) := by
        simp
      have htok : List.map (fun i => (p.id, s.prev + i)) (List.range (min rem (p.n - s.prev))) =
          toks ((pending s).take (min rem (p.n - s.prev))) := by
        unfold pending
        rw [hc]
        dsimp only
        rw [List.take_append_of_le_length (by simp [samples_length]; omega), samples_slice p _ _ hk]
      rw [hlen]
      by_cases hlt : min rem (p.n - s.prev) < p.n - s.prev
      · rw [if_pos hlt]
        refine ⟨rfl, ?_, rfl, rfl, rfl, rfl, rfl, by omega, htok, ?_, by intro h; omega⟩
        · simp only [Within, hc]; omega
        · unfold pending
          simp only [hc]
          rw [List.drop_append_of_le_length (by simp [samples_length]; omega), List.drop_drop]
      · rw [if_neg hlt]
        refine ⟨rfl, rfl, rfl, rfl, rfl, rfl, rfl, by omega, htok, ?_, fun _ => ⟨rfl, rfl⟩⟩
        unfold pending
        simp only [hc]
        rw [List.drop_append, List.drop_eq_nil_of_le (by simp [samples_length]; omega)]
        simp only [List.nil_append, List.length_drop, samples_length]
        rw [show min rem (p.n - s.prev) - (p.n - s.prev) = 0 by omega, List.drop_zero]

/-- What a reading of no more than the pending samples does. -/
structure ReadOk (s : Sig) (rem : Nat) (s' : Sig) (w : List Tok) : Prop where
  written : w = toks ((pending s).take rem)
  rest : pending s' = (pending s).drop rem
  within : Within s'
  sync : s'.sync = s.sync
  div : s'.div = s.div
  dom : s'.dom = s.dom
  rate : s'.rate = s.rate
  invalid : s'.invalid = s.invalid
  queue : ∃ l, s.queue = l ++ s'.queue ∧ ∀ x ∈ l, ∃ p, x = .data p

theorem readGo_spec {q : List Pkt} : ∀ {s : Sig}, s.queue = q → Within s → ∀ {rem : Nat}, rem ≤ (pending s).length →
    ∃ s' w, readGo q s rem = some (s', w) ∧ ReadOk s rem s' w := by
  induction q with
  | nil =>
    intro s hq h rem hr
    obtain ⟨h1, h2, h3, h4, h5, h6, h7, h8, h9, h10, h11⟩ := takeCur_spec (s := s) h (rem := rem) (l := []) (q := s.queue) rfl
    have hz : (s.takeCur rem).2.2 = 0 := by
      apply Classical.byContradiction
      intro hne
      obtain ⟨hcn, hp0⟩ := h11 hne
      have : (pending (s.takeCur rem).1).length = 0 := by unfold pending; rw [hcn, h1, hq]; simp [front]
      rw [h10, List.length_drop] at this
      omega
    rw [hz, Nat.zero_add] at h8
    rw [h8] at h9 h10
    refine ⟨{ (s.takeCur rem).1 with queue := [] }, (s.takeCur rem).2.1, by simp [readGo, hz], ?_⟩
    have he : { (s.takeCur rem).1 with queue := [] } = (s.takeCur rem).1 := by
      have := h1.trans hq
      cases ht : (s.takeCur rem).1; rw [ht] at this; simp at this; simp [this]
    rw [he]
    exact ⟨h9, h10, h2, h3, h4, h5, h6, h7, [], by simp [h1], by simp⟩
  | cons x q ih =>
    intro s hq h rem hr
    obtain ⟨h1, h2, h3, h4, h5, h6, h7, h8, h9, h10, h11⟩ := takeCur_spec (s := s) h (rem := rem) (l := []) (q := s.queue) rfl
    by_cases hz : (s.takeCur rem).2.2 = 0
    · rw [hz, Nat.zero_add] at h8
      rw [h8] at h9 h10
      have he : { (s.takeCur rem).1 with queue := x :: q } = (s.takeCur rem).1 := by
        have := h1.trans hq
        cases ht : (s.takeCur rem).1; rw [ht] at this; simp at this; simp [this]
      refine ⟨{ (s.takeCur rem).1 with queue := x :: q }, (s.takeCur rem).2.1, by cases x <;> simp [readGo, hz], ?_⟩
      rw [he]
      exact ⟨h9, h10, h2, h3, h4, h5, h6, h7, [], by simp [h1], by simp⟩
    · obtain ⟨hcn, hp0⟩ := h11 hz
      cases x with
      | event e =>
        exfalso
        have : (pending (s.takeCur rem).1).length = 0 := by unfold pending; rw [hcn, h1, hq]; simp [front]
        rw [h10, List.length_drop] at this
        omega
      | data p =>
        have hpend : pending { (s.takeCur rem).1 with cur := some p, queue := q } = (pending s).drop (s.takeCur rem).2.1.length := by
          rw [← h10]
          unfold pending
          simp [hp0, hcn, h1, hq, front]
        have key := ih (s := { (s.takeCur rem).1 with cur := some p, queue := q }) rfl
          (by simp only [Within, hp0]; omega) (rem := (s.takeCur rem).2.2) (by rw [hpend, List.length_drop]; omega)
        obtain ⟨s', w, hg, hk⟩ := key
        refine ⟨s', (s.takeCur rem).2.1 ++ w, by simp [readGo, hz, hg], ?_⟩
        have hlen : (s.takeCur rem).2.1.length + (s.takeCur rem).2.2 = rem := by omega
        obtain ⟨l, hl, hd⟩ := hk.queue
        refine ⟨?_, ?_, hk.within, hk.sync.trans h3, hk.div.trans h4, hk.dom.trans h5, hk.rate.trans h6, hk.invalid.trans h7,
          .data p :: l, ?_, ?_⟩
        · have e := congrArg (fun r => toks ((pending s).take r)) hlen
          rw [List.take_add, toks_append, ← h9] at e
          rw [hk.written, hpend]
          exact e
        · rw [hk.rest, hpend, List.drop_drop, hlen]
        · rw [hq]
          change q = l ++ s'.queue at hl
          rw [List.cons_append, ← hl]
        · intro x hx
          rcases List.mem_cons.mp hx with rfl | hx
          · exact ⟨p, rfl⟩
          · exact hd x hx

/-- `readSamples` on signals that all have enough samples. -/
inductive ReadAll (n : Nat) : List Sig → List Sig → List (List Tok) → Prop where
  | nil : ReadAll n [] [] []
  | cons {s s' : Sig} {w : List Tok} {r r' : List Sig} {ws : List (List Tok)} (h : ReadOk s (n / s.div) s' w)
      (hr : ReadAll n r r' ws) : ReadAll n (s :: r) (s' :: r') (w :: ws)

theorem readSamples_spec {n : Nat} {sigs : List Sig}
    (h : ∀ s ∈ sigs, Within s ∧ 0 < s.div ∧ n ≤ (pending s).length * s.div) :
    ∃ sigs' w, readSamples n sigs = .ok (sigs', w) ∧ ReadAll n sigs sigs' w := by
  induction sigs with
  | nil => exact ⟨[], [], rfl, .nil⟩
  | cons s r ih =>
    obtain ⟨hw, hd, hn⟩ := h s (by simp)
    obtain ⟨r', ws, hr, hall⟩ := ih fun t ht => h t (by simp [ht])
    obtain ⟨s', w, hg, hok⟩ := readGo_spec (s := s) rfl hw (rem := n / s.div)
      (Nat.div_le_of_le_mul (by rw [Nat.mul_comm]; exact hn))
    refine ⟨s' :: r', w :: ws, ?_, .cons hok hall⟩
    unfold readSamples
    rw [if_neg (by omega), hg, hr]

theorem ReadAll.get {n : Nat} {sigs sigs' : List Sig} {w : List (List Tok)} (h : ReadAll n sigs sigs' w) {i : Nat} {s : Sig}
    (hi : sigs[i]? = some s) : ∃ s' v, sigs'[i]? = some s' ∧ w[i]? = some v ∧ ReadOk s (n / s.div) s' v := by
  induction h generalizing i with
  | nil => simp at hi
  | cons ho hr ih =>
    cases i with
    | zero => simp only [List.getElem?_cons_zero, Option.some.injEq] at hi; subst hi; exact ⟨_, _, by simp, by simp, ho⟩
    | succ i => simp only [List.getElem?_cons_succ] at hi ⊢; exact ih hi

theorem ReadAll.mem {n : Nat} {sigs sigs' : List Sig} {w : List (List Tok)} (h : ReadAll n sigs sigs' w) {s' : Sig}
    (hs : s' ∈ sigs') : ∃ s ∈ sigs, ∃ v, ReadOk s (n / s.div) s' v := by
  induction h with
  | nil => simp at hs
  | cons ho hr ih =>
    rcases List.mem_cons.mp hs with rfl | hs
    · exact ⟨_, by simp, _, ho⟩
    · obtain ⟨s, h1, h2⟩ := ih hs
      exact ⟨s, by simp [h1], h2⟩

theorem ReadAll.length {n : Nat} {sigs sigs' : List Sig} {w : List (List Tok)} (h : ReadAll n sigs sigs' w) :
    sigs'.length = sigs.length := by
  induction h with
  | nil => rfl
  | cons _ _ ih => simp [ih]

theorem foldl_min_le (l : List Nat) (a : Nat) : l.foldl min a ≤ a ∧ ∀ x ∈ l, l.foldl min a ≤ x := by
  induction l generalizing a with
  | nil => simp
  | cons b l ih =>
    obtain ⟨h1, h2⟩ := ih (min a b)
    refine ⟨by rw [List.foldl_cons]; omega, ?_⟩
    intro x hx
    rw [List.foldl_cons]
    rcases List.mem_cons.mp hx with rfl | hx
    · omega
    · exact h2 x hx

theorem minAvail_le {sigs : List Sig} {s : Sig} (h : s ∈ sigs) : minAvail sigs ≤ if s.cur.isNone then 0 else s.avail false :=
  (foldl_min_le _ _).2 _ (List.mem_map_of_mem h)

theorem minAvail_le_pending {sigs : List Sig} {s : Sig} (h : s ∈ sigs) (hw : Within s) :
    minAvail sigs ≤ (pending s).length * s.div := by
  have := minAvail_le h
  split at this
  · omega
  · rw [avail_false hw] at this; exact this

/-- Only data is waiting. -/
def DataOnly (s : Sig) : Prop := ∀ x ∈ s.queue, ∃ p, x = .data p

/-- A signal from which data flows. -/
structure Live (s : Sig) : Prop where
  within : Within s
  data : DataOnly s
  div : 0 < s.div
  sync : s.sync = .synced
  valid : s.invalid = false

theorem isFirst_live {s : Sig} (h : Live s) :
    s.isFirst.2 = false ∧ Live s.isFirst.1 ∧ pending s.isFirst.1 = pending s ∧ s.isFirst.1.div = s.div := by
  unfold Sig.isFirst
  cases hc : s.cur with
  | some p => exact ⟨rfl, h, rfl, rfl⟩
  | none =>
    cases hq : s.queue with
    | nil => exact ⟨rfl, h, rfl, rfl⟩
    | cons x q =>
      obtain ⟨p, rfl⟩ := h.data x (by simp [hq])
      refine ⟨rfl, ⟨Nat.zero_le _, fun y hy => h.data y (by simp [hq, show y ∈ q from hy]), h.div, h.sync, h.valid⟩, ?_, rfl⟩
      simp [pending, hc, hq, front]

theorem readUntil_live {s : Sig} (h : Live s) : s.readUntil = (s.isFirst.1, none) := by
  unfold Sig.readUntil
  simp [(isFirst_live h).1]

theorem syncStatus_live {sigs : List Sig} (h : ∀ s ∈ sigs, Live s) (hne : sigs ≠ []) : syncStatus sigs = .synced := by
  cases sigs with
  | nil => exact absurd rfl hne
  | cons s r =>
    unfold syncStatus
    have h1 : ((s :: r).any fun s => s.sync == .unsync) = false := by
      rw [List.any_eq_false]; intro t ht; simp [(h t ht).sync]
    have h2 : ((s :: r).any fun s => s.sync == .syncing) = false := by
      rw [List.any_eq_false]; intro t ht; simp [(h t ht).sync]
    simp [h1, h2]

theorem ReadOk.live {s s' : Sig} {n : Nat} {w : List Tok} (h : ReadOk s n s' w) (hs : Live s) : Live s' := by
  refine ⟨h.within, ?_, by rw [h.div]; exact hs.div, by rw [h.sync]; exact hs.sync, by rw [h.invalid]; exact hs.valid⟩
  obtain ⟨l, hl, _⟩ := h.queue
  intro x hx
  exact hs.data x (by rw [hl]; simp [hx])

end Verif.Multi
