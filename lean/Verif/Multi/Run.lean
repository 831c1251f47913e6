import Verif.Multi.Phase

/-! # Whole runs, from the first packets on -/

namespace Verif.Multi

open Spec

/-- The second half of `readAndSynchronize` when there are no events. -/
def afterSync (cfg : Cfg) (y : MR × Nat × Sync × Bool) (zero : Bool) : RS :=
  if y.2.2.2 then .stop y.1 [] []
  else if zero then
    if y.2.1 < cfg.minRead ∧ y.1.sigs.any (fun s => s.queue.any fun p => !p.isData) then
      match readSamples y.2.1 y.1.sigs with
      | .error b => .bad b
      | .ok x => .stop { y.1 with sigs := x.1 } [] x.2
    else .stop y.1 [] []
  else .go y.1 y.2.1 y.2.2.1

theorem readAndSync_settled {cfg : Cfg} {m : MR} (hs : ∀ s ∈ m.sigs, s.isFirst = (s, false)) (hv : ∀ s ∈ m.sigs, s.invalid = false)
    (hi : m.invalid = false) (z : Bool) : readAndSync cfg m z = afterSync cfg (synchronize cfg m) z := by
  have hru : m.sigs.map Sig.readUntil = m.sigs.map fun s => (s, none) :=
    List.map_congr_left fun s h => by
      unfold Sig.readUntil
      rw [hs s h]
      rfl
  unfold readAndSync
  dsimp only
  rw [hru]
  have e1 : (m.sigs.map fun s => (s, (none : Option Ev))).map (·.1) = m.sigs := by
    rw [List.map_map]
    exact List.map_id' _
  have e2 : ((m.sigs.map fun s => (s, (none : Option Ev))).any fun x => x.1.invalid) = false := by
    rw [List.any_eq_false]
    intro x hx
    obtain ⟨s, h, rfl⟩ := List.mem_map.mp hx
    rw [hv s h]
    decide
  have e3 : (((m.sigs.map fun s => (s, (none : Option Ev))).map (·.2)).any (·.isSome)) = false := by
    rw [List.any_eq_false]
    intro x hx
    obtain ⟨y, hy, rfl⟩ := List.mem_map.mp hx
    obtain ⟨s, h, rfl⟩ := List.mem_map.mp hy
    simp
  rw [e1, e2, e3]
  have e4 : ({ m with sigs := m.sigs, invalid := m.invalid || false } : MR) = m := by
    cases m
    simp
  have e5 : ({ m with sigs := m.sigs, invalid := m.invalid || false } : MR) = { m with invalid := m.invalid || false } := rfl
  rw [e4] at e5
  rw [e4]
  rfl

/-- The phases before reading. -/
structure Pre (m : MR) : Prop where
  settled : ∀ s ∈ m.sigs, s.isFirst = (s, false)
  sound : ∀ s ∈ m.sigs, s.invalid = false
  data : ∀ s ∈ m.sigs, DataOnly s
  valid : m.invalid = false
  quiet : m.nextEvent = false
  unit : 0 < m.lcm

theorem Seeking.pre {D : Nat → Dom} {T : Int} {δ : Nat → Int} {L : Nat → List (Tok × Int)} {m : MR} (h : Seeking D T δ L m) :
    Pre m := by
  have hx : ∀ s ∈ m.sigs, ∃ i, Seeks (D i) T (δ i) s (L i) := fun s hs => by
    obtain ⟨i, hi⟩ := List.mem_iff_getElem?.mp hs
    exact ⟨i, h.sigs i s hi⟩
  refine ⟨fun s hs => ?_, fun s hs => ?_, fun s hs => ?_, h.valid, h.quiet, h.unit⟩ <;> obtain ⟨i, hi⟩ := hx s hs
  · exact hi.settled
  · exact hi.valid
  · exact hi.data

theorem Waiting.pre {cfg : Cfg} {x : Int × Int × Int} {D : Nat → Dom} {T : Int} {δ : Nat → Int}
    {L : Nat → List (Tok × Int)} {m : MR} (h : Waiting cfg x D T δ L m) : Pre m := by
  have hx : ∀ s ∈ m.sigs, ∃ i, Waits x (D i) (δ i) s (L i) := fun s hs => by
    obtain ⟨i, hi⟩ := List.mem_iff_getElem?.mp hs
    exact ⟨i, h.sigs i s hi⟩
  refine ⟨fun s hs => ?_, fun s hs => ?_, fun s hs => ?_, h.valid, h.quiet, h.unit⟩ <;> obtain ⟨i, hi⟩ := hx s hs
  · exact hi.settled
  · exact hi.valid
  · exact hi.data

theorem Seeking.flowing {D : Nat → Dom} {T : Int} {δ : Nat → Int} {L : Nat → List (Tok × Int)} {m : MR} (h : Seeking D T δ L m)
    (hs : syncStatus m.sigs = .synced) : Flowing m ∧ ∀ (i : Nat) (s : Sig), m.sigs[i]? = some s →
      pending s = (L i).dropWhile (before (D i) T) ∧ (L i).dropWhile (before (D i) T) ≠ [] := by
  have hsy := status_synced hs
  refine ⟨⟨fun s hm => ?_, h.nonempty, h.valid, h.quiet, h.unit⟩, fun i s hi => ?_⟩
  · obtain ⟨i, hi⟩ := List.mem_iff_getElem?.mp hm
    exact ((h.sigs i s hi).live (hsy s hm)).1
  · exact ((h.sigs i s hi).live (hsy s (List.mem_of_getElem? hi))).2

/-- A call of `readPackets` before the reader is synchronised: nothing is read, or it is as if the reader had been synchronised
first. -/
theorem readPackets_pre {cfg : Cfg} {D : Nat → Dom} {T : Int} {δ : Nat → Int} {L : Nat → List (Tok × Int)} {m m' : MR} {a : Nat}
    {st : Sync} (hp : Pre m) (h : SyncOk cfg D T δ L m m' a st) :
    (st ≠ .synced ∧ readPackets cfg m = .ok (m', [], [])) ∨
    (Flowing m' ∧ (∀ (i : Nat) (s : Sig), m'.sigs[i]? = some s →
      pending s = (L i).dropWhile (before (D i) T) ∧ (L i).dropWhile (before (D i) T) ≠ []) ∧
      readPackets cfg m = readPackets cfg m') := by
  have hz : (m'.sigs.any fun s => s.queue.any fun p => !p.isData) = false := by
    rw [List.any_eq_false]
    intro s hs
    rw [Bool.not_eq_true, List.any_eq_false]
    intro p hq
    obtain ⟨d, rfl⟩ := h.seek.pre.data s hs p hq
    simp [Pkt.isData]
  have e := readAndSync_settled (cfg := cfg) hp.settled hp.sound hp.valid
  by_cases hst : st = .synced
  · right
    obtain ⟨hf, hl⟩ := h.seek.flowing (h.status ▸ hst)
    refine ⟨hf, hl, ?_⟩
    have e' := readAndSync_settled (cfg := cfg) h.seek.pre.settled h.seek.pre.sound h.seek.pre.valid
    unfold readPackets
    rw [e, e', h.eq, synchronize_live hf, h.same.2.1, h.avail hst, hst]
  · left
    refine ⟨hst, ?_⟩
    unfold readPackets
    rw [e, h.eq]
    unfold afterSync
    dsimp only
    rw [hz]
    cases hr : (m.remaining == 0)
    · simp [hst]
    · simp

/-- The reader before it is synchronised. -/
def Early (cfg : Cfg) (x : Int × Int × Int) (D : Nat → Dom) (T : Int) (δ : Nat → Int) (L : Nat → List (Tok × Int)) (m : MR) : Prop :=
  Seeking D T δ L m ∨ Waiting cfg x D T δ L m

section

variable {cfg : Cfg} {x : Int × Int × Int} {D : Nat → Dom} {T : Int} {δ : Nat → Int} {L : Nat → List (Tok × Int)} {m : MR}

theorem Early.pre (h : Early cfg x D T δ L m) : Pre m := h.elim Seeking.pre Waiting.pre

theorem Early.synchronize (h : Early cfg x D T δ L m) (hg : AllGood D T δ L m.sigs.length) :
    ∃ m' a st, SyncOk cfg D T δ L m m' a st := h.elim (fun h => h.synchronize hg) (fun h => h.synchronize hg)

theorem Early.prep (h : Early cfg x D T δ L m) (k : Nat) (b : Option Nat) : Early cfg x D T δ L { m with remaining := k, buf := b } :=
  h.elim (fun h => Or.inl ⟨h.nonempty, h.valid, h.quiet, h.unit, h.start, h.sigs, h.begun⟩)
    (fun h => Or.inr ⟨h.nonempty, h.valid, h.quiet, h.unit, h.info, h.goal, h.sigs, h.unsync⟩)

theorem Early.tick (h : Early cfg x D T δ L m) (k : Nat) : Early cfg x D T δ L { m with calls := k } :=
  h.elim (fun h => Or.inl ⟨h.nonempty, h.valid, h.quiet, h.unit, h.start, h.sigs, h.begun⟩)
    (fun h => Or.inr ⟨h.nonempty, h.valid, h.quiet, h.unit, h.info, h.goal, h.sigs, h.unsync⟩)

/-- What a call before synchronisation does: nothing is delivered, or the samples from the target on are. -/
def Outcome (cfg : Cfg) (x : Int × Int × Int) (D : Nat → Dom) (T : Int) (δ : Nat → Int) (L' : Nat → List (Tok × Int)) (m m' : MR)
    (res : Res) : Prop :=
  (∀ b, res ≠ .bad b) ∧ m'.lcm = m.lcm ∧ m'.sigs.length = m.sigs.length ∧
  ((Early cfg x D T δ L' m' ∧ (∀ i, delivered i [res] = []) ∧ (∀ n ∈ counts [res], n = 0) ∧
      ∀ (i : Nat) (s : Sig), m.sigs[i]? = some s → ∃ s', m'.sigs[i]? = some s' ∧ s'.div = s.div) ∨
    (Flowing m' ∧ ∀ (i : Nat) (s : Sig), m.sigs[i]? = some s → ∃ s', m'.sigs[i]? = some s' ∧ s'.div = s.div ∧
      (L' i).dropWhile (before (D i) T) ≠ [] ∧
      ((counts [res]).map (· / s.div)).sum ≤ ((L' i).dropWhile (before (D i) T)).length ∧
      pending s' = ((L' i).dropWhile (before (D i) T)).drop ((counts [res]).map (· / s.div)).sum ∧
      delivered i [res] = toks (((L' i).dropWhile (before (D i) T)).take ((counts [res]).map (· / s.div)).sum)))

theorem outcome_stay {res : Res} (h : Early cfg x D T δ L m) (hb : ∀ b, res ≠ .bad b) (hd : ∀ i, delivered i [res] = [])
    (hc : ∀ n ∈ counts [res], n = 0) : Outcome cfg x D T δ L m m res :=
  ⟨hb, rfl, rfl, Or.inl ⟨h, hd, hc, fun _ s hi => ⟨s, hi, rfl⟩⟩⟩

/-- A call that reads. -/
theorem early_read (h : Early cfg x D T δ L m) (hg : AllGood D T δ L m.sigs.length) (k : Nat) (b : Option Nat) :
    ∃ y, readPackets cfg { m with remaining := k, buf := b } = .ok y ∧ y.2.1 = [] ∧
      ∀ b2, Outcome cfg x D T δ L m y.1 (.read (k - y.1.remaining) [] y.2.2 b2) := by
  have h' := h.prep k b
  obtain ⟨m', a, st, hs⟩ := h'.synchronize (cfg := cfg) hg
  obtain ⟨s1, s2, s3, s4, s5, s6⟩ := hs.same
  rcases readPackets_pre h'.pre hs with ⟨_, e⟩ | ⟨hf, hl, e⟩
  · refine ⟨_, e, rfl, fun b2 => ⟨(fun b h => by cases h), s1, s5, Or.inl ⟨Or.inl hs.seek, fun i => by simp [delivered], ?_, s6⟩⟩⟩
    intro n hn
    simp only [counts, List.mem_singleton] at hn
    rw [hn]
    show k - m'.remaining = 0
    rw [s2]
    show k - k = 0
    omega
  · obtain ⟨m2, w, k2, e1, e2, e3, e4, e5, e6, e7, _⟩ := readPackets_live (cfg := cfg) hf
    rw [e1] at e
    refine ⟨_, e, rfl, fun b2 => ⟨(fun b h => by cases h), e6.trans s1, e5.1.trans s5, Or.inr ⟨e2, ?_⟩⟩⟩
    intro i s hi
    obtain ⟨s', g1, g2⟩ := s6 i s hi
    obtain ⟨s'', g3, g4, g5, g6, g7⟩ := e5.2 i s' g1
    obtain ⟨l1, l2⟩ := hl i s' g1
    have hk : k - m2.remaining = k2 := by
      rw [e4, s2]
      rw [s2] at e3
      change k2 ≤ k at e3
      show k - (k - k2) = k2
      omega
    refine ⟨s'', g3, g4.trans g2, l2, ?_⟩
    have hsum : ((counts [Res.read (k - m2.remaining) [] w b2]).map (· / s.div)).sum = k2 / s.div := by
      rw [hk]
      simp [counts]
    dsimp only
    rw [hsum, ← l1, ← g2]
    refine ⟨g7, g5, ?_⟩
    rw [← g6]
    simp [delivered]

theorem ready_quiet {sigs : List Sig} (h : ∀ s ∈ sigs, s.isFirst.2 = false) (b : Bool) :
    (ready sigs b).1 = sigs.map fun s => s.isFirst.1 := by
  induction sigs generalizing b with
  | nil => rfl
  | cons s r ih =>
    unfold ready
    dsimp only
    rw [h s (by simp)]
    simp only [Bool.false_eq_true, if_false, List.map_cons]
    rw [ih fun t ht => h t (List.mem_cons_of_mem _ ht)]

theorem ready_settled {sigs : List Sig} (h : ∀ s ∈ sigs, s.isFirst = (s, false)) (b : Bool) : (ready sigs b).1 = sigs := by
  rw [ready_quiet (fun s hs => by rw [h s hs]) b]
  conv => rhs; rw [← List.map_id sigs]
  exact List.map_congr_left fun s hs => by rw [h s hs]; rfl

theorem modify_map {α β : Type} (g : α → β) {f : α → α} (h : ∀ a, g (f a) = g a) (l : List α) (j : Nat) :
    (l.modify j f).map g = l.map g := by
  apply List.ext_getElem?
  intro i
  rw [List.getElem?_map, List.getElem?_map, List.getElem?_modify]
  by_cases hij : j = i
  · cases l[i]? with
    | none => simp
    | some a => simp [hij, h]
  · simp [hij]

theorem startInfo_congr {a b : List Sig} (h : a.map (·.dom) = b.map (·.dom)) : startInfo a = startInfo b := by
  cases a with
  | nil => cases b with
    | nil => rfl
    | cons t r => cases h
  | cons s l => cases b with
    | nil => cases h
    | cons t r =>
      rw [List.map_cons, List.map_cons] at h
      injection h with h1 h2
      unfold startInfo
      dsimp only
      rw [h1]
      cases t.dom with
      | none => rfl
      | some d =>
        dsimp only
        generalize some (d.epoch, d.num, d.den) = acc
        induction l generalizing r acc with
        | nil => cases r with
          | nil => rfl
          | cons u r => cases h2
        | cons v l ih => cases r with
          | nil => cases h2
          | cons u r =>
            rw [List.map_cons, List.map_cons] at h2
            injection h2 with h3 h4
            rw [List.foldl_cons, List.foldl_cons, h3]
            exact ih _ h4 _

theorem latest_congr {a b : List Sig} (h : a.map Sig.startTick = b.map Sig.startTick) : ∀ o, latest o a = latest o b := by
  induction a generalizing b with
  | nil => cases b with
    | nil => intro o; rfl
    | cons t r => cases h
  | cons s l ih => cases b with
    | nil => cases h
    | cons t r =>
      rw [List.map_cons, List.map_cons] at h
      injection h with h1 h2
      intro o
      have key := ih h2
      unfold latest at key ⊢
      rw [List.foldl_cons, List.foldl_cons, h1]
      exact key _

/-- A packet arrives before synchronisation. -/
theorem early_push (h : Early cfg x D T δ L m) (j : Nat) (p : DP) (hp : j < m.sigs.length → p.delta = δ j) :
    Outcome cfg x D T δ (fun i => L i ++ given i [.push j (.data p)]) m (push m j (.data p)) .none := by
  have hgiv : ∀ i, given i [.push j (.data p)] = if i = j then samples p else [] := fun i => by simp [given]
  have hmem : ∀ s ∈ m.sigs.modify j (fun s => { s with queue := s.queue ++ [.data p] }),
      ∃ t ∈ m.sigs, s = t ∨ s = { t with queue := t.queue ++ [.data p] } := by
    intro s hs
    obtain ⟨i, hi⟩ := List.mem_iff_getElem?.mp hs
    rw [List.getElem?_modify] at hi
    cases hg : m.sigs[i]? with
    | none => rw [hg] at hi; simp at hi
    | some t =>
      rw [hg] at hi
      refine ⟨t, List.mem_of_getElem? hg, ?_⟩
      by_cases hij : j = i
      · right; simpa [hij] using hi.symm
      · left; simpa [hij] using hi.symm
  have hlen : ∀ (i : Nat) (s : Sig), m.sigs[i]? = some s → i < m.sigs.length := fun i s hi =>
    (List.getElem?_eq_some_iff.mp hi).1
  have hquiet : ∀ s ∈ m.sigs.modify j (fun s => { s with queue := s.queue ++ [.data p] }), s.isFirst.2 = false := by
    intro s hs
    obtain ⟨t, ht, e⟩ := hmem s hs
    rcases e with rfl | rfl
    · rw [h.pre.settled s ht]
    · unfold Sig.isFirst
      cases hc : t.cur with
      | some c => rfl
      | none =>
        have := h.pre.settled t ht
        unfold Sig.isFirst at this
        rw [hc] at this
        dsimp only at this ⊢
        cases hq : t.queue with
        | nil => rfl
        | cons y q =>
          rw [hq] at this
          cases y with
          | data d => rfl
          | event e => cases this
  have e : push m j (.data p) = { m with sigs := ((m.sigs.modify j fun s => { s with queue := s.queue ++ [.data p] }).map
      (fun s => s.isFirst.1)) } := by
    unfold push
    rw [h.pre.valid, ← ready_quiet hquiet true]
    simp [h.pre.valid]
  have hget : ∀ (i : Nat) (s : Sig), m.sigs[i]? = some s → (push m j (.data p)).sigs[i]? =
      some (if j = i then ({ s with queue := s.queue ++ [.data p] } : Sig).isFirst.1 else s) := by
    intro i s hi
    rw [e]
    show ((m.sigs.modify j fun s => { s with queue := s.queue ++ [.data p] }).map fun s => s.isFirst.1)[i]? = _
    rw [List.getElem?_map, List.getElem?_modify, hi]
    by_cases hij : j = i
    · simp [hij]
    · simp [hij, h.pre.settled s (List.mem_of_getElem? hi)]
  have hlen2 : (push m j (.data p)).sigs.length = m.sigs.length := by rw [e]; simp
  have hback : ∀ (i : Nat) (s : Sig), (push m j (.data p)).sigs[i]? = some s → ∃ t, m.sigs[i]? = some t ∧
      s = if j = i then ({ t with queue := t.queue ++ [.data p] } : Sig).isFirst.1 else t := by
    intro i s hi
    obtain ⟨hlt, _⟩ := List.getElem?_eq_some_iff.mp hi
    rw [hlen2] at hlt
    refine ⟨m.sigs[i], List.getElem?_eq_getElem hlt, ?_⟩
    rw [hget i _ (List.getElem?_eq_getElem hlt)] at hi
    injection hi with hi
    exact hi.symm
  have hne : (push m j (.data p)).sigs ≠ [] → (push m j (.data p)).sigs ≠ [] := id
  refine ⟨(fun b h => by cases h), by rw [e], hlen2, Or.inl ⟨?_, fun i => rfl, (fun n hn => by cases hn), ?_⟩⟩
  · rcases h with h | h
    · left
      have hsig : ∀ (i : Nat) (s : Sig), (push m j (.data p)).sigs[i]? = some s →
          Seeks (D i) T (δ i) s (L i ++ given i [.push j (.data p)]) := by
        intro i s hi
        obtain ⟨t, ht, rfl⟩ := hback i s hi
        have hs := h.sigs i t ht
        rw [hgiv]
        by_cases hij : j = i
        · subst hij
          rw [if_pos rfl, if_pos rfl]
          exact (hs.push (hp (hlen j t ht))).1
        · rw [if_neg hij, if_neg (fun hh => hij hh.symm), List.append_nil]
          exact hs
      have hn : (push m j (.data p)).sigs ≠ [] := fun hh => h.nonempty (List.length_eq_zero_iff.mp (by rw [← hlen2, hh]; rfl))
      refine ⟨hn, by rw [e]; exact h.valid, by rw [e]; exact h.quiet, by rw [e]; exact h.unit, by rw [e]; exact h.start, hsig, status_begun ?_ hn⟩
      intro s hs
      obtain ⟨i, hi⟩ := List.mem_iff_getElem?.mp hs
      exact (hsig i s hi).begun
    · right
      have hn : (push m j (.data p)).sigs ≠ [] := fun hh => h.nonempty (List.length_eq_zero_iff.mp (by rw [← hlen2, hh]; rfl))
      have hstay : ∀ s ∈ m.sigs, ({ s with queue := s.queue ++ [.data p] } : Sig).isFirst.1 = { s with queue := s.queue ++ [.data p] } := by
        intro s hs
        obtain ⟨i, hi⟩ := List.mem_iff_getElem?.mp hs
        obtain ⟨c, hc, _⟩ := (h.sigs i s hi).cur
        unfold Sig.isFirst
        simp [hc]
      have hsigs : (push m j (.data p)).sigs = m.sigs.modify j fun s => { s with queue := s.queue ++ [.data p] } := by
        apply List.ext_getElem?
        intro i
        cases hg : m.sigs[i]? with
        | none =>
          rw [List.getElem?_modify, hg]
          have : m.sigs.length ≤ i := List.getElem?_eq_none_iff.mp hg
          rw [List.getElem?_eq_none_iff.mpr (by rw [hlen2]; exact this)]
          simp
        | some s =>
          rw [hget i s hg, List.getElem?_modify, hg]
          by_cases hij : j = i
          · rw [if_pos hij, hstay s (List.mem_of_getElem? hg)]
            simp [hij]
          · simp [hij]
      obtain ⟨v, hv, hT⟩ := h.goal
      refine ⟨hn, by rw [e]; exact h.valid, by rw [e]; exact h.quiet, by rw [e]; exact h.unit, ?_, ⟨v, ?_, ?_⟩, ?_, ?_⟩
      · rw [hsigs, ← h.info]
        exact startInfo_congr (modify_map (fun s : Sig => s.dom) (f := fun s : Sig => { s with queue := s.queue ++ [.data p] }) (fun _ => rfl) _ _)
      · rw [hsigs, ← hv]
        have e0 : (push m j (.data p)).start = m.start := by rw [e]
        rw [e0]
        refine latest_congr ?_ _
        unfold adj
        rw [List.map_map, List.map_map]
        exact modify_map _ (f := fun s : Sig => { s with queue := s.queue ++ [.data p] }) (fun _ => rfl) _ _
      · rw [e]; exact hT
      · intro i s hi
        obtain ⟨t, ht, rfl⟩ := hback i s hi
        have hs := h.sigs i t ht
        rw [hgiv]
        by_cases hij : j = i
        · subst hij
          rw [if_pos rfl, if_pos rfl, hstay t (List.mem_of_getElem? ht)]
          have hfr : front (t.queue ++ [.data p]) = front t.queue ++ [p] := front_append hs.data p
          refine ⟨hs.cur, hs.dom, ?_, hs.div, hs.valid, ?_, ?_⟩
          · intro y hy
            rcases List.mem_append.mp hy with hy | hy
            · exact hs.data y hy
            · exact ⟨p, by simpa using hy⟩
          · intro q hq
            change q ∈ front (t.queue ++ [.data p]) at hq
            rw [hfr] at hq
            rcases List.mem_append.mp hq with hq | hq
            · exact hs.deltas q hq
            · rw [List.mem_singleton.mp hq]; exact hp (hlen j t ht)
          · rw [← hs.all]
            unfold whole pending
            dsimp only
            rw [hfr, List.flatMap_append]
            simp
        · rw [if_neg hij, if_neg (fun hh => hij hh.symm), List.append_nil]
          exact hs
      · obtain ⟨s, hs, hu⟩ := status_unsync h.nonempty h.unsync
        obtain ⟨i, hi⟩ := List.mem_iff_getElem?.mp hs
        have : ∃ s' ∈ (push m j (.data p)).sigs, s'.sync = .unsync := by
          refine ⟨_, List.mem_of_getElem? (hget i s hi), ?_⟩
          by_cases hij : j = i
          · rw [if_pos hij, hstay s hs]; exact hu
          · rw [if_neg hij]; exact hu
        obtain ⟨s', hs', hu'⟩ := this
        cases hm : (push m j (.data p)).sigs with
        | nil => rw [hm] at hs'; cases hs'
        | cons a r =>
          rw [hm] at hs'
          rw [status_cons, if_pos]
          exact List.any_eq_true.mpr ⟨s', hs', by rw [hu']; rfl⟩
  · intro i s hi
    refine ⟨_, hget i s hi, ?_⟩
    by_cases hij : j = i
    · rw [if_pos hij]
      unfold Sig.isFirst
      dsimp only
      split
      · rfl
      · split <;> rfl
    · rw [if_neg hij]

theorem early_readOp (h : Early cfg x D T δ L m) (hg : AllGood D T δ L m.sigs.length) (d : Bool) (c : Nat) :
    Outcome cfg x D T δ L m (read cfg m d c false).1 (read cfg m d c false).2 := by
  unfold read
  split
  · exact outcome_stay h (fun b h => by cases h) (fun i => rfl) (fun n hn => by cases hn)
  · rw [if_neg (by rw [h.pre.quiet]; decide), if_neg (by rw [h.pre.valid]; decide), if_neg (by have := h.pre.unit; omega), if_neg (by simp)]
    dsimp only
    obtain ⟨y, e1, e2, e3⟩ := early_read h hg (c / m.lcm * m.lcm) (some m.calls)
    rw [if_neg (by decide)]
    rw [e1]
    dsimp only
    rw [e2]
    exact e3 _

theorem early_skipOp (h : Early cfg x D T δ L m) (hg : AllGood D T δ L m.sigs.length) (c : Nat) :
    Outcome cfg x D T δ L m (skip cfg m c).1 (skip cfg m c).2 := by
  unfold skip
  rw [if_neg (by rw [h.pre.valid]; decide)]
  split
  · exact outcome_stay h (fun b h => by cases h) (fun i => rfl) (fun n hn => by cases hn)
  · obtain ⟨y, e1, e2, e3⟩ := early_read h hg c none
    rw [e1]
    dsimp only
    rw [e2]
    exact e3 _

theorem early_availOp (h : Early cfg x D T δ L m) (hg : AllGood D T δ L m.sigs.length) :
    Outcome cfg x D T δ L m (available cfg m).1 (available cfg m).2 := by
  obtain ⟨m', a, st, hs⟩ := h.synchronize (cfg := cfg) hg
  unfold available
  dsimp only
  rw [hs.eq]
  dsimp only
  rw [if_neg (by decide), if_neg (by have := hs.seek.unit; rintro ⟨_, h0⟩; omega)]
  obtain ⟨s1, s2, s3, s4, s5, s6⟩ := hs.same
  exact ⟨(fun b h => by cases h), s1, s5, Or.inl ⟨Or.inl hs.seek, fun i => rfl, (fun n hn => by cases hn), s6⟩⟩

/-- The calls while data flows, with the distance of samples of each signal. -/
def FlowD (δ : Nat → Int) (n : Nat) (op : Op) : Prop :=
  Flow op ∧ ∀ j p, op = .push j (.data p) → j < n → p.delta = δ j

theorem early_step (h : Early cfg x D T δ L m) (hg : AllGood D T δ L m.sigs.length) {op : Op} (hop : FlowD δ m.sigs.length op) :
    Outcome cfg x D T δ (fun i => L i ++ given i [op]) m (step cfg m op).1 (step cfg m op).2 := by
  have hc := h.tick (m.calls + 1)
  have lift : ∀ {L' : Nat → List (Tok × Int)} {m' : MR} {r : Res}, Outcome cfg x D T δ L' { m with calls := m.calls + 1 } m' r →
    Outcome cfg x D T δ L' m m' r := fun y => y
  have hnil : ∀ op' : Op, (∀ i, given i [op'] = []) → (fun i => L i ++ given i [op']) = L := fun op' ho => by
    funext i
    rw [ho i, List.append_nil]
  cases op with
  | push j y =>
    cases y with
    | event e => exact absurd hop.1 (by simp [Flow])
    | data p => exact lift (early_push hc j p (hop.2 j p rfl))
  | read d c null =>
    have hn : null = false := hop.1
    subst hn
    rw [hnil _ (fun i => rfl)]
    apply lift
    show Outcome cfg x D T δ L _ (read cfg { m with calls := m.calls + 1 } d c false).1 _
    exact early_readOp hc hg d c
  | skip c =>
    rw [hnil _ (fun i => rfl)]
    exact lift (early_skipOp hc hg c)
  | available =>
    rw [hnil _ (fun i => rfl)]
    exact lift (early_availOp hc hg)
  | empty =>
    rw [hnil _ (fun i => rfl)]
    apply lift
    show Outcome cfg x D T δ L _ (empty { m with calls := m.calls + 1 }).1 _
    have e : (empty { m with calls := m.calls + 1 }).1 = { m with calls := m.calls + 1 } := by
      unfold empty
      dsimp only
      rw [ready_settled hc.pre.settled]
    rw [e]
    exact outcome_stay hc (fun b h => by cases h) (fun i => rfl) (fun n hn => by cases hn)

/-- The reader at the end of a run. -/
def Ended (cfg : Cfg) (x : Int × Int × Int) (D : Nat → Dom) (T : Int) (δ : Nat → Int) (L' : Nat → List (Tok × Int)) (m m' : MR)
    (rs : List Res) : Prop :=
  (Early cfg x D T δ L' m' ∧ ∀ n ∈ counts rs, n = 0) ∨
  (Flowing m' ∧ ∀ (i : Nat) (s s' : Sig), m.sigs[i]? = some s → m'.sigs[i]? = some s' →
    (L' i).dropWhile (before (D i) T) ≠ [] ∧
    pending s' = ((L' i).dropWhile (before (D i) T)).drop ((counts rs).map (· / s.div)).sum)

/-- Everything that is delivered, from the first packets on. -/
theorem run_early {ops : List Op} : ∀ {L : Nat → List (Tok × Int)} {m : MR}, Early cfg x D T δ L m →
    (∀ op ∈ ops, FlowD δ m.sigs.length op) → AllGood D T δ (fun i => L i ++ given i ops) m.sigs.length →
    (∀ b, .bad b ∉ (run cfg m ops).2) ∧ (run cfg m ops).1.lcm = m.lcm ∧
    Ended cfg x D T δ (fun i => L i ++ given i ops) m (run cfg m ops).1 (run cfg m ops).2 ∧
    ∀ (i : Nat) (s : Sig), m.sigs[i]? = some s → ∃ s', (run cfg m ops).1.sigs[i]? = some s' ∧ s'.div = s.div ∧
      ((counts (run cfg m ops).2).map (· / s.div)).sum ≤ ((L i ++ given i ops).dropWhile (before (D i) T)).length ∧
      delivered i (run cfg m ops).2 =
        toks (((L i ++ given i ops).dropWhile (before (D i) T)).take ((counts (run cfg m ops).2).map (· / s.div)).sum) := by
  induction ops with
  | nil =>
    intro L m h _ _
    refine ⟨(fun b hb => by cases hb), rfl, Or.inl ⟨?_, fun n hn => by cases hn⟩, fun i s hi => ⟨s, hi, rfl, ?_, ?_⟩⟩
    · have : (fun i => L i ++ given i []) = L := funext fun i => List.append_nil _
      rw [this]
      exact h
    · exact Nat.zero_le _
    · simp [run, counts, delivered, toks]
  | cons op ops ih =>
    intro L m h hops hg
    have hg1 : AllGood D T δ L m.sigs.length := fun i hi => (hg i hi).pre
    have hgiv : ∀ i, given i (op :: ops) = given i [op] ++ given i ops := fun i => given_cons i op ops
    have hfl := hops op (by simp)
    obtain ⟨o1, o2, o3, o4⟩ := early_step h hg1 hfl
    have er : run cfg m (op :: ops) = ((run cfg (step cfg m op).1 ops).1, (step cfg m op).2 :: (run cfg (step cfg m op).1 ops).2) := rfl
    rw [er]
    generalize (step cfg m op).1 = m1 at *
    generalize (step cfg m op).2 = r1 at *
    have hlist : ∀ i, (L i ++ given i [op]) ++ given i ops = L i ++ given i (op :: ops) := fun i => by
      rw [hgiv, List.append_assoc]
    rcases o4 with ⟨p1, p2, p3, p4⟩ | ⟨f1, f2⟩
    · have key := ih p1 (by rw [o3]; exact fun op' h' => hops op' (List.mem_cons_of_mem _ h')) (by
        rw [o3]
        intro i hi
        dsimp only
        rw [hlist i]
        exact hg i hi)
      obtain ⟨k1, k2, ke, k3⟩ := key
      have hlf : (fun i => (fun i => L i ++ given i [op]) i ++ given i ops) = fun i => L i ++ given i (op :: ops) := funext hlist
      rw [hlf] at ke
      refine ⟨?_, k2.trans o2, ?_, ?_⟩
      · intro b hb
        rcases List.mem_cons.mp hb with hb | hb
        · exact o1 b hb.symm
        · exact k1 b hb
      · rcases ke with ⟨a1, a2⟩ | ⟨a1, a2⟩
        · refine Or.inl ⟨a1, fun n hn => ?_⟩
          rw [counts_cons] at hn
          rcases List.mem_append.mp hn with hn | hn
          · exact p3 n hn
          · exact a2 n hn
        · refine Or.inr ⟨a1, fun i s s' hi hi' => ?_⟩
          obtain ⟨s1, q1, q2⟩ := p4 i s hi
          obtain ⟨b1, b2⟩ := a2 i s1 s' q1 hi'
          refine ⟨b1, ?_⟩
          have hs0 : ((counts [r1]).map (· / s.div)).sum = 0 := by
            cases r1 with
            | read n e w b =>
              have := p3 n (by simp [counts])
              simp [counts, this]
            | _ => rfl
          rw [counts_cons, List.map_append, List.sum_append, hs0, Nat.zero_add, ← q2]
          exact b2
      · intro i s hi
        obtain ⟨s1, q1, q2⟩ := p4 i s hi
        obtain ⟨s2, q3, q4, q5, q6⟩ := k3 i s1 q1
        have hs0 : ((counts [r1]).map (· / s.div)).sum = 0 := by
          cases r1 with
          | read n e w b =>
            have := p3 n (by simp [counts])
            simp [counts, this]
          | _ => rfl
        rw [hlist i, q2] at q5 q6
        refine ⟨s2, q3, q4.trans q2, ?_, ?_⟩
        · rw [counts_cons, List.map_append, List.sum_append, hs0, Nat.zero_add]
          exact q5
        · rw [delivered_cons, p2 i, counts_cons, List.map_append, List.sum_append, hs0, Nat.zero_add]
          exact q6
    · obtain ⟨k0, k1, k2, k3⟩ := run_flow (cfg := cfg) (fun op' h' => (hops op' (List.mem_cons_of_mem _ h')).1) f1
      refine ⟨?_, k1.trans o2, Or.inr ⟨k0, ?_⟩, ?_⟩
      · intro b hb
        rcases List.mem_cons.mp hb with hb | hb
        · exact o1 b hb.symm
        · exact k2 b hb
      · intro i s s' hi hi'
        obtain ⟨s1, q1, q2, q3, q4, q5, q6⟩ := f2 i s hi
        obtain ⟨s2, g1, g2, g3, g4, g5⟩ := k3 i s1 q1
        have hdw : (L i ++ given i (op :: ops)).dropWhile (before (D i) T) =
            (L i ++ given i [op]).dropWhile (before (D i) T) ++ given i ops := by
          rw [← hlist i, List.dropWhile_append, if_neg (by simpa using q3)]
        rw [g1] at hi'
        cases hi'
        dsimp only
        rw [hdw, counts_cons, List.map_append, List.sum_append, g4, q5, q2]
        refine ⟨fun hh => q3 (List.append_eq_nil_iff.mp hh).1, ?_⟩
        rw [← List.drop_append_of_le_length q4, List.drop_drop]
      · intro i s hi
        obtain ⟨s1, q1, q2, q3, q4, q5, q6⟩ := f2 i s hi
        obtain ⟨s2, g1, g2, g3, g4, g5⟩ := k3 i s1 q1
        have hdw : (L i ++ given i (op :: ops)).dropWhile (before (D i) T) =
            (L i ++ given i [op]).dropWhile (before (D i) T) ++ given i ops := by
          rw [← hlist i, List.dropWhile_append, if_neg (by simpa using q3)]
        rw [hdw, delivered_cons, counts_cons, List.map_append, List.sum_append, q6]
        rw [q5, q2] at g3 g5
        generalize (L i ++ given i [op]).dropWhile (before (D i) T) = A at *
        generalize ((counts [r1]).map (· / s.div)).sum = n1 at *
        generalize ((counts (run cfg m1 ops).2).map (· / s.div)).sum = n2 at *
        have e1 : A.drop n1 ++ given i ops = (A ++ given i ops).drop n1 := (List.drop_append_of_le_length q4).symm
        have e2 : A.take n1 = (A ++ given i ops).take n1 := (List.take_append_of_le_length q4).symm
        rw [e1] at g3 g5
        refine ⟨s2, g1, g2.trans q2, ?_, ?_⟩
        · rw [List.length_drop] at g3
          rw [List.length_append] at *
          omega
        · rw [g5, e2]
          unfold toks
          rw [← List.map_append, ← List.take_add]

end

end Verif.Multi
