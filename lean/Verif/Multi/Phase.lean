import Verif.Multi.Seek

/-! # The phases of the reader: waiting for the first synchronisation, looking for the start, reading -/

namespace Verif.Multi

open Spec

/-- What each signal needs to be compared with the target. -/
def AllGood (D : Nat → Dom) (T : Int) (δ : Nat → Int) (L : Nat → List (Tok × Int)) (n : Nat) : Prop :=
  ∀ i, i < n → Good (D i) T (δ i) (L i)

structure Seeking (D : Nat → Dom) (T : Int) (δ : Nat → Int) (L : Nat → List (Tok × Int)) (m : MR) : Prop where
  nonempty : m.sigs ≠ []
  valid : m.invalid = false
  quiet : m.nextEvent = false
  unit : 0 < m.lcm
  start : m.start = some T
  sigs : ∀ (i : Nat) (s : Sig), m.sigs[i]? = .some s → Seeks (D i) T (δ i) s (L i)
  begun : syncStatus m.sigs ≠ .unsync

/-- A signal whose samples wait for the first synchronisation. -/
structure Waits (x : Int × Int × Int) (d' : Dom) (delta : Int) (s : Sig) (L : List (Tok × Int)) : Prop where
  cur : ∃ p, s.cur = some p ∧ s.prev < p.n ∧ p.delta = delta
  dom : s.dom.map (fun d => d.adjust x.1 x.2.1 x.2.2) = some d'
  data : DataOnly s
  div : 0 < s.div
  valid : s.invalid = false
  deltas : ∀ p ∈ front s.queue, p.delta = delta
  all : whole s = L

/-- The signals with the multipliers and offsets of a common resolution and origin. -/
def adj (x : Int × Int × Int) (sigs : List Sig) : List Sig :=
  sigs.map fun s => { s with dom := s.dom.map fun d => d.adjust x.1 x.2.1 x.2.2, sync := .unsync }

structure Waiting (cfg : Cfg) (x : Int × Int × Int) (D : Nat → Dom) (T : Int) (δ : Nat → Int) (L : Nat → List (Tok × Int))
    (m : MR) : Prop where
  nonempty : m.sigs ≠ []
  valid : m.invalid = false
  quiet : m.nextEvent = false
  unit : 0 < m.lcm
  info : startInfo m.sigs = some x
  goal : ∃ v, latest m.start (adj x m.sigs) = .some v ∧
    roundUp x.2 (if cfg.fullUnit then (1, 1) else simplify m.lcm m.common) v = .some T
  sigs : ∀ (i : Nat) (s : Sig), m.sigs[i]? = .some s → Waits x (D i) (δ i) s (L i)
  unsync : syncStatus m.sigs = .unsync

theorem Waits.settled {x : Int × Int × Int} {d' : Dom} {delta : Int} {s : Sig} {L : List (Tok × Int)}
    (h : Waits x d' delta s L) : s.isFirst = (s, false) := by
  obtain ⟨p, hp, _⟩ := h.cur
  unfold Sig.isFirst
  rw [hp]

theorem status_cons (a : Sig) (r : List Sig) : syncStatus (a :: r) =
    if ((a :: r).any fun s => s.sync == .unsync) = true then .unsync
    else if ((a :: r).any fun s => s.sync == .syncing) = true then .syncing else .synced := rfl

/-- All signals are synchronised when the status says so. -/
theorem status_synced {sigs : List Sig} (h : syncStatus sigs = .synced) : ∀ s ∈ sigs, s.sync = .synced := by
  cases sigs with
  | nil => cases h
  | cons a r =>
    rw [status_cons] at h
    by_cases h1 : ((a :: r).any fun s => s.sync == .unsync) = true
    · rw [if_pos h1] at h; cases h
    · rw [if_neg h1] at h
      by_cases h2 : ((a :: r).any fun s => s.sync == .syncing) = true
      · rw [if_pos h2] at h; cases h
      · intro s hs
        have n1 : ¬ (s.sync == .unsync) = true := fun hh => h1 (List.any_eq_true.mpr ⟨s, hs, hh⟩)
        have n2 : ¬ (s.sync == .syncing) = true := fun hh => h2 (List.any_eq_true.mpr ⟨s, hs, hh⟩)
        cases e : s.sync with
        | unsync => rw [e] at n1; exact absurd rfl n1
        | syncing => rw [e] at n2; exact absurd rfl n2
        | synced => rfl

theorem status_unsync {sigs : List Sig} (hne : sigs ≠ []) (h : syncStatus sigs = .unsync) : ∃ s ∈ sigs, s.sync = .unsync := by
  cases sigs with
  | nil => exact absurd rfl hne
  | cons a r =>
    rw [status_cons] at h
    by_cases h1 : ((a :: r).any fun s => s.sync == .unsync) = true
    · obtain ⟨s, hs, e⟩ := List.any_eq_true.mp h1
      exact ⟨s, hs, by simpa using e⟩
    · rw [if_neg h1] at h
      by_cases h2 : ((a :: r).any fun s => s.sync == .syncing) = true
      · rw [if_pos h2] at h; cases h
      · rw [if_neg h2] at h; cases h

theorem status_all {sigs : List Sig} (h : ∀ s ∈ sigs, s.sync = .synced) (hne : sigs ≠ []) : syncStatus sigs = .synced := by
  cases sigs with
  | nil => exact absurd rfl hne
  | cons a r =>
    rw [status_cons, if_neg, if_neg]
    · intro hh
      obtain ⟨s, hs, e⟩ := List.any_eq_true.mp hh
      rw [h s hs] at e
      cases e
    · intro hh
      obtain ⟨s, hs, e⟩ := List.any_eq_true.mp hh
      rw [h s hs] at e
      cases e

theorem status_begun {sigs : List Sig} (h : ∀ s ∈ sigs, s.sync ≠ .unsync) (hne : sigs ≠ []) : syncStatus sigs ≠ .unsync := by
  intro hh
  obtain ⟨s, hs, e⟩ := status_unsync hne hh
  exact h s hs e

theorem Seeks.begun {d : Dom} {T delta : Int} {s : Sig} {L : List (Tok × Int)} (h : Seeks d T delta s L) : s.sync ≠ .unsync := by
  rcases h.state with h1 | h1 <;> rw [h1.1] <;> decide

/-- The reader in the phase of seeking keeps these. -/
def Same (m m' : MR) : Prop :=
  m'.lcm = m.lcm ∧ m'.remaining = m.remaining ∧ m'.buf = m.buf ∧ m'.common = m.common ∧ m'.sigs.length = m.sigs.length ∧
    ∀ (i : Nat) (s : Sig), m.sigs[i]? = some s → ∃ s', m'.sigs[i]? = some s' ∧ s'.div = s.div

theorem Same.refl (m : MR) : Same m m := ⟨rfl, rfl, rfl, rfl, rfl, fun _ s h => ⟨s, h, rfl⟩⟩

theorem minAvail_cur {sigs : List Sig} (h : minAvail sigs ≠ 0) : ∀ s ∈ sigs, s.cur.isSome := by
  intro s hs
  have := minAvail_le hs
  cases hc : s.cur with
  | some p => rfl
  | none =>
    rw [hc] at this
    simp at this
    exact absurd this h

/-- The sync step of all signals. -/
theorem syncAll_seek {D : Nat → Dom} {T : Int} {δ : Nat → Int} {L : Nat → List (Tok × Int)} {m : MR} {a : Nat} {st : Sync}
    (hne : m.sigs ≠ []) (hv : m.invalid = false) (hq : m.nextEvent = false) (hu : 0 < m.lcm) (hs : m.start = some T)
    (h : ∀ (i : Nat) (s : Sig), m.sigs[i]? = some s → Seeks (D i) T (δ i) (s.syncTo T).1 (L i) ∧ (s.syncTo T).1.div = s.div ∧
      ((L i).dropWhile (before (D i) T) ≠ [] → (s.syncTo T).1.sync = .synced)) :
    ∃ m' a' st', syncAll m a st = (m', a', st', false) ∧ Seeking D T δ L m' ∧ Same m m' ∧ st' = syncStatus m'.sigs ∧
      (st' = .synced → a' = minAvail m'.sigs) ∧
      ((∀ i, i < m.sigs.length → (L i).dropWhile (before (D i) T) ≠ []) → st' = .synced) := by
  have e : syncAll m a st = ({ m with sigs := m.sigs.map fun s => (s.syncTo T).1 },
      if syncStatus (m.sigs.map fun s => (s.syncTo T).1) = .synced then minAvail (m.sigs.map fun s => (s.syncTo T).1) else a,
      syncStatus (m.sigs.map fun s => (s.syncTo T).1), false) := by
    unfold syncAll
    rw [hs]
  refine ⟨_, _, _, e, ?_, ?_, rfl, ?_, ?_⟩
  · have hsig : ∀ (i : Nat) (s : Sig), (m.sigs.map fun s => (s.syncTo T).1)[i]? = some s → Seeks (D i) T (δ i) s (L i) := by
      intro i s hi
      rw [List.getElem?_map] at hi
      obtain ⟨t, ht, rfl⟩ := Option.map_eq_some_iff.mp hi
      exact (h i t ht).1
    have hne2 : (m.sigs.map fun s => (s.syncTo T).1) ≠ [] := by simpa using hne
    refine ⟨hne2, hv, hq, hu, hs, hsig, status_begun ?_ hne2⟩
    intro s hs2
    obtain ⟨i, hi⟩ := List.mem_iff_getElem?.mp hs2
    exact (hsig i s hi).begun
  · refine ⟨rfl, rfl, rfl, rfl, by simp, fun i s hi => ⟨(s.syncTo T).1, ?_, (h i s hi).2.1⟩⟩
    show (m.sigs.map fun s => (s.syncTo T).1)[i]? = _
    rw [List.getElem?_map, hi]
    rfl
  · intro hst
    rw [if_pos hst]
  · intro hall
    refine status_all ?_ (by simpa using hne)
    intro s hs2
    obtain ⟨i, hi⟩ := List.mem_iff_getElem?.mp hs2
    rw [List.getElem?_map] at hi
    obtain ⟨t, ht, rfl⟩ := Option.map_eq_some_iff.mp hi
    exact (h i t ht).2.2 (hall i (List.getElem?_eq_some_iff.mp ht).1)

theorem foldl_min_pos {l : List Nat} (h : ∀ x ∈ l, 0 < x) : ∀ {a : Nat}, 0 < a → 0 < l.foldl min a := by
  induction l with
  | nil => intro a ha; exact ha
  | cons b l ih =>
    intro a ha
    refine ih (fun x hx => h x (List.mem_cons_of_mem _ hx)) ?_
    have := h b (by simp)
    omega

theorem pos_avail {s : Sig} (hc : s.cur.isSome) (hw : Within s) (hd : 0 < s.div) (hp : pending s ≠ []) :
    0 < (if s.cur.isNone then 0 else s.avail false) := by
  obtain ⟨p, hcp⟩ := Option.isSome_iff_exists.mp hc
  have : 0 < s.avail false := by
    rw [avail_false hw]
    exact Nat.mul_pos (List.length_pos_iff.mpr hp) hd
  rw [hcp]
  simpa using this

theorem Seeks.avail {d : Dom} {T delta : Int} {s : Sig} {L : List (Tok × Int)} (h : Seeks d T delta s L)
    (hL : L.dropWhile (before d T) ≠ []) : 0 < (if s.cur.isNone then 0 else s.avail false) := by
  rcases h.state with ⟨h1, h2, h3, h4, h5⟩ | ⟨h1, h2, h3, h4, h5, a, h6, h7⟩
  · exact pos_avail h2 h3 h.div (h4 ▸ h5)
  · rw [h6, dropWhile_all_append h7] at hL
    have hw : whole s ≠ [] := fun hh => hL (by rw [hh]; rfl)
    rcases Option.eq_none_or_eq_some s.cur with hc | ⟨c, hc⟩
    · refine absurd ?_ hw
      unfold whole pending
      dsimp only
      rw [hc, h2 hc]
      rfl
    · have hcs : s.cur.isSome := by rw [hc]; rfl
      have e : whole s = pending s := by
        unfold whole pending
        rw [h3 hcs]
      refine pos_avail hcs ?_ h.div (e ▸ hw)
      unfold Within
      rw [hc]
      simp only [h3 hcs]
      exact Nat.zero_le _

/-- What `synchronize` gives in these phases. -/
structure SyncOk (cfg : Cfg) (D : Nat → Dom) (T : Int) (δ : Nat → Int) (L : Nat → List (Tok × Int)) (m m' : MR) (a : Nat)
    (st : Sync) : Prop where
  eq : synchronize cfg m = (m', a, st, false)
  seek : Seeking D T δ L m'
  same : Same m m'
  status : st = syncStatus m'.sigs
  avail : st = .synced → a = minAvail m'.sigs
  full : (∀ i, i < m.sigs.length → (L i).dropWhile (before (D i) T) ≠ []) → st = .synced

theorem Seeking.synchronize {cfg : Cfg} {D : Nat → Dom} {T : Int} {δ : Nat → Int} {L : Nat → List (Tok × Int)} {m : MR}
    (h : Seeking D T δ L m) (hg : AllGood D T δ L m.sigs.length) : ∃ m' a st, SyncOk cfg D T δ L m m' a st := by
  by_cases h1 : minAvail m.sigs = 0 ∨ syncStatus m.sigs = .synced
  · refine ⟨m, minAvail m.sigs, syncStatus m.sigs, ?_, h, Same.refl m, rfl, fun _ => rfl, ?_⟩
    · unfold Verif.Multi.synchronize
      rw [if_pos h1]
    · intro hall
      rcases h1 with h1 | h1
      · refine absurd h1 (Nat.ne_of_gt (foldl_min_pos ?_ (by decide)))
        intro y hy
        obtain ⟨s, hs, rfl⟩ := List.mem_map.mp hy
        obtain ⟨i, hi⟩ := List.mem_iff_getElem?.mp hs
        exact (h.sigs i s hi).avail (hall i (List.getElem?_eq_some_iff.mp hi).1)
      · exact h1
  · have h2 : syncStatus m.sigs = .syncing := by
      cases e : syncStatus m.sigs with
      | unsync => exact absurd e h.begun
      | syncing => rfl
      | synced => exact absurd (Or.inr e) h1
    have hc := minAvail_cur (fun hh => h1 (Or.inl hh))
    obtain ⟨m', a', st', e, k1, k2, k3, k4, k5⟩ := syncAll_seek (a := minAvail m.sigs) (st := syncStatus m.sigs) h.nonempty h.valid h.quiet h.unit
      h.start (D := D) (δ := δ) (L := L) fun i s hi => by
        obtain ⟨hlt, _⟩ := List.getElem?_eq_some_iff.mp hi
        exact (h.sigs i s hi).syncTo (hc s (List.mem_of_getElem? hi)) (hg i hlt)
    refine ⟨m', a', st', ?_, k1, k2, k3, k4, k5⟩
    unfold Verif.Multi.synchronize
    dsimp only
    rw [if_neg h1, if_pos h2, e]

theorem Waits.avail {x : Int × Int × Int} {d' : Dom} {delta : Int} {s : Sig} {L : List (Tok × Int)}
    (h : Waits x d' delta s L) : 0 < (if s.cur.isNone then 0 else s.avail false) := by
  obtain ⟨p, hp, hn, _⟩ := h.cur
  rw [hp]
  have hl : 0 < s.left := by
    unfold Sig.left wrapSub
    rw [hp]
    dsimp only
    rw [if_pos (by omega)]
    omega
  have : 0 < s.avail false := by
    unfold Sig.avail
    exact Nat.mul_pos (by omega) h.div
  simpa using this

theorem Waiting.synchronize {cfg : Cfg} {x : Int × Int × Int} {D : Nat → Dom} {T : Int} {δ : Nat → Int}
    {L : Nat → List (Tok × Int)} {m : MR} (h : Waiting cfg x D T δ L m) (hg : AllGood D T δ L m.sigs.length) :
    ∃ m' a st, SyncOk cfg D T δ L m m' a st := by
  have h0 : minAvail m.sigs ≠ 0 := by
    refine Nat.ne_of_gt (foldl_min_pos ?_ (by decide))
    intro y hy
    obtain ⟨s, hs, rfl⟩ := List.mem_map.mp hy
    obtain ⟨i, hi⟩ := List.mem_iff_getElem?.mp hs
    exact (h.sigs i s hi).avail
  have h1 : ¬ (minAvail m.sigs = 0 ∨ syncStatus m.sigs = .synced) := by
    rw [h.unsync]
    rintro (hh | hh)
    · exact h0 hh
    · cases hh
  obtain ⟨v, hv, hT⟩ := h.goal
  have e : setStart cfg m = ({ m with res := x.2, sigs := adj x m.sigs, start := some T }, true) := by
    unfold setStart
    rw [h.info]
    dsimp only
    have : latest m.start (m.sigs.map fun s => { s with dom := s.dom.map fun d => d.adjust x.1 x.2.1 x.2.2, sync := .unsync }) =
      some v := hv
    rw [this]
    dsimp only
    rw [hT]
    rfl
  have hsig : ∀ (i : Nat) (s : Sig), (adj x m.sigs)[i]? = some s →
      Seeks (D i) T (δ i) (s.syncTo T).1 (L i) ∧ (s.syncTo T).1.div = s.div ∧
      ((L i).dropWhile (before (D i) T) ≠ [] → (s.syncTo T).1.sync = .synced) := by
    intro i s hi
    unfold adj at hi
    rw [List.getElem?_map] at hi
    obtain ⟨t, ht, rfl⟩ := Option.map_eq_some_iff.mp hi
    have hw := h.sigs i t ht
    obtain ⟨p, hp, _, hpd⟩ := hw.cur
    obtain ⟨hlt, _⟩ := List.getElem?_eq_some_iff.mp ht
    exact syncTo_seek (s := { t with dom := t.dom.map fun d => d.adjust x.1 x.2.1 x.2.2, sync := .unsync }) (a := []) hw.dom hw.data
      hw.div hw.valid (by intro hh; cases hh) hp hpd hw.deltas hw.all.symm (fun y hy => by cases hy) (hg i hlt)
  obtain ⟨m', a', st', e2, k1, k2, k3, k4, k5⟩ := syncAll_seek (a := minAvail m.sigs) (st := syncStatus m.sigs)
    (m := { m with res := x.2, sigs := adj x m.sigs, start := some T }) (by
      show adj x m.sigs ≠ []
      unfold adj
      simpa using h.nonempty) h.valid h.quiet h.unit rfl hsig
  refine ⟨m', a', st', ?_, k1, ?_, k3, k4, ?_⟩
  · unfold Verif.Multi.synchronize
    dsimp only
    rw [if_neg h1, if_neg (by rw [h.unsync]; decide), e, e2]
    rfl
  · obtain ⟨s1, s2, s3, s4, s5, s6⟩ := k2
    refine ⟨s1, s2, s3, s4, ?_, fun i s hi => ?_⟩
    · rw [s5]
      show (adj x m.sigs).length = _
      unfold adj
      simp
    · obtain ⟨s', k6, k7⟩ := s6 i { s with dom := s.dom.map fun d => d.adjust x.1 x.2.1 x.2.2, sync := .unsync } (by
        show (adj x m.sigs)[i]? = _
        unfold adj
        rw [List.getElem?_map, hi]
        rfl)
      exact ⟨s', k6, k7⟩
  · intro hall
    refine k5 fun i hi => hall i ?_
    change i < (adj x m.sigs).length at hi
    unfold adj at hi
    simpa using hi

end Verif.Multi
