import Verif.Mirror.Free

/-!
# C105–C108: streaming sources and mirrored signals
-/

namespace Verif.Mirror.Props
open Verif.Component (Str)
open Spec

/-! ## Deciding the rules (for the examples) -/

instance (a b : Str) : Decidable (Ends a b) :=
  decidable_of_iff (b <:+ a) ⟨fun ⟨t, h⟩ => ⟨t, h.symm⟩, fun ⟨t, h⟩ => ⟨t, h.symm⟩⟩

instance (w : W) (t v : Nat) : Decidable (InUse w t v) := by unfold InUse; exact inferInstance

instance (w : W) (v d : Nat) : Decidable (Domain w v d) := by unfold Domain; exact inferInstance

def domainOk (w : W) (t v : Nat) : Prop :=
  (w.src t).skipDomain = true ∨ ∀ d ∈ (w.sig v).domain, (w.sig d).removed = false → t ∈ (w.sig d).sources

theorem domainOk_iff (w : W) (t v : Nat) : domainOk w t v ↔ DomainIn w t v := by
  unfold domainOk DomainIn Domain
  simp only [Option.mem_def, and_imp]

instance (w : W) (t v : Nat) : Decidable (domainOk w t v) := by
  unfold domainOk
  cases (w.sig v).domain with
  | none => exact .isTrue (.inr (by simp))
  | some d => exact decidable_of_iff ((w.src t).skipDomain = true ∨ ((w.sig d).removed = false → t ∈ (w.sig d).sources)) (by simp)

instance (w : W) (t v : Nat) : Decidable (DomainIn w t v) :=
  decidable_of_iff (domainOk w t v) (domainOk_iff w t v)

instance (w : W) (t d : Nat) : Decidable (FreeDomain w t d) :=
  decidable_of_iff (∀ v, v < w.n → InUse w t v → ¬ Domain w v d) ⟨fun h v hv => h v hv.1 hv, fun h v _ => h v⟩

instance (w : W) (v : Nat) : Decidable (∀ t, (w.sig v).active = some t → DomainIn w t v) :=
  decidable_of_iff (∀ t ∈ (w.sig v).active, DomainIn w t v) Iff.rfl

instance (w : W) (v : Nat) : Decidable (∀ t, ¬ InUse w t v) :=
  decidable_of_iff (∀ t ∈ (w.sig v).active, ¬ InUse w t v) ⟨fun h t ht => h t ht.2.2.2.2 ht, fun h t _ => h t⟩

instance (w : W) (d : Nat) : Decidable (∀ t, FreeDomain w t d) :=
  decidable_of_iff (∀ v, v < w.n → ∀ t ∈ (w.sig v).active, InUse w t v → ¬ Domain w v d)
    ⟨fun h t v hv => h v hv.1 t hv.2.2.2.2 hv, fun h v _ t _ => h t v⟩

instance (w : W) (v : Nat) (d : Option Nat) : Decidable (∀ x, d = some x → x < w.n ∧ x ≠ v) :=
  decidable_of_iff (∀ x ∈ d, x < w.n ∧ x ≠ v) Iff.rfl

instance (P : Str → Prop) [DecidablePred P] (w : W) (o : Op) : Decidable (Rule P w o) := by
  cases o <;> unfold Rule <;> exact inferInstance

instance decRuled (P : Str → Prop) [DecidablePred P] : (w : W) → (os : List Op) → Decidable (Ruled P w os)
  | _, [] => .isTrue trivial
  | w, o :: os => @instDecidableAnd _ _ inferInstance (decRuled P (step w o).1 os)

/-! ## The example: two signals with a common domain signal, two sources -/

def ch1 : Str := "/dev/Sig/ch1".toList
def ch2 : Str := "/dev/Sig/ch2".toList
def time : Str := "/dev/Sig/time".toList
def ids : List Str := ["/Sig/ch1".toList, "/Sig/ch2".toList, "/Sig/time".toList]

def client : W where
  n := 3
  sig v := match v with
    | 0 => { remote := ch1, domain := some 2 }
    | 1 => { remote := ch2, domain := some 2 }
    | _ => { remote := time }
  src t := match t with
    | 1 => { skipDomain := true }
    | _ => {}

theorem client_fresh : Fresh client := by
  refine ⟨?_, ?_, ?_⟩
  · intro v
    match v with
    | 0 | 1 | (v + 2) => exact ⟨rfl, rfl, rfl, rfl, rfl⟩
  · intro t
    match t with
    | 0 | 1 | (t + 2) => exact ⟨rfl, rfl, rfl, rfl⟩
  · have : ∀ v, v < 3 → ∀ d ∈ (client.sig v).domain, d < 3 ∧ d ≠ v := by decide
    exact fun v d hv hd => this v hv d hd

theorem client_distinct : Distinct client (· ∈ ids) := by
  refine ⟨?_, ?_, ?_, ?_⟩
  · have : ∀ s, s < 3 → ∀ a ∈ ids, ∀ b ∈ ids, Ends (client.sig s).remote a → Ends (client.sig s).remote b → a = b := by
      decide +kernel
    exact fun s a b hs ha hb => this s hs a ha b hb
  · have : ∀ s, s < 3 → ∀ s', s' < 3 → ∀ a ∈ ids, Ends (client.sig s).remote a → Ends (client.sig s').remote a → s = s' := by
      decide +kernel
    exact fun s s' a hs hs' ha => this s hs s' hs' a ha
  · have : ∀ a ∈ ids, ∀ b ∈ ids, Ends a b → a = b := by decide +kernel
    exact fun a b ha hb => this a ha b hb
  · have : ∀ s, s < 3 → ∀ s', s' < 3 → (client.sig s).remote = (client.sig s').remote → s = s' := by decide +kernel
    exact fun s s' hs hs' => this s hs s' hs'

/-- Signals are added before they are offered, connected, offered, lost, offered again; one of them changes to the other source,
one is disconnected, the other source is destroyed. -/
def story : List Op :=
  [.addSignals 0 [2, 0, 1], .addSignals 1 [0], .setSourceActive 0 true, .setActive 0 0, .setActive 1 0, .connect 0,
   .offer 0 ids[0], .offer 0 ids[2], .connect 1, .offer 0 ids[1], .lost 0, .connected 0, .offer 0 ids[2], .offer 0 ids[1],
   .offer 1 ids[0], .setActive 0 1, .packet 0 ids[1] 7, .connect 1, .disconnect 1]

theorem story_ruled : Ruled (· ∈ ids) client story := by decide +kernel

/-! ## C105 -/

/-- After any history that keeps the rules, the server of every source sends exactly the signals that
are offered and needed, and never got a request that makes no sense. -/
theorem C105_rightly_served (P : Str → Prop) (w : W) (d : Distinct w P) (f : Fresh w) (os : List Op) (h : Ruled P w os) :
    RightlyServed (run w os) :=
  (run_ok d.dist os w f.inv h).right d.dist

example : RightlyServed (run client story) := C105_rightly_served (· ∈ ids) client client_distinct client_fresh story story_ruled
-- the server of source 0 sends the second signal and the time, the server of source 1 the first signal
example : ids.map (served ((run client story).src 0).log) = [false, true, true] := by decide +kernel
example : ids.map (served ((run client story).src 1).log) = [true, false, false] := by decide +kernel
-- when nothing is connected any more, nothing is sent
example : ids.map (served ((run client (story ++ [.disconnect 1, .disconnect 0])).src 0).log) = [false, false, false] := by
  decide +kernel

/-! ## C106 -/

/-- After any history that keeps the rules, the calls of a user that keep the rules succeed. -/
theorem C106_calls_succeed (P : Str → Prop) (w : W) (d : Distinct w P) (f : Fresh w) (os : List Op) (h : Ruled P w os) :
    (∀ v, Rule P (run w os) (.connect v) → (step (run w os) (.connect v)).2 = .ok) ∧
    (∀ v, 0 < ((run w os).sig v).conns → (step (run w os) (.disconnect v)).2 = .ok) ∧
    (∀ v t, Rule P (run w os) (.setActive v t) → t ∈ ((run w os).sig v).sources →
      (step (run w os) (.setActive v t)).2 = .ok ∨ (step (run w os) (.setActive v t)).2 = .ignored) ∧
    (∀ v, (step (run w os) (.deactivate v)).2 = .ok) ∧
    (∀ v b, Rule P (run w os) (.setStreamed v b) →
      (step (run w os) (.setStreamed v b)).2 = .ok ∨ (step (run w os) (.setStreamed v b)).2 = .ignored) ∧
    (∀ t, ((run w os).src t).alive = true → (step (run w os) (.removeAll t)).2 = .ok) := by
  have i := run_ok d.dist os w f.inv h
  have nf : ∀ r : R, r.failed = false → r = .ok ∨ r = .ignored := by intro r; cases r <;> simp [R.failed]
  refine ⟨?_, ?_, ?_, ?_, ?_, ?_⟩
  · intro v r; exact (connect_ok d.dist i (i.g.hn ▸ r.1) r.2.1 r.2.2).2.1
  · intro v hc; exact (disconnect_ok d.dist i v).2 hc
  · intro v t r hm; exact nf _ ((setActive_ok d.dist i r.2).2 hm)
  · intro v; exact (deactivate_ok d.dist i v).2
  · intro v b r; exact nf _ ((setStreamed_ok d.dist i b (i.g.hn ▸ r.1) r.2).2)
  · intro t ha
    show (if ((run w os).src t).alive then (run w os).removeAll t else ((run w os), .ignored)).2 = .ok
    rw [if_pos ha]
    exact (removeAll_ok d.dist i ha).2

example : (step (run client story) (.setActive 1 0)).2 = .ignored ∧ (step (run client story) (.connect 0)).2 = .ok ∧
    (step (run client story) (.disconnect 1)).2 = .ok := by decide +kernel

/-! ## C107: what happens when a rule is broken -/

/-- Signals 0 and 2 (its domain signal) are added to source 0, which offers both. -/
def ready : List Op := [.addSignals 0 [2, 0], .offer 0 ids[0], .offer 0 ids[2], .setActive 0 0]

/-- The domain signal of a connected signal is replaced: the new one is not asked for, the signal cannot be disconnected
properly, and the server goes on sending it although nothing is connected. -/
theorem C107_violation_domain_replaced :
    let w := run client (ready ++ [.addSignals 0 [1], .offer 0 ids[1], .connect 0, .setDomain 0 (some 1)])
    (¬ RightlyServed w) ∧ (step w (.disconnect 0)).2 = .invalidState ∧
    ((step w (.disconnect 0)).1.sig 0).conns = 0 ∧ served ((step w (.disconnect 0)).1.src 0).log ids[0] = true := by
  refine ⟨?_, by decide +kernel, by decide +kernel, by decide +kernel⟩
  intro h
  have h1 := ((h 0 (by decide +kernel)).2 ids[1]).mpr ⟨by decide +kernel, 1, by decide +kernel, by decide +kernel, ?_⟩
  · revert h1; decide +kernel
  · right
    exact ⟨by decide +kernel, 0, by decide +kernel, by decide +kernel⟩

/-- A connection fails because the domain signal was not added. When it was added, the next connection succeeds, but the
signal is never asked for. -/
theorem C107_violation_failed_connection :
    let w := run client [.addSignals 0 [0], .offer 0 ids[0], .offer 0 ids[2], .setActive 0 0]
    (step w (.connect 0)).2 = .notFound ∧
    let w' := run w [.connect 0, .addSignals 0 [2]]
    (step w' (.connect 0)).2 = .ok ∧ InUse (step w' (.connect 0)).1 0 0 ∧
    offered ((step w' (.connect 0)).1.src 0).log ids[0] = true ∧ served ((step w' (.connect 0)).1.src 0).log ids[0] = false := by
  decide +kernel

/-- The request for the signal fails after the one for its domain signal succeeded: the server sends the domain signal although
nothing is connected. -/
theorem C107_violation_failed_request :
    let w := run client (ready ++ [.deny 0 [ids[0]]])
    (step w (.connect 0)).2 = .denied ∧ ((step w (.connect 0)).1.sig 0).conns = 0 ∧
    served ((step w (.connect 0)).1.src 0).log ids[2] = true := by
  decide +kernel

/-- The domain signal of a connected signal is taken from the source first: the removal of the signal fails, and the source stays
the active source of the signal although it is not in the list of sources of the signal. -/
theorem C107_violation_domain_removed_first :
    let w := run client (ready ++ [.connect 0])
    (step w (.removeSignals 0 [2, 0])).2 = .notFound ∧
    ((step w (.removeSignals 0 [2, 0])).1.sig 0).active = some 0 ∧
    ((step w (.removeSignals 0 [2, 0])).1.sig 0).sources = [] ∧
    served ((step w (.removeSignals 0 [2, 0])).1.src 0).log ids[2] = true := by
  decide +kernel

/-- Two ids of which one is an ending of the other: the server is asked for the data of another signal. -/
theorem C107_violation_similar_ids :
    let w : W := { n := 2, sig := fun v => match v with | 0 => { remote := "/d/Sig/a".toList } | _ => { remote := "/d/x/Sig/a".toList },
                   src := fun _ => {} }
    let w' := run w [.addSignals 0 [0, 1], .setActive 1 0, .offer 0 "/Sig/a".toList, .offer 0 "/x/Sig/a".toList, .connect 1]
    InUse w' 0 1 ∧ offered (w'.src 0).log "/x/Sig/a".toList = true ∧ served (w'.src 0).log "/x/Sig/a".toList = false ∧
    served (w'.src 0).log "/Sig/a".toList = true := by
  decide +kernel

/-- What holds without rules: after any history, a server sends only what it offers; it was never asked for anything it did
not offer at the time. Missing is that it sends what is needed, and nothing else. -/
theorem C107_only_what_is_offered_partial (w : W) (f : Fresh w) (os : List Op) (t : Nat) (a : Str)
    (hs : served ((run w os).src t).log a = true) : offered ((run w os).src t).log a = true := by
  have g := run_good os w (fun t => by
    obtain ⟨_, h2, _, h4⟩ := f.src t
    unfold Good
    rw [h2, h4]
    exact ⟨fun a => by simp [offered], fun a h => by simp [served] at h⟩) t
  exact (g.1 a).mpr (g.2 a hs)

example : served ((run client (ready ++ [.deny 0 [ids[0]], .connect 0])).src 0).log ids[2] = true ∧
    offered ((run client (ready ++ [.deny 0 [ids[0]], .connect 0])).src 0).log ids[2] = true := by decide +kernel

/-! ## C108 -/

/-- Whatever happened: what a signal passes on to its connections changes only when a packet arrives at a source that is
switched on and is the active source of the signal, the signal is not switched off, and the packet is for an id under which the
signal was added to that source; then the signal passes it on. -/
theorem C108_only_from_the_active_source (w : W) (o : Op) (v : Nat) :
    ((step w o).1.sig v).got = (w.sig v).got ∨
    ∃ t a x, o = .packet t a x ∧ (w.sig v).active = some t ∧ (w.src t).alive = true ∧ (w.src t).active = true ∧
      (w.sig v).streamed = true ∧ (∃ i ∈ (w.src t).items, i.key = a ∧ i.sig = v) ∧ ((step w o).1.sig v).got = x :: (w.sig v).got := by
  by_cases hp : ∃ t a x, o = .packet t a x
  · obtain ⟨t, a, x, rfl⟩ := hp
    rcases step_packet w t a x with e | ⟨u, h1, h2, e⟩
    · rw [e]; exact .inl rfl
    · rw [e, sig_setSig]
      split
      · next hv =>
        subst hv
        obtain ⟨h3, ⟨i, h4, h5⟩, h6, h7⟩ := receiver_some h2
        exact .inr ⟨t, a, x, rfl, (activeSrc_some.mp h7).1, h1, h3, h6, ⟨i, List.mem_of_find?_eq_some h4, Src.find_key h4, h5⟩, rfl⟩
      · exact .inl rfl
  · exact .inl ((step_quiet w o fun t a x e => hp ⟨t, a, x, e⟩).1 v)

/-- After any history that keeps the rules, a packet that a source which is switched on gets for an id on offer is passed on by the
signal the id is meant for, when the source is the active one of that signal and the signal is not switched off, and it is passed on once. -/
theorem C108_data_arrive (P : Str → Prop) (w : W) (d : Distinct w P) (f : Fresh w) (os : List Op) (h : Ruled P w os) (t v x : Nat) (a : Str)
    (hv : v < (run w os).n) (ho : offered ((run w os).src t).log a = true) (he : Ends ((run w os).sig v).remote a)
    (hact : ((run w os).src t).active = true) (ha : ((run w os).sig v).active = some t) (hs : ((run w os).sig v).streamed = true) :
    ((step (run w os) (.packet t a x)).1.sig v).got = x :: ((run w os).sig v).got ∧
    ∀ u, u ≠ v → (step (run w os) (.packet t a x)).1.sig u = (run w os).sig u := by
  have i := run_ok d.dist os w f.inv h
  generalize run w os = w' at *
  have hm := i.src v t (i.act v t ha)
  have hal : (w'.src t).alive = true ∧ (w'.src t).has v := by
    rcases hm.2 with e | e
    · cases e
    · exact e
  have k := i.g.k t hal.1
  obtain ⟨j, hj, hjs, _, hf⟩ := k.find_some d.dist hm.1 hal.2
  have hrem : (w'.sig v).remote = w.remote v := by rw [← i.g.hr]; rfl
  have hkey : (w'.src t).key (w.remote v) = a :=
    d.dist.key_unique k.avail hm.1 ((w'.src t).key_isKey _) (.inl ⟨(k.offer a).mp ho, hrem ▸ he⟩)
  rw [hkey] at hf
  have hr : w'.receiver t a = some v := by
    unfold W.receiver
    rw [if_pos hact, hf]
    dsimp only
    rw [hjs, hs, activeSrc_some.mpr ⟨ha, hal.1⟩]
    simp
  have hstep : (step w' (.packet t a x)).1 = w'.setSig v { w'.sig v with got := x :: (w'.sig v).got } := by
    unfold step
    dsimp only
    rw [if_pos hal.1, hr]
  rw [hstep]
  exact ⟨by rw [sig_setSig, if_pos rfl], fun u hu => by rw [sig_setSig, if_neg hu]⟩

-- the packet of the second signal arrived, and one from the source that the first signal left does not
example : ((run client story).sig 1).got = [7] := by decide +kernel
example : ((step (run client story) (.packet 0 ids[0] 9)).1.sig 0).got = [] := by decide +kernel

end Verif.Mirror.Props
