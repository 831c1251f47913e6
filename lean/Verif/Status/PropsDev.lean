import Verif.Status.PropsBox
/-!
# Streaming sources and their statuses (C230–C232)
-/
namespace Verif.Status
open Spec

/-! ## C230 -/

/-- What is true of a device as long as what happens is regular. -/
structure DInv (known : Nat → Prop) (conn : Nat → Text) (k : Text) (t : Nat) (d : Dev) : Prop where
  box : Inv d.box
  nodup : (d.sources.map conn).Nodup
  good : ∀ o ∈ d.sources, conn o ≠ [] ∧ conn o ≠ k
  cur : ∀ o ∈ d.sources, AList.get d.box.statuses (conn o) = some (d.status o)
  there : ∀ o ∈ d.sources, known o
  owned : ∀ o, o ∈ d.owned ↔ o ∈ d.sources
  only : ∀ c, AList.has d.box.statuses c = true → c = k ∨ ∃ o ∈ d.sources, conn o = c
  type : ∀ o, known o → (d.status o).type = t

theorem conn_inj {known : Nat → Prop} {conn : Nat → Text} {k : Text} {t : Nat} {d : Dev} (h : DInv known conn k t d) {o o' : Nat}
    (ho : o ∈ d.sources) (ho' : o' ∈ d.sources) (e : conn o = conn o') : o = o' :=
  List.inj_on_of_nodup_map h.nodup ho ho' e

theorem update_other (s : Box) (conn : Text) (v : Val) (obj : Option Nat) (msg : Text) {c : Text} (hc : c ≠ conn) :
    AList.get (s.update conn v obj msg).1.statuses c = AList.get s.statuses c := by
  unfold Box.update
  split
  · rfl
  · split
    · split
      · rfl
      · split
        · rfl
        · change AList.get (AList.put _ _ _) c = _
          rw [AList.get_put, if_neg hc]
    · rfl

theorem update_has (s : Box) (conn : Text) (v : Val) (obj : Option Nat) (msg : Text) (c : Text) :
    AList.has (s.update conn v obj msg).1.statuses c = AList.has s.statuses c := by
  by_cases e : c = conn
  · subst e
    unfold Box.update
    split
    · rfl
    · split
      · rename_i hs _
        split
        · rfl
        · split
          · rfl
          · change AList.has (AList.put _ _ _) c = _
            rw [has_put, has_of_get hs]; simp
      · rfl
  · unfold AList.has; rw [update_other s conn v obj msg e]

theorem addConfig_other (s : Box) (conn : Text) (v : Val) {c : Text} (hc : c ≠ conn) :
    AList.get (s.addConfig conn v).1.statuses c = AList.get s.statuses c := by
  unfold Box.addConfig
  split
  · rfl
  · split
    · rfl
    · change AList.get (AList.put _ _ _) c = _
      rw [AList.get_put, if_neg hc]

theorem DInv.step {known : Nat → Prop} {conn : Nat → Text} {k : Text} {t : Nat} {d : Dev} (h : DInv known conn k t d) :
    ∀ {op : DOp}, Regular known conn k t op → DInv known conn k t (d.step conn op).1
  | .config c v, hr => by
    obtain ⟨rfl, _⟩ := hr
    refine ⟨h.box.addConfig c v, h.nodup, h.good, ?_, h.there, h.owned, ?_, h.type⟩
    · intro o ho
      change AList.get (d.box.addConfig c v).1.statuses (conn o) = _
      rw [addConfig_other _ _ _ (h.good o ho).2]
      exact h.cur o ho
    · intro c' hc'
      by_cases e : c' = c
      · exact .inl e
      · refine h.only c' ?_
        change AList.has (d.box.addConfig c v).1.statuses c' = true at hc'
        unfold AList.has at *
        rwa [addConfig_other _ _ _ e] at hc'
  | .configStatus c v msg, hr => by
    obtain ⟨rfl, _⟩ := hr
    refine ⟨h.box.update c v none msg, h.nodup, h.good, ?_, h.there, h.owned, ?_, h.type⟩
    · intro o ho
      change AList.get (d.box.update c v none msg).1.statuses (conn o) = _
      rw [update_other _ _ _ _ _ (h.good o ho).2]
      exact h.cur o ho
    · intro c' hc'
      change AList.has (d.box.update c v none msg).1.statuses c' = true at hc'
      rw [update_has] at hc'
      exact h.only c' hc'
  | .add types o, hr => by
    obtain ⟨hkn, h0, hk⟩ := hr
    change DInv known conn k t (d.addSource conn types o).1
    unfold Dev.addSource Dev.addBegin
    by_cases hdup : (d.sources.any fun x => conn x == conn o) = true
    · rw [if_pos hdup]; exact h
    · rw [if_neg hdup]
      have hfresh : ∀ x ∈ d.sources, conn x ≠ conn o := by
        intro x hx e
        exact hdup (List.any_eq_true.mpr ⟨x, hx, by simp [e]⟩)
      have hno : AList.has d.box.statuses (conn o) ≠ true := by
        intro hh
        rcases h.only _ hh with e | ⟨x, hx, e⟩
        · exact hk e
        · exact hfresh x hx e
      have hno' : ¬ (AList.has d.box.statuses (conn o) = true ∨ AList.has d.box.messages (conn o) = true) := by
        rintro (e | e)
        · exact hno e
        · rw [h.box.messages, ← h.box.statuses] at e; exact hno e
      have hI := h.box.addStreaming types (conn o) (d.status o) (some o)
      unfold Box.addStreaming at *
      rw [if_neg h0, if_neg hno'] at *
      refine ⟨hI, ?_, ?_, ?_, ?_, ?_, ?_, h.type⟩
      · change ((d.sources ++ [o]).map conn).Nodup
        rw [List.map_append, List.nodup_append]
        refine ⟨h.nodup, by simp, ?_⟩
        intro a ha b hb
        obtain ⟨x, hx, rfl⟩ := List.mem_map.mp ha
        simp only [List.map_cons, List.map_nil, List.mem_singleton] at hb
        rw [hb]; exact hfresh x hx
      · intro x hx
        rcases List.mem_append.mp hx with hx | hx
        · exact h.good x hx
        · rw [List.mem_singleton.mp hx]; exact ⟨h0, hk⟩
      · intro x hx
        change AList.get (AList.put _ _ _) (conn x) = some (d.status x)
        rw [AList.get_put]
        rcases List.mem_append.mp hx with hx | hx
        · rw [if_neg (hfresh x hx)]; exact h.cur x hx
        · rw [List.mem_singleton.mp hx, if_pos rfl]
      · intro x hx
        rcases List.mem_append.mp hx with hx | hx
        · exact h.there x hx
        · rw [List.mem_singleton.mp hx]; exact hkn
      · intro x
        change x ∈ o :: d.owned ↔ x ∈ d.sources ++ [o]
        rw [List.mem_cons, List.mem_append, List.mem_singleton, h.owned]
        exact Or.comm
      · intro c hc
        change AList.has (AList.put _ _ _) c = true at hc
        rw [has_put, Bool.or_eq_true, decide_eq_true_eq] at hc
        rcases hc with hc | hc
        · exact .inr ⟨o, List.mem_append_right _ (List.mem_singleton.mpr rfl), hc.symm⟩
        · rcases h.only c hc with e | ⟨x, hx, e⟩
          · exact .inl e
          · exact .inr ⟨x, List.mem_append_left _ hx, e⟩
  | .remove c, hr => by
    change DInv known conn k t (d.removeSource conn c).1
    unfold Dev.removeSource
    cases hf : d.sources.find? (fun x => conn x == c) with
    | none => exact h
    | some o =>
      have ho := List.mem_of_find?_eq_some hf
      have hc : conn o = c := by simpa using List.find?_some hf
      have hs := h.cur o ho
      rw [hc] at hs
      have hm : AList.has d.box.messages c = true := by
        rw [h.box.messages, ← h.box.statuses, has_of_get hs]
      obtain ⟨m, hm⟩ := (AList.has_iff _ _).mp hm
      have hI := h.box.remove c
      unfold Box.remove at *
      rw [hs, hm] at *
      have hnd : d.sources.Nodup := List.Nodup.of_map _ h.nodup
      have hmem : ∀ x, x ∈ d.sources.erase o ↔ x ∈ d.sources ∧ x ≠ o := by
        intro x; rw [hnd.mem_erase_iff]; exact And.comm
      refine ⟨hI, ?_, ?_, ?_, ?_, ?_, ?_, h.type⟩
      · exact h.nodup.sublist (List.Sublist.map _ List.erase_sublist)
      · intro x hx
        exact h.good x ((hmem x).mp hx).1
      · intro x hx
        obtain ⟨hx, hne⟩ := (hmem x).mp hx
        change AList.get (AList.del _ _) (conn x) = some (d.status x)
        rw [AList.get_del, if_neg]
        · exact h.cur x hx
        · intro e
          exact hne (conn_inj h hx ho (e.trans hc.symm))
      · intro x hx
        exact h.there x ((hmem x).mp hx).1
      · intro x
        change x ∈ d.owned.filter (· ≠ o) ↔ x ∈ d.sources.erase o
        rw [hmem, List.mem_filter, h.owned]
        simp
      · intro c' hc'
        change AList.has (AList.del _ _) c' = true at hc'
        rw [has_del, Bool.and_eq_true, Bool.not_eq_true', decide_eq_false_iff_not] at hc'
        rcases h.only c' hc'.2 with e | ⟨x, hx, e⟩
        · exact .inl e
        · refine .inr ⟨x, (hmem x).mpr ⟨hx, ?_⟩, e⟩
          intro e'; subst e'
          exact hc'.1 (e.symm.trans hc)
  | .status o v msg, hr => by
    change DInv known conn k t (d.setStatus conn o v msg)
    have hst : ∀ x, ((AList.get (AList.put d.cur o v) x).getD ⟨0, []⟩) = if x = o then v else d.status x := by
      intro x
      rw [AList.get_put]
      by_cases e : x = o
      · simp [e]
      · rw [if_neg e, if_neg e]; rfl
    have hty : ∀ x, known x → ((AList.get (AList.put d.cur o v) x).getD ⟨0, []⟩).type = t := by
      intro x hk; rw [hst]; split
      · exact hr
      · exact h.type x hk
    unfold Dev.setStatus
    by_cases ho : o ∈ d.owned
    · rw [if_pos ho]
      have hs : o ∈ d.sources := (h.owned o).mp ho
      refine ⟨h.box.update _ _ _ _, h.nodup, h.good, ?_, h.there, h.owned, ?_, hty⟩
      · intro x hx
        change AList.get (d.box.update (conn o) v (some o) msg).1.statuses (conn x) =
          some ((AList.get (AList.put d.cur o v) x).getD ⟨0, []⟩)
        rw [hst]
        by_cases e : x = o
        · subst e
          rw [if_pos rfl]
          have hold := h.cur x hx
          have hm : AList.has d.box.messages (conn x) = true := by
            rw [h.box.messages, ← h.box.statuses, has_of_get hold]
          obtain ⟨m, hm⟩ := (AList.has_iff _ _).mp hm
          unfold Box.update
          rw [if_neg (h.good x hx).1, hold, hm]
          dsimp only
          rw [if_neg (fun e => e ((show v.type = t from hr).trans (h.type x (h.there x hx)).symm))]
          split
          · rename_i e; rw [e.1]; exact hold
          · change AList.get (AList.put _ _ _) (conn x) = _
            rw [AList.get_put, if_pos rfl]
        · rw [if_neg e, update_other _ _ _ _ _ (fun e' => e (conn_inj h hx hs e'))]
          exact h.cur x hx
      · intro c hc
        change AList.has (d.box.update (conn o) v (some o) msg).1.statuses c = true at hc
        rw [update_has] at hc
        exact h.only c hc
    · rw [if_neg ho]
      refine ⟨h.box, h.nodup, h.good, ?_, h.there, h.owned, h.only, hty⟩
      intro x hx
      change AList.get d.box.statuses (conn x) = some ((AList.get (AList.put d.cur o v) x).getD ⟨0, []⟩)
      have hne : x ≠ o := fun e => ho ((h.owned o).mpr (e ▸ hx))
      rw [hst, if_neg hne]
      exact h.cur x hx

theorem DInv.run {known : Nat → Prop} {conn : Nat → Text} {k : Text} {t : Nat} : ∀ {d : Dev} (_ : DInv known conn k t d) {ops : List DOp},
    (∀ op ∈ ops, Regular known conn k t op) → DInv known conn k t (d.run conn ops)
  | _, h, [], _ => h
  | _, h, _ :: _, hr => (h.step (hr _ List.mem_cons_self)).run (fun o ho => hr o (List.mem_cons_of_mem _ ho))

theorem dinv_init (known : Nat → Prop) (conn : Nat → Text) (k : Text) (t : Nat) {cur : AList Nat Val}
    (hc : ∀ o, known o → ((Dev.init cur).status o).type = t) : DInv known conn k t (Dev.init cur) :=
  ⟨inv_init, List.nodup_nil, (fun _ h => nomatch h), (fun _ h => nomatch h), (fun _ h => nomatch h), (fun _ => Iff.rfl),
    (fun _ h => nomatch h), hc⟩

/-- C230: every streaming source is listed with its current status, besides the configuration nothing
else is listed, and no two sources have the same connection string. -/
theorem C230_sources {known : Nat → Prop} {conn : Nat → Text} {k : Text} {t : Nat} {cur : AList Nat Val}
    (hc : ∀ o, known o → ((Dev.init cur).status o).type = t) {ops : List DOp} (hr : ∀ op ∈ ops, Regular known conn k t op) :
    let d := (Dev.init cur).run conn ops
    (∀ o ∈ d.sources, Lists d.box (conn o) (d.status o)) ∧
    (∀ c v, Lists d.box c v → c = k ∨ ∃ o ∈ d.sources, conn o = c ∧ d.status o = v) ∧
    (d.sources.map conn).Nodup := by
  intro d
  have h : DInv known conn k t d := (dinv_init known conn k t hc).run hr
  refine ⟨?_, ?_, h.nodup⟩
  · intro o ho
    have hs := h.cur o ho
    obtain ⟨n, hn⟩ := h.box.name hs
    exact ⟨n, hn, by rw [h.box.getStatus hn, hs]⟩
  · rintro c v ⟨n, hn, hv⟩
    rw [h.box.getStatus hn] at hv
    rcases h.only c (has_of_get hv) with e | ⟨o, ho, e⟩
    · exact .inl e
    · refine .inr ⟨o, ho, e, ?_⟩
      have := h.cur o ho
      rw [e, hv] at this
      exact (Option.some.inj this).symm

/-- C230: a new source is listed, and one that is removed is not. -/
theorem C230_effects {known : Nat → Prop} {conn : Nat → Text} {k : Text} {t : Nat} {cur : AList Nat Val}
    (hc : ∀ o, known o → ((Dev.init cur).status o).type = t) {ops : List DOp} (hr : ∀ op ∈ ops, Regular known conn k t op) :
    let d := (Dev.init cur).run conn ops
    (∀ types o, conn o ≠ [] → conn o ≠ k →
      if ∃ x ∈ d.sources, conn x = conn o then d.step conn (.add types o) = (d, .err .duplicate)
      else (d.step conn (.add types o)).2 = .ok ∧ (d.step conn (.add types o)).1.sources = d.sources ++ [o]) ∧
    (∀ c, if ∃ x ∈ d.sources, conn x = c then
        (d.step conn (.remove c)).2 = .ok ∧
        ∀ x, x ∈ (d.step conn (.remove c)).1.sources ↔ x ∈ d.sources ∧ conn x ≠ c
      else d.step conn (.remove c) = (d, .err .notFound)) := by
  intro d
  have h : DInv known conn k t d := (dinv_init known conn k t hc).run hr
  constructor
  · intro types o h0 hk
    change if _ then d.addSource conn types o = _ else (d.addSource conn types o).2 = _ ∧ (d.addSource conn types o).1.sources = _
    unfold Dev.addSource Dev.addBegin
    by_cases hdup : ∃ x ∈ d.sources, conn x = conn o
    · rw [if_pos hdup]
      obtain ⟨x, hx, e⟩ := hdup
      rw [if_pos (List.any_eq_true.mpr ⟨x, hx, by simp [e]⟩)]
    · rw [if_neg hdup]
      have hany : ¬ (d.sources.any fun x => conn x == conn o) = true := by
        intro e
        obtain ⟨x, hx, e⟩ := List.any_eq_true.mp e
        exact hdup ⟨x, hx, by simpa using e⟩
      rw [if_neg hany]
      have hno : AList.has d.box.statuses (conn o) ≠ true := by
        intro hh
        rcases h.only _ hh with e | ⟨x, hx, e⟩
        · exact hk e
        · exact hdup ⟨x, hx, e⟩
      have hno' : ¬ (AList.has d.box.statuses (conn o) = true ∨ AList.has d.box.messages (conn o) = true) := by
        rintro (e | e)
        · exact hno e
        · rw [h.box.messages, ← h.box.statuses] at e; exact hno e
      unfold Box.addStreaming
      rw [if_neg h0, if_neg hno']
      exact ⟨rfl, rfl⟩
  · intro c
    change if _ then (d.removeSource conn c).2 = _ ∧ ∀ x, x ∈ (d.removeSource conn c).1.sources ↔ _ else d.removeSource conn c = _
    unfold Dev.removeSource
    cases hf : d.sources.find? (fun x => conn x == c) with
    | none =>
      have : ¬ ∃ x ∈ d.sources, conn x = c := by
        rintro ⟨x, hx, e⟩
        have := List.find?_eq_none.mp hf x hx
        simp [e] at this
      rw [if_neg this]
    | some o =>
      have ho := List.mem_of_find?_eq_some hf
      have hco : conn o = c := by simpa using List.find?_some hf
      rw [if_pos ⟨o, ho, hco⟩]
      have hs := h.cur o ho
      rw [hco] at hs
      have hm : AList.has d.box.messages c = true := by
        rw [h.box.messages, ← h.box.statuses, has_of_get hs]
      obtain ⟨m, hm⟩ := (AList.has_iff _ _).mp hm
      unfold Box.remove
      rw [hs, hm]
      refine ⟨rfl, fun x => ?_⟩
      change x ∈ d.sources.erase o ↔ _
      rw [(List.Nodup.of_map _ h.nodup).mem_erase_iff]
      constructor
      · rintro ⟨h1, h2⟩
        exact ⟨h2, fun e => h1 (conn_inj h h2 ho (e.trans hco.symm))⟩
      · rintro ⟨h1, h2⟩
        exact ⟨fun e => h2 (by rw [e, hco]), h1⟩

/-- The connection strings of three streamings; the first is that of the configuration. -/
def demoConn (o : Nat) : Text :=
  if o = 0 then "daq.nd://1".toList else if o = 1 then "daq.ns://1".toList else "daq.lt://1".toList

def demoCur : AList Nat Val := [(0, demoVal "Connected"), (1, demoVal "Connected"), (2, demoVal "Connected")]

def demoDev : Dev := (Dev.init demoCur).run demoConn
  [.config "daq.nd://1".toList (demoVal "Connected"), .add [] 1, .status 1 (demoVal "Reconnecting") [],
   .add [] 2, .remove "daq.lt://1".toList]

example : ∀ o, o ≤ 2 → ((Dev.init demoCur).status o).type = 1 := by decide +kernel

example : ∀ op ∈ [DOp.config "daq.nd://1".toList (demoVal "Connected"), .add [] 1,
    .status 1 (demoVal "Reconnecting") [], .add [] 2, .remove "daq.lt://1".toList],
    Regular (· ≤ 2) demoConn "daq.nd://1".toList 1 op := by
  intro op hop
  simp only [List.mem_cons, List.not_mem_nil, or_false] at hop
  rcases hop with rfl | rfl | rfl | rfl | rfl <;> unfold Regular <;> decide +kernel

example : demoDev.sources = [1] ∧ demoDev.box.getStatus "StreamingStatus_1".toList = some (demoVal "Reconnecting") ∧
    demoDev.box.getStatuses.length = 2 := by decide +kernel

/-! ## C231 -/

/-- C231, violated: a source that is refused, because it has the connection string of the configuration,
is a source of the device all the same; and when it is removed, the status of the configuration
is gone. -/
theorem C231_violation_refused :
    let d := (Dev.init demoCur).run demoConn [.config "daq.nd://1".toList (demoVal "Connected")]
    (d.step demoConn (.add [] 0)).2 = .err .alreadyExists ∧ (d.step demoConn (.add [] 0)).1.sources = [0] ∧
    ((d.step demoConn (.add [] 0)).1.step demoConn (.add [] 0)).2 = .err .duplicate ∧
    ((d.step demoConn (.add [] 0)).1.step demoConn (.remove "daq.nd://1".toList)).2 = .ok ∧
    ((d.step demoConn (.add [] 0)).1.step demoConn (.remove "daq.nd://1".toList)).1.box.getStatus
      "ConfigurationStatus".toList = none := by
  decide +kernel

/-- C231: a call that fails leaves the sources as they were.  Missing: sources with an empty connection
string or one that is listed already. -/
theorem C231_refused_partial {conn : Nat → Text} (d : Dev) (op : DOp)
    (ha : ∀ types o, op = .add types o → conn o ≠ [] ∧ AList.has d.box.statuses (conn o) = false ∧
      AList.has d.box.messages (conn o) = false)
    (hs : ∀ types o, op ≠ .start types o) (hx : ∃ x, (d.step conn op).2 = .err x) :
    (d.step conn op).1.sources = d.sources := by
  cases op with
  | config c v => rfl
  | configStatus c v msg => rfl
  | add types o =>
    obtain ⟨h0, h1, h2⟩ := ha types o rfl
    obtain ⟨x, hx⟩ := hx
    change (d.addSource conn types o).2 = _ at hx
    change (d.addSource conn types o).1.sources = _
    unfold Dev.addSource Dev.addBegin at *
    by_cases hdup : (d.sources.any fun x => conn x == conn o) = true
    · rw [if_pos hdup]
    · rw [if_neg hdup] at hx
      unfold Box.addStreaming at hx
      rw [if_neg h0, if_neg (by rw [h1, h2]; simp)] at hx
      cases hx
  | remove c =>
    obtain ⟨x, hx⟩ := hx
    change (d.removeSource conn c).2 = _ at hx
    change (d.removeSource conn c).1.sources = _
    unfold Dev.removeSource at *
    split
    · rfl
    · rename_i o ho
      rw [ho] at hx
      dsimp only at hx
      split
      · rename_i e
        rw [e] at hx; cases hx
      · rfl
  | status o v msg => obtain ⟨x, hx⟩ := hx; cases hx
  | start types o => exact absurd rfl (hs types o)
  | finish o => rfl

example : (demoDev.step demoConn (.add [] 1)).2 = .err .duplicate := by decide +kernel

/-! ## C232 -/

/-- C232, violated: when a streaming loses its connection while it is being added, it is listed as
connected from then on. -/
theorem C232_violation_lost :
    let d := (Dev.init demoCur).run demoConn
      [.start [] 1, .status 1 (demoVal "Reconnecting") [], .finish 1]
    d.sources = [1] ∧ d.owned = [1] ∧ d.status 1 = demoVal "Reconnecting" ∧
    d.box.getStatus "StreamingStatus_1".toList = some (demoVal "Connected") := by
  decide +kernel

/-- C232: the parts of the call are the call.  So what is listed is current, if nothing happens in
between.  Missing: changes of the status during the call. -/
theorem C232_parts_partial {conn : Nat → Text} (d : Dev) (types : List (Text × Text)) (o : Nat)
    (h : (d.step conn (.start types o)).2 = .ok) :
    ((d.step conn (.start types o)).1.step conn (.finish o)).1 = (d.step conn (.add types o)).1 := by
  change (d.addBegin conn types o).1.addEnd o = (d.addSource conn types o).1
  change (d.addBegin conn types o).2 = _ at h
  unfold Dev.addSource
  cases e : d.addBegin conn types o with
  | mk d' c =>
    rw [e] at h
    change c = .ok at h
    subst h
    rfl

example : ((Dev.init demoCur).step demoConn (.start [] 1)).2 = .ok := by decide +kernel

end Verif.Status
