import Verif.Notify.Order

/-!
# Properties C158 to C166: notifications of the configuration server
-/

namespace Verif.Notify.Props

open Spec

mutual
  theorem ser_full : (v : Val) → v.ser = true ↔ Full v
    | .null => ⟨fun _ => .null, fun _ => rfl⟩
    | .plain => ⟨fun _ => .plain, fun _ => rfl⟩
    | .call => ⟨(fun h => nomatch h), (fun h => nomatch h)⟩
    | .list l => ⟨fun h => .list ((sers_full l).mp h), fun h => (sers_full l).mpr (by cases h with | list h => exact h)⟩
  theorem sers_full : (l : List Val) → Val.sers l = true ↔ ∀ v ∈ l, Full v
    | [] => ⟨fun _ _ h => (nomatch h), fun _ => rfl⟩
    | v :: l => by
      rw [Val.sers, Bool.and_eq_true, ser_full v, sers_full l, List.forall_mem_cons]
end

/-- A list that can be sent. -/
def Sendable (l : List Item) : Prop := ∀ i ∈ l, ∀ p ∈ i.pars, Full p.2

theorem serialises_iff (l : List Item) : serialises l = true ↔ Sendable l := by
  unfold serialises Sendable
  simp only [List.all_eq_true, ser_full]

/-- What is sent can be sent, what is lost cannot. -/
def Told : Obs → Prop
  | .note l => Sendable l ∧ l ≠ []
  | .lost l => ¬ Sendable l
  | _ => True

theorem told_sendOut (st : St) : ∀ o ∈ st.sendOut.2, Told o := by
  unfold St.sendOut
  split
  · exact fun _ h => nomatch h
  · rename_i hne
    intro o ho
    rw [List.mem_singleton] at ho
    rw [ho]
    split
    · rename_i h
      exact ⟨(serialises_iff _).mp h, fun e => hne (by rw [e]; rfl)⟩
    · rename_i h
      exact fun c => h ((serialises_iff _).mpr c)

theorem told_callback (st : St) (t : Th) (e : Ev) : ∀ o ∈ (st.callback t e).2, Told o := by
  have h : (st.callback t e).2 = [.heard t.id e] ∨ (st.callback t e).2 = [.heard t.id e, .threw t.id] := by
    unfold St.callback
    split
    · cases h : st.pack e with
      | item l => exact Or.inl rfl
      | dropped => exact Or.inl rfl
      | threw => exact Or.inr rfl
    · exact Or.inl rfl
  intro o ho
  rcases h with h | h
  · rw [h, List.mem_singleton] at ho
    rw [ho]; trivial
  · rw [h] at ho
    rcases List.mem_cons.mp ho with ho | ho
    · rw [ho]; trivial
    · rw [List.mem_singleton] at ho
      rw [ho]; trivial

theorem told_step (st : St) (op : Op) : ∀ o ∈ (st.step op).2, Told o := by
  have nil : ∀ o ∈ ([] : List Obs), Told o := fun _ h => nomatch h
  cases op with
  | enter n => unfold St.step; dsimp only; split <;> exact nil
  | begin n => unfold St.step; dsimp only; split <;> exact nil
  | raise n e =>
    unfold St.step
    dsimp only
    cases ht : st.th? n with
    | none => exact nil
    | some t => dsimp only; split; exact told_callback _ _ _; exact nil
  | check n =>
    unfold St.step
    dsimp only
    cases ht : st.th? n with
    | none => exact nil
    | some t => dsimp only; split <;> exact nil
  | send n =>
    unfold St.step
    dsimp only
    cases ht : st.th? n with
    | none => exact nil
    | some t =>
      dsimp only
      unfold St.send
      split
      · exact told_sendOut _
      · split
        · exact told_sendOut _
        · exact nil
  | finish n =>
    unfold St.step
    dsimp only
    cases ht : st.th? n with
    | none => exact nil
    | some t => exact nil
  | reply n =>
    unfold St.step
    dsimp only
    cases ht : st.th? n with
    | none => exact nil
    | some t =>
      dsimp only
      split
      · intro o ho
        rw [List.mem_singleton.mp ho]
        trivial
      · exact nil
  | upgrade v =>
    intro o ho
    rw [List.mem_singleton.mp ho]
    trivial
  | addExt n num s =>
    unfold St.step
    dsimp only
    cases ht : st.th? n with
    | none => exact nil
    | some t =>
      dsimp only
      split
      · unfold St.addExt
        split
        · exact nil
        · dsimp only
          split
          · intro o ho
            rw [List.mem_singleton.mp ho]
            trivial
          · intro o ho
            rcases List.mem_cons.mp ho with rfl | ho
            · trivial
            · exact told_callback _ _ _ o ho
      · exact nil
  | removeExt n num =>
    unfold St.step
    dsimp only
    cases ht : st.th? n with
    | none => exact nil
    | some t =>
      dsimp only
      split
      · unfold St.removeExt
        split
        · exact nil
        · intro o ho
          rcases List.mem_append.mp ho with ho | ho
          · exact told_callback _ _ _ o ho
          · rw [List.mem_singleton.mp ho]
            trivial
      · exact nil
  | foreign n s =>
    unfold St.step
    dsimp only
    cases ht : st.th? n with
    | none => exact nil
    | some t => dsimp only; split; exact told_callback _ _ _; exact nil
  | foreignGone n s =>
    unfold St.step
    dsimp only
    cases ht : st.th? n with
    | none => exact nil
    | some t => dsimp only; split; exact told_callback _ _ _; exact nil

theorem told_run (st : St) (ops : List Op) : ∀ o ∈ (st.run ops).2, Told o := by
  induction ops generalizing st with
  | nil => exact fun _ h => nomatch h
  | cons op l ih =>
    intro o ho
    rcases List.mem_append.mp ho with ho | ho
    · exact told_step st op o ho
    · exact ih _ o ho

theorem lost_gone {l : List Item} {tr : List Obs} (h : .lost l ∈ tr) : ∀ i ∈ l, i ∈ gone tr := by
  induction tr with
  | nil => cases h
  | cons o tr ih =>
    intro i hi
    rcases List.mem_cons.mp h with rfl | h'
    · exact List.mem_append_left _ hi
    · have := ih h' i hi
      cases o with
      | note => exact List.mem_append_right _ this
      | lost => exact List.mem_append_right _ this
      | heard => exact this
      | threw => exact this
      | replied => exact this
      | upgraded => exact this
      | mine => exact this
      | mineGone => exact this
      | refused => exact this

theorem got_gone {tr : List Obs} (h : ∀ l, .lost l ∉ tr) : got tr = gone tr := by
  induction tr with
  | nil => rfl
  | cons o tr ih =>
    have h' := ih (fun l c => h l (List.mem_cons_of_mem _ c))
    cases o with
    | lost l => exact absurd List.mem_cons_self (h l)
    | note l => exact congrArg (l ++ ·) h'
    | heard => exact h'
    | threw => exact h'
    | replied => exact h'
    | upgraded => exact h'
    | mine => exact h'
    | mineGone => exact h'
    | refused => exact h'

/-- Events that can be sent in full. -/
theorem due_full {tr : List Obs} (hc : Clean tr) (c : Nat × List String) : Sendable (due c tr) := by
  induction tr generalizing c with
  | nil => exact fun _ h => nomatch h
  | cons o tr ih =>
    intro i hi
    rcases List.mem_append.mp hi with hi | hi
    · cases o with
      | heard n e =>
        have hcl := hc (.heard n e) List.mem_cons_self
        change i ∈ (if wanted c.1 c.2 e then [(⟨n, e.src, e.what, told e⟩ : Item)] else []) at hi
        split at hi
        · rename_i hw
          rw [List.mem_singleton] at hi
          subst hi
          intro p hp
          rcases hcl p hp with hca | hf
          · unfold wanted at hw
            rw [Bool.and_eq_true] at hw
            have := List.all_eq_true.mp hw.2 p hp
            rw [hca] at this
            cases this
          · exact hf
        · cases hi
      | note => cases hi
      | lost => cases hi
      | threw => cases hi
      | replied => cases hi
      | upgraded => cases hi
      | mine => cases hi
      | mineGone => cases hi
      | refused => cases hi
    · exact ih (fun o ho => hc o (List.mem_cons_of_mem _ ho)) _ i hi

/-- The server of a client that uses version `v`. -/
abbrev hist (v : Nat) (ops : List Op) : St × List Obs := St.run { ver := v } ops

theorem hist_flow (v : Nat) (ops : List Op) (ha : Accepted (hist v ops).2) : Flow v (hist v ops).1 (hist v ops).2 :=
  flow_run (flow_init v) ops ha

theorem hist_inv (v : Nat) (ops : List Op) : Inv (hist v ops).1 := inv_run (inv_init v) ops

theorem hist_split (v : Nat) (ops : List Op) (ha : Accepted (hist v ops).2) (hc : Clean (hist v ops).2) :
    got (hist v ops).2 ++ (hist v ops).1.queue = due (v, []) (hist v ops).2 := by
  have hf := (hist_flow v ops ha).flow
  have hd := due_full hc (v, [])
  rw [← hf] at hd ⊢
  rw [got_gone]
  intro l hl
  refine told_run _ ops _ hl ?_
  intro i hi
  exact hd i (List.mem_append_left _ (lost_gone hl i hi))

/-! ## Examples -/

/-- A change of a property. -/
def change (src : String) : Ev := ⟨src, .moved, [("Owner", .call), ("Name", .plain), ("Value", .plain)], true⟩

/-- A change of several properties, one of them a function. -/
def changes (src : String) : Ev := ⟨src, .moved, [("UpdatedProperties", .list [.plain, .call])], true⟩

/-- Two calls and a thread of its own, with everything interleaved. -/
def busy : List Op :=
  [.begin 1, .enter 2, .raise 1 (change "/a"), .raise 2 (change "/b"), .begin 3, .check 2, .raise 3 (change "/c"), .check 1,
   .finish 1, .raise 2 ⟨"/b", .conn "StreamingStatus", [], true⟩, .check 3, .send 1, .raise 3 (change "/d"), .reply 1, .check 3, .finish 3, .send 3, .reply 3, .raise 2 (change "/e"), .check 2]

/-! ## C158 -/

/-- C158: what a client is told is, at any time, the beginning of what it is to be told: in order, each once, and nothing else. -/
theorem C158_in_order (v : Nat) (ops : List Op) (ha : Accepted (hist v ops).2) (hc : Clean (hist v ops).2) :
    got (hist v ops).2 <+: due (v, []) (hist v ops).2 :=
  ⟨_, hist_split v ops ha hc⟩

example : (got (hist 24 busy).2).map (·.src) = ["/a", "/b", "/c", "/d"] ∧
    (due (24, []) (hist 24 busy).2).map (·.src) = ["/a", "/b", "/c", "/d", "/e"] := by decide +kernel

/-! ## C159 -/

/-- C159: when no call is under way and no thread is in the callback, the client has been told everything. -/
theorem C159_nothing_left (v : Nat) (ops : List Op) (ha : Accepted (hist v ops).2) (hc : Clean (hist v ops).2)
    (hq : ∀ t ∈ (hist v ops).1.ths, t.act = .idle ∧ t.base ≠ .rpc ∧ t.base ≠ .ending) :
    got (hist v ops).2 = due (v, []) (hist v ops).2 := by
  have h := hist_split v ops ha hc
  have hz : (hist v ops).1.queue = [] := by
    cases e : (hist v ops).1.queue with
    | nil => rfl
    | cons i l =>
      obtain ⟨t, ht, hd⟩ := (hist_inv v ops).live (by rw [e]; exact List.cons_ne_nil _ _)
      obtain ⟨h1, h2, h3⟩ := hq t ht
      rcases hd with c | c | c
      · exact absurd h1 c
      · exact absurd c h2
      · exact absurd c h3
  rw [hz, List.append_nil] at h
  exact h

/-- C159: as long as events wait, a thread is on the way to send them: one that is in the callback, or one that serves a call. -/
theorem C159_someone_sends (v : Nat) (ops : List Op) (h : (hist v ops).1.queue ≠ []) :
    ∃ t ∈ (hist v ops).1.ths, t.act ≠ .idle ∨ t.base = .rpc ∨ t.base = .ending :=
  (hist_inv v ops).live h

example : (hist 24 (busy ++ [.send 2])).1.ths.map (fun t => (t.id, decide (t.act = .idle))) = [(2, true)] ∧
    (got (hist 24 (busy ++ [.send 2])).2).map (·.src) = ["/a", "/b", "/c", "/d", "/e"] := by decide +kernel

/-! ## C160 -/

theorem order_run {st : St} (hi : Inv st) (ops : List Op) (hs : Settled ops) :
    (Old st → Old (st.run ops).1) ∧ (New st → New (st.run ops).1) := by
  induction ops generalizing st with
  | nil => exact ⟨fun h => h, fun h => h⟩
  | cons op l ih =>
    have h1 : Settled [op] := fun o ho => hs o (List.mem_singleton.mp ho ▸ List.mem_cons_self)
    obtain ⟨ha, hb⟩ := ih (inv_step hi op) (fun o ho => hs o (List.mem_cons_of_mem _ ho))
    exact ⟨fun h => ha (old_step h hi op h1), fun h => hb (new_step h hi op h1)⟩

/-- C160: before a call is replied to, the client has been told of every event that was raised in the call. -/
theorem C160_before_reply (v : Nat) (ops : List Op) (hs : Settled ops) (ha : Accepted (hist v ops).2)
    (hc : Clean (hist v ops).2) (n : Nat) (hr : .replied n ∈ ((hist v ops).1.step (.reply n)).2) :
    ∀ i ∈ due (v, []) (hist v ops).2, i.raiser = n → i ∈ got (hist v ops).2 := by
  intro i hi hn
  rw [← hist_split v ops ha hc] at hi
  rcases List.mem_append.mp hi with hi | hi
  · exact hi
  · exfalso
    unfold St.step at hr
    dsimp only at hr
    cases ht : (hist v ops).1.th? n with
    | none => rw [ht] at hr; cases hr
    | some t =>
      obtain ⟨hm, he⟩ := th?_some ht
      rw [ht] at hr
      dsimp only at hr
      by_cases hb : t.base = .done
      · obtain ⟨h1, h2⟩ := order_run (inv_init v) ops hs
        by_cases hv : v < 20
        · obtain ⟨u, hu, hue, hud⟩ := (h1 ⟨hv, fun _ h => nomatch h⟩).act i hi
          have := th_unique (hist_inv v ops).ids hu hm (hue.trans (hn.trans he.symm))
          subst this
          exact hud ((hist_inv v ops).quiet u hu (Or.inr hb))
        · exact (h2 ⟨Nat.not_lt.mp hv, fun _ h => (nomatch h), fun _ h => (nomatch h)⟩).done i hi t hm (he.trans hn.symm) hb
      · rw [if_neg hb] at hr
        cases hr

example : (hist 24 (busy.take 13)).1.ths.map (fun t => (t.id, decide (t.base = .done))) = [(1, true), (2, false), (3, false)] ∧
    (got (hist 24 (busy.take 13)).2).map (fun i => (i.raiser, i.src)) = [(1, "/a"), (2, "/b"), (3, "/c")] := by decide +kernel

/-! ## C161 -/

/-- The steps of a call that raises events. -/
def call (n : Nat) (es : List Ev) : List Op :=
  .begin n :: es.flatMap (fun e => [.raise n e, .check n]) ++ [.finish n, .send n, .reply n]

theorem run_append (st : St) (a b : List Op) : st.run (a ++ b) = (((st.run a).1.run b).1, (st.run a).2 ++ ((st.run a).1.run b).2) := by
  induction a generalizing st with
  | nil => rfl
  | cons op a ih =>
    change (((st.step op).1.run (a ++ b)).1, (st.step op).2 ++ ((st.step op).1.run (a ++ b)).2) = _
    rw [ih]
    change _ = ((((st.step op).1.run a).1.run b).1, ((st.step op).2 ++ ((st.step op).1.run a).2) ++ (((st.step op).1.run a).1.run b).2)
    rw [List.append_assoc]

theorem packets_append (a b : List Obs) : packets (a ++ b) = packets a ++ packets b := by
  induction a with
  | nil => rfl
  | cons o a ih => cases o <;> simp only [List.cons_append, packets, ih]

theorem packets_callback (st : St) (t : Th) (e : Ev) : packets (st.callback t e).2 = [] := by
  have h : (st.callback t e).2 = [.heard t.id e] ∨ (st.callback t e).2 = [.heard t.id e, .threw t.id] := by
    unfold St.callback
    split
    · cases h : st.pack e with
      | item l => exact Or.inl rfl
      | dropped => exact Or.inl rfl
      | threw => exact Or.inr rfl
    · exact Or.inl rfl
  rcases h with h | h <;> rw [h] <;> rfl

/-- The state in a call. -/
structure In (n : Nat) (st : St) (r : Nat) : Prop where
  th : st.th? n = some ⟨n, .rpc, .idle⟩
  cnt : st.rpcs = r + 1
  ver : 20 ≤ st.ver

theorem th?_put {st : St} {t t' : Th} {n : Nat} (h : st.th? n = some t) (e : t'.id = n) : (st.put t').th? n = some t' := by
  unfold St.th? at h ⊢
  change (st.ths.map _).find? _ = _
  generalize st.ths = l at *
  induction l with
  | nil => cases h
  | cons a l ih =>
    rw [List.map_cons]
    by_cases c : a.id = n
    · rw [if_pos (c.trans e.symm), List.find?_cons_of_pos (by simpa using e)]
    · rw [List.find?_cons_of_neg (by simpa using c)] at h
      rw [if_neg (by rw [e]; exact c), List.find?_cons_of_neg (by simpa using c)]
      exact ih h

theorem in_raise {n r : Nat} {st : St} (h : In n st r) (e : Ev) :
    In n (st.run [.raise n e, .check n]).1 r ∧ (st.run [.raise n e, .check n]).1.ver = st.ver ∧
    (st.run [.raise n e, .check n]).1.own = st.own ∧
    (st.run [.raise n e, .check n]).1.queue = st.queue ++ due (st.ver, st.own) (st.run [.raise n e, .check n]).2 ∧
    (∀ c, ctx c (st.run [.raise n e, .check n]).2 = c) ∧ packets (st.run [.raise n e, .check n]).2 = [] := by
  have hstep : st.step (.raise n e) = st.callback ⟨n, .rpc, .idle⟩ e := by
    unfold St.step
    dsimp only
    rw [h.th]
    rfl
  have hc := called st ⟨n, .rpc, .idle⟩ e
  have hp := packets_callback st ⟨n, .rpc, .idle⟩ e
  have key : ∀ s : St, s.th? n = some ⟨n, .rpc, .idle⟩ ∨ s.th? n = some ⟨n, .rpc, .packed⟩ → s.rpcs = r + 1 → 20 ≤ s.ver →
      In n (s.step (.check n)).1 r ∧ (s.step (.check n)).1.ver = s.ver ∧ (s.step (.check n)).1.own = s.own ∧
      (s.step (.check n)).1.queue = s.queue ∧ (s.step (.check n)).2 = [] := by
    intro s hs h1 h2
    unfold St.step
    dsimp only
    rcases hs with hs | hs
    · rw [hs]
      exact ⟨⟨hs, h1, h2⟩, rfl, rfl, rfl, rfl⟩
    · rw [hs]
      dsimp only
      rw [if_pos rfl]
      unfold St.check
      rw [if_neg (by omega)]
      exact ⟨⟨th?_put hs rfl, h1, h2⟩, rfl, rfl, rfl, rfl⟩
  have hs1 : ((st.callback ⟨n, .rpc, .idle⟩ e).1.th? n = some ⟨n, .rpc, .idle⟩ ∨
      (st.callback ⟨n, .rpc, .idle⟩ e).1.th? n = some ⟨n, .rpc, .packed⟩) ∧ (st.callback ⟨n, .rpc, .idle⟩ e).1.rpcs = st.rpcs := by
    rcases callback_ths st ⟨n, .rpc, .idle⟩ e with e' | e' | ⟨i, _, e'⟩
    · rw [e']; exact ⟨Or.inl h.th, rfl⟩
    · rw [e']; exact ⟨Or.inr (th?_put h.th rfl), rfl⟩
    · rw [e']; exact ⟨Or.inr (th?_put (st := st.push i) h.th rfl), rfl⟩
  obtain ⟨k1, k2, k3, k4, k5⟩ := key _ hs1.1 (hs1.2.trans h.cnt) (hc.ver ▸ h.ver)
  have e1 : (st.run [.raise n e, .check n]).1 = ((st.step (.raise n e)).1.step (.check n)).1 := rfl
  have e2 : (st.run [.raise n e, .check n]).2 = (st.step (.raise n e)).2 ++ (((st.step (.raise n e)).1.step (.check n)).2 ++ []) := rfl
  rw [hstep] at e1 e2
  rw [k5, List.append_nil, List.append_nil] at e2
  rw [e1, e2]
  exact ⟨k1, k2.trans hc.ver, k3.trans hc.own, k4.trans hc.queue, hc.ctx, hp⟩

theorem in_raises {n r : Nat} {st : St} (h : In n st r) (es : List Ev) :
    In n (st.run (es.flatMap (fun e => [.raise n e, .check n]))).1 r ∧
    (st.run (es.flatMap (fun e => [.raise n e, .check n]))).1.queue =
      st.queue ++ due (st.ver, st.own) (st.run (es.flatMap (fun e => [.raise n e, .check n]))).2 ∧
    (∀ c, ctx c (st.run (es.flatMap (fun e => [.raise n e, .check n]))).2 = c) ∧
    packets (st.run (es.flatMap (fun e => [.raise n e, .check n]))).2 = [] := by
  induction es generalizing st with
  | nil => exact ⟨h, (List.append_nil _).symm, fun _ => rfl, rfl⟩
  | cons e es ih =>
    obtain ⟨h1, h2, h3, h4, h5, h6⟩ := in_raise h e
    obtain ⟨g1, g2, g3, g4⟩ := ih h1
    rw [List.flatMap_cons, run_append]
    dsimp only
    refine ⟨g1, ?_, ?_, ?_⟩
    · rw [g2, h4, due_append, h5, h2, h3, List.append_assoc]
    · intro c
      rw [ctx_append, h5, g3]
    · rw [packets_append, h6, g4]
      rfl

/-- C161: all events of a call come in one notification, after which the reply comes, if nothing else goes on meanwhile (versions from 20 on). -/
theorem C161_one_notification (st : St) (n : Nat) (es : List Ev) (hv : 20 ≤ st.ver) (hn : ∀ t ∈ st.ths, t.id ≠ n)
    (hq : st.queue = []) (hc : Clean (st.run (call n es)).2) :
    packets (st.run (call n es)).2 =
      (if due (st.ver, st.own) (st.run (call n es)).2 = [] then [] else [.note (due (st.ver, st.own) (st.run (call n es)).2)]) ++ [.replied n] := by
  have hnone : st.th? n = none := List.find?_eq_none.mpr (fun t ht => by simpa using hn t ht)
  have hb : st.step (.begin n) = (st.beginRpc n, []) := by
    unfold St.step
    dsimp only
    rw [hnone]
    rfl
  have hbe : st.beginRpc n = { st with rpcs := st.rpcs + 1, ths := st.ths ++ [⟨n, .rpc, .idle⟩] } := by
    unfold St.beginRpc
    rw [if_neg (Nat.not_lt.mpr hv)]
  have hin : In n (st.beginRpc n) st.rpcs := by
    rw [hbe]
    refine ⟨?_, rfl, hv⟩
    unfold St.th? at hnone ⊢
    change (st.ths ++ _).find? _ = _
    rw [List.find?_append, hnone]
    simp
  obtain ⟨g1, g2, g3, g4⟩ := in_raises hin es
  have e0 : st.run (call n es) = (((st.beginRpc n).run (es.flatMap (fun e => [.raise n e, .check n]) ++ [.finish n, .send n, .reply n])).1,
      ((st.beginRpc n).run (es.flatMap (fun e => [.raise n e, .check n]) ++ [.finish n, .send n, .reply n])).2) := by
    change (((st.step (.begin n)).1.run _).1, (st.step (.begin n)).2 ++ ((st.step (.begin n)).1.run _).2) = _
    rw [hb]
    rfl
  rw [run_append] at e0
  dsimp only at e0
  have ev : (st.beginRpc n).ver = st.ver := by rw [hbe]
  have eo : (st.beginRpc n).own = st.own := by rw [hbe]
  have eq : (st.beginRpc n).queue = [] := by rw [hbe]; exact hq
  rw [eq, ev, eo, List.nil_append] at g2
  generalize (st.beginRpc n).run (es.flatMap (fun e => [.raise n e, .check n])) = w at *
  -- the end of the call
  have f1 : w.1.step (.finish n) = (({ w.1 with rpcs := w.1.rpcs - 1 } : St).put ⟨n, .ending, .idle⟩, []) := by
    unfold St.step
    dsimp only
    rw [g1.th]
    rfl
  generalize e1 : (({ w.1 with rpcs := w.1.rpcs - 1 } : St).put ⟨n, .ending, .idle⟩) = s1 at f1
  have ht1 : s1.th? n = some ⟨n, .ending, .idle⟩ := by
    rw [← e1]
    exact th?_put (st := { w.1 with rpcs := w.1.rpcs - 1 }) g1.th rfl
  have hq1 : s1.queue = due (st.ver, st.own) w.2 := by rw [← e1, ← g2]; rfl
  have f2 : s1.step (.send n) = ((s1.sendOut.1).put ⟨n, .done, .idle⟩, s1.sendOut.2) := by
    unfold St.step
    dsimp only
    rw [ht1]
    rfl
  have ht2 : ((s1.sendOut.1).put ⟨n, .done, .idle⟩).th? n = some ⟨n, .done, .idle⟩ := by
    refine th?_put (t := ⟨n, .ending, .idle⟩) ?_ rfl
    unfold St.th? at ht1 ⊢
    rw [(sendOut_fields s1).1]
    exact ht1
  have f3 : (((s1.sendOut.1).put ⟨n, .done, .idle⟩).step (.reply n)).2 = [.replied n] := by
    unfold St.step
    dsimp only
    rw [ht2]
    rfl
  have e2 : (w.1.run [.finish n, .send n, .reply n]).2 = s1.sendOut.2 ++ [.replied n] := by
    change (w.1.step (.finish n)).2 ++ (((w.1.step (.finish n)).1.step (.send n)).2 ++ ((((w.1.step (.finish n)).1.step (.send n)).1.step (.reply n)).2 ++ [])) = _
    rw [f1]
    change [] ++ ((s1.step (.send n)).2 ++ (((s1.step (.send n)).1.step (.reply n)).2 ++ [])) = _
    rw [f2]
    dsimp only
    rw [f3]
    rfl
  have e3 : (st.run (call n es)).2 = w.2 ++ (s1.sendOut.2 ++ [.replied n]) := by rw [e0, e2]
  have e4 : due (st.ver, st.own) (s1.sendOut.2 ++ [.replied n]) = [] := by
    unfold St.sendOut
    split
    · rfl
    · split <;> rfl
  have e5 : due (st.ver, st.own) (st.run (call n es)).2 = due (st.ver, st.own) w.2 := by
    rw [e3, due_append, g3, e4, List.append_nil]
  have hs : Sendable (due (st.ver, st.own) w.2) := by
    rw [← e5]
    exact due_full hc _
  rw [e5, e3, packets_append, g4, List.nil_append]
  unfold St.sendOut
  rw [hq1]
  cases hd : due (st.ver, st.own) w.2 with
  | nil => rfl
  | cons i l =>
    rw [hd] at hs
    rw [(serialises_iff _).mpr hs]
    rfl

example : ((packets (St.run { ver := 24 } (call 7 [change "/a", change "/b"])).2).map (fun o => match o with
    | .note l => l.map (·.src)
    | _ => [])) = [["/a", "/b"], []] := by decide +kernel

/-! ## C162 -/

/-- C162, violated: an event that cannot be sent takes the other events with it. -/
theorem C162_violation_neighbours :
    ∃ ops i, i ∈ due (24, []) (hist 24 ops).2 ∧ (∀ p ∈ i.pars, Full p.2) ∧ (hist 24 ops).1.ths.length = 0 ∧ (got (hist 24 ops).2).length = 0 := by
  refine ⟨call 1 [changes "/a", change "/b"], ⟨1, "/b", .moved, [("Name", .plain), ("Value", .plain)]⟩, ?_, ?_, by decide +kernel, by decide +kernel⟩
  · change _ ∈ [Item.mk 1 "/a" .moved [("UpdatedProperties", .list [.plain, .call])], ⟨1, "/b", .moved, [("Name", .plain), ("Value", .plain)]⟩]
    exact List.mem_cons_of_mem _ List.mem_cons_self
  · intro p hp
    simp only [List.mem_cons, List.not_mem_nil, or_false] at hp
    rcases hp with rfl | rfl <;> exact .plain

/-- C162: a list is sent or not as a whole; it is not sent only if one of its events cannot be sent in full, and what was sent and
not sent is, in order, what the client is to be told. Missing: the other events of such a list. -/
theorem C162_only_unsendable_partial (v : Nat) (ops : List Op) (ha : Accepted (hist v ops).2) :
    (∀ l, .lost l ∈ (hist v ops).2 → ∃ i ∈ l, ∃ p ∈ i.pars, ¬ Full p.2) ∧
    ∃ rest, gone (hist v ops).2 ++ rest = due (v, []) (hist v ops).2 := by
  refine ⟨?_, _, (hist_flow v ops ha).flow⟩
  intro l hl
  have h : ¬ Sendable l := told_run _ ops _ hl
  refine Classical.byContradiction (fun c => h ?_)
  intro i hi p hp
  exact Classical.byContradiction (fun hn => c ⟨i, hi, p, hp, hn⟩)

example : (gone (hist 24 (call 1 [changes "/a", change "/b"])).2).map (·.src) = ["/a", "/b"] := by decide +kernel

/-! ## C163 -/

/-- C163, violated: a client is told of changes of components that its user may not read. -/
theorem C163_violation_unreadable :
    ∃ (ops : List Op) (e : Ev), (hist 24 ops).2.any (fun o => match o with | .heard _ f => f.src == e.src && !f.readable | _ => false) = true ∧
      e.readable = false ∧ ((got (hist 24 ops).2).map (·.src)).contains e.src = true :=
  ⟨call 1 [{ change "/secret" with readable := false }], { change "/secret" with readable := false }, by decide +kernel, rfl, by decide +kernel⟩

/-! ## C164 -/

theorem range_best {latest : Nat} {offers : List Nat} {v : Nat}
    (h : (List.range (latest + 1)).reverse.find? (fun v => decide (v ∈ offers)) = some v) : Best (List.range (latest + 1)) offers v := by
  have h1 := List.mem_of_find?_eq_some h
  have h2 := List.find?_some h
  refine ⟨List.mem_reverse.mp h1, of_decide_eq_true h2, ?_⟩
  intro w hw ho
  generalize latest + 1 = k at h hw
  induction k with
  | zero => cases hw
  | succ k ih =>
    rw [List.range_succ, List.reverse_append, List.reverse_singleton, List.singleton_append] at h
    by_cases c : k ∈ offers
    · rw [List.find?_cons_of_pos (by simpa using c)] at h
      cases h
      have := List.mem_range.mp hw
      omega
    · rw [List.find?_cons_of_neg (by simpa using c)] at h
      have hne : w ≠ k := fun e => c (e ▸ ho)
      exact ih h (List.mem_range.mpr (by have := List.mem_range.mp hw; omega))

/-- C164: a client that asks for a version gets it or fails; one that asks for the latest gets the highest version that both know, or
fails if there is none. -/
theorem C164_version (latest : Nat) (offers : List Nat) (asked : Nat) :
    match choose latest offers asked with
    | .ok v => v ≤ latest ∧ v ∈ offers ∧ (asked ≠ latest → v = asked) ∧ (asked = latest → Best (List.range (latest + 1)) offers v)
    | .error _ => if asked = latest then ∀ v ≤ latest, v ∉ offers else latest < asked ∨ asked ∉ offers := by
  unfold choose
  by_cases c : asked ≠ latest
  · rw [if_pos c]
    split
    · rename_i v h
      split at h
      · cases h
      · rename_i h1
        split at h
        · cases h
        · rename_i h2
          cases h
          have h1' := List.mem_range.mp (Decidable.not_not.mp h1)
          exact ⟨by omega, Decidable.not_not.mp h2, fun _ => rfl, fun e => absurd e c⟩
    · rename_i h
      rw [if_neg c]
      split at h
      · rename_i h1
        exact Or.inl (by
          have : ¬ asked < latest + 1 := fun h => h1 (List.mem_range.mpr h)
          omega)
      · split at h
        · rename_i h2
          exact Or.inr h2
        · cases h
  · rw [if_neg c]
    have ce := Decidable.not_not.mp c
    split
    · rename_i v h
      split at h
      · cases h
      · rename_i w hw
        cases h
        have hb := range_best hw
        have := List.mem_range.mp hb.1
        exact ⟨by omega, hb.2.1, fun e => absurd ce e, fun _ => hb⟩
    · rename_i h
      rw [if_pos ce]
      split at h
      · rename_i hn
        intro v hv ho
        have := List.find?_eq_none.mp hn v (List.mem_reverse.mpr (List.mem_range.mpr (by omega)))
        exact this (decide_eq_true ho)
      · cases h

/-- C164: after a handshake that goes well, client and server use the same version, the server knows it, and it is the one chosen;
otherwise the server is as it was. -/
theorem C164_agreed (st : St) (latest asked : Nat) :
    match st.handshake latest asked with
    | (.ok v, st') => choose latest serverVersions asked = .ok v ∧ st'.ver = v ∧ v ∈ serverVersions
    | (.error b, st') => choose latest serverVersions asked = .error b ∧ st' = st := by
  have h := C164_version latest serverVersions asked
  unfold St.handshake
  cases e : choose latest serverVersions asked with
  | error b => exact ⟨rfl, rfl⟩
  | ok v =>
    rw [e] at h
    have hd : decide (v ∈ serverVersions) = true := decide_eq_true h.2.1
    have e2 : (st.step (.upgrade v)).2 = [.upgraded v true] := by
      change [Obs.upgraded v (decide (v ∈ serverVersions))] = _
      rw [hd]
    dsimp only
    rw [e2]
    exact ⟨rfl, rfl, h.2.1⟩

/-- C164: the server agrees to the versions 17 to 24 only. -/
theorem C164_supported (st : St) (latest asked : Nat) :
    match st.handshake latest asked with
    | (.ok v, _) => 17 ≤ v ∧ v ≤ 24
    | (.error _, _) => (asked = latest → latest < 17) ∧ (asked < latest → asked < 17 ∨ 24 < asked) := by
  have hs : ∀ v, v ∈ serverVersions ↔ 17 ≤ v ∧ v ≤ 24 := by
    intro v; unfold serverVersions; simp only [List.mem_cons, List.not_mem_nil, or_false]; omega
  have h := C164_agreed st latest asked
  have hc := C164_version latest serverVersions asked
  cases e : st.handshake latest asked with
  | mk r st' =>
    cases r with
    | ok v =>
      rw [e] at h
      exact (hs v).mp h.2.2
    | error b =>
      rw [e] at h
      obtain ⟨h, _⟩ := h
      rw [h] at hc
      dsimp only at hc
      refine ⟨fun hl => ?_, fun hl => ?_⟩
      · rw [if_pos hl] at hc
        by_cases h17 : latest < 17
        · exact h17
        · exact absurd ((hs 17).mpr (by omega)) (hc 17 (by omega))
      · rw [if_neg (by omega)] at hc
        rcases hc with hc | hc
        · omega
        · rw [hs] at hc; omega

example : choose 24 serverVersions 24 = .ok 24 ∧ choose 22 serverVersions 22 = .ok 22 ∧ choose 30 serverVersions 30 = .ok 24 ∧
    choose 24 serverVersions 18 = .ok 18 ∧ choose 24 serverVersions 5 = .error .server ∧ choose 10 serverVersions 10 = .error .noCommon :=
  ⟨rfl, rfl, rfl, rfl, rfl, rfl⟩

/-! ## C165 -/

/-- C165, violated: a version that the server refuses is used all the same: here the client is no longer told of changes of the active
state. -/
theorem C165_violation_refused :
    ∃ ops, (hist 21 [.upgrade 99]).2.any (fun o => match o with | .upgraded 99 false => true | _ => false) = true ∧
      ((got (hist 21 ops).2).length = 1 ∧ (got (hist 21 (.upgrade 99 :: ops)).2).length = 0) :=
  ⟨call 1 [⟨"/a", .attr "Active", [("AttributeName", .plain), ("Active", .plain)], true⟩], by decide +kernel, by decide +kernel, by decide +kernel⟩

/-- C165, violated: after a refused version below 11, notifications have the old format for good. -/
theorem C165_violation_format : (hist 0 [.upgrade 5, .upgrade 24]).1.ver = 24 ∧ (hist 0 [.upgrade 5, .upgrade 24]).1.oldFormat = true ∧
    (hist 0 [.upgrade 24]).1.oldFormat = false := by decide +kernel

theorem format_step {st : St} (h : st.oldFormat = false) (op : Op) (hv : ∀ v, op = .upgrade v → v ∈ serverVersions) :
    (st.step op).1.oldFormat = false := by
  have hcb : ∀ (s : St) (t : Th) (e : Ev), (s.callback t e).1.oldFormat = s.oldFormat := by
    intro s t e
    rcases callback_ths s t e with e' | e' | ⟨i, _, e'⟩ <;> rw [e'] <;> rfl
  have hso : st.sendOut.1.oldFormat = st.oldFormat := by
    unfold St.sendOut
    split <;> rfl
  cases op with
  | enter n => unfold St.step; dsimp only; split <;> exact h
  | begin n => unfold St.step St.beginRpc; dsimp only; split; exact h; split <;> exact h
  | raise n e =>
    unfold St.step
    dsimp only
    cases ht : st.th? n with
    | none => exact h
    | some t => dsimp only; split; exact (hcb _ _ _).trans h; exact h
  | check n =>
    unfold St.step
    dsimp only
    cases ht : st.th? n with
    | none => exact h
    | some t =>
      dsimp only
      split
      · unfold St.check
        split <;> exact h
      · exact h
  | send n =>
    unfold St.step
    dsimp only
    cases ht : st.th? n with
    | none => exact h
    | some t =>
      dsimp only
      unfold St.send
      split
      · exact hso.trans h
      · split
        · exact hso.trans h
        · exact h
  | finish n =>
    unfold St.step
    dsimp only
    cases ht : st.th? n with
    | none => exact h
    | some t =>
      dsimp only
      unfold St.finish
      split
      · split <;> exact h
      · exact h
  | reply n =>
    unfold St.step
    dsimp only
    cases ht : st.th? n with
    | none => exact h
    | some t => dsimp only; split <;> exact h
  | upgrade v =>
    have := hv v rfl
    have h11 : ¬ v < 11 := by
      unfold serverVersions at this
      simp only [List.mem_cons, List.not_mem_nil, or_false] at this
      omega
    change (if v < 11 then decide (0 < v) else st.oldFormat) = false
    rw [if_neg h11, h]
  | addExt n num s =>
    unfold St.step
    dsimp only
    cases ht : st.th? n with
    | none => exact h
    | some t =>
      dsimp only
      split
      · unfold St.addExt
        split
        · exact h
        · dsimp only
          split
          · exact h
          · exact (hcb _ _ _).trans h
      · exact h
  | removeExt n num =>
    unfold St.step
    dsimp only
    cases ht : st.th? n with
    | none => exact h
    | some t =>
      dsimp only
      split
      · unfold St.removeExt
        split
        · exact h
        · exact (hcb _ _ _).trans h
      · exact h
  | foreign n s =>
    unfold St.step
    dsimp only
    cases ht : st.th? n with
    | none => exact h
    | some t => dsimp only; split; exact (hcb _ _ _).trans h; exact h
  | foreignGone n s =>
    unfold St.step
    dsimp only
    cases ht : st.th? n with
    | none => exact h
    | some t => dsimp only; split; exact (hcb _ _ _).trans h; exact h

/-- C165: with versions that the server supports, notifications have the current format and the version is the last one agreed on. Missing:
versions it does not support. -/
theorem C165_supported_partial (v : Nat) (ops : List Op) (hv : ∀ w, .upgrade w ∈ ops → w ∈ serverVersions) :
    (hist v ops).1.oldFormat = false ∧ ∀ w ∈ serverVersions, ((hist v ops).1.step (.upgrade w)).1.ver = w := by
  refine ⟨?_, fun w _ => rfl⟩
  have key : ∀ (l : List Op) (st : St), st.oldFormat = false → (∀ w, .upgrade w ∈ l → w ∈ serverVersions) → (st.run l).1.oldFormat = false := by
    intro l
    induction l with
    | nil => exact fun _ h _ => h
    | cons op l ih =>
      intro st h hl
      exact ih _ (format_step h op (fun w e => hl w (e ▸ List.mem_cons_self))) (fun w hw => hl w (List.mem_cons_of_mem _ hw))
  exact key ops { ver := v } rfl hv

example : (hist 0 ([.upgrade 24] ++ call 1 [change "/a"])).1.oldFormat = false ∧ (hist 0 ([.upgrade 24] ++ call 1 [change "/a"])).1.ver = 24 := by
  decide +kernel

/-! ## C166 -/

/-- Another client adds an external signal and removes it. -/
def other (s : String) : List Op := [.enter 9, .foreign 9 s, .check 9, .send 9, .foreignGone 9 s, .check 9, .send 9, .finish 9]

/-- C166, violated: after the server refused an external signal of the client because another client has one with that id, the client is not
told of that signal any more. -/
theorem C166_violation_refused :
    (got (hist 24 (other "sig")).2).length = 2 ∧
    (got (hist 24 ([.enter 9, .foreign 9 "sig", .check 9, .send 9, .finish 9] ++ [.begin 1, .addExt 1 5 "sig", .finish 1, .send 1, .reply 1] ++
      [.enter 9, .foreignGone 9 "sig", .check 9, .send 9, .finish 9])).2).length = 1 := by decide +kernel

/-- C166: as long as none of its external signals was refused, a client is told of additions, removals and events of external signals exactly if they
are not its own. Missing: after a refused one. -/
theorem C166_external_partial (v : Nat) (ops : List Op) (ha : Accepted (hist v ops).2) (s : String) (b : Bool) (src : String) (t : Th)
    (ht : (hist v ops).1.th? t.id = some t) (hr : t.runs = true) :
    ((hist v ops).1.step (.raise t.id ⟨src, .ext s b, [], true⟩)).1.queue =
      (hist v ops).1.queue ++ (if s ∈ (ctx (v, []) (hist v ops).2).2 then [] else [⟨t.id, src, .ext s b, []⟩]) ∧
    (∀ x ∈ (ctx (v, []) (hist v ops).2).2, x ∈ (hist v ops).1.folder) := by
  have hf := hist_flow v ops ha
  refine ⟨?_, hf.own ▸ hf.sub⟩
  have e : (hist v ops).1.step (.raise t.id ⟨src, .ext s b, [], true⟩) = (hist v ops).1.callback t ⟨src, .ext s b, [], true⟩ := by
    unfold St.step
    dsimp only
    rw [ht]
    dsimp only
    rw [hr]
    rfl
  have hd : ∀ c : Nat × List String, due c ((hist v ops).1.callback t ⟨src, .ext s b, [], true⟩).2 = owed c (.heard t.id ⟨src, .ext s b, [], true⟩) := by
    intro c
    unfold St.callback
    split
    · cases h : (hist v ops).1.pack ⟨src, .ext s b, [], true⟩ with
      | item l => exact List.append_nil _
      | dropped => exact List.append_nil _
      | threw => exact List.append_nil _
    · exact List.append_nil _
  rw [e, (called (hist v ops).1 t _).queue, hd, ← hf.own]
  unfold owed wanted
  by_cases c : s ∈ (hist v ops).1.own
  · simp [c]
  · cases b <;> simp [c, told]

example : (got (hist 24 ([.begin 1, .addExt 1 5 "mine", .finish 1, .send 1, .reply 1] ++ other "sig")).2).length = 2 ∧
    (hist 24 [.begin 1, .addExt 1 5 "mine", .finish 1, .send 1, .reply 1]).1.folder = ["mine"] := by decide +kernel

end Verif.Notify.Props
