import Verif.Status.Lemmas
/-!
# Connection statuses (C227–C229)
-/
namespace Verif.Status
open Spec

/-! ## C227 -/

theorem Inv.same {s s' : Box} (h : Inv s) (h' : Inv s') {n : Text}
    (hn : ∀ c, AList.get s.names c = some n ↔ AList.get s'.names c = some n)
    (hs : ∀ c, AList.get s.names c = some n → AList.get s'.statuses c = AList.get s.statuses c) :
    s'.getStatus n = s.getStatus n := by
  by_cases e : ∃ c, AList.get s.names c = some n
  · obtain ⟨c, hc⟩ := e
    rw [h.getStatus hc, h'.getStatus ((hn c).mp hc), hs c hc]
  · have e1 : ∀ c, AList.get s.names c ≠ some n := fun c hc => e ⟨c, hc⟩
    rw [h.getStatus_none e1, h'.getStatus_none (fun c hc => e1 c ((hn c).mpr hc))]

theorem Inv.sameMsg {s s' : Box} (h : Inv s) (h' : Inv s') {n : Text}
    (hn : ∀ c, AList.get s.names c = some n ↔ AList.get s'.names c = some n)
    (hs : ∀ c, AList.get s.names c = some n → AList.get s'.messages c = AList.get s.messages c) :
    s'.getMessage n = s.getMessage n := by
  by_cases e : ∃ c, AList.get s.names c = some n
  · obtain ⟨c, hc⟩ := e
    rw [h.getMessage hc, h'.getMessage ((hn c).mp hc), hs c hc]
  · have e1 : ∀ c, AList.get s.names c ≠ some n := fun c hc => e ⟨c, hc⟩
    rw [h.getMessage_none e1, h'.getMessage_none (fun c hc => e1 c ((hn c).mpr hc))]

/-- How a call changes what is listed, and what it tells. -/
structure Told (s s' : Box) (es : List Event) : Prop where
  none : es = [] → s' = s
  one : ∀ e ∈ es, es = [e] ∧ ∃ n, e.name = some n ∧
    (∀ m, m ≠ n → s'.getStatus m = s.getStatus m ∧ s'.getMessage m = s.getMessage m) ∧
    s'.getMessage n = e.msg ∧
    ((e.val.text = "Removed".toList ∧ e.msg = Option.none ∧ s'.getStatus n = Option.none) ∨
     (s'.getStatus n = some e.val ∧ ∃ m, e.msg = some m))

theorem told_nothing (s : Box) : Told s s [] := ⟨fun _ => rfl, fun _ h => nomatch h⟩

theorem told_new {s : Box} (h : Inv s) {conn name : Text} {v : Val} {s' : Box} (h' : Inv s')
    (hfree : AList.get s.names conn = none)
    (e1 : s'.names = AList.put s.names conn name) (e2 : s'.statuses = AList.put s.statuses conn v)
    (e3 : s'.messages = AList.put s.messages conn []) {b : Bool} {obj : Option Nat} :
    Told s s' [{ name := some name, val := v, conn, config := b, obj, msg := some [] }] := by
  have hn : AList.get s'.names conn = some name := by rw [e1, AList.get_put, if_pos rfl]
  have hiff : ∀ m, m ≠ name → ∀ c, AList.get s.names c = some m ↔ AList.get s'.names c = some m := by
    intro m hm c
    rw [e1, AList.get_put]
    by_cases e : c = conn
    · rw [if_pos e, e, hfree]
      constructor
      · intro h; cases h
      · intro h; injection h with h; exact absurd h.symm hm
    · rw [if_neg e]
  have hne : ∀ {m c}, AList.get s.names c = some m → c ≠ conn := by
    intro m c hc e; rw [e, hfree] at hc; cases hc
  refine ⟨(fun h => nomatch h), fun e he => ?_⟩
  rw [List.mem_singleton] at he
  subst he
  refine ⟨rfl, name, rfl, ?_, ?_, .inr ⟨?_, [], rfl⟩⟩
  · intro m hm
    refine ⟨h.same h' (hiff m hm) (fun c hc => ?_), h.sameMsg h' (hiff m hm) (fun c hc => ?_)⟩
    · rw [e2, AList.get_put, if_neg (hne hc)]
    · rw [e3, AList.get_put, if_neg (hne hc)]
  · rw [h'.getMessage hn, e3, AList.get_put, if_pos rfl]
  · rw [h'.getStatus hn, e2, AList.get_put, if_pos rfl]

theorem not_has {m : AList Text α} {k : Text} (h : ¬ AList.has m k = true) : AList.get m k = none := by
  unfold AList.has at h
  cases e : AList.get m k with
  | none => rfl
  | some v => rw [e] at h; exact absurd rfl h

theorem Inv.name {s : Box} (h : Inv s) {c : Text} {v : Val} (hc : AList.get s.statuses c = some v) :
    ∃ n, AList.get s.names c = some n := by
  have := h.statuses c
  rw [has_of_get hc] at this
  unfold AList.has at this
  exact Option.isSome_iff_exists.mp this.symm

theorem Inv.told {s : Box} (h : Inv s) : ∀ op : Op, Told s (s.step op).1 (s.step op).2.2
  | .addConfig conn v => by
    have h' := h.addConfig conn v
    change Told s (s.addConfig conn v).1 (s.addConfig conn v).2.2
    unfold Box.addConfig at *
    split
    · exact told_nothing s
    · split
      · exact told_nothing s
      · rename_i h1 h2
        rw [if_neg h1, if_neg h2] at h'
        have hf : AList.get s.names conn = none := by
          refine not_has (fun hh => h2 (.inr (.inl ?_)))
          rw [h.statuses, hh]
        exact told_new h h' hf rfl rfl rfl
  | .addStreaming types conn v obj => by
    have h' := h.addStreaming types conn v obj
    change Told s (s.addStreaming types conn v obj).1 (s.addStreaming types conn v obj).2.2
    unfold Box.addStreaming at *
    split
    · exact told_nothing s
    · split
      · exact told_nothing s
      · rename_i h1 h2
        rw [if_neg h1, if_neg h2] at h'
        have hf : AList.get s.names conn = none := by
          refine not_has (fun hh => h2 (.inl ?_))
          rw [h.statuses, hh]
        exact told_new h h' hf rfl rfl rfl
  | .remove conn => by
    have h' := h.remove conn
    change Told s (s.remove conn).1 (s.remove conn).2.2
    unfold Box.remove at *
    split
    · rename_i v m hs hm
      rw [hs, hm] at h'
      obtain ⟨n, hn⟩ := h.name hs
      refine ⟨(fun h => nomatch h), fun e he => ?_⟩
      rw [List.mem_singleton] at he
      subst he
      have hgone : ∀ c, AList.get (AList.del s.names conn) c ≠ some n := by
        intro c hc
        rw [AList.get_del] at hc
        by_cases e : c = conn
        · rw [if_pos e] at hc; cases hc
        · rw [if_neg e] at hc; exact e (h.inj c conn n hc hn)
      have hiff : ∀ m, m ≠ n → ∀ c, AList.get s.names c = some m ↔ AList.get (AList.del s.names conn) c = some m := by
        intro m hm c
        rw [AList.get_del]
        by_cases e : c = conn
        · rw [if_pos e, e, hn]
          constructor
          · intro h; injection h with h; exact absurd h.symm hm
          · intro h; cases h
        · rw [if_neg e]
      have hne : ∀ {m c}, m ≠ n → AList.get s.names c = some m → c ≠ conn := by
        intro m c hm hc e; rw [e, hn] at hc; injection hc with hc; exact hm hc.symm
      refine ⟨rfl, n, hn, ?_, ?_, .inl ⟨rfl, rfl, ?_⟩⟩
      · intro m hm
        refine ⟨h.same h' (hiff m hm) (fun c hc => ?_), h.sameMsg h' (hiff m hm) (fun c hc => ?_)⟩
        · change AList.get (AList.del _ _) c = _
          rw [AList.get_del, if_neg (hne hm hc)]
        · change AList.get (AList.del _ _) c = _
          rw [AList.get_del, if_neg (hne hm hc)]
      · exact h'.getMessage_none hgone
      · exact h'.getStatus_none hgone
    · exact told_nothing s
  | .update conn v obj msg => by
    have h' := h.update conn v obj msg
    change Told s (s.update conn v obj msg).1 (s.update conn v obj msg).2.2
    unfold Box.update at *
    split
    · exact told_nothing s
    · rename_i h0
      rw [if_neg h0] at h'
      split
      · rename_i old oldMsg hs hm
        rw [hs, hm] at h'
        dsimp only at h'
        split
        · exact told_nothing s
        · rename_i h1
          rw [if_neg h1] at h'
          split
          · exact told_nothing s
          · rename_i h2
            rw [if_neg h2] at h'
            obtain ⟨n, hn⟩ := h.name hs
            have hne : ∀ {m c}, m ≠ n → AList.get s.names c = some m → c ≠ conn := by
              intro m c hm hc e; rw [e, hn] at hc; injection hc with hc; exact hm hc.symm
            refine ⟨(fun h => nomatch h), fun e he => ?_⟩
            rw [List.mem_singleton] at he
            subst he
            refine ⟨rfl, n, hn, ?_, ?_, .inr ⟨?_, msg, rfl⟩⟩
            · intro m hm
              refine ⟨h.same h' (fun _ => Iff.rfl) (fun c hc => ?_), h.sameMsg h' (fun _ => Iff.rfl) (fun c hc => ?_)⟩
              · change AList.get (AList.put _ _ _) c = _
                rw [AList.get_put, if_neg (hne hm hc)]
              · change AList.get (AList.put _ _ _) c = _
                rw [AList.get_put, if_neg (hne hm hc)]
            · rw [h'.getMessage hn]
              change AList.get (AList.put _ _ _) conn = _
              rw [AList.get_put, if_pos rfl]
            · rw [h'.getStatus hn]
              change AList.get (AList.put _ _ _) conn = _
              rw [AList.get_put, if_pos rfl]
      · exact told_nothing s

theorem follow_append (l₁ l₂ : List Event) : ∀ known, follow known (l₁ ++ l₂) = follow (follow known l₁) l₂ := by
  induction l₁ with
  | nil => intro known; rfl
  | cons e l ih => intro known; exact ih _

theorem followMsg_append (l₁ l₂ : List Event) :
    ∀ known, followMsg known (l₁ ++ l₂) = followMsg (followMsg known l₁) l₂ := by
  induction l₁ with
  | nil => intro known; rfl
  | cons e l ih => intro known; exact ih _

/-- The events of calls that keep the rules have other values. -/
theorem plain_event {s : Box} {op : Op} (hp : Plain op) {e : Event} (he : e ∈ (s.step op).2.2) {m : Text}
    (hm : e.msg = some m) : e.val.text ≠ "Removed".toList := by
  cases op with
  | addConfig conn v =>
    change e ∈ (s.addConfig conn v).2.2 at he
    unfold Box.addConfig at he
    split at he
    · cases he
    · split at he
      · cases he
      · rw [List.mem_singleton] at he; subst he; exact hp
  | addStreaming types conn v obj =>
    change e ∈ (s.addStreaming types conn v obj).2.2 at he
    unfold Box.addStreaming at he
    split at he
    · cases he
    · split at he
      · cases he
      · rw [List.mem_singleton] at he; subst he; exact hp
  | remove conn =>
    change e ∈ (s.remove conn).2.2 at he
    unfold Box.remove at he
    split at he
    · rw [List.mem_singleton] at he; subst he; cases hm
    · cases he
  | update conn v obj msg =>
    change e ∈ (s.update conn v obj msg).2.2 at he
    unfold Box.update at he
    split at he
    · cases he
    · split at he
      · split at he
        · cases he
        · split at he
          · cases he
          · rw [List.mem_singleton] at he; subst he; exact hp
      · cases he

theorem step_follow {s : Box} (h : Inv s) {op : Op} (hp : Plain op) :
    follow s.getStatus (s.step op).2.2 = (s.step op).1.getStatus ∧
    followMsg s.getMessage (s.step op).2.2 = (s.step op).1.getMessage := by
  have ht := h.told op
  have hpl := fun e he m hm => plain_event (s := s) hp (e := e) he (m := m) hm
  generalize (s.step op).1 = s' at *
  generalize (s.step op).2.2 = es at *
  cases es with
  | nil => rw [ht.none rfl]; exact ⟨rfl, rfl⟩
  | cons e l =>
    obtain ⟨e1, n, hn, ho, hm, hs⟩ := ht.one e List.mem_cons_self
    rw [e1]
    constructor
    · funext m
      change (if e.name = some m then _ else _) = _
      rw [hn]
      by_cases hmn : m = n
      · subst hmn
        rw [if_pos rfl]
        rcases hs with ⟨h1, _, h2⟩ | ⟨h1, k, h2⟩
        · rw [if_pos h1, h2]
        · rw [if_neg (hpl e List.mem_cons_self k h2), h1]
      · rw [if_neg (fun h => hmn (Option.some.inj h).symm), (ho m hmn).1]
    · funext m
      change (if e.name = some m then _ else _) = _
      rw [hn]
      by_cases hmn : m = n
      · subst hmn; rw [if_pos rfl, hm]
      · rw [if_neg (fun h => hmn (Option.some.inj h).symm), (ho m hmn).2]

theorem run_follow : ∀ {s : Box} (_ : Inv s) {ops : List Op}, (∀ op ∈ ops, Plain op) →
    follow s.getStatus (s.run ops).2 = (s.run ops).1.getStatus ∧
    followMsg s.getMessage (s.run ops).2 = (s.run ops).1.getMessage
  | s, _, [], _ => ⟨rfl, rfl⟩
  | s, h, op :: ops, hp => by
    have h1 := step_follow h (hp op List.mem_cons_self)
    have h2 := run_follow (h.step op) (fun o ho => hp o (List.mem_cons_of_mem _ ho))
    change follow _ ((s.step op).2.2 ++ _) = _ ∧ followMsg _ ((s.step op).2.2 ++ _) = _
    rw [follow_append, followMsg_append, h1.1, h1.2]
    exact h2

/-- C227: whoever follows the events knows the statuses and the messages. -/
theorem C227_events {ops : List Op} (hp : ∀ op ∈ ops, Plain op) (n : Text) :
    (Box.init.run ops).1.getStatus n = follow (fun _ => none) (Box.init.run ops).2 n ∧
    (Box.init.run ops).1.getMessage n = followMsg (fun _ => none) (Box.init.run ops).2 n := by
  have h := run_follow inv_init hp
  have e1 : Box.init.getStatus = fun _ => none := by
    funext m; exact inv_init.getStatus_none (fun _ h => nomatch h)
  have e2 : Box.init.getMessage = fun _ => none := by
    funext m; exact inv_init.getMessage_none (fun _ h => nomatch h)
  rw [e1, e2] at h
  rw [h.1, h.2]
  exact ⟨rfl, rfl⟩

/-- C227: the list and the single statuses agree. -/
theorem C227_list (ops : List Op) (n : Text) :
    AList.get (Box.init.run ops).1.getStatuses n = (Box.init.run ops).1.getStatus n := by
  have h := inv_init.run ops
  generalize (Box.init.run ops).1 = s at *
  unfold Box.getStatuses
  rw [collect_get (fun c c' hc hc' => h.inj c c' n (get_of_mem h.nodup hc) (get_of_mem h.nodup hc'))]
  unfold Box.getStatus
  by_cases e : n = []
  · rw [if_pos e, h.find_none (fun c hc => h.nonempty hc e)]; rfl
  · rw [if_neg e]
    cases find s.names s.statuses n <;> rfl

/-- C227: no two connections share a name. -/
theorem C227_names (ops : List Op) {c c' n : Text} (h : AList.get (Box.init.run ops).1.names c = some n)
    (h' : AList.get (Box.init.run ops).1.names c' = some n) : c = c' :=
  (inv_init.run ops).inj c c' n h h'

/-- C227: a change that is accepted is what is read afterwards, and a refused one changes nothing. -/
theorem C227_update (ops : List Op) (conn : Text) (v : Val) (obj : Option Nat) (msg : Text) :
    let s := (Box.init.run ops).1
    (((s.update conn v obj msg).2.1 = .ok ∨ (s.update conn v obj msg).2.1 = .ignored) →
      Lists (s.update conn v obj msg).1 conn v) ∧
    ((s.update conn v obj msg).2.1 ≠ .ok → (s.update conn v obj msg).1 = s ∧ (s.update conn v obj msg).2.2 = []) := by
  intro s
  have h : Inv s := inv_init.run ops
  have h' := h.update conn v obj msg
  unfold Box.update at *
  split
  · exact ⟨fun h => by simp at h, fun _ => ⟨rfl, rfl⟩⟩
  · rename_i h0
    rw [if_neg h0] at h'
    split
    · rename_i old oldMsg hs hm
      rw [hs, hm] at h'
      dsimp only at h'
      obtain ⟨n, hn⟩ := h.name hs
      split
      · exact ⟨fun h => by simp at h, fun _ => ⟨rfl, rfl⟩⟩
      · rename_i h1
        rw [if_neg h1] at h'
        split
        · rename_i h2
          refine ⟨fun _ => ⟨n, hn, ?_⟩, fun _ => ⟨rfl, rfl⟩⟩
          rw [h.getStatus hn, hs, h2.1]
        · rename_i h2
          rw [if_neg h2] at h'
          refine ⟨fun _ => ⟨n, hn, ?_⟩, fun h => absurd rfl h⟩
          rw [h'.getStatus hn]
          change AList.get (AList.put _ _ _) conn = _
          rw [AList.get_put, if_pos rfl]
    · exact ⟨fun h => by simp at h, fun _ => ⟨rfl, rfl⟩⟩

theorem Inv.lists {s : Box} (h : Inv s) (c : Text) (v : Val) : Lists s c v ↔ AList.get s.statuses c = some v := by
  constructor
  · rintro ⟨n, hn, hv⟩
    rwa [h.getStatus hn] at hv
  · intro hv
    obtain ⟨n, hn⟩ := h.name hv
    exact ⟨n, hn, by rw [h.getStatus hn, hv]⟩

/-- C227: which calls are accepted. -/
theorem C227_accepts (ops : List Op) (conn : Text) (v : Val) (obj : Option Nat) (msg : Text) (types : List (Text × Text)) :
    let s := (Box.init.run ops).1
    ((s.addStreaming types conn v obj).2.1 = .ok ↔ conn ≠ [] ∧ ∀ w, ¬ Lists s conn w) ∧
    ((s.remove conn).2.1 = .ok ↔ ∃ w, Lists s conn w) ∧
    (((s.update conn v obj msg).2.1 = .ok ∨ (s.update conn v obj msg).2.1 = .ignored) ↔
      conn ≠ [] ∧ ∃ w, Lists s conn w ∧ w.type = v.type) ∧
    ((∀ c w, Op.addConfig c w ∉ ops) →
      ((s.addConfig conn v).2.1 = .ok ↔ conn ≠ [] ∧ ∀ w, ¬ Lists s conn w)) := by
  intro s
  have h : Inv s := inv_init.run ops
  have hadd : (∀ c w, Op.addConfig c w ∉ ops) → s.added = false := by
    have : ∀ (ops : List Op) (s : Box), s.added = false → (∀ c w, Op.addConfig c w ∉ ops) → (s.run ops).1.added = false := by
      intro ops
      induction ops with
      | nil => exact fun _ h _ => h
      | cons op ops ih =>
        intro s hs ho
        refine ih _ ?_ (fun c w hm => ho c w (List.mem_cons_of_mem _ hm))
        cases op with
        | addConfig c w => exact absurd List.mem_cons_self (ho c w)
        | addStreaming types conn v obj =>
          change (s.addStreaming types conn v obj).1.added = false
          unfold Box.addStreaming
          split
          · exact hs
          · split <;> exact hs
        | remove conn =>
          change (s.remove conn).1.added = false
          unfold Box.remove
          split <;> exact hs
        | update conn v obj msg =>
          change (s.update conn v obj msg).1.added = false
          unfold Box.update
          split
          · exact hs
          · split
            · split
              · exact hs
              · split <;> exact hs
            · exact hs
    exact this ops Box.init rfl
  have hm : AList.has s.messages conn = AList.has s.statuses conn := by rw [h.messages, h.statuses]
  cases e : AList.get s.statuses conn with
  | none =>
    have h1 : AList.has s.statuses conn = false := by unfold AList.has; rw [e]; rfl
    have hno : ∀ w, ¬ Lists s conn w := fun w hw => by rw [h.lists, e] at hw; cases hw
    refine ⟨?_, ?_, ?_, ?_⟩
    · unfold Box.addStreaming
      by_cases h0 : conn = []
      · rw [if_pos h0]; simp [h0]
      · rw [if_neg h0, if_neg (by rw [hm, h1]; simp)]; simp [h0, hno]
    · unfold Box.remove; rw [e]; simp [hno]
    · unfold Box.update
      by_cases h0 : conn = []
      · rw [if_pos h0]; simp [h0]
      · rw [if_neg h0, e]; simp [hno]
    · intro ho
      unfold Box.addConfig
      by_cases h0 : conn = []
      · rw [if_pos h0]; simp [h0]
      · rw [if_neg h0, if_neg (by rw [hm, h1, hadd ho]; simp)]; simp [h0, hno]
  | some w =>
    have h1 : AList.has s.statuses conn = true := has_of_get e
    have hl : Lists s conn w := (h.lists conn w).mpr e
    have hw : ∀ x, Lists s conn x ↔ x = w := fun x => by
      rw [h.lists, e, Option.some.injEq]; exact eq_comm
    have h2 := h1
    rw [← hm] at h2
    obtain ⟨m, hm'⟩ := (AList.has_iff _ _).mp h2
    refine ⟨?_, ?_, ?_, ?_⟩
    · unfold Box.addStreaming
      by_cases h0 : conn = []
      · rw [if_pos h0]; simp [h0]
      · rw [if_neg h0, if_pos (Or.inl h1)]; simp [hw]
    · unfold Box.remove; rw [e, hm']; simp [hw]
    · unfold Box.update
      by_cases h0 : conn = []
      · rw [if_pos h0]; simp [h0]
      · rw [if_neg h0, e, hm']
        dsimp only
        by_cases ht : v.type = w.type
        · rw [if_neg (fun x => x ht)]
          split <;> simp [h0, hw, ht]
        · rw [if_pos ht]
          simp only [hw]
          constructor
          · rintro (x | x) <;> cases x
          · rintro ⟨_, x, rfl, hx⟩; exact absurd hx.symm ht
    · intro _
      unfold Box.addConfig
      by_cases h0 : conn = []
      · rw [if_pos h0]; simp [h0]
      · rw [if_neg h0, if_pos (Or.inr (Or.inl h1))]; simp [hw]

/-- C227: an event tells the connection and the streaming, and, but for removals, whether it is the
configuration. -/
theorem C227_about (ops : List Op) (op : Op) {e : Event} (he : e ∈ ((Box.init.run ops).1.step op).2.2) :
    e.conn = about op ∧ e.obj = whose op ∧
    ((∀ c, op ≠ .remove c) → (e.config = true ↔ e.name = some "ConfigurationStatus".toList)) := by
  generalize (Box.init.run ops).1 = s at he
  cases op with
  | addConfig c v =>
    change e ∈ (s.addConfig c v).2.2 at he
    unfold Box.addConfig at he
    split at he
    · cases he
    · split at he
      · cases he
      · rw [List.mem_singleton.mp he]; exact ⟨rfl, rfl, fun _ => ⟨fun _ => rfl, fun _ => rfl⟩⟩
  | addStreaming types c v o =>
    change e ∈ (s.addStreaming types c v o).2.2 at he
    unfold Box.addStreaming at he
    split at he
    · cases he
    · split at he
      · cases he
      · rw [List.mem_singleton.mp he]
        refine ⟨rfl, rfl, fun _ => ⟨(fun h => nomatch h), fun h => ?_⟩⟩
        have h' : streamName types c (s.count + 1) = configName := Option.some.inj h
        unfold streamName at h'
        split at h'
        · exact absurd h'.symm config_not_numbered
        · exact absurd h'.symm config_not_numbered
  | remove c =>
    change e ∈ (s.remove c).2.2 at he
    unfold Box.remove at he
    split at he
    · rw [List.mem_singleton.mp he]; exact ⟨rfl, rfl, fun h => absurd rfl (h c)⟩
    · cases he
  | update c v o msg =>
    change e ∈ (s.update c v o msg).2.2 at he
    unfold Box.update at he
    split at he
    · cases he
    · split at he
      · split at he
        · cases he
        · split at he
          · cases he
          · rw [List.mem_singleton.mp he]
            exact ⟨rfl, rfl, fun _ => decide_eq_true_iff⟩
      · cases he

/-- C227: an accepted change sets the message too, and is told unless both are as before. -/
theorem C227_message (ops : List Op) {conn n : Text} {v old : Val} (obj : Option Nat) (msg : Text) {oldMsg : Text} (h0 : conn ≠ []) :
    let s := (Box.init.run ops).1
    AList.get s.names conn = some n → s.getStatus n = some old → s.getMessage n = some oldMsg → v.type = old.type →
    (s.update conn v obj msg).1.getMessage n = some msg ∧
    ((s.update conn v obj msg).2.2 = [] ↔ v = old ∧ msg = oldMsg) ∧
    ((s.update conn v obj msg).2.1 = .ignored ↔ v = old ∧ msg = oldMsg) := by
  intro s hn hs hm ht
  have h : Inv s := inv_init.run ops
  rw [h.getStatus hn] at hs
  rw [h.getMessage hn] at hm
  have hI := h.update conn v obj msg
  unfold Box.update at hI ⊢
  rw [if_neg h0, hs, hm] at hI ⊢
  dsimp only at hI ⊢
  rw [if_neg (fun x => x ht)] at hI ⊢
  by_cases e : v = old ∧ oldMsg = msg
  · rw [if_pos e]
    refine ⟨by rw [h.getMessage hn, hm, e.2], ?_, ?_⟩ <;> exact ⟨fun _ => ⟨e.1, e.2.symm⟩, fun _ => rfl⟩
  · rw [if_neg e] at hI ⊢
    refine ⟨?_, ?_, ?_⟩
    · rw [hI.getMessage hn]
      change AList.get (AList.put _ _ _) conn = _
      rw [AList.get_put, if_pos rfl]
    · exact ⟨(fun x => nomatch x), fun x => absurd ⟨x.1, x.2.symm⟩ e⟩
    · exact ⟨(fun x => nomatch x), fun x => absurd ⟨x.1, x.2.symm⟩ e⟩

/-- Connected. -/
def demoVal (t : String) : Val := ⟨1, t.toList⟩

/-- A history: a configuration connection, two streamings, a change and a removal. -/
def demoOps : List Op :=
  [.addConfig "daq.nd://1".toList (demoVal "Connected"),
   .addStreaming [("Native".toList, "daq.ns".toList)] "daq.ns://1".toList (demoVal "Connected") (some 1),
   .addStreaming [("Native".toList, "daq.ns".toList)] "daq.lt://1".toList (demoVal "Connected") (some 2),
   .update "daq.ns://1".toList (demoVal "Reconnecting") (some 1) "lost".toList,
   .remove "daq.lt://1".toList]

example : (∀ op ∈ demoOps, Plain op) ∧
    (Box.init.run demoOps).1.getStatus "StreamingStatus_Native_1".toList = some (demoVal "Reconnecting") ∧
    (Box.init.run demoOps).1.getMessage "StreamingStatus_Native_1".toList = some "lost".toList ∧
    (Box.init.run demoOps).1.getStatus "ConfigurationStatus".toList = some (demoVal "Connected") ∧
    (Box.init.run demoOps).1.getStatus "StreamingStatus_2".toList = none ∧
    (Box.init.run demoOps).2.length = 5 := by
  refine ⟨?_, by decide +kernel, by decide +kernel, by decide +kernel, by decide +kernel, by decide +kernel⟩
  intro op ho
  simp only [demoOps, List.mem_cons, List.not_mem_nil, or_false] at ho
  rcases ho with rfl | rfl | rfl | rfl | rfl
  all_goals first | trivial | (change _ ≠ _; decide)

/-! ## C228 -/

/-- C228, violated: the status of the configuration connection can be removed, and cannot be added
again. -/
theorem C228_violation_removed :
    let s := (Box.init.run [.addConfig "a".toList (demoVal "Connected"), .remove "a".toList]).1
    s.getStatus "ConfigurationStatus".toList = none ∧
    ∀ c v, ((s.addConfig c v).2.1 = .err .alreadyExists ∨ c = []) ∧
      (s.addConfig c v).1.getStatus "ConfigurationStatus".toList = none := by
  refine ⟨by decide +kernel, fun c v => ?_⟩
  have hs : (Box.init.run [.addConfig "a".toList (demoVal "Connected"), .remove "a".toList]).1 =
      { Box.init with added := true } := by decide +kernel
  rw [hs]
  unfold Box.addConfig
  by_cases h : c = []
  · rw [if_pos h]; exact ⟨.inr h, rfl⟩
  · rw [if_neg h, if_pos (Or.inl rfl)]; exact ⟨.inl rfl, rfl⟩

/-- The name is kept by calls that do not remove it. -/
theorem keep_name {s : Box} {k : Text} (hk : AList.get s.names k = some configName) (h : Inv s) :
    ∀ {op : Op}, op ≠ .remove k → AList.get (s.step op).1.names k = some configName
  | .addConfig conn v, _ => by
    change AList.get (s.addConfig conn v).1.names k = _
    unfold Box.addConfig
    split
    · exact hk
    · split
      · exact hk
      · rename_i h1 h2
        change AList.get (AList.put _ _ _) k = _
        rw [AList.get_put]
        split
        · rfl
        · exact hk
  | .addStreaming types conn v obj, _ => by
    change AList.get (s.addStreaming types conn v obj).1.names k = _
    unfold Box.addStreaming
    split
    · exact hk
    · split
      · exact hk
      · rename_i h1 h2
        change AList.get (AList.put _ _ _) k = _
        rw [AList.get_put]
        split
        · rename_i e
          subst e
          refine absurd (Or.inl ?_) h2
          rw [h.statuses, has_of_get hk]
        · exact hk
  | .remove conn, hne => by
    change AList.get (s.remove conn).1.names k = _
    unfold Box.remove
    split
    · change AList.get (AList.del _ _) k = _
      rw [AList.get_del, if_neg (fun e => hne (by rw [e])), hk]
    · exact hk
  | .update conn v obj msg, _ => by
    change AList.get (s.update conn v obj msg).1.names k = _
    unfold Box.update
    split
    · exact hk
    · split
      · split
        · exact hk
        · split
          · exact hk
          · exact hk
      · exact hk

theorem keep_run {k : Text} : ∀ {s : Box} (_ : Inv s) (_ : AList.get s.names k = some configName) {ops : List Op},
    (∀ op ∈ ops, op ≠ .remove k) → AList.get (s.run ops).1.names k = some configName
  | _, _, hk, [], _ => hk
  | _, h, hk, _ :: _, ho =>
    keep_run (h.step _) (keep_name hk h (ho _ List.mem_cons_self)) (fun o hm => ho o (List.mem_cons_of_mem _ hm))

/-- C228: once added, the status of the configuration connection stays, with its name.  Missing: calls
that remove it as if it were that of a streaming. -/
theorem C228_stays_partial (ops : List Op) {k : Text} {v : Val}
    (h : ((Box.init.run ops).1.addConfig k v).2.1 = .ok) {more : List Op} (hm : ∀ op ∈ more, op ≠ .remove k) :
    ∃ w, Lists (((Box.init.run ops).1.addConfig k v).1.run more).1 k w ∧
      (((Box.init.run ops).1.addConfig k v).1.run more).1.getStatus "ConfigurationStatus".toList = some w := by
  have hi := inv_init.run ops
  generalize (Box.init.run ops).1 = s at *
  have hi' := hi.addConfig k v
  have hk : AList.get (s.addConfig k v).1.names k = some configName := by
    unfold Box.addConfig at *
    split at h
    · cases h
    · split at h
      · cases h
      · rename_i h1 h2
        rw [if_neg h1, if_neg h2]
        change AList.get (AList.put _ _ _) k = _
        rw [AList.get_put, if_pos rfl]
  have hr := keep_run hi' hk hm
  have hI := hi'.run more
  generalize ((s.addConfig k v).1.run more).1 = t at *
  have hst : AList.has t.statuses k = true := by rw [hI.statuses, has_of_get hr]
  obtain ⟨w, hw⟩ := (AList.has_iff _ _).mp hst
  have e := hI.getStatus hr
  rw [hw] at e
  exact ⟨w, ⟨_, hr, e⟩, e⟩

example : ((Box.init.run []).1.addConfig "a".toList (demoVal "Connected")).2.1 = .ok := by decide +kernel

/-- C228: writing and reading a container keeps the status and the message of the configuration
connection.  Missing: after it was removed. -/
theorem C228_reload_partial (ops : List Op) {k : Text} (hk : AList.get (Box.init.run ops).1.names k = some configName)
    (hne : k ≠ []) :
    (Box.init.run ops).1.reload.getStatus "ConfigurationStatus".toList =
      (Box.init.run ops).1.getStatus "ConfigurationStatus".toList ∧
    (Box.init.run ops).1.reload.getMessage "ConfigurationStatus".toList =
      (Box.init.run ops).1.getMessage "ConfigurationStatus".toList ∧
    AList.get (Box.init.run ops).1.reload.names k = some configName := by
  have h := inv_init.run ops
  generalize (Box.init.run ops).1 = s at *
  have hst : AList.has s.statuses k = true := by rw [h.statuses, has_of_get hk]
  have hms : AList.has s.messages k = true := by rw [h.messages, has_of_get hk]
  obtain ⟨v, hv⟩ := (AList.has_iff _ _).mp hst
  obtain ⟨m, hm⟩ := (AList.has_iff _ _).mp hms
  have e1 : s.getStatus configName = some v := by rw [h.getStatus hk, hv]
  have e2 : s.getMessage configName = some m := by rw [h.getMessage hk, hm]
  have hr : s.reload = ((Box.init.addConfig k v).1.update k v none m).1 := by
    unfold Box.reload
    cases hf : s.names.find? (fun e => e.2 == configName && AList.has s.statuses e.1) with
    | none =>
      have := List.find?_eq_none.mp hf (k, configName) (AList.mem_of_get hk)
      simp [hst] at this
    | some e =>
      have hp := List.find?_some hf
      have hmem := List.mem_of_find?_eq_some hf
      simp only [Bool.and_eq_true, beq_iff_eq] at hp
      have : e.1 = k := h.inj e.1 k configName (get_of_mem h.nodup (by rw [← hp.1]; exact hmem)) hk
      dsimp only
      rw [this, hv]
      dsimp only
      rw [hm]
  have ha : (Box.init.addConfig k v).1 =
      { statuses := [(k, v)], messages := [(k, [])], names := [(k, configName)], count := 0, added := true } := by
    unfold Box.addConfig
    rw [if_neg hne, if_neg (by rintro (h | h | h) <;> cases h)]
    rfl
  have hI : Inv s.reload := by
    rw [hr]; exact (inv_init.addConfig k v).update k v none m
  have hn : AList.get s.reload.names k = some configName ∧ AList.get s.reload.statuses k = some v ∧
      AList.get s.reload.messages k = some m := by
    rw [hr, ha]
    unfold Box.update
    rw [if_neg hne]
    have g1 : AList.get [(k, v)] k = some v := by rw [AList.get_cons, if_pos rfl]
    have g2 : AList.get [(k, ([] : Text))] k = some [] := by rw [AList.get_cons, if_pos rfl]
    have g3 : AList.get [(k, configName)] k = some configName := by rw [AList.get_cons, if_pos rfl]
    rw [g1, g2]
    dsimp only
    rw [if_neg (fun h => h rfl)]
    split
    · rename_i h3
      exact ⟨g3, g1, by rw [g2, h3.2]⟩
    · refine ⟨g3, ?_, ?_⟩
      · change AList.get (AList.put _ _ _) k = _
        rw [AList.get_put, if_pos rfl]
      · change AList.get (AList.put _ _ _) k = _
        rw [AList.get_put, if_pos rfl]
  refine ⟨?_, ?_, hn.1⟩
  · change s.reload.getStatus configName = s.getStatus configName
    rw [hI.getStatus hn.1, hn.2.1, e1]
  · change s.reload.getMessage configName = s.getMessage configName
    rw [hI.getMessage hn.1, hn.2.2, e2]

example : (Box.init.run demoOps).1.reload.getStatus "ConfigurationStatus".toList = some (demoVal "Connected") ∧
    (Box.init.run demoOps).1.reload.getStatus "StreamingStatus_Native_1".toList = none := by decide +kernel

/-! ## C229 -/

/-- C229, violated: a streaming is named after a type with a shorter prefix. -/
theorem C229_violation_prefix :
    let types := [("Old".toList, "daq.n".toList), ("Native".toList, "daq.ns".toList)]
    IsType types "daq.ns://1".toList "Native".toList ∧ ¬ IsType types "daq.ns://1".toList "Old".toList ∧
    ((Box.init.addStreaming types "daq.ns://1".toList (demoVal "Connected") none).2.2.map (·.name)) =
      [some "StreamingStatus_Old_1".toList] := by
  refine ⟨⟨"daq.ns".toList, "1".toList, by simp, by decide⟩, ?_, by decide +kernel⟩
  rintro ⟨p, r, hp, e⟩
  simp only [List.mem_cons, List.not_mem_nil, or_false, Prod.mk.injEq] at hp
  rcases hp with ⟨_, rfl⟩ | ⟨h, _⟩
  · have : ("daq.ns://1".toList)[5]? = some 's' := by decide
    rw [e] at this
    simp at this
  · exact absurd h (by decide)

/-- C229: a streaming is named after its type.  Missing: types of which one prefix is the beginning of
another. -/
theorem C229_named_partial (s : Box) {types : List (Text × Text)} (ha : Apart types) {conn id : Text} (v : Val)
    (obj : Option Nat) (ht : IsType types conn id) (hok : (s.addStreaming types conn v obj).2.1 = .ok) :
    ∃ k, (s.addStreaming types conn v obj).2.2.map (·.name) =
      [some ("StreamingStatus_".toList ++ id ++ '_' :: Mgr.digits k)] := by
  obtain ⟨p, r, hp, hc⟩ := ht
  have hname : streamName types conn (s.count + 1) =
      "StreamingStatus_".toList ++ id ++ '_' :: Mgr.digits (s.count + 1) := by
    unfold streamName
    have hpre : p <+: conn := ⟨"://".toList ++ r, by rw [hc]; simp⟩
    cases hf : types.find? (fun t => t.2.isPrefixOf conn) with
    | none =>
      have := List.find?_eq_none.mp hf (id, p) hp
      exact absurd (List.isPrefixOf_iff_prefix.mpr hpre) this
    | some t =>
      have h0 : t.2.isPrefixOf conn = true := by simpa using List.find?_some hf
      have h1 := List.isPrefixOf_iff_prefix.mp h0
      have h2 := List.mem_of_find?_eq_some hf
      have : t = (id, p) := by
        rcases List.prefix_or_prefix_of_prefix h1 hpre with h | h
        · exact ha t h2 (id, p) hp h
        · exact (ha (id, p) hp t h2 h).symm
      rw [this]
      rfl
  unfold Box.addStreaming at *
  split at hok
  · cases hok
  · split at hok
    · cases hok
    · rename_i h1 h2
      rw [if_neg h1, if_neg h2]
      exact ⟨s.count + 1, by rw [← hname]; rfl⟩

example : Apart [("Native".toList, "daq.ns".toList), ("LT".toList, "daq.lt".toList)] ∧
    IsType [("Native".toList, "daq.ns".toList), ("LT".toList, "daq.lt".toList)] "daq.lt://1".toList "LT".toList := by
  refine ⟨?_, ⟨"daq.lt".toList, "1".toList, by simp, by decide⟩⟩
  unfold Apart
  decide

end Verif.Status
