import Verif.Streaming.Logs

/-!
# Properties of subscriptions and packet distribution (C18, C19, C49, C50)

`hist st ops` is the history of an arbitrary sequence of calls on a fresh manager, newest first.
-/

namespace Verif.Streaming
open Verif.AList

/-- The result of one more call after the history. -/
def result (st : Settings) (ops : List Op) (op : Op) : Out := ((exec st ops).1.step op).2

/-! ## C18 Subscriptions -/

/-- C18: subscribing a registered signal reports "first subscriber" exactly when nobody subscribes it. -/
theorem C18_subscribe (st : Settings) (ops : List Op) (s c : Nat)
    (hn : number s (hist st ops) ≠ none) (hr : registered c (hist st ops) = true) :
    (Idle s (hist st ops) → result st ops (.subscribe s c) = .bool true) ∧
    (¬ Idle s (hist st ops) → result st ops (.subscribe s c) = .bool false) := by
  have hi := inv st ops
  unfold result
  show (_ → (Mgr.subscribe _ s c).2 = _) ∧ (_ → (Mgr.subscribe _ s c).2 = _)
  cases e : (exec st ops).1.sigs.get s with
  | none => exact absurd (hi.number_none e).1 hn
  | some g =>
    have hg := hi.ok e
    have hb := hg.busy
    obtain ⟨w, hw⟩ : ∃ w, (exec st ops).1.servers.get c = some w := by
      have h1 := hi.srv c
      rw [hr] at h1
      exact Option.isSome_iff_exists.mp h1
    unfold Mgr.subscribe
    rw [e]
    simp only
    constructor
    · intro hid
      have he : g.subs = [] := by
        rw [← busy_false_iff] at hid
        rw [hid] at hb
        simpa using hb.symm
      rw [he]; simp
    · intro hid
      rw [← busy_false_iff] at hid
      have he : g.subs.isEmpty = false := by
        cases hh : g.subs.isEmpty with
        | false => rfl
        | true => rw [hh] at hb; exact absurd hb hid
      rw [he]
      split
      · rfl
      · simp only [Bool.false_eq_true, if_false]
        cases g.lastV with
        | none => rfl
        | some v =>
          simp only [Mgr.pushTo, hw, Server.accepts, if_true]

/-- C18: unsubscribing reports "last subscriber gone" exactly when the client was the only subscriber. -/
theorem C18_unsubscribe (st : Settings) (ops : List Op) (s c : Nat)
    (hn : number s (hist st ops) ≠ none) :
    ∃ b, result st ops (.unsubscribe s c) = .bool b ∧
      (b = true ↔ subscribed s c (hist st ops) = true ∧ IdleBut s c (hist st ops)) := by
  have hi := inv st ops
  unfold result
  show ∃ b, (Mgr.unsubscribe _ s c).2 = _ ∧ _
  cases e : (exec st ops).1.sigs.get s with
  | none => exact absurd (hi.number_none e).1 hn
  | some g =>
    have hg := hi.ok e
    unfold Mgr.unsubscribe
    rw [e]
    refine ⟨_, rfl, ?_⟩
    rw [drop_flag, hg.subs]
    refine and_congr_right fun _ => ?_
    constructor
    · intro h x hx
      cases hs : subscribed s x (hist st ops) with
      | false => rfl
      | true => exact absurd (h x ((hg.subs x).mpr hs)) hx
    · intro h x hx
      by_cases hxc : x = c
      · exact hxc
      · have := (hg.subs x).mp hx
        rw [h x hxc] at this; cases this

/-- C18: disconnecting a client reports exactly the signals that client was the only subscriber of,
each once. -/
theorem C18_unregister (st : Settings) (ops : List Op) (c : Nat)
    (hr : registered c (hist st ops) = true) :
    ∃ l, result st ops (.unregisterClient c) = .signals l ∧ l.Nodup ∧
      ∀ s, s ∈ l ↔ subscribed s c (hist st ops) = true ∧ IdleBut s c (hist st ops) := by
  have hi := inv st ops
  unfold result
  show ∃ l, (Mgr.unregisterClient _ c).2 = _ ∧ _
  have hc : (exec st ops).1.clients.contains c = true := List.contains_iff_mem.mpr ((hi.cli c).mpr hr)
  unfold Mgr.unregisterClient
  rw [if_pos hc]
  refine ⟨_, rfl, hi.keys.sublist (List.Sublist.map _ List.filter_sublist), fun s => ?_⟩
  rw [mem_keys_filter hi.keys (fun g => (g.drop c).2)]
  constructor
  · rintro ⟨g, e, hd⟩
    have hg := hi.ok e
    rw [drop_flag] at hd
    refine ⟨(hg.subs c).mp hd.1, fun x hx => ?_⟩
    cases hs : subscribed s x (hist st ops) with
    | false => rfl
    | true => exact absurd (hd.2 x ((hg.subs x).mpr hs)) hx
  · rintro ⟨h1, h2⟩
    cases e : (exec st ops).1.sigs.get s with
    | none => rw [(hi.number_none e).2 c] at h1; cases h1
    | some g =>
      have hg := hi.ok e
      refine ⟨g, rfl, ?_⟩
      rw [drop_flag]
      refine ⟨(hg.subs c).mpr h1, fun x hx => ?_⟩
      by_cases hxc : x = c
      · exact hxc
      · have := (hg.subs x).mp hx
        rw [h2 x hxc] at this; cases this

/-- C18: a registered signal is reported as subscribed exactly when somebody subscribes it; removing a
signal reports the same. -/
theorem C18_isSubscribed (st : Settings) (ops : List Op) (s : Nat)
    (hn : number s (hist st ops) ≠ none) :
    ∃ b, result st ops (.isSubscribed s) = .bool b ∧ result st ops (.removeSignal s) = .bool b ∧
      (b = true ↔ ∃ c, subscribed s c (hist st ops) = true) := by
  have hi := inv st ops
  unfold result
  show ∃ b, Mgr.isSubscribed _ s = _ ∧ (Mgr.removeSignal _ s).2 = _ ∧ _
  cases e : (exec st ops).1.sigs.get s with
  | none => exact absurd (hi.number_none e).1 hn
  | some g =>
    have hg := hi.ok e
    unfold Mgr.isSubscribed Mgr.removeSignal
    rw [e]
    refine ⟨_, rfl, rfl, ?_⟩
    rw [← hg.busy, busy_iff]

/-- C18: calls about a signal that is not registered are refused and change nothing. -/
theorem C18_unknown_signal (st : Settings) (ops : List Op) (s c : Nat) (p : Pk)
    (hn : number s (hist st ops) = none) (op : Op)
    (ho : op ∈ [Op.subscribe s c, .unsubscribe s c, .send s p, .isSubscribed s, .removeSignal s,
      .numericId s]) :
    (exec st ops).1.step op = ((exec st ops).1, .notRegistered) := by
  have hi := inv st ops
  have e : (exec st ops).1.sigs.get s = none := by
    cases e : (exec st ops).1.sigs.get s with
    | none => rfl
    | some g => rw [(hi.ok e).num] at hn; cases hn
  simp only [List.mem_cons, List.not_mem_nil, or_false] at ho
  rcases ho with rfl | rfl | rfl | rfl | rfl | rfl <;>
    simp [Mgr.step, Mgr.subscribe, Mgr.unsubscribe, Mgr.send, Mgr.isSubscribed, Mgr.removeSignal,
      Mgr.numericId, e]

theorem alternates_snoc {l : List Bool} {now : Bool} (h : Alternates l now) :
    Alternates (l ++ [!now]) (!now) := by
  obtain ⟨h1, h2⟩ := h
  constructor
  · intro i b hb
    rw [List.getElem?_append] at hb
    split at hb
    · exact h1 i b hb
    · rename_i hlt
      have hil : i = l.length := by
        have := List.getElem?_eq_some_iff.mp hb
        obtain ⟨h, _⟩ := this
        simp at h; omega
      subst hil
      have hb' : b = !now := by simpa using hb.symm
      rw [hb', h2]
      rcases Nat.mod_two_eq_zero_or_one l.length with h | h <;> simp [h]
  · rw [List.length_append, h2]
    rcases Nat.mod_two_eq_zero_or_one l.length with h | h
    · have : (l.length + [!(l.length % 2 == 1)].length) % 2 = 1 := by simp; omega
      simp [h]; omega
    · have : (l.length + [!(l.length % 2 == 1)].length) % 2 = 0 := by simp; omega
      simp [h]; omega

/-- Whether an entry has subscribers. -/
def hasSubs : Option Sig → Bool
  | some g => !g.subs.isEmpty
  | none => false

/-- Notification for a change of "somebody subscribes". -/
def change : Bool → Bool → List Bool
  | false, true => [true]
  | true, false => [false]
  | _, _ => []

@[simp] theorem change_self (b : Bool) : change b b = [] := by cases b <;> rfl

theorem hasSubs_some (g : Sig) : hasSubs (some g) = !g.subs.isEmpty := rfl

theorem drop_change (g : Sig) (c : Nat) :
    change (hasSubs (some g)) (hasSubs (some (g.drop c).1)) = if (g.drop c).2 then [false] else [] := by
  rw [hasSubs_some, hasSubs_some]
  unfold Sig.drop
  by_cases hc : g.subs.contains c = true
  · rw [if_pos hc]
    have hne : g.subs.isEmpty = false := by
      cases hl : g.subs with
      | nil => rw [hl] at hc; cases hc
      | cons a l => rfl
    rw [hne]
    by_cases hE : (List.filter (fun x => x != c) g.subs).isEmpty = true
    · rw [if_pos hE]; simp only; rw [hE]; rfl
    · rw [if_neg hE]; simp only; rw [Bool.eq_false_iff.mpr hE]; rfl
  · rw [if_neg hc]; simp

/-- What a call adds to the notifications of a signal. -/
theorem notif_step {m : Mgr} {h : Hist} (hi : Inv m h) (s : Nat) (op : Op) :
    notified s (op, (m.step op).2) =
      change (busy s h) (busy s ((op, (m.step op).2) :: h)) := by
  have hi' := inv_step hi op
  -- from the two entries of the signal
  have b0 : busy s h = hasSubs (m.sigs.get s) := by
    cases e : m.sigs.get s with
    | none => show _ = false; rw [busy_false_iff]; exact (hi.number_none e).2
    | some g => exact (hi.ok e).busy
  have b1 : busy s ((op, (m.step op).2) :: h) =
      hasSubs ((m.step op).1.sigs.get s) := by
    cases e : (m.step op).1.sigs.get s with
    | none => show _ = false; rw [busy_false_iff]; exact (hi'.number_none e).2
    | some g => exact (hi'.ok e).busy
  rw [b1, b0]
  clear b0 b1 hi'
  have same : ∀ {m' : Mgr}, m'.sigs.get s = m.sigs.get s → ∀ {x : List Bool}, x = [] → x =
      change (hasSubs (m.sigs.get s)) (hasSubs (m'.sigs.get s)) := by
    intro m' h1 x hx; rw [h1, hx, change_self]
  cases op with
  | registerSignal x =>
    show notified s (_, (m.registerSignal x).2) = _
    simp only [Mgr.step]
    unfold Mgr.registerSignal
    cases e : m.sigs.get x with
    | some g => exact same rfl rfl
    | none =>
      simp only [get_put]
      by_cases hx : s = x
      · subst hx; rw [if_pos rfl, e]; rfl
      · rw [if_neg hx]; simp [notified]
  | removeSignal x =>
    simp only [Mgr.step]
    unfold Mgr.removeSignal
    cases e : m.sigs.get x with
    | none => exact same rfl rfl
    | some g =>
      simp only [get_del]
      by_cases hx : s = x
      · subst hx; rw [if_pos rfl, e, hasSubs_some]
        generalize g.subs.isEmpty = b
        cases b <;> simp [notified] <;> rfl
      · rw [if_neg hx]
        have hx' : ¬ x = s := fun hh => hx hh.symm
        cases g.subs.isEmpty <;> simp [notified, hx']
  | isSubscribed x => exact same rfl rfl
  | numericId x => exact same rfl rfl
  | clientLookup x => exact same rfl rfl
  | clientUnavailable n x c => exact same rfl rfl
  | clientGone c => exact same rfl rfl
  | clientAvailable n x c =>
    refine same ?_ rfl
    simp only [Mgr.step]
    unfold Mgr.clientSignalAvailable
    split <;> rfl
  | init c r =>
    refine same ?_ rfl
    simp only [Mgr.step]
    unfold Mgr.streamingInit Mgr.registerClient
    split <;> rfl
  | send x p =>
    have hn : ∀ o, notified s (.send x p, o) = [] := fun o => rfl
    rw [hn]
    simp only [Mgr.step]
    unfold Mgr.send
    cases e : m.sigs.get x with
    | none => exact same rfl rfl
    | some g =>
      have hf := pushAll_fields { m with sigs := m.sigs.put x (g.note p) } g.num p g.subs
      obtain ⟨m2, o, em⟩ : ∃ m2 o, Mgr.pushAll { m with sigs := m.sigs.put x (g.note p) } g.num p g.subs
          = (m2, o) := ⟨_, _, rfl⟩
      simp only
      rw [em] at hf ⊢
      have : hasSubs (m2.sigs.get s) =
          hasSubs (m.sigs.get s) := by
        rw [hf.2.2.1]
        simp only [get_put]
        by_cases hx : s = x
        · subst hx; rw [if_pos rfl, e, hasSubs_some, hasSubs_some, (note_fields g p).2]
        · rw [if_neg hx]
      cases o <;> (simp only; rw [this]; simp)
  | unsubscribe x c =>
    simp only [Mgr.step]
    unfold Mgr.unsubscribe
    cases e : m.sigs.get x with
    | none => exact same rfl rfl
    | some g =>
      simp only [get_put]
      by_cases hx : s = x
      · subst hx
        rw [if_pos rfl, e, drop_change]
        cases (g.drop c).2 <;> simp [notified]
      · rw [if_neg hx]
        have hx' : ¬ x = s := fun hh => hx hh.symm
        cases (g.drop c).2 <;> simp [notified, hx']
  | unregisterClient c =>
    simp only [Mgr.step]
    unfold Mgr.unregisterClient
    split
    · have hg : AList.get (m.sigs.map fun e => (e.1, (e.2.drop c).1)) s =
          (m.sigs.get s).map fun g => (g.drop c).1 := get_map_val m.sigs (fun g => (g.drop c).1) s
      simp only [notified, hg, mem_keys_filter hi.keys (fun g => (g.drop c).2)]
      cases e : m.sigs.get s with
      | none => simp
      | some g =>
        rw [Option.map_some, drop_change]
        simp only [Option.some.injEq, exists_eq_left']
    · exact same rfl rfl
  | subscribe x c =>
    simp only [Mgr.step]
    unfold Mgr.subscribe
    cases e : m.sigs.get x with
    | none => exact same rfl rfl
    | some g =>
      simp only
      split
      · exact same rfl rfl
      · rename_i hc
        split
        · rename_i hem
          simp only [get_put]
          by_cases hx : s = x
          · subst hx; rw [if_pos rfl, e, hasSubs_some, hasSubs_some, hem]; simp [notified]; rfl
          · rw [if_neg hx]
            have hx' : ¬ x = s := fun hh => hx hh.symm
            simp [notified, hx']
        · rename_i hem
          have grow : ∀ (m' : Mgr) (g' : Sig), m'.sigs = m.sigs.put x g' → g'.subs = c :: g.subs →
              hasSubs (m'.sigs.get s) =
              hasSubs (m.sigs.get s) := by
            intro m' g' h1 h2
            rw [h1, get_put]
            by_cases hx : s = x
            · subst hx; rw [if_pos rfl, e, hasSubs_some, hasSubs_some, h2]; simpa using hem
            · rw [if_neg hx]
          cases hv : g.lastV with
          | none =>
            have := grow { m with sigs := m.sigs.put x ⟨g.num, c :: g.subs, none, g.lastD⟩ } _ rfl rfl
            simp only at this ⊢
            rw [this]; simp [notified]
          | some v =>
            simp only
            have hf := pushTo_fields m c g.num (.desc (some v) g.lastD)
            have ho := pushTo_out m c g.num (.desc (some v) g.lastD)
            obtain ⟨m2, o, em⟩ : ∃ m2 o, m.pushTo c g.num (.desc (some v) g.lastD) = (m2, o) :=
              ⟨_, _, rfl⟩
            rw [em] at hf ho ⊢
            cases o with
            | none =>
              have := grow { m2 with sigs := m2.sigs.put x ⟨g.num, c :: g.subs, some v, g.lastD⟩ }
                ⟨g.num, c :: g.subs, some v, g.lastD⟩ (by simp only; rw [hf.2.2.1]) rfl
              simp only at this ⊢
              rw [this]; simp [notified]
            | some y =>
              simp only
              rw [hf.2.2.1]
              rcases ho with ho | ho | ho <;> cases ho <;> simp [notified]

/-- C18: over any history, the notifications "signal subscribed" / "signal unsubscribed" for a signal
alternate, starting with "subscribed", and the last one tells whether somebody subscribes it now. -/
theorem C18_alternates (st : Settings) (ops : List Op) (s : Nat) :
    Alternates (notifications s (exec st ops).2) (busy s (hist st ops)) := by
  induction ops using list_snoc_induction with
  | nil =>
    refine ⟨?_, rfl⟩
    intro i b hb
    have : notifications s (exec st []).2 = [] := rfl
    rw [this] at hb; cases hb
  | snoc ops op ih =>
    have e : (exec st (ops ++ [op])).2 = (exec st ops).2 ++ [(op, ((exec st ops).1.step op).2)] := by
      unfold exec; rw [runTrace_snoc]
    have e2 : notifications s (exec st (ops ++ [op])).2 = notifications s (exec st ops).2 ++
        notified s (op, ((exec st ops).1.step op).2) := by
      rw [e]; simp [notifications]
    rw [e2, notif_step (inv st ops) s op, hist_snoc]
    generalize busy s ((op, ((exec st ops).1.step op).2) :: hist st ops) = b
    generalize busy s (hist st ops) = a at ih
    have h1 := alternates_snoc ih
    cases a <;> cases b <;> simp only [change, List.append_nil]
    · exact ih
    · exact h1
    · exact h1
    · exact ih

end Verif.Streaming
