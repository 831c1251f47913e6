import Verif.Streaming.Spec

/-! Invariants of the streaming manager (helper lemmas). -/

namespace Verif.Streaming
open Verif.AList

/-! ### Lists -/

theorem get_map_val {ν μ : Type} (m : AList Nat ν) (f : ν → μ) (k : Nat) :
    AList.get (m.map fun e => (e.1, f e.2)) k = (AList.get m k).map f := by
  induction m with
  | nil => rfl
  | cons e m ih =>
    obtain ⟨a, b⟩ := e
    simp only [List.map_cons, get_cons, ih]
    split <;> rfl

theorem keys_del {ν : Type} (m : AList Nat ν) (k : Nat) (h : (m.map Prod.fst).Nodup) :
    ((AList.del m k).map Prod.fst).Nodup :=
  h.sublist (List.Sublist.map _ List.filter_sublist)

theorem keys_put {ν : Type} (m : AList Nat ν) (k : Nat) (v : ν) (h : (m.map Prod.fst).Nodup) :
    ((AList.put m k v).map Prod.fst).Nodup := by
  unfold AList.put
  rw [List.map_cons, List.nodup_cons]
  refine ⟨?_, keys_del m k h⟩
  intro hm
  obtain ⟨e, he, hk⟩ := List.mem_map.mp hm
  have := (List.mem_filter.mp he).2
  simp [hk] at this

theorem get_of_mem {ν : Type} {m : AList Nat ν} (h : (m.map Prod.fst).Nodup) {k : Nat} {v : ν}
    (hm : (k, v) ∈ m) : AList.get m k = some v := by
  induction m with
  | nil => cases hm
  | cons e m ih =>
    obtain ⟨a, b⟩ := e
    rw [List.map_cons, List.nodup_cons] at h
    rw [get_cons]
    rcases List.mem_cons.mp hm with he | hm
    · cases he; simp
    · have : k ∈ m.map Prod.fst := List.mem_map.mpr ⟨_, hm, rfl⟩
      rw [if_neg (by rintro rfl; exact h.1 this)]
      exact ih h.2 hm

/-- Elements of a map whose value passes a test. -/
theorem mem_keys_filter {ν : Type} {m : AList Nat ν} (h : (m.map Prod.fst).Nodup) (q : ν → Bool)
    (k : Nat) :
    k ∈ (m.filter fun e => q e.2).map Prod.fst ↔ ∃ v, AList.get m k = some v ∧ q v = true := by
  constructor
  · intro hm
    obtain ⟨⟨a, b⟩, he, rfl⟩ := List.mem_map.mp hm
    obtain ⟨h1, h2⟩ := List.mem_filter.mp he
    exact ⟨b, get_of_mem h h1, h2⟩
  · rintro ⟨v, hv, hq⟩
    exact List.mem_map.mpr ⟨(k, v), List.mem_filter.mpr ⟨mem_of_get hv, hq⟩, rfl⟩

/-! ### Pushing -/

theorem pushTo_fields (m : Mgr) (c n : Nat) (p : Pk) :
    (m.pushTo c n p).1.settings = m.settings ∧ (m.pushTo c n p).1.counter = m.counter ∧
    (m.pushTo c n p).1.sigs = m.sigs ∧ (m.pushTo c n p).1.clients = m.clients ∧
    (m.pushTo c n p).1.csigs = m.csigs := by
  unfold Mgr.pushTo
  repeat' (first | exact ⟨rfl, rfl, rfl, rfl, rfl⟩ | split)

/-- The servers after pushing to one client. -/
theorem pushTo_servers (m : Mgr) (c n : Nat) (p : Pk) (x : Nat) :
    ((m.pushTo c n p).1.servers.get x).isSome = (m.servers.get x).isSome ∧
    ((m.pushTo c n p).2 = none → (m.pushTo c n p).1.servers.get x =
      (m.servers.get x).map fun v => if x = c then { v with log := v.log ++ [(n, p)] } else v) := by
  unfold Mgr.pushTo
  cases hg : m.servers.get c with
  | none => exact ⟨rfl, fun h => by cases h⟩
  | some v =>
    simp only
    split
    · simp only [get_put]
      by_cases hx : x = c
      · subst hx; simp [hg]
      · simp [hx]
    · exact ⟨rfl, fun h => by cases h⟩

theorem pushAll_fields (m : Mgr) (n : Nat) (p : Pk) (cs : List Nat) :
    (m.pushAll n p cs).1.settings = m.settings ∧ (m.pushAll n p cs).1.counter = m.counter ∧
    (m.pushAll n p cs).1.sigs = m.sigs ∧ (m.pushAll n p cs).1.clients = m.clients ∧
    (m.pushAll n p cs).1.csigs = m.csigs := by
  induction cs generalizing m with
  | nil => exact ⟨rfl, rfl, rfl, rfl, rfl⟩
  | cons c cs ih =>
    have h := pushTo_fields m c n p
    unfold Mgr.pushAll
    obtain ⟨m', o, e⟩ : ∃ m' o, m.pushTo c n p = (m', o) := ⟨_, _, rfl⟩
    rw [e] at h ⊢
    cases o with
    | none =>
      obtain ⟨h1, h2, h3, h4, h5⟩ := h
      obtain ⟨i1, i2, i3, i4, i5⟩ := ih m'
      exact ⟨i1.trans h1, i2.trans h2, i3.trans h3, i4.trans h4, i5.trans h5⟩
    | some x => exact h

theorem pushAll_isSome (m : Mgr) (n : Nat) (p : Pk) (cs : List Nat) (x : Nat) :
    ((m.pushAll n p cs).1.servers.get x).isSome = (m.servers.get x).isSome := by
  induction cs generalizing m with
  | nil => rfl
  | cons c cs ih =>
    have h := (pushTo_servers m c n p x).1
    unfold Mgr.pushAll
    obtain ⟨m', o, e⟩ : ∃ m' o, m.pushTo c n p = (m', o) := ⟨_, _, rfl⟩
    rw [e] at h ⊢
    cases o with
    | none => exact (ih m').trans h
    | some _ => exact h

theorem pushAll_servers (m : Mgr) (n : Nat) (p : Pk) (cs : List Nat) (hn : cs.Nodup) (x : Nat)
    (ho : (m.pushAll n p cs).2 = none) : (m.pushAll n p cs).1.servers.get x =
      (m.servers.get x).map fun v => if x ∈ cs then { v with log := v.log ++ [(n, p)] } else v := by
  induction cs generalizing m with
  | nil => simp [Mgr.pushAll]
  | cons c cs ih =>
    have h := (pushTo_servers m c n p x).2
    unfold Mgr.pushAll at ho ⊢
    obtain ⟨m', o, e⟩ : ∃ m' o, m.pushTo c n p = (m', o) := ⟨_, _, rfl⟩
    rw [e] at h ho ⊢
    rw [List.nodup_cons] at hn
    cases o with
    | some _ => cases ho
    | none =>
      rw [ih m' hn.2 ho, h rfl]
      cases m.servers.get x with
      | none => rfl
      | some v =>
        by_cases hx : x = c
        · subst hx; simp [hn.1]
        · simp [hx]

/-- Pushing succeeds when every client has a server that accepts the packet. -/
theorem pushAll_ok (m : Mgr) (n : Nat) (p : Pk) (cs : List Nat) (hn : cs.Nodup)
    (h : ∀ c ∈ cs, ∃ v, m.servers.get c = some v ∧ v.accepts n p = true) :
    (m.pushAll n p cs).2 = none := by
  induction cs generalizing m with
  | nil => rfl
  | cons c cs ih =>
    obtain ⟨v, hv, ha⟩ := h c (by simp)
    rw [List.nodup_cons] at hn
    have e : m.pushTo c n p =
        ({ m with servers := m.servers.put c { v with log := v.log ++ [(n, p)] } }, none) := by
      unfold Mgr.pushTo; rw [hv]; simp [ha]
    unfold Mgr.pushAll
    rw [e]
    refine ih _ hn.2 ?_
    intro d hd
    obtain ⟨w, hw, hb⟩ := h d (by simp [hd])
    refine ⟨w, ?_, hb⟩
    simp only [get_put]
    rw [if_neg (by rintro rfl; exact hn.1 hd)]
    exact hw

theorem pushTo_out (m : Mgr) (c n : Nat) (p : Pk) :
    (m.pushTo c n p).2 = none ∨ (m.pushTo c n p).2 = some .noServer ∨
      (m.pushTo c n p).2 = some .noDescriptor := by
  unfold Mgr.pushTo
  repeat' (first | exact .inl rfl | exact .inr (.inl rfl) | exact .inr (.inr rfl) | split)

theorem pushAll_out (m : Mgr) (n : Nat) (p : Pk) (cs : List Nat) :
    (m.pushAll n p cs).2 = none ∨ (m.pushAll n p cs).2 = some .noServer ∨
      (m.pushAll n p cs).2 = some .noDescriptor := by
  induction cs generalizing m with
  | nil => exact .inl rfl
  | cons c cs ih =>
    unfold Mgr.pushAll
    have h := pushTo_out m c n p
    obtain ⟨m', o, e⟩ : ∃ m' o, m.pushTo c n p = (m', o) := ⟨_, _, rfl⟩
    rw [e] at h ⊢
    cases o with
    | none => exact ih m'
    | some x => simpa using h

/-! ### `Sig.drop` -/

theorem drop_subs (g : Sig) (c x : Nat) : x ∈ (g.drop c).1.subs ↔ x ∈ g.subs ∧ x ≠ c := by
  unfold Sig.drop
  split
  · simp
  · rename_i h
    have : c ∉ g.subs := by simpa using h
    exact ⟨fun hx => ⟨hx, by rintro rfl; exact this hx⟩, fun hx => hx.1⟩

theorem drop_fields (g : Sig) (c : Nat) : (g.drop c).1.num = g.num ∧ (g.drop c).1.lastV = g.lastV ∧
    (g.drop c).1.lastD = g.lastD := by
  unfold Sig.drop; split <;> exact ⟨rfl, rfl, rfl⟩

theorem drop_nodup (g : Sig) (c : Nat) (h : g.subs.Nodup) : (g.drop c).1.subs.Nodup := by
  unfold Sig.drop; split
  · exact h.sublist List.filter_sublist
  · exact h

theorem drop_flag (g : Sig) (c : Nat) :
    (g.drop c).2 = true ↔ c ∈ g.subs ∧ ∀ x ∈ g.subs, x = c := by
  unfold Sig.drop
  split
  · rename_i h
    have h : c ∈ g.subs := by simpa using h
    simp [h, List.isEmpty_iff, List.filter_eq_nil_iff]
  · rename_i h
    have h : c ∉ g.subs := by simpa using h
    simp [h]

theorem note_fields (g : Sig) (p : Pk) : (g.note p).num = g.num ∧ (g.note p).subs = g.subs := by
  cases p <;> exact ⟨rfl, rfl⟩

/-! ### The main invariant -/

/-- A signal entry agrees with the history. -/
structure SigOk (s : Nat) (h : Hist) (g : Sig) : Prop where
  num : number s h = some g.num
  desc : descriptors s h = (g.lastV, g.lastD)
  subs : ∀ c, c ∈ g.subs ↔ subscribed s c h = true
  nodup : g.subs.Nodup

def SigInv (s : Nat) (h : Hist) : Option Sig → Prop
  | none => number s h = none ∧ ∀ c, subscribed s c h = false
  | some g => SigOk s h g

structure Inv (m : Mgr) (h : Hist) : Prop where
  sig : ∀ s, SigInv s h (m.sigs.get s)
  keys : (m.sigs.map Prod.fst).Nodup
  cli : ∀ c, c ∈ m.clients ↔ registered c h = true
  srv : ∀ c, (m.servers.get c).isSome = registered c h

/-- Signal entries do not change when the history grows by an irrelevant call. -/
theorem SigInv.congr {s : Nat} {h h' : Hist} {o : Option Sig} (hi : SigInv s h o)
    (h1 : number s h' = number s h) (h2 : descriptors s h' = descriptors s h)
    (h3 : ∀ c, subscribed s c h' = subscribed s c h) : SigInv s h' o := by
  cases o with
  | none => exact ⟨h1.trans hi.1, fun c => (h3 c).trans (hi.2 c)⟩
  | some g => exact ⟨h1.trans hi.num, h2.trans hi.desc, fun c => by rw [h3]; exact hi.subs c, hi.nodup⟩

theorem Inv.number_none {m : Mgr} {h : Hist} (hi : Inv m h) {s : Nat} (e : m.sigs.get s = none) :
    number s h = none ∧ ∀ c, subscribed s c h = false := by
  have := hi.sig s; rw [e] at this; exact this

theorem Inv.ok {m : Mgr} {h : Hist} (hi : Inv m h) {s : Nat} {g : Sig} (e : m.sigs.get s = some g) :
    SigOk s h g := by
  have := hi.sig s; rw [e] at this; exact this

theorem Inv.send {m : Mgr} {h : Hist} (hi : Inv m h) (s : Nat) (p : Pk) :
    Inv (m.send s p).1 ((.send s p, (m.send s p).2) :: h) := by
  have hn : ∀ x o, number x ((.send s p, o) :: h) = number x h := fun x o => rfl
  have hs : ∀ x c o, subscribed x c ((.send s p, o) :: h) = subscribed x c h := fun x c o => rfl
  have hr : ∀ c o, registered c ((.send s p, o) :: h) = registered c h := fun c o => rfl
  have hd : ∀ x o, x ≠ s → descriptors x ((.send s p, o) :: h) = descriptors x h := by
    intro x o hx
    cases p <;> simp only [descriptors]
    rw [if_neg]; rintro ⟨rfl, _⟩; exact hx rfl
  unfold Mgr.send
  cases e : m.sigs.get s with
  | none =>
    obtain ⟨e1, e2⟩ := hi.number_none e
    refine ⟨fun x => ?_, hi.keys, hi.cli, hi.srv⟩
    refine (hi.sig x).congr rfl ?_ (fun c => rfl)
    by_cases hx : x = s
    · subst hx
      cases p <;> simp only [descriptors]
      rw [if_neg]; simp [e1]
    · exact hd x _ hx
  | some g =>
    have hg := hi.ok e
    simp only
    have hf := pushAll_fields { m with sigs := m.sigs.put s (g.note p) } g.num p g.subs
    have hsv := pushAll_isSome { m with sigs := m.sigs.put s (g.note p) } g.num p g.subs
    have key : ∀ (m2 : Mgr) (o : Out), m2.sigs = m.sigs.put s (g.note p) → m2.clients = m.clients →
        (∀ x, (m2.servers.get x).isSome = (m.servers.get x).isSome) → Inv m2 ((.send s p, o) :: h) := by
      intro m2 o h1 h2 h3
      refine ⟨fun x => ?_, ?_, fun c => ?_, fun c => ?_⟩
      · rw [h1, get_put]
        by_cases hx : x = s
        · subst hx
          rw [if_pos rfl]
          obtain ⟨n1, n2⟩ := note_fields g p
          refine ⟨?_, ?_, ?_, ?_⟩
          · rw [n1]; exact hg.num
          · have hnn : number x h ≠ none := by rw [hg.num]; simp
            cases p with
            | data _ => exact hg.desc
            | other _ => exact hg.desc
            | desc v d =>
              simp only [descriptors]
              rw [if_pos ⟨trivial, hnn⟩, hg.desc]
              cases v <;> cases d <;> rfl
          · rw [n2]; exact hg.subs
          · rw [n2]; exact hg.nodup
        · rw [if_neg hx]
          exact (hi.sig x).congr rfl (hd x _ hx) (fun c => rfl)
      · rw [h1]; exact keys_put _ _ _ hi.keys
      · rw [h2]; exact hi.cli c
      · rw [h3]; exact hi.srv c
    obtain ⟨m2, o, em⟩ : ∃ m2 o, Mgr.pushAll { m with sigs := m.sigs.put s (g.note p) } g.num p g.subs
        = (m2, o) := ⟨_, _, rfl⟩
    rw [em] at hf hsv ⊢
    cases o with
    | none => exact key m2 _ hf.2.2.1 hf.2.2.2.1 hsv
    | some x => exact key m2 _ hf.2.2.1 hf.2.2.2.1 hsv

/-- Calls that concern one signal entry only. -/
theorem Inv.put_sig {m m' : Mgr} {h : Hist} {op : Op} {o : Out} (hi : Inv m h) (s : Nat) (g' : Sig)
    (hm1 : m'.sigs = m.sigs.put s g') (hm2 : m'.clients = m.clients)
    (hm3 : ∀ x, (m'.servers.get x).isSome = (m.servers.get x).isSome)
    (hr : ∀ c, registered c ((op, o) :: h) = registered c h)
    (hx : ∀ x, x ≠ s → number x ((op, o) :: h) = number x h ∧
      descriptors x ((op, o) :: h) = descriptors x h ∧
      ∀ c, subscribed x c ((op, o) :: h) = subscribed x c h)
    (hg : SigOk s ((op, o) :: h) g') : Inv m' ((op, o) :: h) := by
  refine ⟨fun x => ?_, ?_, fun c => ?_, fun c => ?_⟩
  · rw [hm1, get_put]
    by_cases e : x = s
    · subst e; rw [if_pos rfl]; exact hg
    · rw [if_neg e]
      obtain ⟨h1, h2, h3⟩ := hx x e
      exact (hi.sig x).congr h1 h2 h3
  · rw [hm1]; exact keys_put _ _ _ hi.keys
  · rw [hm2, hr]; exact hi.cli c
  · rw [hm3, hr]; exact hi.srv c

/-- Calls without effect. -/
theorem Inv.same {m : Mgr} {h : Hist} {op : Op} {o : Out} (hi : Inv m h)
    (hr : ∀ c, registered c ((op, o) :: h) = registered c h)
    (hx : ∀ x, number x ((op, o) :: h) = number x h ∧
      descriptors x ((op, o) :: h) = descriptors x h ∧
      ∀ c, subscribed x c ((op, o) :: h) = subscribed x c h) : Inv m ((op, o) :: h) := by
  refine ⟨fun x => ?_, hi.keys, fun c => ?_, fun c => ?_⟩
  · obtain ⟨h1, h2, h3⟩ := hx x
    exact (hi.sig x).congr h1 h2 h3
  · rw [hr]; exact hi.cli c
  · rw [hr]; exact hi.srv c

theorem subscribe_fails (s c : Nat) (o : Out) (ho : ∀ b, o ≠ .bool b) (h : Hist) :
    (∀ x, registered x ((.subscribe s c, o) :: h) = registered x h) ∧
    ∀ x, number x ((.subscribe s c, o) :: h) = number x h ∧
      descriptors x ((.subscribe s c, o) :: h) = descriptors x h ∧
      ∀ d, subscribed x d ((.subscribe s c, o) :: h) = subscribed x d h := by
  refine ⟨fun _ => rfl, fun x => ⟨rfl, rfl, fun d => ?_⟩⟩
  cases o <;> first | rfl | exact absurd rfl (ho _)

theorem Inv.subscribe {m : Mgr} {h : Hist} (hi : Inv m h) (s c : Nat) :
    Inv (m.subscribe s c).1 ((.subscribe s c, (m.subscribe s c).2) :: h) := by
  unfold Mgr.subscribe
  cases e : m.sigs.get s with
  | none =>
    obtain ⟨h1, h2⟩ := subscribe_fails s c .notRegistered (by simp) h
    exact hi.same h1 h2
  | some g =>
    have hg := hi.ok e
    have oth : ∀ b x, x ≠ s → number x ((.subscribe s c, .bool b) :: h) = number x h ∧
        descriptors x ((.subscribe s c, .bool b) :: h) = descriptors x h ∧
        ∀ d, subscribed x d ((.subscribe s c, .bool b) :: h) = subscribed x d h := by
      intro b x hx
      refine ⟨rfl, rfl, fun d => ?_⟩
      simp only [subscribed]
      rw [if_neg (by rintro ⟨rfl, _⟩; exact hx rfl)]
    have sok : ∀ b, c ∉ g.subs → SigOk s ((.subscribe s c, .bool b) :: h) { g with subs := c :: g.subs } := by
      intro b hc
      refine ⟨hg.num, hg.desc, fun d => ?_, ?_⟩
      · simp only [subscribed, List.mem_cons]
        by_cases hd : d = c
        · subst hd; simp
        · rw [if_neg (by rintro ⟨_, rfl⟩; exact hd rfl), ← hg.subs d]; simp [hd]
      · exact List.nodup_cons.mpr ⟨hc, hg.nodup⟩
    simp only
    split
    · rename_i hc
      have hc : c ∈ g.subs := by simpa using hc
      refine hi.same (fun _ => rfl) fun x => ?_
      refine ⟨rfl, rfl, fun d => ?_⟩
      simp only [subscribed]
      split
      · rename_i hh; obtain ⟨rfl, rfl⟩ := hh; exact ((hg.subs c).mp hc).symm
      · rfl
    · rename_i hc
      have hc : c ∉ g.subs := by simpa using hc
      split
      · exact hi.put_sig s _ rfl rfl (fun _ => rfl) (fun _ => rfl) (oth true) (sok true hc)
      · have sk := sok false hc
        cases hv : g.lastV with
        | none =>
          rw [hv] at sk
          exact hi.put_sig s _ rfl rfl (fun _ => rfl) (fun _ => rfl) (oth false) sk
        | some v =>
          rw [hv] at sk
          simp only
          have hf := pushTo_fields m c g.num (.desc (some v) g.lastD)
          have ho := pushTo_out m c g.num (.desc (some v) g.lastD)
          have hsv := fun x => (pushTo_servers m c g.num (.desc (some v) g.lastD) x).1
          obtain ⟨m2, o, em⟩ : ∃ m2 o, m.pushTo c g.num (.desc (some v) g.lastD) = (m2, o) :=
            ⟨_, _, rfl⟩
          rw [em] at hf hsv ho ⊢
          cases o with
          | none =>
            refine hi.put_sig s _ ?_ hf.2.2.2.1 hsv (fun _ => rfl) (oth false) sk
            show AList.put m2.sigs s _ = _
            rw [hf.2.2.1]
          | some x =>
            have hx : ∀ b, x ≠ .bool b := by
              rcases ho with ho | ho | ho <;> cases ho <;> simp
            obtain ⟨h1, h2⟩ := subscribe_fails s c x hx h
            have := hi.same h1 h2
            exact ⟨fun y => by rw [hf.2.2.1]; exact this.sig y, by rw [hf.2.2.1]; exact this.keys,
              fun y => by rw [hf.2.2.2.1]; exact this.cli y, fun y => by rw [hsv]; exact this.srv y⟩

theorem Inv.unsubscribe {m : Mgr} {h : Hist} (hi : Inv m h) (s c : Nat) :
    Inv (m.unsubscribe s c).1 ((.unsubscribe s c, (m.unsubscribe s c).2) :: h) := by
  unfold Mgr.unsubscribe
  cases e : m.sigs.get s with
  | none => exact hi.same (fun _ => rfl) fun x => ⟨rfl, rfl, fun _ => rfl⟩
  | some g =>
    have hg := hi.ok e
    obtain ⟨f1, f2, f3⟩ := drop_fields g c
    refine hi.put_sig s _ rfl rfl (fun _ => rfl) (fun _ => rfl) (fun x hx => ⟨rfl, rfl, fun d => ?_⟩) ?_
    · simp only [subscribed]
      rw [if_neg (by rintro ⟨rfl, _⟩; exact hx rfl)]
    · refine ⟨?_, ?_, fun d => ?_, drop_nodup g c hg.nodup⟩
      · rw [f1]; exact hg.num
      · rw [f2, f3]; exact hg.desc
      · rw [drop_subs, hg.subs]
        simp only [subscribed]
        by_cases hd : d = c
        · subst hd; simp
        · rw [if_neg (by rintro ⟨_, rfl⟩; exact hd rfl)]; simp [hd]

theorem Inv.removeSignal {m : Mgr} {h : Hist} (hi : Inv m h) (s : Nat) :
    Inv (m.removeSignal s).1 ((.removeSignal s, (m.removeSignal s).2) :: h) := by
  unfold Mgr.removeSignal
  cases e : m.sigs.get s with
  | none => exact hi.same (fun _ => rfl) fun x => ⟨rfl, rfl, fun _ => rfl⟩
  | some g =>
    refine ⟨fun x => ?_, keys_del _ _ hi.keys, hi.cli, hi.srv⟩
    show SigInv x _ (AList.get (AList.del m.sigs s) x)
    rw [get_del]
    by_cases hx : x = s
    · subst hx
      rw [if_pos rfl]
      exact ⟨by simp [number], fun c => by simp [subscribed]⟩
    · rw [if_neg hx]
      refine (hi.sig x).congr ?_ rfl fun c => ?_
      · simp only [number]; rw [if_neg (fun hh => hx hh.symm)]
      · simp only [subscribed]; rw [if_neg (fun hh => hx hh.symm)]

theorem Inv.registerSignal {m : Mgr} {h : Hist} (hi : Inv m h) (s : Nat) :
    Inv (m.registerSignal s).1 ((.registerSignal s, (m.registerSignal s).2) :: h) := by
  unfold Mgr.registerSignal
  cases e : m.sigs.get s with
  | some g => exact hi.same (fun _ => rfl) fun x => ⟨rfl, rfl, fun _ => rfl⟩
  | none =>
    obtain ⟨e1, e2⟩ := hi.number_none e
    refine hi.put_sig s _ rfl rfl (fun _ => rfl) (fun _ => rfl) (fun x hx => ⟨?_, ?_, fun _ => rfl⟩) ?_
    · simp only [number]; rw [if_neg (fun hh => hx hh.symm)]
    · simp only [descriptors]; rw [if_neg (fun hh => hx hh.symm)]
    · refine ⟨by simp [number], by simp [descriptors], fun c => ?_, List.nodup_nil⟩
      have : subscribed s c ((.registerSignal s, .num ((m.counter + 1) % 4294967296)) :: h) =
        subscribed s c h := rfl
      rw [this, e2]; simp

theorem Inv.init {m : Mgr} {h : Hist} (hi : Inv m h) (c : Nat) (r : Bool) :
    Inv (m.streamingInit c r).1 ((.init c r, (m.streamingInit c r).2) :: h) := by
  unfold Mgr.streamingInit Mgr.registerClient
  split
  · rename_i hc
    refine hi.same (fun x => ?_) fun x => ⟨rfl, rfl, fun _ => rfl⟩
    rfl
  · refine ⟨fun x => (hi.sig x).congr rfl rfl fun _ => rfl, hi.keys, fun x => ?_, fun x => ?_⟩
    · simp only [registered, List.mem_cons]
      by_cases hx : x = c
      · subst hx; simp
      · rw [if_neg (fun hh => hx hh.symm), hi.cli]; simp [hx]
    · simp only [registered, get_add]
      by_cases hx : x = c
      · subst hx; simp
      · have hx' : ¬ c = x := fun hh => hx hh.symm
        cases r <;> simp [hx, hx', get_del, ← hi.srv x]

theorem Inv.unregisterClient {m : Mgr} {h : Hist} (hi : Inv m h) (c : Nat) :
    Inv (m.unregisterClient c).1 ((.unregisterClient c, (m.unregisterClient c).2) :: h) := by
  unfold Mgr.unregisterClient
  split
  · rename_i hc
    have hc : registered c h = true := (hi.cli c).mp (by simpa using hc)
    refine ⟨fun x => ?_, ?_, fun x => ?_, fun x => ?_⟩
    · show SigInv x _ (AList.get (m.sigs.map fun e => (e.1, (e.2.drop c).1)) x)
      rw [get_map_val m.sigs (fun g => (g.drop c).1)]
      cases e : m.sigs.get x with
      | none =>
        obtain ⟨e1, e2⟩ := hi.number_none e
        refine ⟨e1, fun d => ?_⟩
        simp only [subscribed]
        split
        · rfl
        · exact e2 d
      | some g =>
        have hg := hi.ok e
        obtain ⟨f1, f2, f3⟩ := drop_fields g c
        refine ⟨?_, ?_, fun d => ?_, drop_nodup g c hg.nodup⟩
        · rw [f1]; exact hg.num
        · rw [f2, f3]; exact hg.desc
        · rw [drop_subs, hg.subs]
          simp only [subscribed]
          by_cases hd : d = c
          · subst hd; simp [hc]
          · rw [if_neg (by rintro ⟨rfl, _⟩; exact hd rfl)]; simp [hd]
    · have : (m.sigs.map fun e => (e.1, (e.2.drop c).1)).map Prod.fst = m.sigs.map Prod.fst := by
        rw [List.map_map]; rfl
      simp only; rw [this]; exact hi.keys
    · simp only [registered, List.mem_filter, hi.cli]
      by_cases hx : x = c
      · subst hx; simp
      · rw [if_neg (fun hh => hx hh.symm)]; simp [hx]
    · simp only [registered, get_del]
      by_cases hx : x = c
      · subst hx; simp
      · rw [if_neg hx, if_neg (fun hh => hx hh.symm)]; exact hi.srv x
  · rename_i hc
    have hc : registered c h = false := by
      cases hr : registered c h with
      | false => rfl
      | true => exact absurd (List.contains_iff_mem.mpr ((hi.cli c).mpr hr)) hc
    refine hi.same (fun x => ?_) fun x => ⟨rfl, rfl, fun d => ?_⟩
    · simp only [registered]; split
      · rename_i hh; subst hh; exact hc.symm
      · rfl
    · simp only [subscribed]; split
      · rename_i hh; obtain ⟨rfl, h2⟩ := hh; rw [hc] at h2; cases h2
      · rfl

theorem inv_step {m : Mgr} {h : Hist} (hi : Inv m h) (op : Op) :
    Inv (m.step op).1 ((op, (m.step op).2) :: h) := by
  cases op with
  | registerSignal s => exact hi.registerSignal s
  | removeSignal s => exact hi.removeSignal s
  | isSubscribed s => exact hi.same (fun _ => rfl) fun x => ⟨rfl, rfl, fun _ => rfl⟩
  | numericId s => exact hi.same (fun _ => rfl) fun x => ⟨rfl, rfl, fun _ => rfl⟩
  | init c r => exact hi.init c r
  | unregisterClient c => exact hi.unregisterClient c
  | subscribe s c => exact hi.subscribe s c
  | unsubscribe s c => exact hi.unsubscribe s c
  | send s p => exact hi.send s p
  | clientLookup s => exact hi.same (fun _ => rfl) fun x => ⟨rfl, rfl, fun _ => rfl⟩
  | clientAvailable n s c =>
    have hs : Inv m ((.clientAvailable n s c, .done) :: h) :=
      hi.same (fun _ => rfl) fun x => ⟨rfl, rfl, fun _ => rfl⟩
    show Inv (m.clientSignalAvailable n s c).1 ((_, (m.clientSignalAvailable n s c).2) :: h)
    unfold Mgr.clientSignalAvailable
    split <;> exact ⟨hs.sig, hs.keys, hs.cli, hs.srv⟩
  | clientUnavailable n s c =>
    have hs : Inv m ((.clientUnavailable n s c, .done) :: h) :=
      hi.same (fun _ => rfl) fun x => ⟨rfl, rfl, fun _ => rfl⟩
    exact ⟨hs.sig, hs.keys, hs.cli, hs.srv⟩
  | clientGone c =>
    have hs : Inv m ((.clientGone c, (m.step (.clientGone c)).2) :: h) :=
      hi.same (fun _ => rfl) fun x => ⟨rfl, rfl, fun _ => rfl⟩
    exact ⟨hs.sig, hs.keys, hs.cli, hs.srv⟩

/-- History of an execution, newest first. -/
def hist (st : Settings) (ops : List Op) : Hist := (exec st ops).2.reverse

theorem hist_snoc (st : Settings) (ops : List Op) (op : Op) :
    hist st (ops ++ [op]) = (op, ((exec st ops).1.step op).2) :: hist st ops := by
  unfold hist exec
  rw [runTrace_snoc, List.reverse_append]
  rfl

theorem exec_snoc (st : Settings) (ops : List Op) (op : Op) :
    (exec st (ops ++ [op])).1 = ((exec st ops).1.step op).1 := by
  unfold exec; rw [runTrace_snoc]

theorem inv (st : Settings) (ops : List Op) : Inv (exec st ops).1 (hist st ops) := by
  induction ops using list_snoc_induction with
  | nil => exact ⟨fun s => ⟨rfl, fun _ => rfl⟩, List.nodup_nil, fun c => by simp [exec, hist, Mgr.init, registered],
      fun c => rfl⟩
  | snoc ops op ih =>
    rw [hist_snoc, exec_snoc]
    exact inv_step ih op

end Verif.Streaming
