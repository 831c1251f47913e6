import Verif.Info.Lemmas

/-!
# Connected clients

Proved: C289, C291. Violated: C290, C292.
-/

namespace Verif.Info

/-! ## C289: numbers of clients -/

/-- The numbers of clients are between 1 and the number of registrations. -/
def Numbers (c : Clients) : Prop := ∀ e ∈ c.now, 1 ≤ e.1 ∧ e.1 ≤ c.total

theorem has_keys' (c : Clients) (k : Nat) : c.now.has k = true ↔ k ∈ c.now.map Prod.fst :=
  AList.get_isSome_iff_mem_keys c.now k

theorem has_mem {c : Clients} {k : Nat} (h : c.now.has k = true) : ∃ e ∈ c.now, e.1 = k := by
  obtain ⟨e, he, hk⟩ := List.mem_map.1 ((AList.get_isSome_iff_mem_keys c.now k).1 h)
  exact ⟨e, he, hk⟩

theorem addClient_fresh {c : Clients} (h : Numbers c) {k : Nat} (hk : k = 0 ∨ k > c.total) (who : String) :
    addClient c k who = ({ total := c.total + 1, now := c.now ++ [(c.total + 1, who)] }, c.total + 1, none) := by
  have hn : ¬ c.now.has (c.total + 1) = true := fun hh => by
    obtain ⟨e, he, hek⟩ := has_mem hh
    have := h e he
    omega
  unfold addClient
  dsimp only
  rw [if_pos hk, if_pos hk, if_neg hn]

theorem addClient_old {c : Clients} {k : Nat} (h1 : 1 ≤ k) (h2 : k ≤ c.total) (who : String) :
    addClient c k who = if c.now.has k = true then (c, k, some .alreadyExists)
      else ({ c with now := c.now ++ [(k, who)] }, k, none) := by
  have hk : ¬ (k = 0 ∨ k > c.total) := by omega
  unfold addClient
  dsimp only
  rw [if_neg hk, if_neg hk]

theorem addClient_numbers {c : Clients} (h : Numbers c) (k : Nat) (who : String) :
    Numbers (addClient c k who).1 ∧ c.total ≤ (addClient c k who).1.total ∧
      1 ≤ (addClient c k who).2.1 ∧ (addClient c k who).2.1 ≤ (addClient c k who).1.total := by
  by_cases hk : k = 0 ∨ k > c.total
  · rw [addClient_fresh h hk]
    refine ⟨fun e he => ?_, by dsimp only; omega, by dsimp only; omega, Nat.le_refl _⟩
    rcases List.mem_append.1 he with he | he
    · have := h e he
      dsimp only
      omega
    · cases List.mem_singleton.1 he
      dsimp only
      omega
  · have h1 : 1 ≤ k := by omega
    have h2 : k ≤ c.total := by omega
    rw [addClient_old h1 h2]
    by_cases hh : c.now.has k = true
    · rw [if_pos hh]
      exact ⟨h, Nat.le_refl _, h1, h2⟩
    · rw [if_neg hh]
      refine ⟨fun e he => ?_, Nat.le_refl _, h1, h2⟩
      rcases List.mem_append.1 he with he | he
      · exact h e he
      · cases List.mem_singleton.1 he
        exact ⟨h1, h2⟩

theorem removeClient_numbers {c : Clients} (h : Numbers c) (k : Nat) :
    Numbers (removeClient c k).1 ∧ (removeClient c k).1.total = c.total := by
  unfold removeClient
  by_cases hh : c.now.has k = true
  · rw [if_pos hh]
    exact ⟨fun e he => h e (List.mem_filter.1 he).1, rfl⟩
  · rw [if_neg hh]
    exact ⟨h, rfl⟩

theorem runClients_numbers (l : List ClientOp) : ∀ c : Clients, Numbers c →
    Numbers (runClients c l).1 ∧ c.total ≤ (runClients c l).1.total ∧
      ∀ n ∈ (runClients c l).2, 1 ≤ n ∧ n ≤ (runClients c l).1.total := by
  induction l with
  | nil => exact fun c h => ⟨h, Nat.le_refl _, fun n hn => absurd hn List.not_mem_nil⟩
  | cons x l ih =>
    intro c h
    cases x with
    | add k who =>
      obtain ⟨a1, a2, a3, a4⟩ := addClient_numbers h k who
      obtain ⟨b1, b2, b3⟩ := ih _ a1
      refine ⟨b1, Nat.le_trans a2 b2, fun n hn => ?_⟩
      rcases List.mem_cons.1 hn with rfl | hn
      · exact ⟨a3, Nat.le_trans a4 b2⟩
      · exact b3 n hn
    | remove k =>
      obtain ⟨a1, a2⟩ := removeClient_numbers h k
      obtain ⟨b1, b2, b3⟩ := ih _ a1
      exact ⟨b1, a2 ▸ b2, b3⟩

theorem numbers_empty : Numbers {} := fun e he => absurd he List.not_mem_nil

/-- A client that registers without a number gets one that was never given to anyone before, and is listed last. -/
theorem C289_fresh (l : List ClientOp) (who : String) :
    (addClient (runClients {} l).1 0 who).2.2 = none ∧ (addClient (runClients {} l).1 0 who).2.1 ≠ 0 ∧
      (addClient (runClients {} l).1 0 who).2.1 ∉ (runClients {} l).2 ∧
      clients (addClient (runClients {} l).1 0 who).1 = clients (runClients {} l).1 ++ [who] := by
  obtain ⟨h1, _, h3⟩ := runClients_numbers l {} numbers_empty
  rw [addClient_fresh h1 (.inl rfl)]
  refine ⟨rfl, Nat.succ_ne_zero _, fun hn => ?_, by simp [clients]⟩
  have := h3 _ hn
  dsimp only at this
  omega

/-- A client that registers with a number that was given out before gets this number if nobody is registered with it;
otherwise it is refused and nothing changes. -/
theorem C289_again (l : List ClientOp) (who : String) (k : Nat) (hk : k ∈ (runClients {} l).2) :
    (k ∉ (runClients {} l).1.now.map Prod.fst →
      (addClient (runClients {} l).1 k who).2 = (k, none) ∧
        (addClient (runClients {} l).1 k who).1.now = (runClients {} l).1.now ++ [(k, who)]) ∧
      (k ∈ (runClients {} l).1.now.map Prod.fst →
        addClient (runClients {} l).1 k who = ((runClients {} l).1, k, some .alreadyExists)) := by
  obtain ⟨_, _, h3⟩ := runClients_numbers l {} numbers_empty
  obtain ⟨k1, k2⟩ := h3 k hk
  rw [addClient_old k1 k2]
  constructor
  · intro hn
    rw [if_neg fun hh => hn ((has_keys' _ _).1 hh)]
    exact ⟨rfl, rfl⟩
  · intro hn
    rw [if_pos ((has_keys' _ _).2 hn)]

/-- A client that unregisters is not listed any more, the others stay; nobody else can. -/
theorem C289_remove (c : Clients) (k : Nat) :
    (k ∈ c.now.map Prod.fst → (removeClient c k).2 = none ∧ (removeClient c k).1.now = c.now.filter fun e => e.1 ≠ k) ∧
      (k ∉ c.now.map Prod.fst → removeClient c k = (c, some .notFound)) := by
  unfold removeClient
  constructor
  · intro hn
    rw [if_pos ((has_keys' _ _).2 hn)]
    refine ⟨rfl, ?_⟩
    unfold AList.del
    exact List.filter_congr fun e _ => by simp
  · intro hn
    rw [if_neg fun hh => hn ((has_keys' _ _).1 hh)]

example : runClients {} [.add 0 "a", .add 0 "b", .remove 1, .add 0 "c", .add 1 "a", .add 9 "d"] =
    ({ total := 4, now := [(2, "b"), (3, "c"), (1, "a"), (4, "d")] }, [1, 2, 3, 1, 4]) := by decide

/-! ## C290: clients of information that was read from a document -/

/-- The information of a device with a client, read from a document: nobody can register. -/
theorem C290_violation : clients (loadClients (runClients {} [.add 0 "a"]).1) = ["a"] ∧
    addClient (loadClients (runClients {} [.add 0 "a"]).1) 0 "b" =
      ({ total := 1, now := [(1, "a")] }, 1, some .alreadyExists) := by decide

/-- Without clients in the document, information that was read behaves like one that was created. -/
theorem C290_none_partial (c : Clients) (h : clients c = []) (who : String) :
    addClient (loadClients c) 0 who = ({ total := 1, now := [(1, who)] }, 1, none) := by
  have hn : c.now = [] := List.map_eq_nil_iff.1 h
  unfold loadClients
  rw [hn]
  rfl

example : clients (runClients {} [.add 0 "a", .remove 1]).1 = [] := by decide

/-! ## C291: clients of a server -/

/-- The number of a client that is or was connected. -/
def known (s : Server) (id : String) : Option Nat :=
  match s.registered.get id with
  | some k => some k
  | none => s.gone.get id

/-- What holds for a server with these clients. -/
structure Serves (s : Server) (now : List String) : Prop where
  numbers : Numbers s.clients
  range : ∀ id k, known s id = some k → 1 ≤ k ∧ k ≤ s.clients.total
  inj : ∀ i j k, known s i = some k → known s j = some k → i = j
  apart : ∀ id k, s.registered.get id = some k → s.gone.get id = none
  entry : ∀ e ∈ s.clients.now, s.registered.get e.2 = some e.1
  listed : clients s.clients = now
  present : ∀ id k, s.registered.get id = some k → id ∈ now

theorem serves_empty : Serves {} [] :=
  ⟨numbers_empty, (fun _ _ h => nomatch h), (fun _ _ _ h => nomatch h), (fun _ _ h => nomatch h),
    fun _ he => absurd he List.not_mem_nil, rfl, (fun _ _ h => nomatch h)⟩

theorem absent {s : Server} {now : List String} (h : Serves s now) {id : String} (hid : id ∉ now) :
    s.registered.get id = none := by
  cases hg : s.registered.get id with
  | none => rfl
  | some k => exact absurd (h.present id k hg) hid

/-- A client connects with a number nobody else has. -/
theorem serves_connect {s : Server} {now : List String} (h : Serves s now) {id : String} (hid : id ∉ now) :
    Serves (connect s id) (now ++ [id]) ∧ ∀ j k, known s j = some k → known (connect s id) j = some k := by
  have hr := absent h hid
  have hks : known s id = s.gone.get id := by
    unfold known
    rw [hr]
  obtain ⟨k, total, hadd, hk1, hk2, ht, hfree, hold⟩ : ∃ k total,
      addClient s.clients ((s.gone.get id).getD 0) id =
        ({ total := total, now := s.clients.now ++ [(k, id)] }, k, none) ∧ 1 ≤ k ∧ k ≤ total ∧ s.clients.total ≤ total ∧
        (∀ j, known s j = some k → j = id) ∧ (∀ n, known s id = some n → n = k) := by
    cases hg : s.gone.get id with
    | none =>
      refine ⟨s.clients.total + 1, s.clients.total + 1, addClient_fresh h.numbers (.inl rfl) id, by omega, Nat.le_refl _, by omega, ?_, ?_⟩
      · intro j hj
        have := h.range j _ hj
        omega
      · intro n hn
        rw [hks, hg] at hn
        cases hn
    | some k =>
      have hkid : known s id = some k := hks.trans hg
      obtain ⟨k1, k2⟩ := h.range id k hkid
      refine ⟨k, s.clients.total, ?_, k1, k2, Nat.le_refl _, fun j hj => h.inj j id k hj hkid, fun n hn => ?_⟩
      · dsimp only [Option.getD]
        rw [addClient_old k1 k2, if_neg]
        intro hh
        obtain ⟨e, he, hek⟩ := has_mem hh
        have hre := h.entry e he
        rw [hek] at hre
        have hke : known s e.2 = some k := by
          unfold known
          rw [hre]
        have := h.inj _ _ _ hke hkid
        rw [this, hr] at hre
        cases hre
      · rw [hkid] at hn
        cases hn
        rfl
  have hc : connect s id = { clients := { total := total, now := s.clients.now ++ [(k, id)] }
                             registered := s.registered.add id k
                             gone := s.gone.del id } := by
    unfold connect
    dsimp only
    rw [hadd]
  have hreg : ∀ j, (connect s id).registered.get j = if j = id then some k else s.registered.get j := by
    intro j
    rw [hc]
    dsimp only
    rw [AList.get_add]
    by_cases hj : j = id
    · subst hj
      rw [hr]
      simp
    · simp [hj]
  have hgone : ∀ j, (connect s id).gone.get j = if j = id then none else s.gone.get j := by
    intro j
    rw [hc]
    exact AList.get_del ..
  have hkn : ∀ j, known (connect s id) j = if j = id then some k else known s j := by
    intro j
    unfold known
    rw [hreg, hgone]
    by_cases hj : j = id
    · rw [if_pos hj, if_pos hj, if_pos hj]
    · rw [if_neg hj, if_neg hj, if_neg hj]
  refine ⟨⟨?_, ?_, ?_, ?_, ?_, ?_, ?_⟩, ?_⟩
  · rw [hc]
    intro e he
    rcases List.mem_append.1 he with he | he
    · have := h.numbers e he
      exact ⟨this.1, Nat.le_trans this.2 ht⟩
    · cases List.mem_singleton.1 he
      exact ⟨hk1, hk2⟩
  · intro j n hn
    have htot : (connect s id).clients.total = total := by rw [hc]
    rw [htot]
    rw [hkn] at hn
    by_cases hj : j = id
    · rw [if_pos hj] at hn
      cases hn
      exact ⟨hk1, hk2⟩
    · rw [if_neg hj] at hn
      have := h.range j n hn
      exact ⟨this.1, Nat.le_trans this.2 ht⟩
  · intro i j n hi hj
    rw [hkn] at hi hj
    by_cases h1 : i = id
    · by_cases h2 : j = id
      · rw [h1, h2]
      · rw [if_pos h1] at hi
        rw [if_neg h2] at hj
        cases hi
        exact absurd (hfree j hj) h2
    · rw [if_neg h1] at hi
      by_cases h2 : j = id
      · rw [if_pos h2] at hj
        cases hj
        exact absurd (hfree i hi) h1
      · rw [if_neg h2] at hj
        exact h.inj i j n hi hj
  · intro j n hn
    rw [hreg] at hn
    rw [hgone]
    by_cases hj : j = id
    · rw [if_pos hj]
    · rw [if_neg hj] at hn ⊢
      exact h.apart j n hn
  · intro e he
    rw [hreg]
    rw [hc] at he
    rcases List.mem_append.1 he with he | he
    · have hre := h.entry e he
      rw [if_neg, hre]
      intro hj
      rw [hj, hr] at hre
      cases hre
    · cases List.mem_singleton.1 he
      exact if_pos rfl
  · rw [hc, ← h.listed]
    simp [clients]
  · intro j n hn
    rw [hreg] at hn
    by_cases hj : j = id
    · rw [hj]
      exact List.mem_append_right _ (List.mem_singleton.2 rfl)
    · rw [if_neg hj] at hn
      exact List.mem_append_left _ (h.present j n hn)
  · intro j n hn
    rw [hkn]
    by_cases hj : j = id
    · rw [if_pos hj]
      rw [hj] at hn
      rw [hold n hn]
    · rw [if_neg hj, hn]

/-- A client disconnects and its number stays known. -/
theorem serves_disconnect {s : Server} {now : List String} (h : Serves s now) (id : String) :
    Serves (disconnect s id) (now.filter fun j => j ≠ id) ∧
      ∀ j k, known s j = some k → known (disconnect s id) j = some k := by
  cases hr : s.registered.get id with
  | none =>
    have hd : disconnect s id = s := by
      unfold disconnect
      rw [hr]
    have hn : (now.filter fun j => j ≠ id) = now := by
      refine List.filter_eq_self.2 fun j hj => ?_
      have hj' : j ≠ id := by
        rintro rfl
        rw [← h.listed] at hj
        obtain ⟨e, he, hej⟩ := List.mem_map.1 hj
        have hre := h.entry e he
        rw [hej, hr] at hre
        cases hre
      simp [hj']
    rw [hd, hn]
    exact ⟨h, fun _ _ hk => hk⟩
  | some k =>
    have hkid : known s id = some k := by
      unfold known
      rw [hr]
    have hmem : (k, id) ∈ s.clients.now := by
      have hm := h.present id k hr
      rw [← h.listed] at hm
      obtain ⟨e, he, hej⟩ := List.mem_map.1 hm
      have hre := h.entry e he
      rw [hej, hr] at hre
      cases hre
      rw [← hej]
      exact he
    have hhas : s.clients.now.has k = true := (AList.get_isSome_iff_mem_keys _ _).2 (List.mem_map_of_mem (f := Prod.fst) hmem)
    have hd : disconnect s id = { clients := { s.clients with now := s.clients.now.del k }
                                  registered := s.registered.del id
                                  gone := s.gone.add id k } := by
      unfold disconnect
      rw [hr]
      dsimp only
      unfold removeClient
      rw [if_pos hhas]
    have hreg : ∀ j, (disconnect s id).registered.get j = if j = id then none else s.registered.get j := by
      intro j
      rw [hd]
      exact AList.get_del ..
    have hgone : ∀ j, (disconnect s id).gone.get j = if j = id then some k else s.gone.get j := by
      intro j
      rw [hd]
      dsimp only
      rw [AList.get_add]
      by_cases hj : j = id
      · subst hj
        rw [h.apart j k hr]
        simp
      · simp [hj]
    have hkn : ∀ j, known (disconnect s id) j = known s j := by
      intro j
      by_cases hj : j = id
      · rw [hj, hkid]
        unfold known
        rw [hreg, hgone, if_pos rfl, if_pos rfl]
      · unfold known
        rw [hreg, hgone, if_neg hj, if_neg hj]
    have hsame : ∀ e ∈ s.clients.now, (e.1 = k ↔ e.2 = id) := by
      intro e he
      have hre := h.entry e he
      have hke : known s e.2 = some e.1 := by
        unfold known
        rw [hre]
      constructor
      · intro hk
        rw [hk] at hke
        exact h.inj _ _ _ hke hkid
      · intro hid
        rw [hid, hkid] at hke
        cases hke
        rfl
    refine ⟨⟨?_, ?_, ?_, ?_, ?_, ?_, ?_⟩, fun j n hn => (hkn j).trans hn⟩
    · rw [hd]
      exact fun e he => h.numbers e (List.mem_filter.1 he).1
    · intro j n hn
      rw [hkn] at hn
      have htot : (disconnect s id).clients.total = s.clients.total := by rw [hd]
      rw [htot]
      exact h.range j n hn
    · intro i j n hi hj
      rw [hkn] at hi hj
      exact h.inj i j n hi hj
    · intro j n hn
      rw [hreg] at hn
      rw [hgone]
      by_cases hj : j = id
      · rw [if_pos hj] at hn
        cases hn
      · rw [if_neg hj] at hn ⊢
        exact h.apart j n hn
    · intro e he
      rw [hd] at he
      obtain ⟨he1, he2⟩ := List.mem_filter.1 he
      rw [hreg, if_neg]
      · exact h.entry e he1
      · intro hid
        have := (hsame e he1).2 hid
        simp [this] at he2
    · rw [hd, ← h.listed]
      unfold clients AList.del
      dsimp only
      rw [List.filter_map]
      refine congrArg _ (List.filter_congr fun e he => ?_)
      have := hsame e he
      by_cases hk : e.1 = k
      · simp [hk, this.1 hk]
      · have h2 : e.2 ≠ id := fun hh => hk (this.2 hh)
        simp [hk, h2]
    · intro j n hn
      rw [hreg] at hn
      by_cases hj : j = id
      · rw [if_pos hj] at hn
        cases hn
      · rw [if_neg hj] at hn
        exact List.mem_filter.2 ⟨h.present j n hn, by simp [hj]⟩

theorem serves_run (evs : List Ev) : ∀ (s : Server) (now : List String), Serves s now → Orderly now evs →
    Serves (evs.foldl serve s) (connected now evs) ∧ ∀ j k, known s j = some k → known (evs.foldl serve s) j = some k := by
  induction evs with
  | nil => exact fun s now h _ => ⟨h, fun _ _ hk => hk⟩
  | cons e evs ih =>
    intro s now h ho
    cases e with
    | connect id =>
      obtain ⟨a, b⟩ := serves_connect h ho.1
      obtain ⟨c, d⟩ := ih _ _ a ho.2
      exact ⟨c, fun j k hk => d j k (b j k hk)⟩
    | disconnect id =>
      obtain ⟨a, b⟩ := serves_disconnect h id
      obtain ⟨c, d⟩ := ih _ _ a ho
      exact ⟨c, fun j k hk => d j k (b j k hk)⟩

theorem orderly_append (evs more : List Ev) : ∀ now, Orderly now (evs ++ more) →
    Orderly now evs ∧ Orderly (connected now evs) more := by
  induction evs with
  | nil => exact fun now h => ⟨trivial, h⟩
  | cons e evs ih =>
    intro now h
    cases e with
    | connect id =>
      obtain ⟨a, b⟩ := ih _ h.2
      exact ⟨⟨h.1, a⟩, b⟩
    | disconnect id => exact ih _ h

/-- The device lists the clients that are connected, in the order they connected. -/
theorem C291_listed (evs : List Ev) (h : Orderly [] evs) : clients (evs.foldl serve {}).clients = connected [] evs :=
  (serves_run evs {} [] serves_empty h).1.listed

/-- A client that connects again has the number it had before, and nobody else ever has it. -/
theorem C291_numbers (evs more : List Ev) (h : Orderly [] (evs ++ more)) (i j : String) (m n : Nat)
    (hi : (m, i) ∈ (evs.foldl serve {}).clients.now) (hj : (n, j) ∈ ((evs ++ more).foldl serve {}).clients.now) :
    i = j ↔ m = n := by
  obtain ⟨o1, o2⟩ := orderly_append evs more [] h
  obtain ⟨s1, _⟩ := serves_run evs {} [] serves_empty o1
  obtain ⟨s2, keep⟩ := serves_run more _ _ s1 o2
  rw [← List.foldl_append] at s2 keep
  have hki : known (evs.foldl serve {}) i = some m := by
    unfold known
    rw [s1.entry _ hi]
  have hkj : known ((evs ++ more).foldl serve {}) j = some n := by
    unfold known
    rw [s2.entry _ hj]
  have hki2 := keep i m hki
  constructor
  · rintro rfl
    rw [hki2] at hkj
    cases hkj
    rfl
  · rintro rfl
    exact s2.inj i j m hki2 hkj

example : Orderly [] [.connect "a", .connect "b", .disconnect "a", .connect "c", .connect "a"] ∧
    ([Ev.connect "a", .connect "b", .disconnect "a", .connect "c", .connect "a"].foldl serve {}).clients.now =
      [(2, "b"), (3, "c"), (1, "a")] := by
  refine ⟨⟨?_, ?_, ?_, ?_, trivial⟩, ?_⟩ <;> decide

/-! ## C292: a client that connects twice -/

/-- A client connects twice and leaves: it stays listed, whatever it does. -/
theorem C292_violation :
    clients ([Ev.connect "a", .connect "a", .disconnect "a"].foldl serve {}).clients = ["a"] ∧
      clients ([Ev.connect "a", .connect "a", .disconnect "a", .disconnect "a"].foldl serve {}).clients = ["a"] := by decide

/-- A client that connects only when it is not connected is not listed after it left. -/
theorem C292_left_partial (evs : List Ev) (id : String) (h : Orderly [] evs) :
    id ∉ clients ((evs ++ [Ev.disconnect id]).foldl serve {}).clients := by
  obtain ⟨s1, _⟩ := serves_run evs {} [] serves_empty h
  obtain ⟨s2, _⟩ := serves_disconnect s1 id
  rw [List.foldl_append]
  change id ∉ clients (disconnect (evs.foldl serve {}) id).clients
  rw [s2.listed]
  intro hm
  have := (List.mem_filter.1 hm).2
  simp at this

end Verif.Info
