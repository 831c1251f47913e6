import Verif.Info.Lemmas

/-!
# Capabilities of servers, addresses and network interfaces

Proved: C287. Violated: C286, C288, C293.
-/

namespace Verif.Info

/-! ## C286: capabilities -/

/-- After the protocol of a capability is changed, the device has the old one, does not have the new one, and neither can
be added. -/
theorem C286_violation :
    hasCap ([CapOp.add { id := "A" }, .setId "A" "B"].foldl capStep []) "A" = true ∧
      hasCap ([CapOp.add { id := "A" }, .setId "A" "B"].foldl capStep []) "B" = false ∧
      caps ([CapOp.add { id := "A" }, .setId "A" "B"].foldl capStep []) = [{ id := "B" }] ∧
      addCap ([CapOp.add { id := "A" }, .setId "A" "B"].foldl capStep []) { id := "A" } = .error .alreadyExists ∧
      addCap ([CapOp.add { id := "A" }, .setId "A" "B"].foldl capStep []) { id := "B" } = .error .duplicateItem :=
  ⟨rfl, rfl, rfl, rfl, rfl⟩

/-- Capabilities are kept under their protocols, each once. -/
def CapsOk (cs : Caps) : Prop := (∀ e ∈ cs, e.2.id = e.1) ∧ (cs.map Prod.fst).Nodup

theorem ids_eq {cs : Caps} (h : CapsOk cs) : (cs.map fun e => e.2.id) = cs.map Prod.fst :=
  List.map_congr_left fun e he => h.1 e he

theorem has_keys (cs : Caps) (id : String) : cs.has id = true ↔ id ∈ cs.map Prod.fst :=
  AList.get_isSome_iff_mem_keys cs id

theorem addCap_ok {cs : Caps} (h : CapsOk cs) (c : Cap) :
    (c.id ∉ cs.map Prod.fst → addCap cs c = .ok (cs ++ [(c.id, c)])) ∧
      (c.id ∈ cs.map Prod.fst → addCap cs c = .error .duplicateItem) := by
  unfold addCap
  rw [ids_eq h]
  constructor
  · intro hn
    rw [if_neg (by simpa using hn), if_neg (fun hh => hn ((has_keys cs c.id).1 hh))]
  · intro hn
    rw [if_pos (by simpa using hn)]

theorem capsOk_append {cs : Caps} (h : CapsOk cs) {c : Cap} (hn : c.id ∉ cs.map Prod.fst) : CapsOk (cs ++ [(c.id, c)]) := by
  refine ⟨fun e he => ?_, ?_⟩
  · rcases List.mem_append.1 he with he | he
    · exact h.1 e he
    · cases List.mem_singleton.1 he
      rfl
  · rw [List.map_append]
    refine List.nodup_append.2 ⟨h.2, by simp, fun a ha b hb hab => ?_⟩
    have hb' : b = c.id := List.mem_singleton.1 hb
    rw [hab, hb'] at ha
    exact hn ha

theorem capsOk_step {cs : Caps} (h : CapsOk cs) (x : CapOp) (hx : ∀ id to, x ≠ .setId id to) : CapsOk (capStep cs x) := by
  cases x with
  | add c =>
    dsimp only [capStep]
    by_cases hn : c.id ∈ cs.map Prod.fst
    · rw [(addCap_ok h c).2 hn]
      exact h
    · rw [(addCap_ok h c).1 hn]
      exact capsOk_append h hn
  | remove id =>
    dsimp only [capStep]
    unfold removeCap
    by_cases hh : cs.has id = true
    · rw [if_pos hh]
      refine ⟨fun e he => h.1 e (List.mem_filter.1 he).1, ?_⟩
      exact h.2.sublist (List.Sublist.map _ List.filter_sublist)
    · rw [if_neg hh]
      exact h
  | clearAll => exact ⟨fun e he => absurd he List.not_mem_nil, List.nodup_nil⟩
  | setId id to => exact absurd rfl (hx id to)
  | addString id s =>
    dsimp only [capStep]
    have hf : ∀ e ∈ cs, ((if e.1 = id then (e.1, e.2.addString s) else e) : String × Cap).1 = e.1 := by
      intro e _
      by_cases hh : e.1 = id
      · rw [if_pos hh]
      · rw [if_neg hh]
    have hk : (change cs id fun c => c.addString s).map Prod.fst = cs.map Prod.fst := by
      unfold change
      rw [List.map_map]
      exact List.map_congr_left hf
    refine ⟨fun e he => ?_, hk ▸ h.2⟩
    obtain ⟨d, hd, rfl⟩ := List.mem_map.1 he
    by_cases hh : d.1 = id
    · rw [if_pos hh]
      have : (d.2.addString s).id = d.2.id := by
        unfold Cap.addString
        by_cases h1 : s ∈ d.2.strings
        · rw [if_pos h1]
        · rw [if_neg h1]
          dsimp only
          by_cases h2 : (d.2.strings ++ [s]).length = 1
          · rw [if_pos h2]
          · rw [if_neg h2]
      exact this.trans (h.1 d hd)
    · rw [if_neg hh]
      exact h.1 d hd

theorem capsOk_run {cs : Caps} (h : CapsOk cs) (xs : List CapOp) (hx : ∀ x ∈ xs, ∀ id to, x ≠ .setId id to) :
    CapsOk (xs.foldl capStep cs) := by
  induction xs generalizing cs with
  | nil => exact h
  | cons x xs ih =>
    exact ih (capsOk_step h x (hx x (List.mem_cons_self ..))) fun y hy => hx y (List.mem_cons_of_mem _ hy)

/-- While protocols are not changed: a device has a capability exactly when it is listed, and it is the one that is returned. -/
theorem C286_listed_partial (xs : List CapOp) (hx : ∀ x ∈ xs, ∀ id to, x ≠ .setId id to) (id : String) :
    (hasCap (xs.foldl capStep []) id = true ↔ ∃ c ∈ caps (xs.foldl capStep []), c.id = id) ∧
      (∀ c, getCap (xs.foldl capStep []) id = .ok c → c ∈ caps (xs.foldl capStep []) ∧ c.id = id) ∧
      ((caps (xs.foldl capStep [])).map fun c => c.id).Nodup := by
  have h := capsOk_run (cs := []) ⟨fun e he => absurd he List.not_mem_nil, List.nodup_nil⟩ xs hx
  generalize xs.foldl capStep [] = cs at h
  refine ⟨?_, fun c hc => ?_, ?_⟩
  · unfold hasCap caps
    rw [has_keys]
    constructor
    · intro hm
      obtain ⟨e, he, rfl⟩ := List.mem_map.1 hm
      exact ⟨e.2, List.mem_map_of_mem he, h.1 e he⟩
    · rintro ⟨c, hc, rfl⟩
      obtain ⟨e, he, rfl⟩ := List.mem_map.1 hc
      rw [h.1 e he]
      exact List.mem_map_of_mem he
  · unfold getCap at hc
    cases hg : cs.get id with
    | none => simp only [hg] at hc; cases hc
    | some d =>
      simp only [hg] at hc
      cases hc
      have hm := AList.mem_of_get hg
      exact ⟨List.mem_map_of_mem (f := Prod.snd) hm, h.1 _ hm⟩
  · unfold caps
    rw [List.map_map]
    exact (ids_eq h) ▸ h.2

/-- While protocols are not changed: a capability can be added exactly when none with its protocol is listed, and is listed
last; one that is removed is not listed, and the others stay. -/
theorem C286_changes_partial (xs : List CapOp) (hx : ∀ x ∈ xs, ∀ id to, x ≠ .setId id to) (c : Cap) (id : String) :
    ((∀ d ∈ caps (xs.foldl capStep []), d.id ≠ c.id) →
        caps (capStep (xs.foldl capStep []) (.add c)) = caps (xs.foldl capStep []) ++ [c]) ∧
      ((∃ d ∈ caps (xs.foldl capStep []), d.id = c.id) → addCap (xs.foldl capStep []) c = .error .duplicateItem) ∧
      caps (capStep (xs.foldl capStep []) (.remove id)) = (caps (xs.foldl capStep [])).filter fun d => d.id ≠ id := by
  have h := capsOk_run (cs := []) ⟨fun e he => absurd he List.not_mem_nil, List.nodup_nil⟩ xs hx
  generalize xs.foldl capStep [] = cs at h
  have hmem : c.id ∈ cs.map Prod.fst ↔ ∃ d ∈ caps cs, d.id = c.id := by
    rw [← ids_eq h]
    constructor
    · intro hm
      obtain ⟨e, he, hid⟩ := List.mem_map.1 hm
      exact ⟨e.2, List.mem_map_of_mem he, hid⟩
    · rintro ⟨d, hd, hid⟩
      obtain ⟨e, he, rfl⟩ := List.mem_map.1 hd
      exact List.mem_map.2 ⟨e, he, hid⟩
  refine ⟨fun hn => ?_, fun hn => (addCap_ok h c).2 (hmem.2 hn), ?_⟩
  · have hn' : c.id ∉ cs.map Prod.fst := fun hm => by
      obtain ⟨d, hd, he⟩ := hmem.1 hm
      exact hn d hd he
    dsimp only [capStep]
    rw [(addCap_ok h c).1 hn']
    simp [caps]
  · have hdel : caps (AList.del cs id) = (caps cs).filter fun d => d.id ≠ id := by
      unfold caps AList.del
      rw [List.filter_map]
      refine congrArg _ (List.filter_congr fun e he => ?_)
      simp only [Function.comp, h.1 e he, ne_eq, decide_not]
    dsimp only [capStep]
    unfold removeCap
    by_cases hh : cs.has id = true
    · rw [if_pos hh]
      exact hdel
    · rw [if_neg hh, ← hdel]
      dsimp only
      unfold AList.del
      rw [List.filter_eq_self.2]
      intro e he
      have : e.1 ≠ id := fun hid => hh ((has_keys cs id).2 (hid ▸ List.mem_map_of_mem he))
      simp [this]

example : caps ([CapOp.add { id := "A" }, .add { id := "B" }, .add { id := "A", primary := "x" }, .addString "B" "s", .remove "A"].foldl capStep []) =
    [{ id := "B", primary := "s", strings := ["s"] }] := rfl

/-! ## C287: connection strings -/

theorem addString_strings (c : Cap) (s : String) : (c.addString s).strings = if s ∈ c.strings then c.strings else c.strings ++ [s] := by
  unfold Cap.addString
  by_cases h : s ∈ c.strings
  · rw [if_pos h, if_pos h]
  · rw [if_neg h, if_neg h]
    dsimp only
    by_cases h2 : (c.strings ++ [s]).length = 1
    · rw [if_pos h2]
    · rw [if_neg h2]

theorem addString_primary (c : Cap) (s : String) : (c.addString s).primary = if c.strings = [] then s else c.primary := by
  unfold Cap.addString
  by_cases h : s ∈ c.strings
  · rw [if_pos h, if_neg (List.ne_nil_of_mem h)]
  · rw [if_neg h]
    dsimp only
    cases hc : c.strings with
    | nil => simp
    | cons a l => simp

theorem runStrings_cons (c : Cap) (x : StringOp) (l : List StringOp) :
    runStrings c (x :: l) = runStrings (match x with
      | .add s => c.addString s
      | .set s => c.setString s) l := rfl

theorem runStrings_strings (l : List StringOp) : ∀ c : Cap, c.strings.Nodup →
    (runStrings c l).strings.Nodup ∧ ∀ s, s ∈ (runStrings c l).strings ↔ s ∈ c.strings ∨ s ∈ l.map StringOp.str := by
  induction l with
  | nil => exact fun c h => ⟨h, fun s => by simp [runStrings]⟩
  | cons x l ih =>
    intro c h
    have key : ∀ c' : Cap, c'.strings = (if x.str ∈ c.strings then c.strings else c.strings ++ [x.str]) →
        (runStrings c' l).strings.Nodup ∧ ∀ s, s ∈ (runStrings c' l).strings ↔ s ∈ c.strings ∨ s ∈ (x :: l).map StringOp.str := by
      intro c' hc
      have hnd : c'.strings.Nodup := by
        rw [hc]
        by_cases hm : x.str ∈ c.strings
        · rw [if_pos hm]; exact h
        · rw [if_neg hm]
          refine List.nodup_append.2 ⟨h, by simp, fun a ha b hb hab => ?_⟩
          cases List.mem_singleton.1 hb
          exact hm (hab ▸ ha)
      obtain ⟨i1, i2⟩ := ih c' hnd
      refine ⟨i1, fun s => ?_⟩
      rw [i2, hc, List.map_cons, List.mem_cons]
      by_cases hm : x.str ∈ c.strings
      · rw [if_pos hm]
        constructor
        · rintro (a | a)
          · exact .inl a
          · exact .inr (.inr a)
        · rintro (a | rfl | a)
          · exact .inl a
          · exact .inl hm
          · exact .inr a
      · rw [if_neg hm, List.mem_append, List.mem_singleton, or_assoc]
    rw [runStrings_cons]
    cases x with
    | add s => exact key _ (addString_strings c s)
    | set s => exact key _ (addString_strings { c with primary := s } s)

theorem runStrings_primary (l : List StringOp) : ∀ c : Cap, c.strings ≠ [] →
    (runStrings c l).primary = (lastSet l).getD c.primary := by
  induction l with
  | nil => exact fun c _ => rfl
  | cons x l ih =>
    intro c h
    have hne : ∀ (c' : Cap) s, c'.strings = c.strings → (c'.addString s).strings ≠ [] := by
      intro c' s he
      rw [addString_strings, he]
      by_cases hm : s ∈ c.strings
      · rw [if_pos hm]; exact h
      · rw [if_neg hm]; simp
    rw [runStrings_cons]
    cases x with
    | add s =>
      dsimp only
      rw [ih _ (hne c s rfl), addString_primary, if_neg h]
      rfl
    | set s =>
      dsimp only
      unfold Cap.setString
      rw [ih _ (hne { c with primary := s } s rfl)]
      rw [addString_primary, if_neg h]
      simp only [lastSet]
      cases lastSet l <;> rfl

/-- Each connection string is listed once, whatever was added or set. -/
theorem C287_listed (l : List StringOp) (id : String) :
    (runStrings { id := id } l).strings.Nodup ∧ ∀ s, s ∈ (runStrings { id := id } l).strings ↔ s ∈ l.map StringOp.str := by
  obtain ⟨h1, h2⟩ := runStrings_strings l { id := id } List.nodup_nil
  refine ⟨h1, fun s => ?_⟩
  rw [h2]
  simp

/-- The primary connection string is the one that was set last, or the first one if none was set; so it is listed. -/
theorem C287_primary (l : List StringOp) (id : String) : (runStrings { id := id } l).primary = primaryOf l := by
  cases l with
  | nil => rfl
  | cons x l =>
    rw [runStrings_cons]
    have hs : ∀ (p s : String), (Cap.addString { id := id, primary := p } s).strings ≠ [] := by
      intro p s
      rw [addString_strings]
      simp
    cases x with
    | add s =>
      dsimp only
      rw [runStrings_primary _ _ (hs "" s), addString_primary, if_pos rfl]
      simp only [primaryOf, lastSet, StringOp.str]
      cases lastSet l <;> rfl
    | set s =>
      dsimp only
      unfold Cap.setString
      rw [runStrings_primary _ _ (hs s s), addString_primary, if_pos rfl]
      simp only [primaryOf, lastSet]
      cases lastSet l <;> rfl

example : (runStrings {} [.add "a", .set "b", .add "c", .add "a"]).primary = "b" ∧
    (runStrings {} [.add "a", .set "b", .add "c", .add "a"]).strings = ["a", "b", "c"] := by decide

/-! ## C288: addresses -/

/-- Two addresses of one device, of which the second is refused. -/
theorem C288_violation : ∃ c, Cap.addAddress {} "192.168.11.1" = .ok c ∧ c.listed = ["192.168.11.1"] ∧
    c.addAddress "192.168.1.11" = .error .alreadyExists ∧ c.addAddress "192.168.11.1" = .error .duplicateItem :=
  ⟨_, rfl, rfl, rfl, rfl⟩

theorem address_ok {c : Cap} {a : String} (hk : ∀ e ∈ c.addresses, e.1 = key e.2) (h : ∀ b ∈ c.listed, key b ≠ key a) :
    c.addAddress a = .ok { c with addresses := c.addresses ++ [(key a, a)] } := by
  unfold Cap.addAddress
  rw [if_neg, if_neg]
  · intro hh
    obtain ⟨e, he, hek⟩ := List.mem_map.1 ((AList.get_isSome_iff_mem_keys c.addresses (key a)).1 hh)
    exact h e.2 (List.mem_map_of_mem (f := Prod.snd) he) ((hk e he).symm.trans hek)
  · intro hh
    have hm : a ∈ c.addresses.map Prod.snd := by simpa using hh
    exact h a hm rfl

theorem key_eq : key = letters := by
  funext a
  unfold key letters
  apply List.filter_congr
  intro c _
  by_cases h1 : c = '/' <;> by_cases h2 : c = '.' <;> by_cases h3 : c = '[' <;> by_cases h4 : c = ']' <;> simp [h1, h2, h3, h4]

/-- Addresses that differ in more than the characters `/`, `.`, `[` and `]` are all listed, in the order they were added. -/
theorem C288_listed_partial (l : List String) (id : String) (h : (l.map letters).Nodup) :
    (addAddresses { id := id } l).listed = l := by
  rw [← key_eq] at h
  have key2 : ∀ (l : List String) (c : Cap), (∀ e ∈ c.addresses, e.1 = key e.2) → ((c.listed ++ l).map key).Nodup →
      (addAddresses c l).listed = c.listed ++ l := by
    intro l
    induction l with
    | nil => exact fun c _ _ => by simp [addAddresses]
    | cons a l ih =>
      intro c hk hnd
      have hok := address_ok (c := c) (a := a) hk (by
        intro b hb he
        rw [List.map_append, List.map_cons] at hnd
        exact (List.nodup_append.1 hnd).2.2 _ (List.mem_map_of_mem hb) _ (List.mem_cons_self ..) he)
      have hstep : addAddresses c (a :: l) = addAddresses { c with addresses := c.addresses ++ [(key a, a)] } l := by
        change addAddresses (match c.addAddress a with
          | .ok c => c
          | .error _ => c) l = _
        rw [hok]
      have hl : Cap.listed { c with addresses := c.addresses ++ [(key a, a)] } = c.listed ++ [a] := by simp [Cap.listed]
      rw [hstep, ih, hl, List.append_assoc]
      · rfl
      · intro e he
        rcases List.mem_append.1 he with he | he
        · exact hk e he
        · cases List.mem_singleton.1 he
          rfl
      · rw [hl, List.append_assoc]
        exact hnd
  exact key2 l { id := id } (fun e he => absurd he List.not_mem_nil) h

example : (addAddresses {} ["192.168.11.1", "[fe80::1]", "192.168.11.1", "10.0.0.1"]).listed = ["192.168.11.1", "[fe80::1]", "10.0.0.1"] ∧
    (["192.168.11.1", "[fe80::1]", "10.0.0.1"].map letters).Nodup := by decide +kernel

/-! ## C293: network interfaces -/

/-- A caller of `getNetworkInterfaces` adds an interface without a name and replaces another one, of frozen information. -/
theorem C293_violation :
    getNet (setReturned (setReturned { items := [("eth0", 1)], frozen := true } "" 2) "eth0" 3) "" = .ok 2 ∧
      getNet (setReturned (setReturned { items := [("eth0", 1)], frozen := true } "" 2) "eth0" 3) "eth0" = .ok 3 ∧
      addNet { items := [("eth0", 1)] } "" 2 = .error .invalidParameter ∧
      addNet { items := [("eth0", 1)] } "eth0" 3 = .error .duplicateItem := ⟨rfl, rfl, rfl, rfl⟩

theorem addNet_get {n n' : Nets} {name k : String} {i : Nat} (h : addNet n name i = .ok n') :
    n.frozen = false ∧ name ≠ "" ∧ n.items.get name = none ∧ n'.frozen = false ∧
      n'.items.get k = if k = name then some i else n.items.get k := by
  unfold addNet at h
  by_cases h1 : n.frozen = true
  · rw [if_pos h1] at h; cases h
  rw [if_neg h1] at h
  by_cases h2 : name = ""
  · rw [if_pos h2] at h; cases h
  rw [if_neg h2] at h
  by_cases h3 : n.items.has name = true
  · rw [if_pos h3] at h; cases h
  rw [if_neg h3] at h
  cases h
  have hf : n.frozen = false := by simpa using h1
  refine ⟨hf, h2, ?_, hf, AList.get_put ..⟩
  cases hg : n.items.get name with
  | none => rfl
  | some x => exact absurd ((AList.has_iff _ _).2 ⟨x, hg⟩) h3

/-- Through `addNetworkInteface` alone, each name has the interface that was added first with it, and none is empty. -/
theorem C293_first_partial (l : List (String × Nat)) (k : String) :
    getNet (addNets {} l) k = match l.find? fun e => e.1 = k ∧ k ≠ "" with
      | some e => .ok e.2
      | none => .error .notFound := by
  have key2 : ∀ (l : List (String × Nat)) (n : Nets), n.frozen = false → (addNets n l).items.get k =
      match n.items.get k with
      | some i => some i
      | none => (l.find? fun e => e.1 = k ∧ k ≠ "").map Prod.snd := by
    intro l
    induction l with
    | nil =>
      intro n _
      change n.items.get k = _
      cases n.items.get k <;> rfl
    | cons e l ih =>
      intro n hz
      obtain ⟨m, i⟩ := e
      have hstep : addNets n ((m, i) :: l) = addNets (match addNet n m i with
        | .ok n => n
        | .error _ => n) l := rfl
      rw [hstep]
      cases ha : addNet n m i with
      | ok n' =>
        dsimp only
        obtain ⟨_, h2, h3, h4, h5⟩ := addNet_get (k := k) ha
        rw [ih n' h4, h5]
        by_cases hk : k = m
        · subst hk
          rw [if_pos rfl, h3]
          dsimp only
          rw [List.find?_cons_of_pos (by simp [h2])]
          rfl
        · rw [if_neg hk, List.find?_cons_of_neg (by simp [Ne.symm hk])]
      | error x =>
        dsimp only
        rw [ih n hz]
        cases hg : n.items.get k with
        | some j => rfl
        | none =>
          dsimp only
          by_cases hk : m = k ∧ k ≠ ""
          · exfalso
            obtain ⟨rfl, hne⟩ := hk
            unfold addNet at ha
            rw [if_neg (by simp [hz]), if_neg hne, if_neg] at ha
            · cases ha
            · intro hh
              obtain ⟨y, hy⟩ := (AList.has_iff _ _).1 hh
              rw [hg] at hy
              cases hy
          · rw [List.find?_cons_of_neg (by simpa using hk)]
  unfold getNet
  rw [key2 l {} rfl]
  dsimp only [AList.get_nil]
  cases l.find? fun e => e.1 = k ∧ k ≠ "" <;> rfl

example : getNet (addNets {} [("eth0", 1), ("", 2), ("eth0", 3), ("eth1", 4)]) "eth0" = .ok 1 ∧
    getNet (addNets {} [("eth0", 1), ("", 2), ("eth0", 3), ("eth1", 4)]) "" = .error .notFound := ⟨rfl, rfl⟩

end Verif.Info
