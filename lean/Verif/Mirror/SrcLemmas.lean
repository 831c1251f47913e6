import Verif.Mirror.Spec
import Verif.Component.PropsIds

/-! # Lemmas about one source -/

namespace Verif.Mirror
open Verif.Component (Str idEndsWith)
open Spec

theorem ends_iff (s e : Str) : idEndsWith s e = true ↔ Ends s e := Verif.Component.C34_endsWith s e

theorem ends_refl (s : Str) : Ends s s := ⟨[], rfl⟩

/-- The ids can be told apart (`Distinct` for a family of remote ids). -/
structure Dist (n : Nat) (remote : Nat → Str) (P : Str → Prop) : Prop where
  one : ∀ s a b, s < n → P a → P b → Ends (remote s) a → Ends (remote s) b → a = b
  only : ∀ s s' a, s < n → s' < n → P a → Ends (remote s) a → Ends (remote s') a → s = s'
  ends : ∀ a b, P a → P b → Ends a b → a = b
  remote : ∀ s s', s < n → s' < n → remote s = remote s' → s = s'

/-- The key of a signal, given the ids on offer. -/
def IsKey (avail : List Str) (r k : Str) : Prop :=
  (k ∈ avail ∧ Ends r k) ∨ ((∀ a ∈ avail, ¬ Ends r a) ∧ k = r)

theorem Src.key_isKey (s : Src) (r : Str) : IsKey s.avail r (s.key r) := by
  unfold Src.key Src.streamingId
  cases h : s.avail.find? fun a => idEndsWith r a with
  | none =>
    right
    refine ⟨fun a ha he => ?_, rfl⟩
    have := List.find?_eq_none.mp h a ha
    exact this ((ends_iff r a).mpr he)
  | some a =>
    left
    exact ⟨List.mem_of_find?_eq_some h, (ends_iff r a).mp (List.find?_some (p := fun a => idEndsWith r a) h)⟩

theorem Src.streamingId_isNone (s : Src) (r : Str) : (s.streamingId r).isNone = true ↔ ∀ a ∈ s.avail, ¬ Ends r a := by
  unfold Src.streamingId
  rw [Option.isNone_iff_eq_none, List.find?_eq_none]
  constructor
  · intro h a ha he; exact h a ha ((ends_iff r a).mpr he)
  · intro h a ha he; exact h a ha ((ends_iff r a).mp he)

variable {n : Nat} {remote : Nat → Str} {P : Str → Prop}

theorem Dist.key_unique (D : Dist n remote P) {avail : List Str} (hP : ∀ a ∈ avail, P a) {v : Nat} (hv : v < n) {k k' : Str}
    (h : IsKey avail (remote v) k) (h' : IsKey avail (remote v) k') : k = k' := by
  rcases h with ⟨h1, h2⟩ | ⟨h1, h2⟩ <;> rcases h' with ⟨h3, h4⟩ | ⟨h3, h4⟩
  · exact D.one v k k' hv (hP _ h1) (hP _ h3) h2 h4
  · exact absurd h2 (h3 _ h1)
  · exact absurd h4 (h1 _ h3)
  · rw [h2, h4]

theorem Dist.key_inj (D : Dist n remote P) {avail : List Str} (hP : ∀ a ∈ avail, P a) {v v' : Nat} (hv : v < n) (hv' : v' < n)
    {k : Str} (h : IsKey avail (remote v) k) (h' : IsKey avail (remote v') k) : v = v' := by
  rcases h with ⟨h1, h2⟩ | ⟨h1, h2⟩ <;> rcases h' with ⟨h3, h4⟩ | ⟨h3, h4⟩
  · exact D.only v v' k hv hv' (hP _ h1) h2 h4
  · subst h4; exact absurd (ends_refl _) (h3 _ h1)
  · subst h2; exact absurd (ends_refl _) (h1 _ h3)
  · exact D.remote v v' hv hv' (h2.symm.trans h4)

/-- The state of a source is in order. -/
structure K (n : Nat) (remote : Nat → Str) (P : Str → Prop) (s : Src) : Prop where
  key : ∀ i ∈ s.items, i.sig < n ∧ IsKey s.avail (remote i.sig) i.key
  nodup : (s.items.map (·.sig)).Nodup
  avail : ∀ a ∈ s.avail, P a
  deny : s.deny = []
  offer : ∀ a, offered s.log a = true ↔ a ∈ s.avail
  serve : ∀ a, served s.log a = true ↔ a ∈ s.avail ∧ ∃ i ∈ s.items, i.key = a ∧ 0 < i.cnt
  sens : Sensible s.log

/-- The signal was added to the source. -/
def Src.has (s : Src) (v : Nat) : Prop := ∃ i ∈ s.items, i.sig = v

/-- The number of subscriptions of a signal. -/
def Src.count (s : Src) (v : Nat) : Nat := ((s.items.find? fun i => i.sig == v).map (·.cnt)).getD 0

theorem find_congr {α : Type} {l : List α} {p q : α → Bool} (h : ∀ a ∈ l, p a = q a) : l.find? p = l.find? q := by
  induction l with
  | nil => rfl
  | cons a l ih =>
    rw [List.find?_cons, List.find?_cons, h a (by simp), ih fun b hb => h b (by simp [hb])]

theorem filter_congr' {α : Type} {l : List α} {p q : α → Bool} (h : ∀ a ∈ l, p a = q a) : l.filter p = l.filter q :=
  List.filter_congr h

theorem K.key_eq (D : Dist n remote P) {s : Src} (k : K n remote P s) {v : Nat} (hv : v < n) {i : Item} (hi : i ∈ s.items) :
    (i.key == s.key (remote v)) = (i.sig == v) := by
  have hk := k.key i hi
  have hk' := s.key_isKey (remote v)
  by_cases h : i.sig = v
  · subst h
    have : i.key = s.key (remote i.sig) := D.key_unique k.avail hv hk.2 hk'
    simp [this]
  · have : i.key ≠ s.key (remote v) := fun e => h (D.key_inj k.avail hk.1 hv (e ▸ hk.2) hk')
    rw [beq_eq_false_iff_ne.mpr this, beq_eq_false_iff_ne.mpr h]

theorem K.find_eq (D : Dist n remote P) {s : Src} (k : K n remote P s) {v : Nat} (hv : v < n) :
    s.find (s.key (remote v)) = s.items.find? fun i => i.sig == v :=
  find_congr fun _ hi => k.key_eq D hv hi

theorem K.find_none (D : Dist n remote P) {s : Src} (k : K n remote P s) {v : Nat} (hv : v < n) (h : ¬ s.has v) :
    s.find (s.key (remote v)) = none := by
  rw [k.find_eq D hv, List.find?_eq_none]
  intro i hi he
  exact h ⟨i, hi, by simpa using he⟩

theorem find_sig {l : List Item} {i : Item} (hn : (l.map (·.sig)).Nodup) (hi : i ∈ l) :
    (l.find? fun j => j.sig == i.sig) = some i := by
  induction l with
  | nil => cases hi
  | cons j l ih =>
    rw [List.map_cons, List.nodup_cons] at hn
    rw [List.find?_cons]
    rcases List.mem_cons.mp hi with rfl | hi
    · simp
    · have : j.sig ≠ i.sig := fun e => hn.1 (e ▸ List.mem_map.mpr ⟨i, hi, rfl⟩)
      rw [show (j.sig == i.sig) = false by simp [this]]
      exact ih hn.2 hi

theorem K.count_eq {s : Src} (k : K n remote P s) {i : Item} (hi : i ∈ s.items) : s.count i.sig = i.cnt := by
  unfold Src.count
  rw [find_sig k.nodup hi]
  rfl

theorem count_none {s : Src} {v : Nat} (h : ¬ s.has v) : s.count v = 0 := by
  unfold Src.count
  have : (s.items.find? fun i => i.sig == v) = none := by
    rw [List.find?_eq_none]
    intro i hi he
    exact h ⟨i, hi, by simpa using he⟩
  rw [this]
  rfl

theorem K.find_some (D : Dist n remote P) {s : Src} (k : K n remote P s) {v : Nat} (hv : v < n) (h : s.has v) :
    ∃ i ∈ s.items, i.sig = v ∧ i.cnt = s.count v ∧ s.find (s.key (remote v)) = some i := by
  obtain ⟨i, hi, rfl⟩ := h
  exact ⟨i, hi, rfl, (k.count_eq hi).symm, by rw [k.find_eq D hv, find_sig k.nodup hi]⟩

/-- Two entries with the same signal are the same. -/
theorem K.uniq {s : Src} (k : K n remote P s) {i j : Item} (hi : i ∈ s.items) (hj : j ∈ s.items) (h : i.sig = j.sig) : i = j := by
  have h1 := find_sig k.nodup hi
  rw [h, find_sig k.nodup hj] at h1
  exact (Option.some.inj h1).symm

theorem K.uniq_key (D : Dist n remote P) {s : Src} (k : K n remote P s) {i j : Item} (hi : i ∈ s.items) (hj : j ∈ s.items)
    (h : i.key = j.key) : i = j :=
  k.uniq hi hj (D.key_inj k.avail (k.key i hi).1 (k.key j hj).1 (k.key i hi).2 (h ▸ (k.key j hj).2))

/-! ## Changing a count -/

/-- What a change of the count of one signal does. -/
structure Counted (s s' : Src) (v c : Nat) : Prop where
  has : ∀ u, s'.has u ↔ s.has u
  count : ∀ u, s'.count u = if u = v then c else s.count u
  avail : s'.avail = s.avail
  skip : s'.skipDomain = s.skipDomain
  alive : s'.alive = s.alive
  active : s'.active = s.active

theorem setCnt_items (D : Dist n remote P) {s : Src} (k : K n remote P s) {i : Item} (hi : i ∈ s.items) (c : Nat) :
    (s.setCnt i.key c).items = s.items.map fun j => if j = i then { i with cnt := c } else j := by
  unfold Src.setCnt
  refine List.map_congr_left fun j hj => ?_
  by_cases h : j = i
  · subst h; simp
  · have : j.key ≠ i.key := fun e => h (k.uniq_key D hj hi e)
    simp [h, this]

theorem setCnt_counted (D : Dist n remote P) {s : Src} (k : K n remote P s) {i : Item} (hi : i ∈ s.items) (c : Nat) :
    Counted s (s.setCnt i.key c) i.sig c := by
  have e : (s.setCnt i.key c).items.map (·.sig) = s.items.map (·.sig) := by
    rw [setCnt_items D k hi, List.map_map]
    refine List.map_congr_left fun j _ => ?_
    simp only [Function.comp]
    split
    · next h => rw [h]
    · rfl
  have hh : ∀ u, (s.setCnt i.key c).has u ↔ s.has u := by
    intro u
    have h1 : ∀ x : Src, x.has u ↔ u ∈ x.items.map (·.sig) := fun x => by simp [Src.has]
    rw [h1, h1, e]
  refine ⟨hh, ?_, rfl, rfl, rfl, rfl⟩
  intro u
  by_cases hu : s.has u
  · obtain ⟨j, hj, rfl⟩ := hu
    have hj' : (if j = i then { i with cnt := c } else j) ∈ (s.setCnt i.key c).items := by
      rw [setCnt_items D k hi]
      exact List.mem_map.mpr ⟨j, hj, rfl⟩
    have hn : ((s.setCnt i.key c).items.map (·.sig)).Nodup := e ▸ k.nodup
    have := find_sig hn hj'
    by_cases h : j = i
    · subst h
      rw [if_pos rfl] at this ⊢
      unfold Src.count
      rw [show (fun i : Item => i.sig == j.sig) = fun i => i.sig == ({ j with cnt := c } : Item).sig from rfl, this]
      rfl
    · rw [if_neg h] at this
      have hs : j.sig ≠ i.sig := fun e => h (k.uniq hj hi e)
      rw [if_neg hs, k.count_eq hj]
      unfold Src.count
      rw [this]
      rfl
  · rw [count_none (fun h => hu ((hh u).mp h)), count_none hu, if_neg (fun e : u = i.sig => hu ⟨i, hi, e.symm⟩)]

/-- The state stays in order when a count is changed and the messages agree with it. -/
theorem setCnt_K (D : Dist n remote P) {s : Src} (k : K n remote P s) {i : Item} (hi : i ∈ s.items) (c : Nat) {log : List Msg}
    (ho : ∀ a, offered log a = offered s.log a) (hse : Sensible log)
    (hs : ∀ a, served log a = true ↔ (if a = i.key then a ∈ s.avail ∧ 0 < c else served s.log a = true)) :
    K n remote P { s.setCnt i.key c with log := log } := by
  have hit := setCnt_items D k hi c
  have e : (s.setCnt i.key c).items.map (·.sig) = s.items.map (·.sig) := by
    rw [hit, List.map_map]
    refine List.map_congr_left fun j _ => ?_
    simp only [Function.comp]
    split
    · next h => rw [h]
    · rfl
  refine ⟨?_, e ▸ k.nodup, k.avail, k.deny, fun a => by show offered log a = true ↔ a ∈ s.avail; rw [ho a]; exact k.offer a, ?_, hse⟩
  · intro j hj
    have hj : j ∈ (s.setCnt i.key c).items := hj
    rw [hit] at hj
    obtain ⟨j', hj', rfl⟩ := List.mem_map.mp hj
    split
    · exact k.key i hi
    · exact k.key _ hj'
  · intro a
    show _ ↔ a ∈ s.avail ∧ ∃ j ∈ (s.setCnt i.key c).items, _
    rw [hs a, hit]
    by_cases h : a = i.key
    · subst h
      rw [if_pos rfl]
      constructor
      · rintro ⟨h1, h2⟩
        exact ⟨h1, { i with cnt := c }, List.mem_map.mpr ⟨i, hi, by simp⟩, rfl, h2⟩
      · rintro ⟨h1, j, hj, hk, hc⟩
        refine ⟨h1, ?_⟩
        obtain ⟨j', hj', rfl⟩ := List.mem_map.mp hj
        by_cases e : j' = i
        · simpa [e] using hc
        · rw [if_neg e] at hk
          exact absurd (k.uniq_key D hj' hi hk) e
    · rw [if_neg h, k.serve a]
      constructor
      · rintro ⟨h1, j, hj, hk, hc⟩
        have : j ≠ i := fun e => h (by rw [← hk, e])
        exact ⟨h1, j, List.mem_map.mpr ⟨j, hj, by rw [if_neg this]⟩, hk, hc⟩
      · rintro ⟨h1, j, hj, hk, hc⟩
        obtain ⟨j', hj', rfl⟩ := List.mem_map.mp hj
        by_cases e : j' = i
        · rw [if_pos e] at hk
          exact absurd hk.symm h
        · rw [if_neg e] at hk hc
          exact ⟨h1, j', hj', hk, hc⟩

theorem request_ok {s : Src} (h : s.deny = []) (a : Str) (m : Msg) : s.request a m = ({ s with log := m :: s.log }, .ok) := by
  unfold Src.request
  rw [h]
  rfl

theorem K.avail_key {s : Src} (k : K n remote P s) {i : Item} (hi : i ∈ s.items) (h : (s.streamingId (remote i.sig)).isNone = false) :
    i.key ∈ s.avail := by
  rcases (k.key i hi).2 with h1 | h1
  · exact h1.1
  · have := (s.streamingId_isNone (remote i.sig)).mpr h1.1
    rw [h] at this
    cases this

theorem K.navail_key {s : Src} (k : K n remote P s) {i : Item} (hi : i ∈ s.items) (h : (s.streamingId (remote i.sig)).isNone = true) :
    i.key ∉ s.avail := by
  have h0 := (s.streamingId_isNone (remote i.sig)).mp h
  rcases (k.key i hi).2 with h1 | h1
  · exact absurd h1.2 (h0 _ h1.1)
  · intro hm
    exact h0 _ hm (h1.2 ▸ ends_refl _)

theorem K.served_item (D : Dist n remote P) {s : Src} (k : K n remote P s) {i : Item} (hi : i ∈ s.items) :
    served s.log i.key = true ↔ i.key ∈ s.avail ∧ 0 < i.cnt := by
  rw [k.serve]
  constructor
  · rintro ⟨h1, j, hj, hk, hc⟩
    rw [k.uniq_key D hj hi hk] at hc
    exact ⟨h1, hc⟩
  · rintro ⟨h1, h2⟩
    exact ⟨h1, i, hi, rfl, h2⟩

theorem doSubscribe_ok (D : Dist n remote P) {s : Src} (k : K n remote P s) {v : Nat} (hv : v < n) (h : s.has v) :
    ∃ s', s.doSubscribe (remote v) = (s', .ok) ∧ K n remote P s' ∧ Counted s s' v (s.count v + 1) := by
  obtain ⟨i, hi, rfl, hc, hf⟩ := k.find_some D hv h
  have hC := setCnt_counted D k hi (i.cnt + 1)
  have hser := k.served_item D hi
  unfold Src.doSubscribe
  rw [hf]
  simp only []
  by_cases hsk : ((s.streamingId (remote i.sig)).isNone || decide (i.cnt > 0)) = true
  · rw [if_pos hsk]
    refine ⟨_, rfl, ?_, hc ▸ hC⟩
    have := setCnt_K D k hi (i.cnt + 1) (log := s.log) (fun _ => rfl) k.sens (fun a => by
      by_cases h : a = i.key
      · subst h
        rw [if_pos rfl, hser]
        rw [Bool.or_eq_true] at hsk
        rcases hsk with h1 | h1
        · have := k.navail_key hi h1
          simp [this]
        · simp at h1
          simp [h1]
      · rw [if_neg h])
    exact this
  · rw [if_neg hsk, request_ok (show (s.setCnt i.key (i.cnt + 1)).deny = [] from k.deny)]
    refine ⟨_, rfl, ?_, hc ▸ ⟨hC.has, hC.count, rfl, rfl, rfl, rfl⟩⟩
    rw [Bool.or_eq_true, not_or] at hsk
    have hav := k.avail_key hi (Bool.eq_false_iff.mpr hsk.1)
    have h0 : i.cnt = 0 := by have := hsk.2; simp at this; exact this
    have hns : served s.log i.key = false := by
      cases e : served s.log i.key with
      | false => rfl
      | true => have := (hser.mp e).2; omega
    refine setCnt_K D k hi (i.cnt + 1) (log := .subscribe i.key :: s.log) (fun _ => rfl) ⟨(k.offer _).mpr hav, hns, k.sens⟩ ?_
    intro a
    by_cases h : a = i.key
    · subst h; simp [served, hav]
    · simp [served, h]

theorem doUnsubscribe_ok (D : Dist n remote P) {s : Src} (k : K n remote P s) {v : Nat} (hv : v < n) (h : s.has v) (hpos : 0 < s.count v) :
    ∃ s', s.doUnsubscribe (remote v) = (s', .ok) ∧ K n remote P s' ∧ Counted s s' v (s.count v - 1) := by
  obtain ⟨i, hi, rfl, hc, hf⟩ := k.find_some D hv h
  have hC := setCnt_counted D k hi (i.cnt - 1)
  have hser := k.served_item D hi
  unfold Src.doUnsubscribe
  rw [hf]
  simp only []
  rw [if_neg (by simp; omega)]
  by_cases hsk : ((s.streamingId (remote i.sig)).isNone || decide (i.cnt - 1 > 0)) = true
  · rw [if_pos hsk]
    refine ⟨_, rfl, ?_, hc ▸ hC⟩
    have := setCnt_K D k hi (i.cnt - 1) (log := s.log) (fun _ => rfl) k.sens (fun a => by
      by_cases h : a = i.key
      · subst h
        rw [if_pos rfl, hser]
        rw [Bool.or_eq_true] at hsk
        rcases hsk with h1 | h1
        · have := k.navail_key hi h1
          simp [this]
        · simp at h1
          have : 0 < i.cnt := by omega
          simp [h1, this]
      · rw [if_neg h])
    exact this
  · rw [if_neg hsk, request_ok (show (s.setCnt i.key (i.cnt - 1)).deny = [] from k.deny)]
    refine ⟨_, rfl, ?_, hc ▸ ⟨hC.has, hC.count, rfl, rfl, rfl, rfl⟩⟩
    rw [Bool.or_eq_true, not_or] at hsk
    have hav := k.avail_key hi (Bool.eq_false_iff.mpr hsk.1)
    have h0 : i.cnt - 1 = 0 := by have := hsk.2; simp at this; omega
    refine setCnt_K D k hi (i.cnt - 1) (log := .unsubscribe i.key :: s.log) (fun _ => rfl)
      ⟨hser.mpr ⟨hav, by omega⟩, k.sens⟩ ?_
    intro a
    by_cases h : a = i.key
    · subst h; simp [served, h0]
    · simp [served, h]

/-! ## Removing and adding entries -/

theorem erase_items (D : Dist n remote P) {s : Src} (k : K n remote P s) {v : Nat} (hv : v < n) :
    (s.erase (s.key (remote v))).items = s.items.filter fun i => !(i.sig == v) := by
  unfold Src.erase
  exact List.filter_congr fun i hi => by rw [k.key_eq D hv hi]

theorem filter_nodup {l : List Item} {p : Item → Bool} (h : (l.map (·.sig)).Nodup) : ((l.filter p).map (·.sig)).Nodup :=
  h.sublist (List.Sublist.map _ List.filter_sublist)

/-- The entries that remain keep their counts. -/
theorem count_filter {s s' : Src} (k : K n remote P s) {p : Item → Bool} (e : s'.items = s.items.filter p) (u : Nat) :
    s'.count u = if ∃ i ∈ s.items, i.sig = u ∧ p i = true then s.count u else 0 := by
  by_cases h : ∃ i ∈ s.items, i.sig = u ∧ p i = true
  · rw [if_pos h]
    obtain ⟨i, hi, rfl, hp⟩ := h
    rw [k.count_eq hi]
    unfold Src.count
    rw [e, find_sig (filter_nodup k.nodup) (List.mem_filter.mpr ⟨hi, hp⟩)]
    rfl
  · rw [if_neg h]
    refine count_none ?_
    rintro ⟨i, hi, hu⟩
    rw [e] at hi
    exact h ⟨i, (List.mem_filter.mp hi).1, hu, (List.mem_filter.mp hi).2⟩

theorem erase_ok (D : Dist n remote P) {s : Src} (k : K n remote P s) {v : Nat} (hv : v < n) (h0 : s.count v = 0) :
    K n remote P (s.erase (s.key (remote v))) ∧
    (∀ u, (s.erase (s.key (remote v))).has u ↔ s.has u ∧ u ≠ v) ∧
    (∀ u, (s.erase (s.key (remote v))).count u = s.count u) := by
  have e := erase_items D k hv
  have hh : ∀ u, (s.erase (s.key (remote v))).has u ↔ s.has u ∧ u ≠ v := by
    intro u
    unfold Src.has
    rw [e]
    constructor
    · rintro ⟨i, hi, rfl⟩
      have := List.mem_filter.mp hi
      exact ⟨⟨i, this.1, rfl⟩, by simpa using this.2⟩
    · rintro ⟨⟨i, hi, rfl⟩, hne⟩
      exact ⟨i, List.mem_filter.mpr ⟨hi, by simpa using hne⟩, rfl⟩
  refine ⟨⟨?_, ?_, k.avail, k.deny, k.offer, ?_, k.sens⟩, hh, ?_⟩
  · intro i hi
    rw [e] at hi
    exact k.key i (List.mem_filter.mp hi).1
  · rw [e]; exact filter_nodup k.nodup
  · intro a
    show served s.log a = true ↔ a ∈ s.avail ∧ _
    rw [k.serve, e]
    constructor
    · rintro ⟨h1, i, hi, hk, hc⟩
      have : i.sig ≠ v := fun ev => by rw [← ev, k.count_eq hi] at h0; omega
      exact ⟨h1, i, List.mem_filter.mpr ⟨hi, by simpa using this⟩, hk, hc⟩
    · rintro ⟨h1, i, hi, hk, hc⟩
      exact ⟨h1, i, (List.mem_filter.mp hi).1, hk, hc⟩
  · intro u
    by_cases hu : u = v
    · subst hu
      rw [count_none (fun h => ((hh u).mp h).2 rfl), h0]
    · by_cases hs : s.has u
      · rw [count_filter k e, if_pos]
        obtain ⟨i, hi, rfl⟩ := hs
        exact ⟨i, hi, rfl, by simpa using hu⟩
      · rw [count_none (fun h => hs ((hh u).mp h).1), count_none hs]

theorem add_ok (D : Dist n remote P) {s : Src} (k : K n remote P s) {v : Nat} (hv : v < n) (h : ¬ s.has v) :
    K n remote P { s with items := s.items ++ [⟨s.key (remote v), 0, v⟩] } ∧
    (∀ u, ({ s with items := s.items ++ [⟨s.key (remote v), 0, v⟩] } : Src).has u ↔ s.has u ∨ u = v) ∧
    (∀ u, ({ s with items := s.items ++ [⟨s.key (remote v), 0, v⟩] } : Src).count u = s.count u) := by
  have hh : ∀ u, ({ s with items := s.items ++ [⟨s.key (remote v), 0, v⟩] } : Src).has u ↔ s.has u ∨ u = v := by
    intro u
    unfold Src.has
    constructor
    · rintro ⟨i, hi, rfl⟩
      rcases List.mem_append.mp hi with hi | hi
      · exact .inl ⟨i, hi, rfl⟩
      · rw [List.mem_singleton] at hi
        exact .inr (by rw [hi])
    · rintro (⟨i, hi, rfl⟩ | rfl)
      · exact ⟨i, List.mem_append_left _ hi, rfl⟩
      · exact ⟨_, List.mem_append_right _ (List.mem_singleton.mpr rfl), rfl⟩
  refine ⟨⟨?_, ?_, k.avail, k.deny, k.offer, ?_, k.sens⟩, hh, ?_⟩
  · intro i hi
    rcases List.mem_append.mp hi with hi | hi
    · exact k.key i hi
    · rw [List.mem_singleton] at hi
      subst hi
      exact ⟨hv, s.key_isKey _⟩
  · rw [List.map_append, List.nodup_append]
    refine ⟨k.nodup, by simp, ?_⟩
    intro a ha b hb
    simp at hb
    subst hb
    obtain ⟨i, hi, rfl⟩ := List.mem_map.mp ha
    exact fun e => h ⟨i, hi, e⟩
  · intro a
    rw [k.serve]
    constructor
    · rintro ⟨h1, i, hi, hk, hc⟩
      exact ⟨h1, i, List.mem_append_left _ hi, hk, hc⟩
    · rintro ⟨h1, i, hi, hk, hc⟩
      rcases List.mem_append.mp hi with hi | hi
      · exact ⟨h1, i, hi, hk, hc⟩
      · rw [List.mem_singleton] at hi
        subst hi
        exact absurd hc (by simp)
  · intro u
    unfold Src.count
    rw [List.find?_append]
    cases e : s.items.find? fun i => i.sig == u with
    | some i => rfl
    | none =>
      rw [Option.none_or, List.find?_cons]
      by_cases hu : v = u
      · rw [show (v == u) = true by simpa using hu]; rfl
      · rw [show (v == u) = false by simpa using hu]; rfl

/-! ## Changing keys -/

/-- The state is in order except for the messages. -/
structure KK (n : Nat) (remote : Nat → Str) (P : Str → Prop) (avail : List Str) (items : List Item) : Prop where
  key : ∀ i ∈ items, i.sig < n ∧ IsKey avail (remote i.sig) i.key
  nodup : (items.map (·.sig)).Nodup
  avail : ∀ a ∈ avail, P a

theorem K.kk {s : Src} (k : K n remote P s) : KK n remote P s.avail s.items := ⟨k.key, k.nodup, k.avail⟩

theorem KK.uniq_key (D : Dist n remote P) {avail : List Str} {items : List Item} (k : KK n remote P avail items) {i j : Item}
    (hi : i ∈ items) (hj : j ∈ items) (h : i.key = j.key) : i = j := by
  have h1 := D.key_inj k.avail (k.key i hi).1 (k.key j hj).1 (k.key i hi).2 (h ▸ (k.key j hj).2)
  have h2 := find_sig k.nodup hi
  rw [h1, find_sig k.nodup hj] at h2
  exact (Option.some.inj h2).symm

/-- One entry got another key, the others are as before (in another order). -/
structure Rekeyed (items items' : List Item) (i : Item) (k : Str) : Prop where
  mem : ∀ j, j ∈ items' ↔ (j ∈ items ∧ j ≠ i) ∨ j = { i with key := k }
  nodup : (items'.map (·.sig)).Nodup

theorem rekey_ok (D : Dist n remote P) {s : Src} {avail : List Str} (k : KK n remote P avail s.items) {i : Item} (hi : i ∈ s.items) {x : Str}
    (hx : ∀ j ∈ s.items, j ≠ i → j.key ≠ x) : Rekeyed s.items (s.rekey i.key x i).items i x := by
  have e : (s.items.filter fun j => !(j.key == i.key)) = s.items.filter fun j => !(j == i) := by
    refine List.filter_congr fun j hj => ?_
    by_cases h : j = i
    · subst h; simp
    · have : j.key ≠ i.key := fun e => h (k.uniq_key D hj hi e)
      rw [beq_eq_false_iff_ne.mpr this, beq_eq_false_iff_ne.mpr h]
  have hit : (s.rekey i.key x i).items = (s.items.filter fun j => !(j == i)) ++ [{ i with key := x }] := by
    unfold Src.rekey
    simp only []
    rw [e, if_neg]
    rw [List.any_eq_true]
    rintro ⟨j, hj, hk⟩
    have := List.mem_filter.mp hj
    exact hx j this.1 (by simpa using this.2) (by simpa using hk)
  refine ⟨fun j => ?_, ?_⟩
  · rw [hit, List.mem_append, List.mem_singleton, List.mem_filter]
    simp
  · rw [hit, List.map_append, List.nodup_append]
    refine ⟨filter_nodup k.nodup, by simp, ?_⟩
    intro a ha b hb
    simp at hb
    subst hb
    obtain ⟨j, hj, rfl⟩ := List.mem_map.mp ha
    have := List.mem_filter.mp hj
    intro es
    have h2 := find_sig k.nodup hi
    rw [← es, find_sig k.nodup this.1] at h2
    have h3 := this.2
    simp at h3
    exact h3 (Option.some.inj h2)

theorem Rekeyed.has {s s' : Src} {i : Item} {k : Str} (h : Rekeyed s.items s'.items i k) (hi : i ∈ s.items) (u : Nat) :
    s'.has u ↔ s.has u := by
  unfold Src.has
  constructor
  · rintro ⟨j, hj, rfl⟩
    rcases (h.mem j).mp hj with ⟨h1, _⟩ | rfl
    · exact ⟨j, h1, rfl⟩
    · exact ⟨i, hi, rfl⟩
  · rintro ⟨j, hj, rfl⟩
    by_cases e : j = i
    · subst e; exact ⟨_, (h.mem _).mpr (.inr rfl), rfl⟩
    · exact ⟨j, (h.mem _).mpr (.inl ⟨hj, e⟩), rfl⟩

theorem Rekeyed.count {s s' : Src} {i : Item} {k : Str} (h : Rekeyed s.items s'.items i k) (hi : i ∈ s.items)
    (hn : (s.items.map (·.sig)).Nodup) (u : Nat) : s'.count u = s.count u := by
  by_cases hu : s.has u
  · obtain ⟨j, hj, rfl⟩ := hu
    have h1 : s.count j.sig = j.cnt := by unfold Src.count; rw [find_sig hn hj]; rfl
    rw [h1]
    by_cases e : j = i
    · subst e
      unfold Src.count
      have := find_sig h.nodup ((h.mem { j with key := k }).mpr (.inr rfl))
      rw [show (fun i : Item => i.sig == j.sig) = fun i => i.sig == ({ j with key := k } : Item).sig from rfl, this]
      rfl
    · unfold Src.count
      rw [find_sig h.nodup ((h.mem j).mpr (.inl ⟨hj, e⟩))]
      rfl
  · rw [count_none hu, count_none fun h' => hu ((h.has hi u).mp h')]

/-- What is kept when keys change. -/
structure Same (s s' : Src) : Prop where
  has : ∀ u, s'.has u ↔ s.has u
  count : ∀ u, s'.count u = s.count u
  skip : s'.skipDomain = s.skipDomain
  alive : s'.alive = s.alive
  active : s'.active = s.active

theorem Same.refl (s : Src) : Same s s := ⟨fun _ => .rfl, fun _ => rfl, rfl, rfl, rfl⟩

theorem Same.trans {s s' s'' : Src} (h : Same s s') (h' : Same s' s'') : Same s s'' :=
  ⟨fun u => (h'.has u).trans (h.has u), fun u => (h'.count u).trans (h.count u), h'.skip.trans h.skip, h'.alive.trans h.alive,
    h'.active.trans h.active⟩

/-- Taking an id away from those on offer: every entry has the right key for what is left. -/
theorem remapUnavailable_ok (D : Dist n remote P) {s : Src} {avail rest : List Str} {a : Str} (k : KK n remote P avail s.items)
    (ha : a ∈ avail) (hr : ∀ b, b ∈ rest ↔ b ∈ avail ∧ b ≠ a) :
    KK n remote P rest (s.remapUnavailable remote a).items ∧ Same s (s.remapUnavailable remote a) ∧
    (s.remapUnavailable remote a).log = s.log ∧ (s.remapUnavailable remote a).avail = s.avail ∧
    (s.remapUnavailable remote a).deny = s.deny ∧
    (∀ b, b ∈ rest → ((∃ i ∈ (s.remapUnavailable remote a).items, i.key = b ∧ 0 < i.cnt) ↔ ∃ i ∈ s.items, i.key = b ∧ 0 < i.cnt)) := by
  have hPr : ∀ b ∈ rest, P b := fun b hb => k.avail b ((hr b).mp hb).1
  have other : ∀ j ∈ s.items, j.key ≠ a → IsKey rest (remote j.sig) j.key := by
    intro j hj hk
    rcases (k.key j hj).2 with ⟨h1, h2⟩ | ⟨h1, h2⟩
    · exact .inl ⟨(hr _).mpr ⟨h1, hk⟩, h2⟩
    · exact .inr ⟨fun b hb => h1 b ((hr b).mp hb).1, h2⟩
  unfold Src.remapUnavailable
  cases hf : s.find a with
  | none =>
    have hne : ∀ j ∈ s.items, j.key ≠ a := by
      intro j hj e
      exact (List.find?_eq_none.mp hf j hj) (by simpa using e)
    refine ⟨⟨fun i hi => ⟨(k.key i hi).1, other i hi (hne i hi)⟩, k.nodup, hPr⟩, Same.refl s, rfl, rfl, rfl, fun _ _ => .rfl⟩
  | some i =>
    have hi : i ∈ s.items := List.mem_of_find?_eq_some hf
    have hik : i.key = a := by have := List.find?_some (p := fun i : Item => i.key == a) hf; simpa using this
    have hnone : ∀ b ∈ rest, ¬ Ends (remote i.sig) b := by
      intro b hb he
      have hb' := (hr b).mp hb
      have : Ends (remote i.sig) a := by
        rcases (k.key i hi).2 with h1 | h1
        · exact hik ▸ h1.2
        · rw [← hik, h1.2]; exact ends_refl _
      exact hb'.2 (D.one _ _ _ (k.key i hi).1 (k.avail _ hb'.1) (k.avail _ ha) he this)
    simp only []
    by_cases hra : remote i.sig = a
    · rw [if_pos hra]
      refine ⟨⟨fun j hj => ⟨(k.key j hj).1, ?_⟩, k.nodup, hPr⟩, Same.refl s, rfl, rfl, rfl, fun _ _ => .rfl⟩
      by_cases hj' : j.key = a
      · have : j = i := k.uniq_key D hj hi (hj'.trans hik.symm)
        subst this
        exact .inr ⟨hnone, hik.trans hra.symm⟩
      · exact other j hj hj'
    · rw [if_neg hra, ← hik]
      have hx : ∀ j ∈ s.items, j ≠ i → j.key ≠ remote i.sig := by
        intro j hj hji e
        -- the remote id of `i` would be the key of `j`
        rcases (k.key j hj).2 with ⟨h1, h2⟩ | ⟨h1, h2⟩
        · have := D.only j.sig i.sig _ (k.key j hj).1 (k.key i hi).1 (k.avail _ h1) h2 (e ▸ ends_refl _)
          have h3 := find_sig k.nodup hi
          rw [← this, find_sig k.nodup hj] at h3
          exact hji (Option.some.inj h3)
        · have := D.remote j.sig i.sig (k.key j hj).1 (k.key i hi).1 (h2.symm.trans e)
          have h3 := find_sig k.nodup hi
          rw [← this, find_sig k.nodup hj] at h3
          exact hji (Option.some.inj h3)
      have hR := rekey_ok D k hi hx
      refine ⟨⟨?_, hR.nodup, hPr⟩, ⟨hR.has hi, hR.count hi k.nodup, rfl, rfl, rfl⟩, rfl, rfl, rfl, ?_⟩
      · intro j hj
        rcases (hR.mem j).mp hj with ⟨h1, h2⟩ | rfl
        · refine ⟨(k.key j h1).1, other j h1 fun e => h2 (k.uniq_key D h1 hi (e.trans hik.symm))⟩
        · exact ⟨(k.key i hi).1, .inr ⟨hnone, rfl⟩⟩
      · intro b hb
        have hb' := (hr b).mp hb
        constructor
        · rintro ⟨j, hj, hk, hc⟩
          rcases (hR.mem j).mp hj with ⟨h1, h2⟩ | rfl
          · exact ⟨j, h1, hk, hc⟩
          · have hk : remote i.sig = b := hk
            exact absurd (hk ▸ ends_refl (remote i.sig)) (hnone b hb)
        · rintro ⟨j, hj, hk, hc⟩
          have : j ≠ i := fun e => hb'.2 (by rw [← hk, e, hik])
          exact ⟨j, (hR.mem j).mpr (.inl ⟨hj, this⟩), hk, hc⟩

theorem withdraw_ok (D : Dist n remote P) {s : Src} (k : K n remote P s) (a : Str) :
    K n remote P (s.withdraw remote a).1 ∧ Same s (s.withdraw remote a).1 := by
  unfold Src.withdraw
  by_cases h : s.avail.contains a = true
  · rw [if_pos h]
    have ha : a ∈ s.avail := by simpa using h
    let s0 : Src := { s with avail := s.avail.filter fun b => !(b == a), log := .withdrawn a :: s.log }
    have hr : ∀ b, b ∈ s0.avail ↔ b ∈ s.avail ∧ b ≠ a := by intro b; simp [s0, List.mem_filter]
    obtain ⟨h1, h2, h3, h4, h5, h6⟩ := remapUnavailable_ok D (s := s0) (avail := s.avail) (rest := s0.avail) (a := a) k.kk ha hr
    have hS : Same s s0 := ⟨fun _ => .rfl, fun _ => rfl, rfl, rfl, rfl⟩
    show K n remote P (s0.remapUnavailable remote a) ∧ Same s (s0.remapUnavailable remote a)
    refine ⟨⟨h4 ▸ h1.key, h1.nodup, h4 ▸ h1.avail, h5.trans k.deny, ?_, ?_, ?_⟩, hS.trans h2⟩
    · intro b
      rw [h3, h4, hr b, ← k.offer b]
      show (!(b == a) && offered s.log b) = true ↔ _
      simp [and_comm]
    · intro b
      rw [h3, h4]
      show (!(b == a) && served s.log b) = true ↔ _
      by_cases hb : b ∈ s0.avail
      · have := (hr b).mp hb
        rw [h6 b hb]
        show _ ↔ b ∈ s0.avail ∧ ∃ i ∈ s.items, _
        simp only [hb, true_and]
        rw [show (b == a) = false by simpa using this.2]
        simp only [Bool.not_false, Bool.true_and]
        rw [k.serve b]
        simp [this.1]
      · simp only [hb, false_and, iff_false]
        rw [hr b] at hb
        intro hc
        rw [Bool.and_eq_true, k.serve b] at hc
        exact hb ⟨hc.2.1, by simpa using hc.1⟩
    · rw [h3]; exact k.sens
  · rw [if_neg h]
    exact ⟨k, Same.refl s⟩

theorem lost_fold (D : Dist n remote P) : ∀ (l : List Str) (s : Src), l.Nodup → KK n remote P l s.items →
    KK n remote P [] (l.foldl (Src.remapUnavailable remote) s).items ∧ Same s (l.foldl (Src.remapUnavailable remote) s) ∧
    (l.foldl (Src.remapUnavailable remote) s).log = s.log ∧ (l.foldl (Src.remapUnavailable remote) s).deny = s.deny := by
  intro l
  induction l with
  | nil => intro s _ k; exact ⟨k, Same.refl s, rfl, rfl⟩
  | cons a l ih =>
    intro s hn k
    rw [List.nodup_cons] at hn
    obtain ⟨h1, h2, h3, _, h5, _⟩ := remapUnavailable_ok D (s := s) (avail := a :: l) (rest := l) (a := a) k (by simp) (fun b => by
      rw [List.mem_cons]
      constructor
      · intro hb; exact ⟨.inr hb, fun e => hn.1 (e ▸ hb)⟩
      · rintro ⟨rfl | hb, hne⟩
        · exact absurd rfl hne
        · exact hb)
    obtain ⟨g1, g2, g3, g4⟩ := ih _ hn.2 h1
    exact ⟨g1, h2.trans g2, g3.trans h3, g4.trans h5⟩

theorem lost_ok (D : Dist n remote P) {s : Src} (k : K n remote P s) (hn : s.avail.Nodup) :
    K n remote P (s.lost remote) ∧ Same s (s.lost remote) := by
  obtain ⟨h1, h2, h3, h4⟩ := lost_fold D s.avail { s with log := .reset :: s.log } hn k.kk
  unfold Src.lost
  refine ⟨⟨h1.key, h1.nodup, by simp, h4.trans k.deny, ?_, ?_, ?_⟩, ⟨h2.has, h2.count, h2.skip, h2.alive, h2.active⟩⟩
  · intro a; simp only [h3, offered]; simp
  · intro a; simp only [h3, served]; simp
  · show Sensible (List.foldl (Src.remapUnavailable remote) ({ s with log := .reset :: s.log } : Src) s.avail).log
    rw [h3]; exact k.sens

/-! ## An id on offer -/

theorem remapAvailable_ok (D : Dist n remote P) {s : Src} {avail : List Str} {a : Str} (k : KK n remote P avail s.items)
    (ha : a ∉ avail) (hP : P a) :
    KK n remote P (avail ++ [a]) (s.remapAvailable a).items ∧ Same s (s.remapAvailable a) ∧
    (s.remapAvailable a).log = s.log ∧ (s.remapAvailable a).avail = s.avail ∧ (s.remapAvailable a).deny = s.deny ∧
    (∀ b, b ∈ avail → ((∃ i ∈ (s.remapAvailable a).items, i.key = b ∧ 0 < i.cnt) ↔ ∃ i ∈ s.items, i.key = b ∧ 0 < i.cnt)) := by
  have hPa : ∀ b ∈ avail ++ [a], P b := by
    intro b hb
    rcases List.mem_append.mp hb with h | h
    · exact k.avail b h
    · rw [List.mem_singleton] at h; rw [h]; exact hP
  -- an entry whose key ends with `a` is the one of the signal meant, under its remote id
  have hkey : ∀ j ∈ s.items, Ends j.key a → j.key = remote j.sig ∧ ∀ b ∈ avail, ¬ Ends (remote j.sig) b := by
    intro j hj he
    rcases (k.key j hj).2 with ⟨h1, h2⟩ | ⟨h1, h2⟩
    · exact absurd (D.ends _ _ (k.avail _ h1) hP he ▸ h1) ha
    · exact ⟨h2, h1⟩
  have other : ∀ j ∈ s.items, ¬ Ends j.key a → IsKey (avail ++ [a]) (remote j.sig) j.key := by
    intro j hj hne
    rcases (k.key j hj).2 with ⟨h1, h2⟩ | ⟨h1, h2⟩
    · exact .inl ⟨List.mem_append_left _ h1, h2⟩
    · refine .inr ⟨?_, h2⟩
      intro b hb
      rcases List.mem_append.mp hb with h | h
      · exact h1 b h
      · rw [List.mem_singleton] at h; rw [h, ← h2]; exact hne
  have hsame : ∀ i j, i ∈ s.items → j ∈ s.items → Ends i.key a → Ends j.key a → i = j := by
    intro i j hi hj h1 h2
    have := D.only i.sig j.sig a (k.key i hi).1 (k.key j hj).1 hP ((hkey i hi h1).1 ▸ h1) ((hkey j hj h2).1 ▸ h2)
    have h3 := find_sig k.nodup hi
    rw [this, find_sig k.nodup hj] at h3
    exact (Option.some.inj h3).symm
  unfold Src.remapAvailable
  cases hf : s.items.find? fun i => idEndsWith i.key a with
  | none =>
    have hne : ∀ j ∈ s.items, ¬ Ends j.key a := by
      intro j hj e
      exact (List.find?_eq_none.mp hf j hj) ((ends_iff _ _).mpr e)
    exact ⟨⟨fun i hi => ⟨(k.key i hi).1, other i hi (hne i hi)⟩, k.nodup, hPa⟩, Same.refl s, rfl, rfl, rfl, fun _ _ => .rfl⟩
  | some i =>
    have hi : i ∈ s.items := List.mem_of_find?_eq_some hf
    have hie : Ends i.key a := (ends_iff _ _).mp (List.find?_some (p := fun i : Item => idEndsWith i.key a) hf)
    obtain ⟨hir, hin⟩ := hkey i hi hie
    simp only []
    by_cases hia : i.key = a
    · rw [if_pos hia]
      refine ⟨⟨fun j hj => ⟨(k.key j hj).1, ?_⟩, k.nodup, hPa⟩, Same.refl s, rfl, rfl, rfl, fun _ _ => .rfl⟩
      by_cases hj' : Ends j.key a
      · rw [hsame j i hj hi hj' hie]
        exact .inl ⟨by rw [hia]; simp, by rw [← hir]; exact ends_refl _⟩
      · exact other j hj hj'
    · rw [if_neg hia]
      have hx : ∀ j ∈ s.items, j ≠ i → j.key ≠ a := by
        intro j hj hji e
        exact hji (hsame j i hj hi (e ▸ ends_refl _) hie)
      have hR := rekey_ok D k hi hx
      refine ⟨⟨?_, hR.nodup, hPa⟩, ⟨hR.has hi, hR.count hi k.nodup, rfl, rfl, rfl⟩, rfl, rfl, rfl, ?_⟩
      · intro j hj
        rcases (hR.mem j).mp hj with ⟨h1, h2⟩ | rfl
        · exact ⟨(k.key j h1).1, other j h1 fun e => h2 (hsame j i h1 hi e hie)⟩
        · exact ⟨(k.key i hi).1, .inl ⟨by simp, hir ▸ hie⟩⟩
      · intro b hb
        constructor
        · rintro ⟨j, hj, hk, hc⟩
          rcases (hR.mem j).mp hj with ⟨h1, h2⟩ | rfl
          · exact ⟨j, h1, hk, hc⟩
          · have hk : a = b := hk
            exact absurd (hk ▸ hb) ha
        · rintro ⟨j, hj, hk, hc⟩
          have : j ≠ i := by
            rintro rfl
            rw [hir] at hk
            exact hin b hb (hk ▸ ends_refl _)
          exact ⟨j, (hR.mem j).mpr (.inl ⟨hj, this⟩), hk, hc⟩

theorem offer_ok (D : Dist n remote P) {s : Src} (k : K n remote P s) {a : Str} (hP : P a) :
    K n remote P (s.offer a).1 ∧ Same s (s.offer a).1 ∧ (s.avail.Nodup → (s.offer a).1.avail.Nodup) := by
  unfold Src.offer
  by_cases h : s.avail.contains a = true
  · rw [if_pos h]
    exact ⟨k, Same.refl s, fun h => h⟩
  · rw [if_neg h]
    have ha : a ∉ s.avail := by simpa using h
    let s0 : Src := { s with avail := s.avail ++ [a], log := .offered a :: s.log }
    show K n remote P ((s0.remapAvailable a).resubscribe a).1 ∧ Same s ((s0.remapAvailable a).resubscribe a).1 ∧ _
    obtain ⟨h1, h2, h3, h4, h5, h6⟩ := remapAvailable_ok D (s := s0) (avail := s.avail) (a := a) k.kk ha hP
    have hS : Same s s0 := ⟨fun _ => .rfl, fun _ => rfl, rfl, rfl, rfl⟩
    have hnd : s.avail.Nodup → (s.avail ++ [a]).Nodup := by
      intro hn
      rw [List.nodup_append]
      exact ⟨hn, by simp, by intro x hx y hy; simp at hy; subst hy; exact fun e => ha (e ▸ hx)⟩
    have h4 : (s0.remapAvailable a).avail = s.avail ++ [a] := h4
    have h3 : (s0.remapAvailable a).log = .offered a :: s.log := h3
    have h5 : (s0.remapAvailable a).deny = s.deny := h5
    have hno : served s.log a = false := by
      cases e : served s.log a with
      | false => rfl
      | true => exact absurd ((k.serve a).mp e).1 ha
    have hoff : ∀ b, offered (.offered a :: s.log) b = true ↔ b ∈ s.avail ++ [a] := by
      intro b
      show (b == a || offered s.log b) = true ↔ _
      rw [Bool.or_eq_true, k.offer b]
      simp [or_comm]
    generalize s0.remapAvailable a = s1 at h1 h2 h3 h4 h5 h6
    -- before the request, everything is served except the new id
    have hold : ∀ b, b ≠ a → (served s.log b = true ↔ b ∈ s.avail ++ [a] ∧ ∃ i ∈ s1.items, i.key = b ∧ 0 < i.cnt) := by
      intro b hb
      rw [k.serve b]
      constructor
      · rintro ⟨g1, g2⟩; exact ⟨List.mem_append_left _ g1, (h6 b g1).mpr g2⟩
      · rintro ⟨g1, g2⟩
        have g3 : b ∈ s.avail := by
          rcases List.mem_append.mp g1 with g | g
          · exact g
          · rw [List.mem_singleton] at g; exact absurd g hb
        exact ⟨g3, (h6 b g3).mp g2⟩
    have K1 : (¬ ∃ i ∈ s1.items, i.key = a ∧ 0 < i.cnt) → K n remote P s1 := by
      intro hnone
      refine ⟨h4 ▸ h1.key, h1.nodup, h4 ▸ h1.avail, h5.trans k.deny, ?_, ?_, ?_⟩
      · intro b; rw [h3, h4]; exact hoff b
      · intro b
        rw [h3, h4]
        show served s.log b = true ↔ _
        by_cases hb : b = a
        · subst hb
          rw [hno]
          simp only [Bool.false_eq_true, false_iff]
          exact fun h => hnone h.2
        · exact hold b hb
      · rw [h3]; exact k.sens
    unfold Src.resubscribe
    cases hf : s1.find a with
    | none =>
      have hne : ¬ ∃ i ∈ s1.items, i.key = a ∧ 0 < i.cnt := by
        rintro ⟨i, hi, hk, _⟩
        exact (List.find?_eq_none.mp hf i hi) (by simpa using hk)
      exact ⟨K1 hne, hS.trans h2, fun hn => h4 ▸ hnd hn⟩
    | some i =>
      have hi : i ∈ s1.items := List.mem_of_find?_eq_some hf
      have hik : i.key = a := by have := List.find?_some (p := fun i : Item => i.key == a) hf; simpa using this
      simp only []
      by_cases hc : i.cnt > 0
      · rw [if_pos hc, request_ok (h5.trans k.deny)]
        have hS' : Same s1 { s1 with log := .subscribe a :: s1.log } := ⟨fun _ => .rfl, fun _ => rfl, rfl, rfl, rfl⟩
        refine ⟨⟨h4 ▸ h1.key, h1.nodup, h4 ▸ h1.avail, h5.trans k.deny, ?_, ?_, ?_⟩, (hS.trans h2).trans hS', fun hn => h4 ▸ hnd hn⟩
        · intro b
          show offered s1.log b = true ↔ b ∈ s1.avail
          rw [h3, h4]; exact hoff b
        · intro b
          show (b == a || served s1.log b) = true ↔ b ∈ s1.avail ∧ _
          rw [h3, h4]
          show (b == a || served s.log b) = true ↔ _
          by_cases hb : b = a
          · subst hb
            simp only [BEq.rfl, Bool.true_or, true_iff]
            exact ⟨by simp, i, hi, hik, hc⟩
          · rw [show (b == a) = false by simpa using hb, Bool.false_or]
            exact hold b hb
        · show offered s1.log a = true ∧ served s1.log a = false ∧ Sensible s1.log
          rw [h3]
          exact ⟨(hoff a).mpr (by simp), hno, k.sens⟩
      · rw [if_neg hc]
        refine ⟨K1 ?_, hS.trans h2, fun hn => h4 ▸ hnd hn⟩
        rintro ⟨j, hj, hk, hcj⟩
        have : j = i := h1.uniq_key D hj hi (hk.trans hik.symm)
        subst this
        exact hc hcj

end Verif.Mirror
