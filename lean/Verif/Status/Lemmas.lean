import Verif.Status.Spec
import Verif.Mgr.PropsIds
import Mathlib.Data.List.Nodup
/-!
# The invariant of the container
-/
namespace Verif.Status
open Spec

theorem find_some {d : AList Text α} {n : Text} {v : α} : ∀ {l : AList Text Text}, find l d n = some v →
    ∃ c, (c, n) ∈ l ∧ AList.get d c = some v
  | [], h => nomatch h
  | e :: l, h => by
    unfold find at h
    by_cases hn : e.2 = n
    · rw [if_pos hn] at h
      cases hd : AList.get d e.1 with
      | some w =>
        rw [hd] at h; injection h with h
        exact ⟨e.1, by rw [← hn]; exact List.mem_cons_self, by rw [hd, h]⟩
      | none =>
        rw [hd] at h
        obtain ⟨c, hc, hv⟩ := find_some h
        exact ⟨c, List.mem_cons_of_mem _ hc, hv⟩
    · rw [if_neg hn] at h
      obtain ⟨c, hc, hv⟩ := find_some h
      exact ⟨c, List.mem_cons_of_mem _ hc, hv⟩

theorem find_of_mem {d : AList Text α} {n c : Text} {v : α} (hv : AList.get d c = some v) :
    ∀ {l : AList Text Text}, (c, n) ∈ l → (∀ c', (c', n) ∈ l → c' = c) → find l d n = some v
  | [], h, _ => nomatch h
  | e :: l, h, hu => by
    unfold find
    by_cases hn : e.2 = n
    · have : e.1 = c := hu e.1 (by rw [← hn]; exact List.mem_cons_self)
      rw [if_pos hn, this, hv]
    · rw [if_neg hn]
      have : (c, n) ∈ l := by
        rcases List.mem_cons.mp h with h | h
        · exact absurd (by rw [← h]) hn
        · exact h
      exact find_of_mem hv this (fun c' hc' => hu c' (List.mem_cons_of_mem _ hc'))

theorem collect_get {d : AList Text Val} {n : Text} : ∀ {l : AList Text Text} {acc : AList Text Val},
    (∀ c c', (c, n) ∈ l → (c', n) ∈ l → c = c') →
    AList.get (collect d l acc) n = (find l d n).or (AList.get acc n)
  | [], acc, _ => rfl
  | e :: l, acc, hu => by
    have ih : ∀ acc, AList.get (collect d l acc) n = (find l d n).or (AList.get acc n) := fun acc =>
      collect_get (fun c c' h h' => hu c c' (List.mem_cons_of_mem _ h) (List.mem_cons_of_mem _ h'))
    unfold collect find
    by_cases hn : e.2 = n
    · rw [if_pos hn]
      cases hd : AList.get d e.1 with
      | none => exact ih acc
      | some v =>
        dsimp only
        rw [ih, AList.get_put, if_pos hn.symm]
        cases hf : find l d n with
        | none => rfl
        | some w =>
          obtain ⟨c, hc, hw⟩ := find_some hf
          have : c = e.1 := hu c e.1 (List.mem_cons_of_mem _ hc) (by rw [← hn]; exact List.mem_cons_self)
          rw [this, hd] at hw
          rw [hw]; rfl
    · rw [if_neg hn]
      cases hd : AList.get d e.1 with
      | none => exact ih acc
      | some v =>
        dsimp only
        rw [ih, AList.get_put, if_neg (fun h => hn h.symm)]

theorem get_of_mem {m : AList Text α} {k : Text} {v : α} (hn : (m.map (·.1)).Nodup) (h : (k, v) ∈ m) :
    AList.get m k = some v := by
  induction m with
  | nil => cases h
  | cons e m ih =>
    obtain ⟨a, b⟩ := e
    rw [AList.get_cons]
    rw [List.map_cons, List.nodup_cons] at hn
    rcases List.mem_cons.mp h with h1 | h1
    · injection h1 with h1 h2; rw [if_pos h1, h2]
    · rw [if_neg, ih hn.2 h1]
      intro e; subst e
      exact hn.1 (List.mem_map.mpr ⟨_, h1, rfl⟩)

theorem nodup_del {m : AList Text α} (k : Text) (h : (m.map (·.1)).Nodup) :
    ((AList.del m k).map (·.1)).Nodup := by
  unfold AList.del
  exact h.sublist (List.Sublist.map _ List.filter_sublist)

theorem nodup_put {m : AList Text α} (k : Text) (v : α) (h : (m.map (·.1)).Nodup) :
    ((AList.put m k v).map (·.1)).Nodup := by
  unfold AList.put
  rw [List.map_cons, List.nodup_cons]
  refine ⟨?_, nodup_del k h⟩
  intro hk
  obtain ⟨e, he, hek⟩ := List.mem_map.mp hk
  unfold AList.del at he
  have := (List.mem_filter.mp he).2
  simp [hek] at this

/-- A name that a streaming got. -/
def Numbered (count : Nat) (n : Text) : Prop :=
  ∃ a k, n = a ++ '_' :: Mgr.digits k ∧ k ≤ count

theorem digits_inj {a b : Nat} (h : Mgr.digits a = Mgr.digits b) : a = b := by
  have ha : Mgr.value (Mgr.digits a) = a := (Mgr.digits_spec a).1
  have hb : Mgr.value (Mgr.digits b) = b := (Mgr.digits_spec b).1
  rw [← ha, ← hb, h]

theorem streamName_shape (types : List (Text × Text)) (conn : Text) (n : Nat) :
    ∃ a, streamName types conn n = a ++ '_' :: Mgr.digits n := by
  unfold streamName
  cases types.find? (fun t => t.2.isPrefixOf conn) with
  | none => exact ⟨_, rfl⟩
  | some t =>
    dsimp only
    exact ⟨"StreamingStatus".toList ++ '_' :: t.1, by simp⟩

theorem afterLast_name {a : Text} {k : Nat} : Mgr.afterLast (a ++ '_' :: Mgr.digits k) = some (Mgr.digits k) :=
  Mgr.afterLast_append (Mgr.no_underscore k) a

theorem config_not_numbered {a : Text} {k : Nat} : configName ≠ a ++ '_' :: Mgr.digits k := by
  intro h
  have h1 := congrArg Mgr.afterLast h
  rw [afterLast_name] at h1
  have h2 : Mgr.afterLast configName = none := by decide +kernel
  rw [h2] at h1
  cases h1

/-- What is always true of a container. -/
structure Inv (s : Box) : Prop where
  nodup : (s.names.map (·.1)).Nodup
  statuses : ∀ c, AList.has s.statuses c = AList.has s.names c
  messages : ∀ c, AList.has s.messages c = AList.has s.names c
  inj : ∀ c c' n, AList.get s.names c = some n → AList.get s.names c' = some n → c = c'
  named : ∀ c n, AList.get s.names c = some n → (n = configName ∧ s.added = true) ∨ Numbered s.count n

theorem inv_init : Inv .init := by
  constructor <;> intros <;> first | rfl | (rename_i h; cases h) | exact List.nodup_nil | skip
  all_goals (rename_i h h'; cases h)

theorem has_put {m : AList Text α} (k : Text) (v : α) (c : Text) :
    AList.has (AList.put m k v) c = (decide (c = k) || AList.has m c) := by
  unfold AList.has
  rw [AList.get_put]
  by_cases h : c = k <;> simp [h]

theorem has_del {m : AList Text α} (k : Text) (c : Text) :
    AList.has (AList.del m k) c = (!decide (c = k) && AList.has m c) := by
  unfold AList.has
  rw [AList.get_del]
  by_cases h : c = k <;> simp [h]

theorem Inv.addConfig {s : Box} (h : Inv s) (conn : Text) (v : Val) : Inv (s.addConfig conn v).1 := by
  unfold Box.addConfig
  split
  · exact h
  · split
    · exact h
    · rename_i h1 h2
      have hadd : s.added ≠ true := fun e => h2 (Or.inl e)
      have hfree : ∀ c, AList.get s.names c ≠ some configName := by
        intro c hc
        rcases h.named c _ hc with ⟨_, e⟩ | ⟨a, k, e, _⟩
        · exact hadd e
        · exact config_not_numbered e
      constructor
      · exact nodup_put _ _ h.nodup
      · intro c; change AList.has (AList.put _ _ _) c = AList.has (AList.put _ _ _) c
        rw [has_put, has_put, h.statuses]
      · intro c; change AList.has (AList.put _ _ _) c = AList.has (AList.put _ _ _) c
        rw [has_put, has_put, h.messages]
      · intro c c' n hc hc'
        change AList.get (AList.put _ _ _) c = _ at hc
        change AList.get (AList.put _ _ _) c' = _ at hc'
        rw [AList.get_put] at hc hc'
        by_cases e : c = conn <;> by_cases e' : c' = conn
        · rw [e, e']
        · rw [if_pos e] at hc; rw [if_neg e'] at hc'
          injection hc with hc; rw [← hc] at hc'
          exact absurd hc' (hfree c')
        · rw [if_neg e] at hc; rw [if_pos e'] at hc'
          injection hc' with hc'; rw [← hc'] at hc
          exact absurd hc (hfree c)
        · rw [if_neg e] at hc; rw [if_neg e'] at hc'
          exact h.inj c c' n hc hc'
      · intro c n hc
        change AList.get (AList.put _ _ _) c = _ at hc
        rw [AList.get_put] at hc
        by_cases e : c = conn
        · rw [if_pos e] at hc; injection hc with hc
          exact .inl ⟨hc.symm, rfl⟩
        · rw [if_neg e] at hc
          rcases h.named c n hc with ⟨e1, _⟩ | e1
          · exact .inl ⟨e1, rfl⟩
          · exact .inr e1

theorem Inv.addStreaming {s : Box} (h : Inv s) (types : List (Text × Text)) (conn : Text) (v : Val)
    (obj : Option Nat) : Inv (s.addStreaming types conn v obj).1 := by
  unfold Box.addStreaming
  split
  · exact h
  · split
    · exact h
    · obtain ⟨a, ha⟩ := streamName_shape types conn (s.count + 1)
      have hfree : ∀ c, AList.get s.names c ≠ some (streamName types conn (s.count + 1)) := by
        intro c hc
        rcases h.named c _ hc with ⟨e, _⟩ | ⟨a', k, e, hk⟩
        · rw [ha] at e; exact config_not_numbered e.symm
        · rw [ha] at e
          have := congrArg Mgr.afterLast e
          rw [afterLast_name, afterLast_name] at this
          injection this with this
          have := digits_inj this
          omega
      constructor
      · exact nodup_put _ _ h.nodup
      · intro c; change AList.has (AList.put _ _ _) c = AList.has (AList.put _ _ _) c
        rw [has_put, has_put, h.statuses]
      · intro c; change AList.has (AList.put _ _ _) c = AList.has (AList.put _ _ _) c
        rw [has_put, has_put, h.messages]
      · intro c c' n hc hc'
        change AList.get (AList.put _ _ _) c = _ at hc
        change AList.get (AList.put _ _ _) c' = _ at hc'
        rw [AList.get_put] at hc hc'
        by_cases e : c = conn <;> by_cases e' : c' = conn
        · rw [e, e']
        · rw [if_pos e] at hc; rw [if_neg e'] at hc'
          injection hc with hc; rw [← hc] at hc'
          exact absurd hc' (hfree c')
        · rw [if_neg e] at hc; rw [if_pos e'] at hc'
          injection hc' with hc'; rw [← hc'] at hc
          exact absurd hc (hfree c)
        · rw [if_neg e] at hc; rw [if_neg e'] at hc'
          exact h.inj c c' n hc hc'
      · intro c n hc
        change AList.get (AList.put _ _ _) c = _ at hc
        rw [AList.get_put] at hc
        by_cases e : c = conn
        · rw [if_pos e] at hc; injection hc with hc
          exact .inr ⟨a, _, by rw [← hc, ha], Nat.le_refl _⟩
        · rw [if_neg e] at hc
          rcases h.named c n hc with e1 | ⟨b, k, e1, hk⟩
          · exact .inl e1
          · exact .inr ⟨b, k, e1, Nat.le_succ_of_le hk⟩

theorem Inv.remove {s : Box} (h : Inv s) (conn : Text) : Inv (s.remove conn).1 := by
  unfold Box.remove
  split
  · constructor
    · exact nodup_del _ h.nodup
    · intro c; change AList.has (AList.del _ _) c = AList.has (AList.del _ _) c
      rw [has_del, has_del, h.statuses]
    · intro c; change AList.has (AList.del _ _) c = AList.has (AList.del _ _) c
      rw [has_del, has_del, h.messages]
    · intro c c' n hc hc'
      change AList.get (AList.del _ _) c = _ at hc
      change AList.get (AList.del _ _) c' = _ at hc'
      rw [AList.get_del] at hc hc'
      by_cases e : c = conn
      · rw [if_pos e] at hc; cases hc
      · by_cases e' : c' = conn
        · rw [if_pos e'] at hc'; cases hc'
        · rw [if_neg e] at hc; rw [if_neg e'] at hc'
          exact h.inj c c' n hc hc'
    · intro c n hc
      change AList.get (AList.del _ _) c = _ at hc
      rw [AList.get_del] at hc
      by_cases e : c = conn
      · rw [if_pos e] at hc; cases hc
      · rw [if_neg e] at hc; exact h.named c n hc
  · exact h

theorem has_of_get {m : AList Text α} {k : Text} {v : α} (h : AList.get m k = some v) : AList.has m k = true := by
  unfold AList.has; rw [h]; rfl

theorem Inv.update {s : Box} (h : Inv s) (conn : Text) (v : Val) (obj : Option Nat) (msg : Text) :
    Inv (s.update conn v obj msg).1 := by
  unfold Box.update
  split
  · exact h
  · split
    · rename_i old oldMsg hs hm
      split
      · exact h
      · split
        · exact h
        · constructor
          · exact h.nodup
          · intro c; change AList.has (AList.put _ _ _) c = AList.has s.names c
            rw [has_put, ← h.statuses]
            by_cases e : c = conn
            · rw [e, has_of_get hs]; simp
            · simp [e]
          · intro c; change AList.has (AList.put _ _ _) c = AList.has s.names c
            rw [has_put, ← h.messages]
            by_cases e : c = conn
            · rw [e, has_of_get hm]; simp
            · simp [e]
          · exact h.inj
          · exact h.named
    · exact h

theorem Inv.step {s : Box} (h : Inv s) : ∀ op : Op, Inv (s.step op).1
  | .addConfig conn v => h.addConfig conn v
  | .addStreaming types conn v obj => h.addStreaming types conn v obj
  | .remove conn => h.remove conn
  | .update conn v obj msg => h.update conn v obj msg

theorem Inv.run : ∀ {s : Box} (_ : Inv s) (ops : List Op), Inv (s.run ops).1
  | _, h, [] => h
  | _, h, op :: ops => (h.step op).run ops

/-- What a name stands for. -/
theorem Inv.find {s : Box} (h : Inv s) {d : AList Text α} {c n : Text} (hc : AList.get s.names c = some n) :
    find s.names d n = AList.get d c := by
  have hu : ∀ c', (c', n) ∈ s.names → c' = c := fun c' hc' =>
    h.inj c' c n (get_of_mem h.nodup hc') hc
  cases hd : AList.get d c with
  | some v => exact find_of_mem hd (AList.mem_of_get hc) hu
  | none =>
    cases hf : Status.find s.names d n with
    | none => rfl
    | some v =>
      obtain ⟨c', hc', hv⟩ := find_some hf
      rw [hu c' hc', hd] at hv; cases hv

theorem Inv.find_none {s : Box} (h : Inv s) {d : AList Text α} {n : Text}
    (hn : ∀ c, AList.get s.names c ≠ some n) : Status.find s.names d n = none := by
  cases hf : Status.find s.names d n with
  | none => rfl
  | some v =>
    obtain ⟨c', hc', _⟩ := find_some hf
    exact absurd (get_of_mem h.nodup hc') (hn c')

theorem Inv.nonempty {s : Box} (h : Inv s) {c n : Text} (hc : AList.get s.names c = some n) : n ≠ [] := by
  intro e; subst e
  rcases h.named c _ hc with ⟨e, _⟩ | ⟨a, k, e, _⟩
  · exact absurd e (by decide)
  · simp at e

/-- Reading by name is reading by connection string. -/
theorem Inv.getStatus {s : Box} (h : Inv s) {c n : Text} (hc : AList.get s.names c = some n) :
    s.getStatus n = AList.get s.statuses c := by
  unfold Box.getStatus
  rw [if_neg (h.nonempty hc), h.find hc]

theorem Inv.getMessage {s : Box} (h : Inv s) {c n : Text} (hc : AList.get s.names c = some n) :
    s.getMessage n = AList.get s.messages c := by
  unfold Box.getMessage
  rw [if_neg (h.nonempty hc), h.find hc]

theorem Inv.getStatus_none {s : Box} (h : Inv s) {n : Text} (hn : ∀ c, AList.get s.names c ≠ some n) :
    s.getStatus n = none := by
  unfold Box.getStatus
  split
  · rfl
  · exact h.find_none hn

theorem Inv.getMessage_none {s : Box} (h : Inv s) {n : Text} (hn : ∀ c, AList.get s.names c ≠ some n) :
    s.getMessage n = none := by
  unfold Box.getMessage
  split
  · rfl
  · exact h.find_none hn

end Verif.Status
