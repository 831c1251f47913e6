import Verif.Sessions.Spec
import Mathlib.Data.List.Nodup

/-!
# The list of connected clients: it can always be added to and removed from
-/

namespace Verif.Sessions

theorem lookup_mem {α β : Type} [BEq α] [LawfulBEq α] {l : List (α × β)} {k : α} {v : β}
    (h : l.lookup k = some v) : (k, v) ∈ l := by
  induction l with
  | nil => simp at h
  | cons a t ih =>
    obtain ⟨a1, a2⟩ := a
    by_cases e : k = a1
    · subst e
      simp at h
      simp [h]
    · have e' : (k == a1) = false := by simpa using e
      simp only [List.lookup_cons, e'] at h
      exact List.mem_cons_of_mem _ (ih h)

theorem lookup_none {α β : Type} [BEq α] [LawfulBEq α] {l : List (α × β)} {k : α} :
    l.lookup k = none ↔ k ∉ l.map (·.1) := by
  induction l with
  | nil => simp
  | cons a t ih =>
    obtain ⟨a1, a2⟩ := a
    by_cases e : k = a1
    · subst e
      simp
    · have e' : (k == a1) = false := by simpa using e
      simp only [List.lookup_cons, e', ih, List.map_cons, List.mem_cons, e, false_or]

theorem lookup_of_mem {α β : Type} [BEq α] [LawfulBEq α] {l : List (α × β)} {k : α} {v : β}
    (hn : (l.map (·.1)).Nodup) (h : (k, v) ∈ l) : l.lookup k = some v := by
  induction l with
  | nil => simp at h
  | cons a t ih =>
    obtain ⟨a1, a2⟩ := a
    simp only [List.map_cons, List.nodup_cons] at hn
    rcases List.mem_cons.1 h with h' | h'
    · cases h'
      simp
    · have : k ≠ a1 := by
        rintro rfl
        exact hn.1 (List.mem_map.2 ⟨(k, v), h', rfl⟩)
      have e' : (k == a1) = false := by simpa using this
      simp only [List.lookup_cons, e']
      exact ih hn.2 h'

/-- Two entries of a list with distinct images are equal if their images are. -/
theorem inj_of {α β : Type} {f : α → β} {l : List α} (hn : (l.map f).Nodup) {x y : α} (hx : x ∈ l) (hy : y ∈ l)
    (h : f x = f y) : x = y := List.inj_on_of_nodup_map hn hx hy h

/-- The registry of connected clients is consistent. -/
structure Reg (reg gone : List (Cid × Nat)) (total : Nat) (info : List (Nat × Info)) : Prop where
  keys : (reg.map (·.1)).Nodup
  nums : (reg.map (·.2)).Nodup
  sub : ∀ x ∈ reg, x.2 ∈ info.map (·.1)
  inodup : (info.map (·.1)).Nodup
  gkeys : (gone.map (·.1)).Nodup
  gnums : (gone.map (·.2)).Nodup
  gsep : ∀ x ∈ gone, x.2 ∉ info.map (·.1)
  ile : ∀ n ∈ info.map (·.1), 0 < n ∧ n ≤ total
  gle : ∀ x ∈ gone, 0 < x.2 ∧ x.2 ≤ total

theorem Reg.nil : Reg [] [] 0 [] := ⟨by simp, by simp, by simp, by simp, by simp, by simp, by simp, by simp, by simp⟩

/-- The number a client gets. -/
def St.number (st : St) (c : Cid) : Nat := (st.gone.lookup c).getD (st.total + 1)

/-- The registry after a client connected. -/
structure Joined (st t : St) (c : Cid) (service : Option Kind) (host : Nat) : Prop where
  max : t.max = st.max
  payloadMax : t.payloadMax = st.payloadMax
  threshold : t.threshold = st.threshold
  next : t.next = st.next
  sess : t.sess = st.sess
  cfg : t.cfg = st.cfg
  ctl : t.ctl = st.ctl
  exc : t.exc = st.exc
  streams : t.streams = st.streams
  ok : Reg t.reg t.gone t.total t.info
  fresh : st.number c ∉ st.info.map (·.1)
  info : t.info = st.info ++ [(st.number c, ⟨service, host, (st.gone.lookup c).isSome⟩)]
  reg : t.reg = if c ∈ st.reg.map (·.1) then st.reg else st.reg ++ [(c, st.number c)]

theorem join_ok {st : St} (h : Reg st.reg st.gone st.total st.info) (c : Cid) (service : Option Kind) (host : Nat) :
    (st.join c service host).2 = true ∧ Joined st (st.join c service host).1 c service host := by
  have hg : ∀ x ∈ st.gone.filter (fun x => x.1 != c), x ∈ st.gone := fun x hx => (List.mem_filter.1 hx).1
  have hgk : ((st.gone.filter (fun x => x.1 != c)).map (·.1)).Nodup :=
    h.gkeys.sublist (List.filter_sublist.map _)
  have hgn : ((st.gone.filter (fun x => x.1 != c)).map (·.2)).Nodup :=
    h.gnums.sublist (List.filter_sublist.map _)
  have hreg : (if (st.reg.lookup c).isSome then st.reg else st.reg ++ [(c, st.number c)]) =
      if c ∈ st.reg.map (·.1) then st.reg else st.reg ++ [(c, st.number c)] := by
    by_cases e : c ∈ st.reg.map (·.1)
    · have : (st.reg.lookup c).isSome = true := by
        cases e2 : st.reg.lookup c with
        | none => exact absurd e (lookup_none.1 e2)
        | some v => rfl
      rw [if_pos this, if_pos e]
    · have : ¬ (st.reg.lookup c).isSome = true := by
        rw [lookup_none.2 e]
        simp
      rw [if_neg this, if_neg e]
  have key : ∀ (total : Nat), st.number c ∉ st.info.map (·.1) → st.total ≤ total → 0 < st.number c → st.number c ≤ total →
      (∀ x ∈ st.gone.filter (fun x => x.1 != c), x.2 ≠ st.number c) →
      Reg (if c ∈ st.reg.map (·.1) then st.reg else st.reg ++ [(c, st.number c)])
        (st.gone.filter (fun x => x.1 != c)) total
        (st.info ++ [(st.number c, ⟨service, host, (st.gone.lookup c).isSome⟩)]) := by
    intro total hf ht h0 hle hd
    generalize st.number c = n at *
    refine ⟨?_, ?_, ?_, ?_, hgk, hgn, ?_, ?_, ?_⟩
    · split
      · exact h.keys
      · rename_i e
        rw [List.map_append]
        exact List.nodup_append.2 ⟨h.keys, by simp, by rintro a ha b hb rfl; simp at hb; subst hb; exact e ha⟩
    · split
      · exact h.nums
      · rw [List.map_append]
        refine List.nodup_append.2 ⟨h.nums, by simp, ?_⟩
        rintro a ha b hb rfl
        simp at hb
        subst hb
        obtain ⟨x, hx, hxe⟩ := List.mem_map.1 ha
        exact hf (hxe ▸ h.sub x hx)
    · intro x hx
      rw [List.map_append]
      by_cases e : c ∈ st.reg.map (·.1)
      · rw [if_pos e] at hx
        exact List.mem_append_left _ (h.sub x hx)
      · rw [if_neg e] at hx
        rcases List.mem_append.1 hx with hx | hx
        · exact List.mem_append_left _ (h.sub x hx)
        · simp at hx
          subst hx
          simp
    · rw [List.map_append]
      exact List.nodup_append.2 ⟨h.inodup, by simp, by rintro a ha b hb rfl; simp at hb; subst hb; exact hf ha⟩
    · intro x hx hm
      rw [List.map_append] at hm
      rcases List.mem_append.1 hm with hm | hm
      · exact h.gsep x (hg x hx) hm
      · simp at hm
        exact hd x hx hm
    · intro m hm
      rw [List.map_append] at hm
      rcases List.mem_append.1 hm with hm | hm
      · have := h.ile m hm
        omega
      · simp at hm
        omega
    · intro x hx
      have := h.gle x (hg x hx)
      omega
  unfold St.join
  cases e : st.gone.lookup c with
  | none =>
    have hn : st.number c = st.total + 1 := by unfold St.number; rw [e]; rfl
    have hf : st.number c ∉ st.info.map (·.1) := by
      rw [hn]
      intro hm
      have := h.ile _ hm
      omega
    have hk := key (st.total + 1) hf (by omega) (by omega) (by omega)
      (fun x hx => by have := h.gle x (hg x hx); omega)
    simp only [Option.getD_none, true_or, if_true]
    rw [← hn, if_neg hf]
    refine ⟨rfl, ⟨rfl, rfl, rfl, rfl, rfl, rfl, rfl, rfl, rfl, ?_, hf, by rw [e], hreg⟩⟩
    rw [e] at hk
    simp only [hreg]
    rw [hn]
    rw [hn] at hk
    exact hk
  | some m =>
    have hm := lookup_mem e
    have hn : st.number c = m := by unfold St.number; rw [e]; rfl
    have hl := h.gle _ hm
    have hnf : ¬ (m = 0 ∨ st.total < m) := by simp only at hl; omega
    have hf : st.number c ∉ st.info.map (·.1) := by
      rw [hn]
      exact h.gsep _ hm
    have hk := key st.total hf (by omega) (by rw [hn]; exact hl.1) (by rw [hn]; exact hl.2) (by
      rw [hn]
      intro x hx hxm
      have hxc : x = (c, m) := inj_of h.gnums (hg x hx) hm hxm
      rw [hxc] at hx
      simp at hx)
    simp only [Option.getD_some, hnf, if_false]
    rw [hn] at hf hreg
    rw [if_neg hf]
    refine ⟨rfl, ⟨rfl, rfl, rfl, rfl, rfl, rfl, rfl, rfl, rfl, ?_, by rw [hn]; exact hf, by rw [e, hn], by rw [hn]; exact hreg⟩⟩
    rw [e, hn] at hk
    simp only [hreg]
    exact hk

/-- The registry after a client left. -/
structure Left (st t : St) (c : Cid) : Prop where
  max : t.max = st.max
  payloadMax : t.payloadMax = st.payloadMax
  threshold : t.threshold = st.threshold
  next : t.next = st.next
  sess : t.sess = st.sess
  cfg : t.cfg = st.cfg
  ctl : t.ctl = st.ctl
  exc : t.exc = st.exc
  streams : t.streams = st.streams
  ok : Reg t.reg t.gone t.total t.info
  reg : t.reg = st.reg.filter (fun x => x.1 != c)
  info : t.info = st.info.filter (fun x => decide ((c, x.1) ∉ st.reg))

theorem leave_ok {st : St} (h : Reg st.reg st.gone st.total st.info) (c : Cid) :
    (st.leave c).2 = true ∧ Left st (st.leave c).1 c := by
  unfold St.leave
  cases e : st.reg.lookup c with
  | none =>
    have hc := lookup_none.1 e
    refine ⟨rfl, rfl, rfl, rfl, rfl, rfl, rfl, rfl, rfl, rfl, h, ?_, ?_⟩
    · refine (List.filter_eq_self.2 ?_).symm
      intro x hx
      have : x.1 ≠ c := fun e => hc (e ▸ List.mem_map.2 ⟨x, hx, rfl⟩)
      simpa using this
    · refine (List.filter_eq_self.2 ?_).symm
      intro x _
      have : (c, x.1) ∉ st.reg := fun hm => hc (List.mem_map.2 ⟨_, hm, rfl⟩)
      simpa using this
  | some n =>
    have hm := lookup_mem e
    have hn : n ∈ st.info.map (·.1) := h.sub _ hm
    simp only [hn, if_true, true_and]
    have hi : ∀ x ∈ st.info.filter (fun x => x.1 != n), x ∈ st.info := fun x hx => (List.mem_filter.1 hx).1
    have hisub : ∀ k ∈ (st.info.filter (fun x => x.1 != n)).map (·.1), k ∈ st.info.map (·.1) ∧ k ≠ n := by
      intro k hk
      obtain ⟨x, hx, rfl⟩ := List.mem_map.1 hk
      exact ⟨List.mem_map.2 ⟨x, hi x hx, rfl⟩, by simpa using (List.mem_filter.1 hx).2⟩
    refine ⟨rfl, rfl, rfl, rfl, rfl, rfl, rfl, rfl, rfl, ?_, rfl, ?_⟩
    · refine ⟨h.keys.sublist (List.filter_sublist.map _), h.nums.sublist (List.filter_sublist.map _), ?_,
        h.inodup.sublist (List.filter_sublist.map _), ?_, ?_, ?_, ?_, ?_⟩
      · intro x hx
        obtain ⟨hx, hxc⟩ := List.mem_filter.1 hx
        obtain ⟨y, hy, hyx⟩ := List.mem_map.1 (h.sub x hx)
        refine List.mem_map.2 ⟨y, List.mem_filter.2 ⟨hy, ?_⟩, hyx⟩
        have : y.1 ≠ n := by
          intro e2
          have : x = (c, n) := inj_of h.nums hx hm (by rw [← hyx, e2])
          rw [this] at hxc
          simp at hxc
        simpa using this
      · simp only
        split
        · exact h.gkeys
        · rename_i e2
          have e3 : st.gone.lookup c = none := by
            cases e4 : st.gone.lookup c with
            | none => rfl
            | some v => rw [e4] at e2; exact absurd rfl e2
          rw [List.map_append]
          refine List.nodup_append.2 ⟨h.gkeys, by simp, ?_⟩
          rintro a ha b hb rfl
          simp at hb
          subst hb
          exact lookup_none.1 e3 ha
      · simp only
        split
        · exact h.gnums
        · rw [List.map_append]
          refine List.nodup_append.2 ⟨h.gnums, by simp, ?_⟩
          rintro a ha b hb rfl
          simp at hb
          subst hb
          obtain ⟨x, hx, rfl⟩ := List.mem_map.1 ha
          exact h.gsep x hx hn
      · intro x hx hk
        obtain ⟨hk1, hk2⟩ := hisub _ hk
        simp only at hx
        split at hx
        · exact h.gsep x hx hk1
        · rcases List.mem_append.1 hx with hx | hx
          · exact h.gsep x hx hk1
          · simp at hx
            rw [hx] at hk2
            exact hk2 rfl
      · intro k hk
        exact h.ile k (hisub k hk).1
      · intro x hx
        simp only at hx
        split at hx
        · exact h.gle x hx
        · rcases List.mem_append.1 hx with hx | hx
          · exact h.gle x hx
          · simp at hx
            rw [hx]
            exact h.ile n hn
    · refine List.filter_congr ?_
      intro x hx
      by_cases e2 : x.1 = n
      · rw [e2]
        simp [hm]
      · have : (c, x.1) ∉ st.reg := fun hm2 => e2 (by
          have := inj_of h.keys hm hm2 rfl
          exact (Prod.mk.inj this).2.symm)
        simp [e2, this]

end Verif.Sessions
