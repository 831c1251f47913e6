import Verif.Notify.Spec

/-!
# Threads and the counter of calls

In every history: thread ids are distinct, the counter is the number of calls under way, and if events
are waiting there is a thread that will send them.
-/

namespace Verif.Notify

open Spec

/-- 1 if a thread serves a counted call. -/
def one (t : Th) : Nat := if t.base = .rpc then 1 else 0

/-- Number of counted calls. -/
def calls (l : List Th) : Nat := (l.map one).sum

/-- A thread that will send what is waiting, or ends a call that does. -/
def Th.due (t : Th) : Prop := t.act ≠ .idle ∨ t.base = .rpc ∨ t.base = .ending

structure Inv (st : St) : Prop where
  ids : (st.ths.map (·.id)).Nodup
  cnt : st.rpcs = calls st.ths
  quiet : ∀ t ∈ st.ths, t.base = .ending ∨ t.base = .done → t.act = .idle
  live : st.queue ≠ [] → ∃ t ∈ st.ths, t.due

theorem th?_some {st : St} {n : Nat} {t : Th} (h : st.th? n = some t) : t ∈ st.ths ∧ t.id = n := by
  have h1 := List.mem_of_find?_eq_some h
  have h2 := List.find?_some h
  exact ⟨h1, by simpa using h2⟩

theorem th?_none {st : St} {n : Nat} (h : st.th? n = none) : n ∉ st.ths.map (·.id) := by
  intro hm
  obtain ⟨t, ht, e⟩ := List.mem_map.mp hm
  have := List.find?_eq_none.mp h t ht
  simp [e] at this

theorem mem_put {st : St} {t' u : Th} (h : u ∈ (st.put t').ths) : u = t' ∨ (u ∈ st.ths ∧ u.id ≠ t'.id) := by
  obtain ⟨w, hw, e⟩ := List.mem_map.mp h
  by_cases c : w.id = t'.id
  · rw [if_pos c] at e
    exact Or.inl e.symm
  · rw [if_neg c] at e
    exact Or.inr ⟨e ▸ hw, e ▸ c⟩

theorem put_mem {st : St} {t t' : Th} (ht : t ∈ st.ths) (e : t'.id = t.id) : t' ∈ (st.put t').ths :=
  List.mem_map.mpr ⟨t, ht, if_pos e.symm⟩

theorem put_other {st : St} {t' u : Th} (hu : u ∈ st.ths) (e : u.id ≠ t'.id) : u ∈ (st.put t').ths :=
  List.mem_map.mpr ⟨u, hu, if_neg e⟩

theorem put_ids (st : St) (t' : Th) : (st.put t').ths.map (·.id) = st.ths.map (·.id) := by
  change (st.ths.map _).map _ = _
  rw [List.map_map]
  apply List.map_congr_left
  intro u _
  change (if u.id = t'.id then t' else u).id = u.id
  by_cases c : u.id = t'.id
  · rw [if_pos c, c]
  · rw [if_neg c]

theorem calls_map_other {l : List Th} {t' : Th} (h : t'.id ∉ l.map (·.id)) :
    calls (l.map (fun u => if u.id = t'.id then t' else u)) = calls l := by
  induction l with
  | nil => rfl
  | cons a l ih =>
    rw [List.map_cons, List.mem_cons, not_or] at h
    have e := ih h.2
    unfold calls at e ⊢
    simp only [List.map_cons, List.sum_cons, e]
    rw [if_neg (fun c => h.1 c.symm)]

theorem calls_map {l : List Th} {t t' : Th} (hn : (l.map (·.id)).Nodup) (ht : t ∈ l) (e : t'.id = t.id) :
    calls (l.map (fun u => if u.id = t'.id then t' else u)) + one t = calls l + one t' := by
  induction l with
  | nil => cases ht
  | cons a l ih =>
    rw [List.map_cons, List.nodup_cons] at hn
    rcases List.mem_cons.mp ht with rfl | hm
    · have h' := calls_map_other (l := l) (t' := t') (e ▸ hn.1)
      unfold calls at h' ⊢
      simp only [List.map_cons, List.sum_cons, h']
      rw [if_pos e.symm]
      omega
    · have hne : a.id ≠ t'.id := by
        intro c
        apply hn.1
        rw [c, e]
        exact List.mem_map.mpr ⟨t, hm, rfl⟩
      have h' := ih hn.2 hm
      unfold calls at h' ⊢
      simp only [List.map_cons, List.sum_cons]
      rw [if_neg hne]
      omega

theorem calls_pos {l : List Th} (h : calls l ≠ 0) : ∃ t ∈ l, t.base = .rpc := by
  induction l with
  | nil => exact absurd rfl h
  | cons a l ih =>
    by_cases c : a.base = .rpc
    · exact ⟨a, List.mem_cons_self, c⟩
    · have : calls l ≠ 0 := by
        unfold calls at h ⊢
        rw [List.map_cons, List.sum_cons, one, if_neg c] at h
        omega
      obtain ⟨t, ht, e⟩ := ih this
      exact ⟨t, List.mem_cons_of_mem _ ht, e⟩

theorem calls_filter_other {l : List Th} {n : Nat} (h : n ∉ l.map (·.id)) :
    l.filter (fun t => t.id ≠ n) = l := by
  apply List.filter_eq_self.mpr
  intro u hu
  simp only [decide_eq_true_eq]
  intro c
  exact h (c ▸ List.mem_map.mpr ⟨u, hu, rfl⟩)

theorem calls_filter {l : List Th} {t : Th} (hn : (l.map (·.id)).Nodup) (ht : t ∈ l) :
    calls (l.filter (fun u => u.id ≠ t.id)) + one t = calls l := by
  induction l with
  | nil => cases ht
  | cons a l ih =>
    rw [List.map_cons, List.nodup_cons] at hn
    rcases List.mem_cons.mp ht with rfl | hm
    · rw [List.filter_cons_of_neg (by simp), calls_filter_other hn.1]
      unfold calls
      rw [List.map_cons, List.sum_cons]
      omega
    · have hne : a.id ≠ t.id := by
        intro c
        apply hn.1
        rw [c]
        exact List.mem_map.mpr ⟨t, hm, rfl⟩
      rw [List.filter_cons_of_pos (by simpa using hne)]
      have h' := ih hn.2 hm
      unfold calls at h' ⊢
      simp only [List.map_cons, List.sum_cons]
      omega

theorem th_unique {l : List Th} (hn : (l.map (·.id)).Nodup) {u t : Th} (hu : u ∈ l) (ht : t ∈ l) (c : u.id = t.id) : u = t := by
  induction l with
  | nil => cases hu
  | cons a l ih =>
    rw [List.map_cons, List.nodup_cons] at hn
    rcases List.mem_cons.mp hu with rfl | hu'
    · rcases List.mem_cons.mp ht with rfl | ht'
      · rfl
      · exact absurd (c ▸ List.mem_map.mpr ⟨t, ht', rfl⟩) hn.1
    · rcases List.mem_cons.mp ht with rfl | ht'
      · exact absurd (c ▸ List.mem_map.mpr ⟨u, hu', rfl⟩) hn.1
      · exact ih hn.2 hu' ht'

/-- A thread goes on. -/
theorem inv_put {st st' : St} (h : Inv st) {t t' : Th} (ht : t ∈ st.ths) (e : t'.id = t.id)
    (hths : st'.ths = (st.put t').ths) (hr : st'.rpcs + one t = st.rpcs + one t')
    (hq : t'.base = .ending ∨ t'.base = .done → t'.act = .idle)
    (hl : st'.queue ≠ [] → t'.due ∨ (st.queue ≠ [] ∧ (t.due → t'.due)) ∨ ∃ u ∈ st.ths, u.id ≠ t'.id ∧ u.due) : Inv st' where
  ids := by rw [hths, put_ids]; exact h.ids
  cnt := by
    have h' : calls (st.put t').ths + one t = calls st.ths + one t' := calls_map h.ids ht e
    rw [hths]
    have := h.cnt
    omega
  quiet := by
    rw [hths]
    intro u hu hb
    rcases mem_put hu with rfl | ⟨hm, _⟩
    · exact hq hb
    · exact h.quiet u hm hb
  live := by
    intro hne
    rw [hths]
    rcases hl hne with hd | ⟨hq', hd⟩ | ⟨u, hu, hne', hd⟩
    · exact ⟨t', put_mem ht e, hd⟩
    · obtain ⟨u, hu, hd'⟩ := h.live hq'
      by_cases c : u.id = t.id
      · have : u = t := th_unique h.ids hu ht c
        exact ⟨t', put_mem ht e, hd (this ▸ hd')⟩
      · exact ⟨u, put_other hu (by rw [e]; exact c), hd'⟩
    · exact ⟨u, put_other hu hne', hd⟩

/-- A thread comes in. -/
theorem inv_add {st st' : St} (h : Inv st) {t : Th} (hn : t.id ∉ st.ths.map (·.id)) (hths : st'.ths = st.ths ++ [t])
    (hr : st'.rpcs = st.rpcs + one t) (hq : t.act = .idle) (hl : st'.queue = st.queue) : Inv st' where
  ids := by
    rw [hths, List.map_append, List.nodup_append]
    refine ⟨h.ids, by simp, ?_⟩
    intro a ha b hb
    rw [List.map_singleton, List.mem_singleton] at hb
    rintro rfl
    exact hn (hb ▸ ha)
  cnt := by
    rw [hths, hr, h.cnt]
    unfold calls
    simp
  quiet := by
    rw [hths]
    intro u hu hb
    rcases List.mem_append.mp hu with hu | hu
    · exact h.quiet u hu hb
    · rw [List.mem_singleton] at hu
      rw [hu, hq]
  live := by
    rw [hl, hths]
    intro hne
    obtain ⟨u, hu, hd⟩ := h.live hne
    exact ⟨u, List.mem_append_left _ hu, hd⟩

/-- A thread that has nothing to send leaves. -/
theorem inv_leave {st : St} (h : Inv st) {t : Th} (ht : t ∈ st.ths) (hd : ¬ t.due) : Inv (st.leave t.id) where
  ids := (List.Sublist.map _ List.filter_sublist).nodup h.ids
  cnt := by
    have h1 := calls_filter h.ids ht
    have h2 : one t = 0 := if_neg (fun c => hd (Or.inr (Or.inl c)))
    have h3 := h.cnt
    change st.rpcs = calls (st.ths.filter _)
    omega
  quiet := fun u hu => h.quiet u (List.mem_filter.mp hu).1
  live := by
    intro hne
    obtain ⟨u, hu, hd'⟩ := h.live hne
    refine ⟨u, List.mem_filter.mpr ⟨hu, ?_⟩, hd'⟩
    simp only [decide_eq_true_eq]
    intro c
    have hinj : u = t := th_unique h.ids hu ht c
    exact hd (hinj ▸ hd')

/-- Only the fields named matter. -/
theorem inv_same {st st' : St} (h : Inv st) (h1 : st'.ths = st.ths) (h2 : st'.rpcs = st.rpcs) (h3 : st'.queue = st.queue) :
    Inv st' := by
  obtain ⟨a, b, c, d⟩ := h
  exact ⟨by rw [h1]; exact a, by rw [h1, h2]; exact b, by rw [h1]; exact c, by rw [h1, h3]; exact d⟩

theorem callback_ths (st : St) (t : Th) (e : Ev) :
    ((st.callback t e).1 = st ∨ (st.callback t e).1 = st.put { t with act := .packed } ∨
      ∃ i, i.raiser = t.id ∧ (st.callback t e).1 = (st.push i).put { t with act := .packed }) := by
  unfold St.callback
  split
  · split
    · exact Or.inr (Or.inr ⟨_, rfl, rfl⟩)
    · exact Or.inr (Or.inl rfl)
    · exact Or.inl rfl
  · exact Or.inl rfl

theorem runs_idle {t : Th} (h : t.runs = true) : t.act = .idle ∧ t.base ≠ .ending ∧ t.base ≠ .done := by
  cases t with
  | mk i b a => cases a <;> cases b <;> simp [Th.runs] at h ⊢

theorem inv_callback {st : St} (h : Inv st) {t : Th} (ht : t ∈ st.ths) (hr : t.runs = true) (e : Ev) :
    Inv (st.callback t e).1 := by
  obtain ⟨h1, h2, h3⟩ := runs_idle hr
  have hq : ∀ b : Th, b.base = t.base → b.base = .ending ∨ b.base = .done → b.act = .idle := by
    intro b hb hc
    rw [hb] at hc
    rcases hc with hc | hc
    · exact absurd hc h2
    · exact absurd hc h3
  have hd : ({ t with act := .packed } : Th).due := Or.inl (by intro c; cases c)
  rcases callback_ths st t e with e' | e' | ⟨i, _, e'⟩
  · rw [e']; exact h
  · rw [e']
    exact inv_put h ht (t' := { t with act := .packed }) rfl rfl rfl (hq _ rfl) (fun _ => Or.inl hd)
  · rw [e']
    exact inv_put h ht (t' := { t with act := .packed }) rfl rfl rfl (hq _ rfl) (fun _ => Or.inl hd)

theorem sendOut_fields (st : St) : st.sendOut.1.ths = st.ths ∧ st.sendOut.1.rpcs = st.rpcs ∧ st.sendOut.1.queue = [] ∧
    st.sendOut.1.ver = st.ver ∧ st.sendOut.1.own = st.own ∧ st.sendOut.1.mine = st.mine ∧ st.sendOut.1.folder = st.folder := by
  unfold St.sendOut
  cases hq : st.queue with
  | nil => exact ⟨rfl, rfl, hq, rfl, rfl, rfl, rfl⟩
  | cons a l => exact ⟨rfl, rfl, rfl, rfl, rfl, rfl, rfl⟩

theorem inv_send {st : St} (h : Inv st) {t : Th} (ht : t ∈ st.ths) : Inv (st.send t).1 := by
  obtain ⟨f1, f2, f3, _⟩ := sendOut_fields st
  unfold St.send
  split
  · rename_i c
    refine inv_put h ht (t' := { t with act := .idle }) rfl ?_ ?_ (fun _ => rfl) ?_
    · change (st.sendOut.1.ths.map _) = st.ths.map _
      rw [f1]
    · change st.sendOut.1.rpcs + one t = st.rpcs + one t
      rw [f2]
    · intro hne
      exact absurd f3 hne
  · rename_i c
    split
    · rename_i cb
      refine inv_put h ht (t' := { t with base := .done }) rfl ?_ ?_ (fun _ => h.quiet t ht (Or.inl cb)) ?_
      · change (st.sendOut.1.ths.map _) = st.ths.map _
        rw [f1]
      · change st.sendOut.1.rpcs + one t = st.rpcs + 0
        rw [f2, one, cb]
        rfl
      · intro hne
        exact absurd f3 hne
    · exact h

theorem inv_check {st : St} (h : Inv st) {t : Th} (ht : t ∈ st.ths) (hp : t.act = .packed) : Inv (st.check t) := by
  unfold St.check
  split
  · refine inv_put h ht (t' := { t with act := .sending }) rfl rfl rfl ?_ ?_
    · intro hb
      have := h.quiet t ht hb
      rw [hp] at this
      cases this
    · exact fun _ => Or.inl (Or.inl (by intro c; cases c))
  · rename_i c
    rw [not_or] at c
    refine inv_put h ht (t' := { t with act := .idle }) rfl rfl rfl (fun _ => rfl) ?_
    intro _
    obtain ⟨u, hu, hb⟩ := calls_pos (l := st.ths) (h.cnt ▸ c.2)
    by_cases e : u.id = t.id
    · have : u = t := th_unique h.ids hu ht e
      exact Or.inl (Or.inr (Or.inl (this ▸ hb)))
    · exact Or.inr (Or.inr ⟨u, hu, e, Or.inr (Or.inl hb)⟩)

theorem inv_finish {st : St} (h : Inv st) {t : Th} (ht : t ∈ st.ths) : Inv (st.finish t) := by
  unfold St.finish
  split
  · rename_i hi
    split
    · rename_i hb
      have h1 : 0 < st.rpcs := by
        rw [h.cnt]
        have := calls_filter h.ids ht
        rw [one, if_pos hb] at this
        omega
      refine inv_put h ht (t' := { t with base := .ending }) rfl rfl ?_ (fun _ => hi) ?_
      · change st.rpcs - 1 + one t = st.rpcs + 0
        rw [one, if_pos hb]
        omega
      · exact fun _ => Or.inl (Or.inr (Or.inr rfl))
    · rename_i hb
      refine inv_put h ht (t' := { t with base := .done }) rfl rfl ?_ (fun _ => hi) ?_
      · change st.rpcs + one t = st.rpcs + 0
        rw [one, hb]
        rfl
      · intro hne
        refine Or.inr (Or.inl ⟨hne, ?_⟩)
        rintro (c | c | c)
        · exact absurd hi c
        · rw [hb] at c; cases c
        · rw [hb] at c; cases c
    · rename_i hb
      refine inv_leave h ht ?_
      rintro (c | c | c)
      · exact absurd hi c
      · rw [hb] at c; cases c
      · rw [hb] at c; cases c
    · exact h
  · exact h

theorem inv_cb {st s0 : St} (h : Inv st) (h1 : s0.ths = st.ths) (h2 : s0.rpcs = st.rpcs) (h3 : s0.queue = st.queue)
    {t : Th} (ht : t ∈ st.ths) (hr : t.runs = true) (e : Ev) : Inv (s0.callback t e).1 :=
  inv_callback (inv_same h h1 h2 h3) (h1 ▸ ht) hr e

theorem inv_step {st : St} (h : Inv st) (op : Op) : Inv (st.step op).1 := by
  cases op with
  | enter n =>
    unfold St.step
    dsimp only
    split
    · exact h
    · rename_i c
      have hn : st.th? n = none := by
        cases e : st.th? n with
        | none => rfl
        | some t => rw [e] at c; exact absurd rfl c
      exact inv_add h (t := ⟨n, .free, .idle⟩) (th?_none hn) rfl rfl rfl rfl
  | begin n =>
    unfold St.step
    dsimp only
    split
    · exact h
    · rename_i c
      have hn : st.th? n = none := by
        cases e : st.th? n with
        | none => rfl
        | some t => rw [e] at c; exact absurd rfl c
      unfold St.beginRpc
      split
      · exact inv_add h (t := ⟨n, .old, .idle⟩) (th?_none hn) rfl rfl rfl rfl
      · exact inv_add h (t := ⟨n, .rpc, .idle⟩) (th?_none hn) rfl rfl rfl rfl
  | raise n e =>
    unfold St.step
    dsimp only
    cases ht : st.th? n with
    | none => exact h
    | some t =>
      obtain ⟨hm, _⟩ := th?_some ht
      dsimp only
      split
      · exact inv_callback h hm ‹_› e
      · exact h
  | check n =>
    unfold St.step
    dsimp only
    cases ht : st.th? n with
    | none => exact h
    | some t =>
      obtain ⟨hm, _⟩ := th?_some ht
      dsimp only
      split
      · exact inv_check h hm ‹_›
      · exact h
  | send n =>
    unfold St.step
    dsimp only
    cases ht : st.th? n with
    | none => exact h
    | some t => exact inv_send h (th?_some ht).1
  | finish n =>
    unfold St.step
    dsimp only
    cases ht : st.th? n with
    | none => exact h
    | some t => exact inv_finish h (th?_some ht).1
  | reply n =>
    unfold St.step
    dsimp only
    cases ht : st.th? n with
    | none => exact h
    | some t =>
      obtain ⟨hm, he⟩ := th?_some ht
      dsimp only
      split
      · rename_i hb
        refine he ▸ inv_leave h hm ?_
        rintro (c | c | c)
        · exact absurd (h.quiet t hm (Or.inr hb)) c
        · rw [hb] at c; cases c
        · rw [hb] at c; cases c
      · exact h
  | upgrade v => exact inv_same h rfl rfl rfl
  | addExt n num s =>
    unfold St.step
    dsimp only
    cases ht : st.th? n with
    | none => exact h
    | some t =>
      obtain ⟨hm, _⟩ := th?_some ht
      dsimp only
      split
      · unfold St.addExt
        split
        · exact h
        · dsimp only
          split
          · exact inv_same h rfl rfl rfl
          · exact inv_same (inv_cb (s0 := { st with own := if s ∈ st.own then st.own else st.own ++ [s], folder := st.folder ++ [s] })
              h rfl rfl rfl hm ‹_› (extAdded s)) rfl rfl rfl
      · exact h
  | removeExt n num =>
    unfold St.step
    dsimp only
    cases ht : st.th? n with
    | none => exact h
    | some t =>
      obtain ⟨hm, _⟩ := th?_some ht
      dsimp only
      split
      · unfold St.removeExt
        split
        · exact h
        · rename_i s _
          exact inv_same (inv_cb (s0 := { st with mine := st.mine.filter (fun p => p.1 ≠ num), folder := st.folder.filter (· ≠ s) })
            h rfl rfl rfl hm ‹_› (extGone s)) rfl rfl rfl
      · exact h
  | foreign n s =>
    unfold St.step
    dsimp only
    cases ht : st.th? n with
    | none => exact h
    | some t =>
      obtain ⟨hm, _⟩ := th?_some ht
      dsimp only
      split
      · rename_i c
        refine inv_cb (st := st) h ?_ ?_ ?_ hm c.1 _ <;> rfl
      · exact h
  | foreignGone n s =>
    unfold St.step
    dsimp only
    cases ht : st.th? n with
    | none => exact h
    | some t =>
      obtain ⟨hm, _⟩ := th?_some ht
      dsimp only
      split
      · rename_i c
        refine inv_cb (st := st) h ?_ ?_ ?_ hm c.1 _ <;> rfl
      · exact h

theorem inv_run {st : St} (h : Inv st) (ops : List Op) : Inv (st.run ops).1 := by
  induction ops generalizing st with
  | nil => exact h
  | cons op l ih => exact ih (inv_step h op)

theorem inv_init (v : Nat) : Inv { ver := v } :=
  ⟨List.nodup_nil, rfl, (fun _ h => nomatch h), fun h => absurd rfl h⟩

end Verif.Notify
