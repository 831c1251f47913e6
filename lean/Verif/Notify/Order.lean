import Verif.Notify.Flow

/-!
# Events of a call are sent before its reply
-/

namespace Verif.Notify

open Spec

/-- Versions before 20: who raised a waiting event is in the callback. -/
structure Old (st : St) : Prop where
  ver : st.ver < 20
  act : ∀ i ∈ st.queue, ∃ t ∈ st.ths, t.id = i.raiser ∧ t.act ≠ .idle

/-- Versions from 20 on: who raised a waiting event is not about to reply. -/
structure New (st : St) : Prop where
  ver : 20 ≤ st.ver
  old : ∀ t ∈ st.ths, t.base ≠ .old
  done : ∀ i ∈ st.queue, ∀ t ∈ st.ths, t.id = i.raiser → t.base ≠ .done

theorem old_same {st st' : St} (h : Old st) (h1 : st'.ver = st.ver) (h2 : st'.queue = st.queue) (h3 : st'.ths = st.ths) : Old st' :=
  ⟨h1 ▸ h.ver, by rw [h2, h3]; exact h.act⟩

theorem new_same {st st' : St} (h : New st) (h1 : st'.ver = st.ver) (h2 : st'.queue = st.queue) (h3 : st'.ths = st.ths) : New st' :=
  ⟨h1 ▸ h.ver, by rw [h3]; exact h.old, by rw [h2, h3]; exact h.done⟩

theorem old_put {st : St} {t t' : Th} (h : Old st) (hi : (st.ths.map (·.id)).Nodup) (ht : t ∈ st.ths) (e : t'.id = t.id)
    (ha : t.act ≠ .idle → t'.act ≠ .idle) : Old (st.put t') := by
  refine ⟨h.ver, ?_⟩
  intro i hq
  obtain ⟨u, hu, he, hd⟩ := h.act i hq
  by_cases c : u.id = t.id
  · have := th_unique hi hu ht c
    subst this
    exact ⟨t', put_mem ht e, e.trans he, ha hd⟩
  · exact ⟨u, put_other hu (by rw [e]; exact c), he, hd⟩

theorem new_put {st : St} {t t' : Th} (h : New st) (ht : t ∈ st.ths) (e : t'.id = t.id) (ho : t'.base ≠ .old)
    (hd : t'.base = .done → t.base = .done ∨ st.queue = []) : New (st.put t') := by
  refine ⟨h.ver, ?_, ?_⟩
  · intro u hu
    rcases mem_put hu with rfl | ⟨hm, _⟩
    · exact ho
    · exact h.old u hm
  · intro i hq u hu he
    rcases mem_put hu with rfl | ⟨hm, _⟩
    · intro c
      rcases hd c with hb | hb
      · exact h.done i hq t ht (e ▸ he) hb
      · change i ∈ st.queue at hq
        rw [hb] at hq
        cases hq
    · exact h.done i hq u hm he

theorem old_callback {st s0 : St} (h : Old st) (hi : Inv st) {t : Th} (ht : t ∈ st.ths) (e : Ev)
    (h1 : s0.ver = st.ver) (h2 : s0.queue = st.queue) (h3 : s0.ths = st.ths) (h4 : s0.rpcs = st.rpcs) :
    Old (s0.callback t e).1 := by
  have hs : Old s0 := old_same h h1 h2 h3
  have hi' : Inv s0 := inv_same hi h3 h4 h2
  have ht' : t ∈ s0.ths := h3 ▸ ht
  have hne : Act.packed ≠ Act.idle := fun c => nomatch c
  rcases callback_ths s0 t e with e' | e' | ⟨i, he, e'⟩
  · rw [e']; exact hs
  · rw [e']; exact old_put hs hi'.ids ht' (t' := { t with act := .packed }) rfl (fun _ => hne)
  · rw [e']
    have h5 := old_put hs hi'.ids ht' (t' := { t with act := .packed }) rfl (fun _ => hne)
    refine ⟨h5.ver, ?_⟩
    intro j hj
    change j ∈ s0.queue ++ [i] at hj
    rcases List.mem_append.mp hj with hj | hj
    · exact h5.act j hj
    · rw [List.mem_singleton] at hj
      subst hj
      exact ⟨{ t with act := .packed }, put_mem (st := s0) (t' := { t with act := .packed }) ht' rfl, he.symm, hne⟩

theorem new_callback {st s0 : St} (h : New st) (hi : Inv st) {t : Th} (ht : t ∈ st.ths) (hr : t.runs = true) (e : Ev)
    (h1 : s0.ver = st.ver) (h2 : s0.queue = st.queue) (h3 : s0.ths = st.ths) :
    New (s0.callback t e).1 := by
  have hs : New s0 := new_same h h1 h2 h3
  have ht' : t ∈ s0.ths := h3 ▸ ht
  obtain ⟨_, _, hb⟩ := runs_idle hr
  have hp : New (s0.put { t with act := .packed }) :=
    new_put hs ht' rfl (hs.old t ht') (fun c => absurd c hb)
  rcases callback_ths s0 t e with e' | e' | ⟨i, he, e'⟩
  · rw [e']; exact hs
  · rw [e']; exact hp
  · rw [e']
    refine ⟨hp.ver, hp.old, ?_⟩
    intro j hj u hu hue
    change j ∈ s0.queue ++ [i] at hj
    change u ∈ (s0.put { t with act := .packed }).ths at hu
    rcases List.mem_append.mp hj with hj | hj
    · exact hp.done j hj u hu hue
    · rw [List.mem_singleton] at hj
      subst hj
      rcases mem_put hu with rfl | ⟨_, hne⟩
      · exact hb
      · exact absurd (hue.trans he) hne

theorem old_step {st : St} (h : Old st) (hi : Inv st) (op : Op) (hs : Settled [op]) : Old (st.step op).1 := by
  have hno := hs op (List.mem_singleton.mpr rfl)
  have hadd : ∀ t, Old { st with ths := st.ths ++ [t] } := by
    intro t
    refine ⟨h.ver, ?_⟩
    intro i hq
    obtain ⟨u, hu, he⟩ := h.act i hq
    exact ⟨u, List.mem_append_left _ hu, he⟩
  have hleave : ∀ t ∈ st.ths, t.act = .idle → Old (st.leave t.id) := by
    intro t ht ha
    refine ⟨h.ver, ?_⟩
    intro i hq
    obtain ⟨u, hu, he, hd⟩ := h.act i hq
    refine ⟨u, List.mem_filter.mpr ⟨hu, ?_⟩, he, hd⟩
    simp only [decide_eq_true_eq]
    intro c
    exact hd ((th_unique hi.ids hu ht c) ▸ ha)
  have hsend : ∀ s : St, s.queue = [] → s.ver = st.ver → Old s := by
    intro s h1 h2
    exact ⟨h2 ▸ h.ver, by rw [h1]; exact fun _ hq => nomatch hq⟩
  cases op with
  | enter n =>
    unfold St.step
    dsimp only
    split
    · exact h
    · exact hadd _
  | begin n =>
    unfold St.step
    dsimp only
    split
    · exact h
    · unfold St.beginRpc
      rw [if_pos h.ver]
      exact hadd _
  | raise n e =>
    unfold St.step
    dsimp only
    cases ht : st.th? n with
    | none => exact h
    | some t =>
      dsimp only
      split
      · exact old_callback h hi (th?_some ht).1 e rfl rfl rfl rfl
      · exact h
  | check n =>
    unfold St.step
    dsimp only
    cases ht : st.th? n with
    | none => exact h
    | some t =>
      dsimp only
      split
      · unfold St.check
        rw [if_pos (Or.inl h.ver)]
        exact old_put h hi.ids (th?_some ht).1 rfl (fun _ c => nomatch c)
      · exact h
  | send n =>
    unfold St.step
    dsimp only
    cases ht : st.th? n with
    | none => exact h
    | some t =>
      obtain ⟨_, _, f3, f4, _⟩ := sendOut_fields st
      dsimp only
      unfold St.send
      split
      · exact hsend _ f3 f4
      · split
        · exact hsend _ f3 f4
        · exact h
  | finish n =>
    unfold St.step
    dsimp only
    cases ht : st.th? n with
    | none => exact h
    | some t =>
      obtain ⟨hm, _⟩ := th?_some ht
      dsimp only
      unfold St.finish
      split
      · rename_i ha
        split
        · exact old_put (st := { st with rpcs := st.rpcs - 1 }) (t := t) ⟨h.ver, h.act⟩ hi.ids hm rfl (fun c => c)
        · exact old_put h hi.ids hm rfl (fun c => c)
        · exact hleave t hm ha
        · exact h
      · exact h
  | reply n =>
    unfold St.step
    dsimp only
    cases ht : st.th? n with
    | none => exact h
    | some t =>
      obtain ⟨hm, he⟩ := th?_some ht
      dsimp only
      split
      · rename_i hb
        exact he ▸ hleave t hm (hi.quiet t hm (Or.inr hb))
      · exact h
  | upgrade v => exact absurd hno (fun c => c)
  | addExt n num s =>
    unfold St.step
    dsimp only
    cases ht : st.th? n with
    | none => exact h
    | some t =>
      obtain ⟨hm, _⟩ := th?_some ht
      dsimp only
      split
      · unfold St.addExt
        split
        · exact h
        · dsimp only
          split
          · exact old_same h rfl rfl rfl
          · exact old_same (old_callback (s0 := { st with own := if s ∈ st.own then st.own else st.own ++ [s], folder := st.folder ++ [s] })
              h hi hm (extAdded s) rfl rfl rfl rfl) rfl rfl rfl
      · exact h
  | removeExt n num =>
    unfold St.step
    dsimp only
    cases ht : st.th? n with
    | none => exact h
    | some t =>
      obtain ⟨hm, _⟩ := th?_some ht
      dsimp only
      split
      · unfold St.removeExt
        split
        · exact h
        · rename_i s _
          exact old_same (old_callback (s0 := { st with mine := st.mine.filter (fun p => p.1 ≠ num), folder := st.folder.filter (· ≠ s) })
            h hi hm (extGone s) rfl rfl rfl rfl) rfl rfl rfl
      · exact h
  | foreign n s =>
    unfold St.step
    dsimp only
    cases ht : st.th? n with
    | none => exact h
    | some t =>
      obtain ⟨hm, _⟩ := th?_some ht
      dsimp only
      split
      · refine old_callback h hi hm _ ?_ ?_ ?_ ?_ <;> rfl
      · exact h
  | foreignGone n s =>
    unfold St.step
    dsimp only
    cases ht : st.th? n with
    | none => exact h
    | some t =>
      obtain ⟨hm, _⟩ := th?_some ht
      dsimp only
      split
      · refine old_callback h hi hm _ ?_ ?_ ?_ ?_ <;> rfl
      · exact h

theorem new_step {st : St} (h : New st) (hi : Inv st) (op : Op) (hs : Settled [op]) : New (st.step op).1 := by
  have hno := hs op (List.mem_singleton.mpr rfl)
  have hadd : ∀ (s : St) (t : Th), s.ths = st.ths ++ [t] → s.ver = st.ver → s.queue = st.queue → t.base ≠ .old → t.base ≠ .done →
      New s := by
    intro s t h1 h2 h3 ho hd
    refine ⟨h2 ▸ h.ver, ?_, ?_⟩
    · rw [h1]
      intro u hu
      rcases List.mem_append.mp hu with hu | hu
      · exact h.old u hu
      · rw [List.mem_singleton] at hu
        rw [hu]
        exact ho
    · rw [h1, h3]
      intro i hq u hu he
      rcases List.mem_append.mp hu with hu | hu
      · exact h.done i hq u hu he
      · rw [List.mem_singleton] at hu
        rw [hu]
        exact hd
  have hleave : ∀ n, New (st.leave n) := fun n =>
    ⟨h.ver, fun u hu => h.old u (List.mem_filter.mp hu).1, fun i hq u hu => h.done i hq u (List.mem_filter.mp hu).1⟩
  cases op with
  | enter n =>
    unfold St.step
    dsimp only
    split
    · exact h
    · exact hadd _ ⟨n, .free, .idle⟩ rfl rfl rfl (fun c => nomatch c) (fun c => nomatch c)
  | begin n =>
    unfold St.step
    dsimp only
    split
    · exact h
    · unfold St.beginRpc
      rw [if_neg (Nat.not_lt.mpr h.ver)]
      exact hadd _ ⟨n, .rpc, .idle⟩ rfl rfl rfl (fun c => nomatch c) (fun c => nomatch c)
  | raise n e =>
    unfold St.step
    dsimp only
    cases ht : st.th? n with
    | none => exact h
    | some t =>
      dsimp only
      split
      · exact new_callback h hi (th?_some ht).1 ‹_› e rfl rfl rfl
      · exact h
  | check n =>
    unfold St.step
    dsimp only
    cases ht : st.th? n with
    | none => exact h
    | some t =>
      dsimp only
      split
      · unfold St.check
        have hm := (th?_some ht).1
        split
        · exact new_put h hm rfl (h.old t hm) Or.inl
        · exact new_put h hm rfl (h.old t hm) Or.inl
      · exact h
  | send n =>
    unfold St.step
    dsimp only
    cases ht : st.th? n with
    | none => exact h
    | some t =>
      have hm := (th?_some ht).1
      obtain ⟨f1, _, f3, f4, _⟩ := sendOut_fields st
      have hs' : New st.sendOut.1 := ⟨f4 ▸ h.ver, f1 ▸ h.old, by rw [f3]; exact fun _ hq => nomatch hq⟩
      dsimp only
      unfold St.send
      split
      · exact new_put hs' (t := t) (f1 ▸ hm) rfl (h.old t hm) Or.inl
      · split
        · exact new_put hs' (t := t) (t' := { t with base := .done }) (f1 ▸ hm) rfl (fun c => nomatch c) (fun _ => Or.inr f3)
        · exact h
  | finish n =>
    unfold St.step
    dsimp only
    cases ht : st.th? n with
    | none => exact h
    | some t =>
      obtain ⟨hm, _⟩ := th?_some ht
      dsimp only
      unfold St.finish
      split
      · split
        · exact new_put (st := { st with rpcs := st.rpcs - 1 }) (t := t) (t' := { t with base := .ending }) ⟨h.ver, h.old, h.done⟩ hm rfl
            (fun c => nomatch c) (fun c => nomatch c)
        · rename_i hb
          exact absurd hb (h.old t hm)
        · exact hleave _
        · exact h
      · exact h
  | reply n =>
    unfold St.step
    dsimp only
    cases ht : st.th? n with
    | none => exact h
    | some t =>
      obtain ⟨hm, he⟩ := th?_some ht
      dsimp only
      split
      · exact hleave _
      · exact h
  | upgrade v => exact absurd hno (fun c => c)
  | addExt n num s =>
    unfold St.step
    dsimp only
    cases ht : st.th? n with
    | none => exact h
    | some t =>
      obtain ⟨hm, _⟩ := th?_some ht
      dsimp only
      split
      · unfold St.addExt
        split
        · exact h
        · dsimp only
          split
          · exact new_same h rfl rfl rfl
          · exact new_same (new_callback (s0 := { st with own := if s ∈ st.own then st.own else st.own ++ [s], folder := st.folder ++ [s] })
              h hi hm ‹_› (extAdded s) rfl rfl rfl) rfl rfl rfl
      · exact h
  | removeExt n num =>
    unfold St.step
    dsimp only
    cases ht : st.th? n with
    | none => exact h
    | some t =>
      obtain ⟨hm, _⟩ := th?_some ht
      dsimp only
      split
      · unfold St.removeExt
        split
        · exact h
        · rename_i s _
          exact new_same (new_callback (s0 := { st with mine := st.mine.filter (fun p => p.1 ≠ num), folder := st.folder.filter (· ≠ s) })
            h hi hm ‹_› (extGone s) rfl rfl rfl) rfl rfl rfl
      · exact h
  | foreign n s =>
    unfold St.step
    dsimp only
    cases ht : st.th? n with
    | none => exact h
    | some t =>
      obtain ⟨hm, _⟩ := th?_some ht
      dsimp only
      split
      · rename_i c
        refine new_callback h hi hm c.1 _ ?_ ?_ ?_ <;> rfl
      · exact h
  | foreignGone n s =>
    unfold St.step
    dsimp only
    cases ht : st.th? n with
    | none => exact h
    | some t =>
      obtain ⟨hm, _⟩ := th?_some ht
      dsimp only
      split
      · rename_i c
        refine new_callback h hi hm c.1 _ ?_ ?_ ?_ <;> rfl
      · exact h

end Verif.Notify
