import Verif.Event.Spec

/-!
# Events and their subscribers: properties
-/

namespace Verif.Event.Props

open Spec

/-! ## C94: an event calls its subscribers -/

/-- The subscriptions of an event. -/
def subs (s : St) : Subs := ⟨s.handlers.map (fun e => ⟨e.id, e.muted⟩), s.muted, s.frozen⟩

/-- Run a call to its end, given enough steps. -/
def call (E : Env) (s : St) (op : Op) (k : Nat) : St := steps E (begin_ E s op).1 k

theorem steps_idle (E : Env) (s : St) (h : s.stack = []) (k : Nat) : steps E s k = s := by
  induction k with
  | zero => rfl
  | succ k ih => simp only [steps]; rw [show step E s = s by simp [step, h]]; exact ih

theorem steps_add (E : Env) (s : St) (a b : Nat) : steps E s (a + b) = steps E (steps E s a) b := by
  induction a generalizing s with
  | zero => simp [steps]
  | succ a ih => rw [Nat.succ_add]; simp only [steps]; exact ih _

theorem find_remove (E : Env) (key : Nat → Nat) (hk : ∀ a b, E.hash a = E.hash b ↔ key a = key b) (h : Nat)
    (l : List Entry) : (l.eraseIdx (find E (E.hash h) l)).map (fun e => (⟨e.id, e.muted⟩ : Sub)) =
      remove key h (l.map fun e => ⟨e.id, e.muted⟩) := by
  induction l with
  | nil => rfl
  | cons e l ih =>
    by_cases he : E.hash e.id = E.hash h
    · have : find E (E.hash h) (e :: l) = 0 := by simp [find, List.findIdx_cons, he]
      rw [this]; simp [remove, (hk _ _).mp he]
    · have : find E (E.hash h) (e :: l) = find E (E.hash h) l + 1 := by
        have hb : (E.hash e.id == E.hash h) = false := by simpa using he
        simp [find, List.findIdx_cons, hb]
      have hn : key e.id ≠ key h := fun e' => he ((hk _ _).mpr e')
      rw [this]; simp [remove, hn, ih]

theorem find_mark (E : Env) (key : Nat → Nat) (hk : ∀ a b, E.hash a = E.hash b ↔ key a = key b) (h : Nat) (m : Bool)
    (l : List Entry) : (setMuted E l h m).map (fun e => (⟨e.id, e.muted⟩ : Sub)) =
      mark key h m (l.map fun e => ⟨e.id, e.muted⟩) := by
  unfold setMuted
  induction l with
  | nil => rfl
  | cons e l ih =>
    by_cases he : E.hash e.id = E.hash h
    · have : find E (E.hash h) (e :: l) = 0 := by simp [find, List.findIdx_cons, he]
      rw [this]; simp [mark, (hk _ _).mp he]
    · have : find E (E.hash h) (e :: l) = find E (E.hash h) l + 1 := by
        have hb : (E.hash e.id == E.hash h) = false := by simpa using he
        simp [find, List.findIdx_cons, hb]
      have hn : key e.id ≠ key h := fun e' => he ((hk _ _).mpr e')
      rw [this]; simp [mark, hn, ih]

/-- The loop, for handlers that leave the event alone. -/
theorem loop_run (E : Env) (hp : ∀ h, E.prog h = []) (s : St) (i : Nat) (own : List Nat) (fs : List Frame)
    (hs : s.stack = .loop i own :: fs) :
    ∃ k, steps E s k = { s with stack := fs, done := s.done ++ [(own ++ (calls E.fails ((s.handlers.drop i).map fun e => ⟨e.id, e.muted⟩)).1,
      (calls E.fails ((s.handlers.drop i).map fun e => ⟨e.id, e.muted⟩)).2)] } := by
  generalize hn : s.handlers.length - i = n
  induction n generalizing s i own with
  | zero =>
    have : s.handlers[i]? = none := List.getElem?_eq_none (by omega)
    refine ⟨1, ?_⟩
    simp only [steps, step, hs, this]
    rw [List.drop_eq_nil_of_le (by omega)]
    simp [calls]
  | succ n ih =>
    have hi : i < s.handlers.length := by omega
    have hg : s.handlers[i]? = some s.handlers[i] := List.getElem?_eq_getElem hi
    have hd : s.handlers.drop i = s.handlers[i] :: s.handlers.drop (i + 1) := List.drop_eq_getElem_cons hi
    rw [hd]
    generalize he : s.handlers[i] = e at hg hd
    simp only [List.map_cons, calls]
    by_cases hm : e.muted = true
    · obtain ⟨k, hk⟩ := ih { s with stack := .loop (i + 1) own :: fs } (i + 1) own rfl (by dsimp only; omega)
      refine ⟨k + 1, ?_⟩
      simp only [steps, step, hs, hg, hm, if_true]
      exact hk
    · have h1 : step E s = { s with stack := .body e.id [] :: .loop (i + 1) (own ++ [e.id]) :: fs } := by
        simp [step, hs, hg, hm, hp]
      by_cases hf : E.fails e.id = true
      · refine ⟨2, ?_⟩
        simp only [steps, h1]
        simp [step, hf, hm]
      · obtain ⟨k, hk⟩ := ih { s with stack := .loop (i + 1) (own ++ [e.id]) :: fs } (i + 1) (own ++ [e.id]) rfl (by dsimp only; omega)
        refine ⟨k + 2, ?_⟩
        simp only [steps, h1]
        have h2 : step E { s with stack := .body e.id [] :: .loop (i + 1) (own ++ [e.id]) :: fs } =
            { s with stack := .loop (i + 1) (own ++ [e.id]) :: fs } := by
          simp [step, hf]
        rw [h2, hk]
        simp [hm, hf]

theorem begin_simple (E : Env) (key : Nat → Nat) (hk : ∀ a b, E.hash a = E.hash b ↔ key a = key b) (s : St) (op : Op)
    (ht : op ≠ .trigger) : (begin_ E s op).1.stack = s.stack ∧ subs (begin_ E s op).1 = next key (subs s) op ∧
      (begin_ E s op).1.done = s.done := by
  have h1 := find_remove E key hk
  have h2 := find_mark E key hk
  cases hf : s.frozen <;> cases op <;> simp_all [begin_, subs, next]

/-- For handlers that leave the event alone: every call returns, and does to the subscriptions what it should; a `trigger`
calls those subscribed and not muted, in the order of subscription, until one fails, and succeeds if none does. -/
theorem C94_calls (E : Env) (key : Nat → Nat) (hk : ∀ a b, E.hash a = E.hash b ↔ key a = key b) (hp : ∀ h, E.prog h = [])
    (s : St) (hs : s.stack = []) (op : Op) : ∃ k, ∀ j, k ≤ j →
      (call E s op j).stack = [] ∧ subs (call E s op j) = next key (subs s) op ∧
      (call E s op j).done = s.done ++ (if op = .trigger then [report E.fails (subs s)] else []) := by
  by_cases ht : op = .trigger
  · subst ht
    by_cases hm : s.muted = true
    · refine ⟨0, fun j _ => ?_⟩
      have hb : (begin_ E s .trigger).1 = { s with done := s.done ++ [([], true)] } := by simp [begin_, hm]
      unfold call
      rw [hb, steps_idle E { s with done := s.done ++ [([], true)] } hs, if_pos rfl]
      exact ⟨hs, rfl, by simp [report, subs, hm]⟩
    · obtain ⟨k, hk'⟩ := loop_run E hp { s with stack := .loop 0 [] :: s.stack } 0 [] [] (by simp [hs])
      refine ⟨k, fun j hj => ?_⟩
      obtain ⟨d, rfl⟩ := Nat.exists_eq_add_of_le hj
      have hb : (begin_ E s .trigger).1 = { s with stack := .loop 0 [] :: s.stack } := by simp [begin_, hm]
      unfold call
      rw [hb, steps_add, hk', steps_idle E _ rfl, if_pos rfl]
      refine ⟨rfl, rfl, ?_⟩
      simp [report, subs, hm]
  · obtain ⟨h1, h2, h3⟩ := begin_simple E key hk s op ht
    refine ⟨0, fun j _ => ?_⟩
    unfold call
    rw [steps_idle E _ (by rw [h1]; exact hs), h1, h2, h3, if_neg ht]
    exact ⟨hs, rfl, by simp⟩

/-- Which calls are refused: those that change the subscriptions of a frozen event; freezing again is ignored. -/
theorem C94_result (E : Env) (s : St) (op : Op) : (begin_ E s op).2 = result s.frozen op := by
  cases hf : s.frozen <;> cases hm : s.muted <;> cases op <;> simp [begin_, hf, hm, result]

/-- The same for any history of calls, each run to its end: the reports of all triggers. -/
inductive History (E : Env) : St → List Op → St → Prop
  | nil (s) : History E s [] s
  | cons {s t : St} {op : Op} {ops : List Op} (k : Nat) : (call E s op k).stack = [] → History E (call E s op k) ops t →
      History E s (op :: ops) t

def specRun (key : Nat → Nat) (fails : Nat → Bool) (s : Subs) : List Op → Subs × List (List Nat × Bool)
  | [] => (s, [])
  | op :: ops =>
    let r := specRun key fails (next key s op) ops
    (r.1, (if op = .trigger then [report fails s] else []) ++ r.2)

theorem call_stable (E : Env) (s : St) (op : Op) (k j : Nat) (hk : (call E s op k).stack = []) (hj : k ≤ j) :
    call E s op j = call E s op k := by
  obtain ⟨d, rfl⟩ := Nat.exists_eq_add_of_le hj
  unfold call at *
  rw [steps_add, steps_idle E _ hk]

theorem C94_history (E : Env) (key : Nat → Nat) (hk : ∀ a b, E.hash a = E.hash b ↔ key a = key b)
    (hp : ∀ h, E.prog h = []) (ops : List Op) (s t : St) (hs : s.stack = []) (h : History E s ops t) :
    subs t = (specRun key E.fails (subs s) ops).1 ∧ t.done = s.done ++ (specRun key E.fails (subs s) ops).2 := by
  induction h with
  | nil s => simp [specRun]
  | @cons s t op ops k hst _ ih =>
    obtain ⟨k', h1⟩ := C94_calls E key hk hp s hs op
    obtain ⟨_, h2, h3⟩ := h1 (max k k') (Nat.le_max_right _ _)
    rw [call_stable E s op k _ hst (Nat.le_max_left _ _)] at h2 h3
    obtain ⟨i1, i2⟩ := ih hst
    rw [h2] at i1 i2
    rw [h3] at i2
    simp only [specRun]
    exact ⟨i1, by rw [i2, List.append_assoc]⟩

def envP : Env := ⟨fun h => h / 10, fun _ => [], fun h => h == 31⟩
def hist : List Op := [.addHandler 10, .addHandler 20, .addHandler 11, .trigger, .muteListener 11, .trigger, .removeHandler 12,
  .addHandler 31, .addHandler 40, .trigger, .freeze, .clear, .trigger, .mute, .trigger]

theorem history_of_run (E : Env) (n : Nat) : ∀ (ops : List Op) (s : St),
    (ops.foldl (fun a op => (a.1 && decide ((call E a.2 op n).stack = []), call E a.2 op n)) (true, s)).1 = true →
    History E s ops (ops.foldl (fun a op => (a.1 && decide ((call E a.2 op n).stack = []), call E a.2 op n)) (true, s)).2 := by
  have h0 : ∀ (ops : List Op) (a : Bool × St), (ops.foldl (fun a op => (a.1 && decide ((call E a.2 op n).stack = []), call E a.2 op n)) a).1 = true →
      a.1 = true := by
    intro ops
    induction ops with
    | nil => intro a h; exact h
    | cons op ops ih => intro a h; have := ih _ h; simp at this; exact this.1
  intro ops
  induction ops with
  | nil => intro s _; exact .nil s
  | cons op ops ih =>
    intro s h
    have hc := h0 ops _ h
    simp at hc
    refine .cons n hc ?_
    have hd : (true && decide ((call E s op n).stack = [])) = true := by simpa using hc
    simp only [List.foldl_cons, hd] at h ⊢
    exact ih (call E s op n) h

example : ∃ t, History envP {} hist t ∧ t.done = [([10, 20, 11], true), ([20, 11], true), ([20, 11, 31], false),
    ([20, 11, 31], false), ([], true)] :=
  ⟨_, history_of_run envP 12 hist {} (by decide +kernel), by decide +kernel⟩

example : ∀ a b, envP.hash a = envP.hash b ↔ (fun h => h / 10) a = (fun h => h / 10) b := fun _ _ => Iff.rfl

/-! ## C95: handlers that change the event while they are called -/

/-- Who is called is subscribed and not muted at that moment, whatever the handlers do. -/
theorem C95_subscribed (E : Env) (s : St) (h : Nat) (rest : List Op) (fs : List Frame) (i : Nat) (own : List Nat)
    (hs : s.stack = .loop i own :: fs) (hc : (step E s).stack = .body h rest :: .loop (i + 1) (own ++ [h]) :: fs) :
    ⟨h, false⟩ ∈ s.handlers ∧ rest = E.prog h := by
  simp only [step, hs] at hc
  split at hc
  · rename_i hn
    exfalso
    have := congrArg List.length hc
    simp at this
    omega
  · rename_i e he
    split at hc
    · simp at hc
    · rename_i hm
      simp at hc
      obtain ⟨⟨rfl, rfl⟩, _⟩ := hc
      have hme := List.mem_of_getElem? he
      refine ⟨?_, rfl⟩
      have : e = ⟨e.id, false⟩ := by cases e; simp_all
      rw [← this]; exact hme

def ids (s : St) : List Nat := s.handlers.map Entry.id

/-- The call does not add a handler. -/
def noAdd : Op → Bool
  | .addHandler _ => false
  | _ => true

theorem eraseIdx_drop {α : Type} (l : List α) (i j : Nat) : ((l.eraseIdx j).drop i).Sublist (l.drop i) := by
  induction l generalizing i j with
  | nil => simp
  | cons a l ih =>
    cases i with
    | zero => exact List.eraseIdx_sublist _ _
    | succ i =>
      cases j with
      | zero => simp only [List.eraseIdx_cons_zero, List.drop_succ_cons]; exact List.drop_sublist_drop_left l (by omega)
      | succ j => simpa using ih i j

theorem map_eraseIdx {α β : Type} (f : α → β) (l : List α) (j : Nat) : (l.eraseIdx j).map f = (l.map f).eraseIdx j := by
  induction l generalizing j with
  | nil => simp
  | cons a l ih => cases j with
    | zero => simp
    | succ j => simpa using ih j

theorem ids_setMuted (E : Env) (l : List Entry) (h : Nat) (m : Bool) : (setMuted E l h m).map Entry.id = l.map Entry.id := by
  unfold setMuted
  generalize find E (E.hash h) l = j
  induction l generalizing j with
  | nil => simp
  | cons a l ih => cases j with
    | zero => simp
    | succ j => simpa using ih j

/-- Nothing but adding makes the rest of the list longer. -/
theorem begin_drop (E : Env) (s : St) (op : Op) (ho : noAdd op = true) (i : Nat) :
    ((ids (begin_ E s op).1).drop i).Sublist ((ids s).drop i) := by
  cases op with
  | addHandler h => simp [noAdd] at ho
  | removeHandler h =>
    simp only [begin_]
    split
    · exact List.Sublist.refl _
    · simp only [ids]
      rw [map_eraseIdx]
      exact eraseIdx_drop _ _ _
  | clear =>
    simp only [begin_]
    split
    · exact List.Sublist.refl _
    · simp [ids]
  | trigger => simp only [begin_]; split <;> exact List.Sublist.refl _
  | mute => exact List.Sublist.refl _
  | unmute => exact List.Sublist.refl _
  | muteListener h => simp only [begin_, ids, ids_setMuted]; exact List.Sublist.refl _
  | unmuteListener h => simp only [begin_, ids, ids_setMuted]; exact List.Sublist.refl _
  | freeze => simp only [begin_]; split <;> exact List.Sublist.refl _

structure Once (base : List Nat) (n : Nat) (s : St) : Prop where
  nodup : (ids s).Nodup
  sub : ∀ x ∈ ids s, x ∈ base
  frames : ∀ f ∈ s.stack, match f with
    | .loop i own => (own ++ (ids s).drop i).Nodup ∧ ∀ x ∈ own, x ∈ base
    | .body _ rest => ∀ o ∈ rest, noAdd o = true
  reports : ∀ r ∈ s.done.drop n, r.1.Nodup ∧ ∀ x ∈ r.1, x ∈ base
  len : n ≤ s.done.length

theorem begin_stack (E : Env) (s : St) (op : Op) :
    (begin_ E s op).1.stack = s.stack ∧ ((begin_ E s op).1.done = s.done ∨ (begin_ E s op).1.done = s.done ++ [([], true)]) ∨
    op = .trigger ∧ (begin_ E s op).1 = { s with stack := .loop 0 [] :: s.stack } := by
  cases hm : s.muted <;> cases hf : s.frozen <;> cases op <;> simp [begin_, hm, hf]

theorem nodup_sub {own a b : List Nat} (h : (own ++ b).Nodup) (hs : a.Sublist b) : (own ++ a).Nodup :=
  h.sublist (hs.append_left own)

theorem drop_snoc {α : Type} (l : List α) (a : α) (n : Nat) (h : n ≤ l.length) : (l ++ [a]).drop n = l.drop n ++ [a] := by
  rw [List.drop_append_of_le_length h]

theorem once_begin {E : Env} {base : List Nat} {n : Nat} {s : St} (h : Once base n s) (op : Op) (ho : noAdd op = true) :
    Once base n (begin_ E s op).1 := by
  have hd := begin_drop E s op ho
  have h0 : (ids (begin_ E s op).1).Sublist (ids s) := by simpa using hd 0
  have hfr : ∀ f ∈ s.stack, match f with
      | .loop i own => (own ++ (ids (begin_ E s op).1).drop i).Nodup ∧ ∀ x ∈ own, x ∈ base
      | .body _ rest => ∀ o ∈ rest, noAdd o = true := by
    intro f hf
    have := h.frames f hf
    cases f with
    | loop i own => exact ⟨nodup_sub this.1 (hd i), this.2⟩
    | body h' rest => exact this
  refine ⟨h.nodup.sublist h0, fun x hx => h.sub x (h0.subset hx), ?_, ?_, ?_⟩
  · rcases begin_stack E s op with ⟨e, _⟩ | ⟨_, e⟩
    · rw [e]; exact hfr
    · intro f hf
      rw [e] at hf
      rcases List.mem_cons.mp hf with rfl | hf
      · refine ⟨?_, by simp⟩
        simp only [List.nil_append, List.drop_zero]
        exact h.nodup.sublist h0
      · exact hfr f hf
  · rcases begin_stack E s op with ⟨_, e | e⟩ | ⟨_, e⟩
    · rw [e]; exact h.reports
    · rw [e, drop_snoc _ _ _ h.len]
      intro r hr
      rcases List.mem_append.mp hr with hr | hr
      · exact h.reports r hr
      · simp at hr; subst hr; simp
    · rw [e]; exact h.reports
  · have := h.len
    rcases begin_stack E s op with ⟨_, e | e⟩ | ⟨_, e⟩ <;> rw [e] <;> simp <;> omega

theorem once_step {E : Env} {base : List Nat} {n : Nat} {s : St} (hp : ∀ h, ∀ o ∈ E.prog h, noAdd o = true) (h : Once base n s) :
    Once base n (step E s) := by
  unfold step
  split
  · exact h
  · rename_i i own fs hs
    have hl := h.frames (.loop i own) (by rw [hs]; simp)
    have hfs : ∀ f ∈ fs, f ∈ s.stack := fun f hf => by rw [hs]; exact List.mem_cons_of_mem _ hf
    split
    · refine ⟨h.nodup, h.sub, fun f hf => h.frames f (hfs f hf), ?_, by have := h.len; simp; omega⟩
      rw [drop_snoc _ _ _ h.len]
      intro r hr
      rcases List.mem_append.mp hr with hr | hr
      · exact h.reports r hr
      · simp at hr; subst hr
        exact ⟨hl.1.sublist (List.sublist_append_left _ _), hl.2⟩
    · rename_i e he
      have hi : i < (ids s).length := by
        have := (List.getElem?_eq_some_iff.mp he).1
        simpa [ids] using this
      have hde : (ids s).drop i = e.id :: (ids s).drop (i + 1) := by
        rw [List.drop_eq_getElem_cons hi]
        congr 1
        have := (List.getElem?_eq_some_iff.mp he).2
        simp [ids, this]
      have hx : e.id ∈ base := h.sub _ (by
        have : e.id ∈ (ids s).drop i := by rw [hde]; simp
        exact List.mem_of_mem_drop this)
      have hl1 : (own ++ e.id :: (ids s).drop (i + 1)).Nodup := by rw [← hde]; exact hl.1
      split
      · refine ⟨h.nodup, h.sub, ?_, h.reports, h.len⟩
        intro f hf
        rcases List.mem_cons.mp hf with rfl | hf
        · exact ⟨nodup_sub hl1 (List.sublist_cons_self _ _), hl.2⟩
        · exact h.frames f (hfs f hf)
      · refine ⟨h.nodup, h.sub, ?_, h.reports, h.len⟩
        intro f hf
        rcases List.mem_cons.mp hf with rfl | hf
        · exact hp e.id
        rcases List.mem_cons.mp hf with rfl | hf
        · refine ⟨?_, ?_⟩
          · show (own ++ [e.id] ++ (ids s).drop (i + 1)).Nodup
            simpa using hl1
          · intro x hx'
            rcases List.mem_append.mp hx' with hx' | hx'
            · exact hl.2 x hx'
            · simp at hx'; subst hx'; exact hx
        · exact h.frames f (hfs f hf)
  · rename_i h' op rest fs hs
    have hb := h.frames (.body h' (op :: rest)) (by rw [hs]; simp)
    refine once_begin (s := { s with stack := .body h' rest :: fs }) ⟨h.nodup, h.sub, ?_, h.reports, h.len⟩ op (hb op (by simp))
    intro f hf
    rcases List.mem_cons.mp hf with rfl | hf
    · exact fun o ho => hb o (List.mem_cons_of_mem _ ho)
    · exact h.frames f (by rw [hs]; exact List.mem_cons_of_mem _ hf)
  · rename_i h' fs hs
    have hfs : ∀ f ∈ fs, f ∈ s.stack := fun f hf => by rw [hs]; exact List.mem_cons_of_mem _ hf
    split
    · split
      · rename_i i own fs'
        have hl := h.frames (.loop i own) (hfs _ (by simp))
        refine ⟨h.nodup, h.sub, fun f hf => h.frames f (hfs f (List.mem_cons_of_mem _ hf)), ?_, by have := h.len; simp; omega⟩
        rw [drop_snoc _ _ _ h.len]
        intro r hr
        rcases List.mem_append.mp hr with hr | hr
        · exact h.reports r hr
        · simp at hr; subst hr
          exact ⟨hl.1.sublist (List.sublist_append_left _ _), hl.2⟩
      · exact ⟨h.nodup, h.sub, fun f hf => h.frames f (hfs f hf), h.reports, h.len⟩
    · exact ⟨h.nodup, h.sub, fun f hf => h.frames f (hfs f hf), h.reports, h.len⟩

theorem once_steps {E : Env} {base : List Nat} {n : Nat} (hp : ∀ h, ∀ o ∈ E.prog h, noAdd o = true) (k : Nat) :
    ∀ s, Once base n s → Once base n (steps E s k) := by
  induction k with
  | zero => exact fun s h => h
  | succ k ih => exact fun s h => ih _ (once_step hp h)

/-- Handlers that remove and mute handlers, or trigger the event again, but do not add any: no `trigger` calls a handler twice,
or one that was not subscribed when the call came. -/
theorem C95_once (E : Env) (hp : ∀ h, ∀ o ∈ E.prog h, noAdd o = true) (s : St) (hs : s.stack = []) (hn : (ids s).Nodup)
    (k : Nat) : ∃ new, (call E s .trigger k).done = s.done ++ new ∧ ∀ r ∈ new, r.1.Nodup ∧ ∀ x ∈ r.1, x ∈ ids s := by
  have h0 : Once (ids s) s.done.length s := ⟨hn, fun _ h => h, by simp [hs], by simp, Nat.le_refl _⟩
  have h1 := once_steps hp k _ (once_begin (E := E) h0 .trigger rfl)
  have mono : ∀ k t, s.done.isPrefixOf t.done → s.done.isPrefixOf (steps E t k).done := by
    intro k
    induction k with
    | zero => exact fun t h => h
    | succ k ih =>
      intro t h
      refine ih _ ?_
      rw [List.isPrefixOf_iff_prefix] at *
      refine h.trans ?_
      unfold step
      split
      · exact List.prefix_rfl
      · split
        · exact List.prefix_append _ _
        · split <;> exact List.prefix_rfl
      · rename_i h' op rest fs hs'
        rcases begin_stack E { t with stack := .body h' rest :: fs } op with ⟨_, e | e⟩ | ⟨_, e⟩
        · rw [e]; exact List.prefix_rfl
        · rw [e]; exact List.prefix_append _ _
        · rw [e]; exact List.prefix_rfl
      · split
        · split
          · exact List.prefix_append _ _
          · exact List.prefix_rfl
        · exact List.prefix_rfl
  have h2 := mono k (begin_ E s .trigger).1 (by
    rw [List.isPrefixOf_iff_prefix]
    rcases begin_stack E s .trigger with ⟨_, e | e⟩ | ⟨_, e⟩
    · rw [e]; exact List.prefix_rfl
    · rw [e]; exact List.prefix_append _ _
    · rw [e]; exact List.prefix_rfl)
  rw [List.isPrefixOf_iff_prefix] at h2
  obtain ⟨new, hnew⟩ := h2
  refine ⟨new, hnew.symm, ?_⟩
  have := h1.reports
  rw [← hnew] at this
  simpa using this

/-- A handler that removes the next one, which mutes the last one, and triggers the event once more. -/
def envR : Env := ⟨fun h => h, fun h => if h = 1 then [.removeHandler 2] else if h = 3 then [.muteListener 4, .removeHandler 3, .trigger] else [], fun _ => false⟩
def stR : St := { handlers := [⟨1, false⟩, ⟨2, false⟩, ⟨3, false⟩, ⟨4, false⟩, ⟨5, false⟩] }

example : (∀ h, ∀ o ∈ envR.prog h, noAdd o = true) ∧ (ids stR).Nodup ∧
    (call envR stR .trigger 40).stack = [] ∧ (call envR stR .trigger 40).done = [([1, 5], true), ([1, 3, 5], true)] := by
  refine ⟨?_, by decide, by decide +kernel, by decide +kernel⟩
  intro h o ho
  simp only [envR] at ho
  split at ho
  · simp at ho; subst ho; rfl
  · split at ho
    · simp at ho; rcases ho with rfl | rfl | rfl <;> rfl
    · simp at ho

/-- Calls that leave the handlers already there as they are. -/
def onlyAdd : Op → Bool
  | .addHandler _ | .trigger | .mute | .unmute | .freeze => true
  | _ => false

structure All (s : St) : Prop where
  unmuted : ∀ e ∈ s.handlers, e.muted = false
  frames : ∀ f ∈ s.stack, match f with
    | .loop i own => own = (ids s).take i ∧ i ≤ (ids s).length
    | .body _ rest => ∀ o ∈ rest, onlyAdd o = true

theorem begin_grow (E : Env) (s : St) (op : Op) (ho : onlyAdd op = true) :
    ∃ l, (begin_ E s op).1.handlers = s.handlers ++ l ∧ ∀ e ∈ l, e.muted = false := by
  cases hf : s.frozen <;> cases hm : s.muted <;> cases op <;> simp_all [begin_, onlyAdd]

theorem all_begin {E : Env} {s : St} (h : All s) (op : Op) (ho : onlyAdd op = true) : All (begin_ E s op).1 := by
  obtain ⟨l, hl, hu⟩ := begin_grow E s op ho
  have hids : ids (begin_ E s op).1 = ids s ++ l.map Entry.id := by simp [ids, hl]
  have hfr : ∀ f ∈ s.stack, match f with
      | .loop i own => own = (ids (begin_ E s op).1).take i ∧ i ≤ (ids (begin_ E s op).1).length
      | .body _ rest => ∀ o ∈ rest, onlyAdd o = true := by
    intro f hf
    have := h.frames f hf
    cases f with
    | loop i own =>
      refine ⟨?_, ?_⟩
      · rw [hids, List.take_append_of_le_length this.2]; exact this.1
      · have h2 : i ≤ (ids s).length := this.2
        rw [hids, List.length_append]; omega
    | body h' rest => exact this
  refine ⟨?_, ?_⟩
  · rw [hl]
    intro e he
    rcases List.mem_append.mp he with he | he
    · exact h.unmuted e he
    · exact hu e he
  · rcases begin_stack E s op with ⟨e, _⟩ | ⟨_, e⟩
    · rw [e]; exact hfr
    · intro f hf
      rw [e] at hf
      rcases List.mem_cons.mp hf with rfl | hf
      · exact ⟨by simp, by omega⟩
      · exact hfr f hf

theorem all_step {E : Env} {s : St} (hp : ∀ h, ∀ o ∈ E.prog h, onlyAdd o = true) (h : All s) : All (step E s) := by
  unfold step
  split
  · exact h
  · rename_i i own fs hs
    have hl : own = (ids s).take i ∧ i ≤ (ids s).length := h.frames (.loop i own) (by rw [hs]; simp)
    have hfs : ∀ f ∈ fs, f ∈ s.stack := fun f hf => by rw [hs]; exact List.mem_cons_of_mem _ hf
    split
    · exact ⟨h.unmuted, fun f hf => h.frames f (hfs f hf)⟩
    · rename_i e he
      have hi : i < (ids s).length := by
        have := (List.getElem?_eq_some_iff.mp he).1
        simpa [ids] using this
      have hg : (ids s)[i] = e.id := by
        have := (List.getElem?_eq_some_iff.mp he).2
        simp [ids, this]
      split
      · rename_i hm
        rw [h.unmuted e (List.mem_of_getElem? he)] at hm
        simp at hm
      · refine ⟨h.unmuted, ?_⟩
        intro f hf
        rcases List.mem_cons.mp hf with rfl | hf
        · exact hp e.id
        rcases List.mem_cons.mp hf with rfl | hf
        · refine ⟨?_, hi⟩
          show own ++ [e.id] = (ids s).take (i + 1)
          rw [hl.1, ← hg, ← List.take_append_getElem hi]
        · exact h.frames f (hfs f hf)
  · rename_i h' op rest fs hs
    have hb : ∀ o ∈ op :: rest, onlyAdd o = true := h.frames (.body h' (op :: rest)) (by rw [hs]; simp)
    refine all_begin (s := { s with stack := .body h' rest :: fs }) ⟨h.unmuted, ?_⟩ op (hb op (by simp))
    intro f hf
    rcases List.mem_cons.mp hf with rfl | hf
    · exact fun o ho => hb o (List.mem_cons_of_mem _ ho)
    · exact h.frames f (by rw [hs]; exact List.mem_cons_of_mem _ hf)
  · rename_i h' fs hs
    have hfs : ∀ f ∈ fs, f ∈ s.stack := fun f hf => by rw [hs]; exact List.mem_cons_of_mem _ hf
    split
    · split
      · exact ⟨h.unmuted, fun f hf => h.frames f (hfs f (List.mem_cons_of_mem _ hf))⟩
      · exact ⟨h.unmuted, fun f hf => h.frames f (hfs f hf)⟩
    · exact ⟨h.unmuted, fun f hf => h.frames f (hfs f hf)⟩

theorem grow_steps {E : Env} (hp : ∀ h, ∀ o ∈ E.prog h, onlyAdd o = true) (k : Nat) :
    ∀ s, All s → ∃ l, (steps E s k).handlers = s.handlers ++ l := by
  induction k with
  | zero => exact fun s _ => ⟨[], by simp [steps]⟩
  | succ k ih =>
    intro s h
    obtain ⟨l, hl⟩ := ih _ (all_step hp h)
    have : ∃ l', (step E s).handlers = s.handlers ++ l' := by
      unfold step
      split
      · exact ⟨[], by simp⟩
      · split
        · exact ⟨[], by simp⟩
        · split <;> exact ⟨[], by simp⟩
      · rename_i h' op rest fs hs
        have hb : ∀ o ∈ op :: rest, onlyAdd o = true := h.frames (.body h' (op :: rest)) (by rw [hs]; simp)
        obtain ⟨l', h1, _⟩ := begin_grow E { s with stack := .body h' rest :: fs } op (hb op (by simp))
        exact ⟨l', h1⟩
      · split
        · split <;> exact ⟨[], by simp⟩
        · exact ⟨[], by simp⟩
    obtain ⟨l', hl'⟩ := this
    exact ⟨l' ++ l, by simp only [steps]; rw [hl, hl', List.append_assoc]⟩

/-- Handlers that add handlers or trigger the event again, but remove and mute none: a `trigger` that succeeds has called all
subscribers once per subscription and in order, including those added meanwhile. -/
theorem C95_added (E : Env) (hp : ∀ h, ∀ o ∈ E.prog h, onlyAdd o = true) (s : St) (hs : s.stack = [])
    (hu : ∀ e ∈ s.handlers, e.muted = false) (k i : Nat) (own : List Nat) (fs : List Frame) (t : St)
    (ht : t = call E s .trigger k) (hst : t.stack = .loop i own :: fs)
    (hend : (step E t).done = t.done ++ [(own, true)]) : own = t.handlers.map Entry.id := by
  have h0 : All s := ⟨hu, by simp [hs]⟩
  have hk : ∀ k t, All t → All (steps E t k) := by
    intro k
    induction k with
    | zero => exact fun t h => h
    | succ k ih => exact fun t h => ih _ (all_step hp h)
  have h1 : All t := by rw [ht]; exact hk k _ (all_begin h0 .trigger rfl)
  have hl : own = (ids t).take i ∧ i ≤ (ids t).length := h1.frames (.loop i own) (by rw [hst]; simp)
  have hn : t.handlers[i]? = none := by
    simp only [step, hst] at hend
    split at hend
    · assumption
    · split at hend <;> simp at hend
  rw [hl.1]
  have : t.handlers.length ≤ i := List.getElem?_eq_none_iff.mp hn
  exact List.take_of_length_le (by simpa [ids] using this)

def envA : Env := ⟨fun h => h, fun h => if h = 1 then [.addHandler 3, .freeze, .addHandler 4] else [], fun _ => false⟩
def stA : St := { handlers := [⟨1, false⟩, ⟨2, false⟩] }

example : ∃ t, t = call envA stA .trigger 9 ∧ t.stack = [.loop 3 [1, 2, 3]] ∧ (step envA t).done = t.done ++ [([1, 2, 3], true)] ∧
    t.handlers = [⟨1, false⟩, ⟨2, false⟩, ⟨3, false⟩] := ⟨_, rfl, by decide +kernel⟩

/-! ## C96: all subscribers are called -/

/-- Handler 1 removes itself. -/
def envS : Env := ⟨fun h => h, fun h => if h = 1 then [.removeHandler 1] else [], fun _ => false⟩
def stS : St := { handlers := [⟨1, false⟩, ⟨2, false⟩, ⟨3, false⟩] }

/-- A handler that removes itself hides the next one, which is subscribed all the time, from this `trigger`. -/
theorem C96_skip_violation : (call envS stS .trigger 9).stack = [] ∧ (call envS stS .trigger 9).done = [([1, 3], true)] ∧
    ∀ k, k ≤ 9 → ⟨2, false⟩ ∈ (call envS stS .trigger k).handlers := by decide +kernel

/-- The handler that removes itself is destroyed while it is called, if only the event refers to it. -/
theorem C96_destroyed_violation : 1 ∈ running (call envS stS .trigger 2) ∧
    destroyed (fun _ => false) (call envS stS .trigger 2) 1 = true := by decide +kernel

/-- A `trigger` does not return if a handler subscribes itself again each time it is called. -/
theorem C96_endless_violation (k : Nat) :
    (call ⟨fun h => h, fun h => [.addHandler h], fun _ => false⟩ { handlers := [⟨1, false⟩] } .trigger k).stack ≠ [] := by
  let E : Env := ⟨fun h => h, fun h => [.addHandler h], fun _ => false⟩
  have inv : ∀ k (s : St), s.frozen = false → (∀ e ∈ s.handlers, e.muted = false) →
      (∃ i own, (s.stack = [.loop i own] ∧ i < s.handlers.length) ∨
        (∃ h, s.stack = [.body h [.addHandler h], .loop (i + 1) own] ∧ i < s.handlers.length) ∨
        ∃ h, s.stack = [.body h [], .loop (i + 1) own] ∧ i + 1 < s.handlers.length) → (steps E s k).stack ≠ [] := by
    intro k
    induction k with
    | zero =>
      rintro s _ _ ⟨i, own, ⟨h, _⟩ | ⟨_, h, _⟩ | ⟨_, h, _⟩⟩ <;> simp [steps, h]
    | succ k ih =>
      rintro s hz hu ⟨i, own, ⟨h, hi⟩ | ⟨x, h, hi⟩ | ⟨x, h, hi⟩⟩
      · have hg : s.handlers[i]? = some s.handlers[i] := List.getElem?_eq_getElem hi
        have hm : s.handlers[i].muted = false := hu _ (List.getElem_mem hi)
        have hst : step E s = { s with stack := [.body s.handlers[i].id [.addHandler s.handlers[i].id],
            .loop (i + 1) (own ++ [s.handlers[i].id])] } := by
          simp [step, h, hg, hm, E]
        simp only [steps]
        rw [hst]
        exact ih _ hz hu ⟨i, _, .inr (.inl ⟨_, rfl, hi⟩)⟩
      · have hst : step E s = { s with handlers := s.handlers ++ [⟨x, false⟩], stack := [.body x [], .loop (i + 1) own] } := by
          simp [step, h, begin_, hz]
        simp only [steps]
        rw [hst]
        refine ih _ hz ?_ ⟨i, own, .inr (.inr ⟨x, rfl, by simp; omega⟩)⟩
        intro e he
        rcases List.mem_append.mp he with he | he
        · exact hu e he
        · simp at he; subst he; rfl
      · have hst : step E s = { s with stack := [.loop (i + 1) own] } := by
          simp [step, h, E]
        simp only [steps]
        rw [hst]
        exact ih _ hz hu ⟨i + 1, own, .inl ⟨rfl, hi⟩⟩
  exact inv k _ rfl (by decide) ⟨0, [], .inl ⟨rfl, by decide⟩⟩

/-- What holds: handlers that remove or mute nobody are all called, see `C95_added`. -/
theorem C96_called_partial (E : Env) (hp : ∀ h, ∀ o ∈ E.prog h, onlyAdd o = true) (s : St) (hs : s.stack = [])
    (hu : ∀ e ∈ s.handlers, e.muted = false) (k i : Nat) (own : List Nat) (fs : List Frame) (t : St)
    (ht : t = call E s .trigger k) (hst : t.stack = .loop i own :: fs)
    (hend : (step E t).done = t.done ++ [(own, true)]) (h : Nat) (hh : h ∈ s.handlers.map Entry.id) :
    h ∈ own := by
  rw [C95_added E hp s hs hu k i own fs t ht hst hend]
  obtain ⟨l1, h1, _⟩ := begin_grow E s .trigger rfl
  obtain ⟨l2, h2⟩ := grow_steps hp k _ (all_begin (E := E) ⟨hu, by simp [hs]⟩ .trigger rfl)
  have hl : t.handlers = s.handlers ++ (l1 ++ l2) := by rw [ht]; unfold call; rw [h2, h1, List.append_assoc]
  rw [hl, List.map_append]
  exact List.mem_append.mpr (.inl hh)

/-! ## C97: handlers are told apart -/

/-- Two callable objects made at the same address, like the temporaries of two statements, are taken for the same handler:
removing the second one removes the first. -/
theorem C97_temporary_violation (H : Nat → Nat → Nat) (addr : Nat) :
    let E : Env := ⟨fun _ => (Src.callable addr).hash H, fun _ => [], fun _ => false⟩
    ((begin_ E { handlers := [⟨1, false⟩, ⟨2, false⟩] } (.removeHandler 2)).1.handlers) = [⟨2, false⟩] := by
  intro E
  simp [begin_, find, E, List.findIdx_cons]

/-- A callable object that was copied cannot be removed: nothing happens, and success is reported. -/
theorem C97_copy_violation (H : Nat → Nat → Nat) (hH : H 100 0 ≠ H 200 0) :
    let E : Env := ⟨fun h => (Src.callable h).hash H, fun _ => [], fun _ => false⟩
    begin_ E { handlers := [⟨100, false⟩] } (.removeHandler 200) = ({ handlers := [⟨100, false⟩] }, .ok) := by
  intro E
  have : (H 100 0 == H 200 0) = false := by simpa using hH
  simp [begin_, find, E, List.findIdx_cons, Src.hash, this]

/-- What holds: functions, and methods of objects, are recognized if the hash function has no collisions. -/
theorem C97_sources_partial (H : Nat → Nat → Nat) (hH : ∀ a b c d, H a b = H c d → a = c ∧ b = d) (a b : Src)
    (ha : match a with | .callable _ => False | .function _ => True | .method _ o => o ≠ 0)
    (hb : match b with | .callable _ => False | .function _ => True | .method _ o => o ≠ 0) :
    a.hash H = b.hash H ↔ a = b := by
  constructor
  · intro h
    cases a <;> cases b <;> simp only [Src.hash] at h ha hb
    · rw [(hH _ _ _ _ h).1]
    · exact absurd (hH _ _ _ _ h).2.symm hb
    · exact absurd (hH _ _ _ _ h).2 ha
    · rw [(hH _ _ _ _ h).1, (hH _ _ _ _ h).2]
  · rintro rfl; rfl

example : (Src.function 5).hash (fun a b => 2 ^ a * 3 ^ b) ≠ (Src.method 5 7).hash (fun a b => 2 ^ a * 3 ^ b) := by decide +kernel

end Verif.Event.Props
