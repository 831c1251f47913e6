import Verif.Sync.Lemmas
import Verif.Sync.Demo

/-! # Properties of the synchronisation component -/

namespace Verif.Sync

open Spec

/-! ## C315: the selected index is that of an interface -/

/-- Whatever is added, removed and selected outside of updates, the selected index is that of an
interface unless there is none, in which case it is zero. -/
theorem C315_valid (t : Option (AList Name Ty)) (l : List Op) (h : ∀ o ∈ l, o ≠ Op.beginUpdate) :
    Sound (interfaces (run (create t) l).1) (selected (run (create t) l).1) ∧
      (interfaces (run (create t) l).1 = [] → selected (run (create t) l).1 = 0) := by
  obtain ⟨b, _, r⟩ := run_rel l _ _ (create_rel t) h
  have lo := r.low
  have hi := r.high
  refine ⟨fun hn => ?_, fun hn => ?_⟩
  · have hp : 0 < (run (create t) l).1.names.length := List.length_pos_iff.2 hn
    exact ⟨lo, by show (run (create t) l).1.src < ((run (create t) l).1.names.length : Int); omega⟩
  · show (run (create t) l).1.src = 0
    have : (run (create t) l).1.names = [] := hn
    rw [this] at hi
    simp at hi
    omega

/-- No interface is listed twice. -/
theorem C315_once (t : Option (AList Name Ty)) (l : List Op) (h : ∀ o ∈ l, o ≠ Op.beginUpdate) :
    (interfaces (run (create t) l).1).Nodup := by
  obtain ⟨b, _, r⟩ := run_rel l _ _ (create_rel t) h
  exact r.nodup

example : interfaces (run Demo.fresh (Demo.three ++ [.remove "Irig", .select 7, .remove "Ptp"])).1 = ["Clock"] ∧
    selected (run Demo.fresh (Demo.three ++ [.remove "Irig", .select 7, .remove "Ptp"])).1 = 0 ∧
    selected (run Demo.fresh Demo.three).1 = 2 := by decide +kernel

/-! ## C316: the selection follows the interface -/

/-- Every sequence of calls outside of updates does and answers what is expected of a list of
interfaces one of which is selected by name. -/
theorem C316_refines (t : Option (AList Name Ty)) (l : List Op) (h : ∀ o ∈ l, o ≠ Op.beginUpdate) :
    ∃ a, Run t ⟨[], none⟩ l a (run (create t) l).2 ∧ a.all = interfaces (run (create t) l).1 ∧
      a.source = (interfaces (run (create t) l).1)[(selected (run (create t) l).1).toNat]? := by
  obtain ⟨b, h1, r⟩ := run_rel l _ _ (create_rel t) h
  exact ⟨b, h1, r.all, r.source⟩

/-- In particular: an interface that is removed takes nothing else with it, the selected interface
remains selected when another one goes, and the first one left is selected when it goes itself. -/
theorem C316_remove (t : Option (AList Name Ty)) (l : List Op) (h : ∀ o ∈ l, o ≠ Op.beginUpdate) (c n : Name)
    (hc : c ∈ interfaces (run (create t) l).1)
    (hn : (interfaces (run (create t) l).1)[(selected (run (create t) l).1).toNat]? = some n) :
    let s := (remove (run (create t) l).1 c).1
    (remove (run (create t) l).1 c).2 = .ok ∧
    interfaces s = (interfaces (run (create t) l).1).filter (fun m => m ≠ c) ∧
    (c ≠ n → (interfaces s)[(selected s).toNat]? = some n) ∧
    (c = n → (interfaces s)[(selected s).toNat]? = (interfaces s).head? ∧ selected s = 0) := by
  obtain ⟨a, _, r⟩ := run_rel l _ _ (create_rel t) h
  obtain ⟨b, h1, r', _⟩ := remove_rel r c
  have hmem : c ∈ a.all := by rw [r.all]; exact hc
  have hsrc : a.source = some n := by rw [r.source]; exact hn
  generalize remove (run (create t) l).1 c = q at *
  obtain ⟨q, e⟩ := q
  simp only at h1
  cases h1 with
  | unknown hno => exact absurd hmem hno
  | remove _ =>
    refine ⟨rfl, ?_, ?_, ?_⟩
    · show q.names = _
      rw [← r'.all]; show a.all.filter _ = _; rw [r.all]; rfl
    · intro hne
      show q.names[q.src.toNat]? = _
      rw [← r'.source]
      show (if a.source = some c then _ else a.source) = _
      rw [hsrc, if_neg (by intro e; cases e; exact hne rfl)]
    · intro he
      have hh : q.names[q.src.toNat]? = q.names.head? := by
        rw [← r'.source]
        show (if a.source = some c then (a.all.filter (fun m => m ≠ c)).head? else a.source) = _
        rw [hsrc, he, if_pos rfl, ← he]
        have := r'.all
        rw [← this]; rfl
      refine ⟨hh, ?_⟩
      have lo : 0 ≤ q.src := r'.low
      have hi : q.src < max (1 : Int) (q.names.length : Int) := r'.high
      by_cases hz : q.names = []
      · rw [hz] at hi; simp at hi
        show q.src = 0
        omega
      · have hp : 0 < q.names.length := List.length_pos_iff.2 hz
        have hlt : q.src.toNat < q.names.length := by omega
        rw [List.head?_eq_getElem?] at hh
        have := (List.getElem?_inj hlt r'.nodup).1 hh
        show q.src = 0
        omega

example : interfaces (remove Demo.full "Ptp").1 = ["Clock", "Irig"] ∧ selected (remove Demo.full "Ptp").1 = 1 ∧
    interfaces (remove Demo.full "Irig").1 = ["Ptp", "Clock"] ∧ selected (remove Demo.full "Irig").1 = 0 ∧
    (remove Demo.full "Gps").2 = .notFound := by decide +kernel

/-! ## C317: only interfaces derived from the base class, one of each class -/

/-- An interface is accepted exactly when its class is derived from the base class, at any depth,
and no interface of the class is there; it comes last. -/
theorem C317_accepted (s : St) (c : Name) :
    (add s (some c)).2 = .ok ↔
      c ≠ "SyncInterfaceBase" ∧ (∃ t, s.types = some t ∧ Derived t c) ∧ c ∉ interfaces s := by
  unfold add
  simp only
  by_cases hb : c = baseName
  · rw [if_pos hb]; exact ⟨fun h => (nomatch h), fun h => absurd hb h.1⟩
  · rw [if_neg hb]
    cases ht : s.types with
    | none => exact ⟨fun h => (nomatch h), fun ⟨_, ⟨_, h, _⟩, _⟩ => (nomatch h)⟩
    | some t =>
      simp only
      cases hc : check (t.length + 1) t c with
      | none =>
        refine ⟨fun h => (nomatch h), fun ⟨_, ⟨_, h, hd⟩, _⟩ => ?_⟩
        cases h
        exact absurd (check_endless hc) (derived_not_endless hd)
      | some e =>
        rcases check_code _ _ _ hc with rfl | rfl
        · simp only [addProperty]
          by_cases hm : c ∈ s.names
          · rw [if_pos hm]; exact ⟨fun h => (nomatch h), fun h => absurd hm h.2.2⟩
          · rw [if_neg hm]; exact ⟨fun _ => ⟨hb, ⟨t, rfl, check_derived _ _ hc⟩, hm⟩, fun _ => rfl⟩
        · refine ⟨fun h => (nomatch h), fun ⟨_, ⟨_, h, hd⟩, _⟩ => ?_⟩
          cases h
          rw [derived_check_len hd] at hc
          cases hc

/-- An accepted interface comes last, and the selected index is not touched. -/
theorem C317_last (s : St) (c : Name) (h : (add s (some c)).2 = .ok) :
    interfaces (add s (some c)).1 = interfaces s ++ [c] ∧ selected (add s (some c)).1 = selected s := by
  have hacc := (C317_accepted s c).1 h
  obtain ⟨hb, ⟨t, ht, hd⟩, hm⟩ := hacc
  have : add s (some c) = addProperty s c := by
    unfold add
    simp only
    rw [if_neg (show ¬ c = baseName from hb), ht]
    simp only [derived_check_len hd]
  rw [this]
  unfold addProperty
  rw [if_neg (show ¬ c ∈ s.names from hm)]
  exact ⟨rfl, rfl⟩

/-- Anything else changes nothing. -/
theorem C317_refused (s : St) (c : Option Name) (h : (add s c).2 ≠ .ok) : (add s c).1 = s := by
  cases c with
  | none => rfl
  | some c =>
    unfold add at h ⊢
    simp only at h ⊢
    split
    · rfl
    · next hb =>
      rw [if_neg hb] at h
      cases ht : s.types with
      | none => rfl
      | some t =>
        rw [ht] at h
        simp only at h ⊢
        cases hc : check (t.length + 1) t c with
        | none => rfl
        | some e =>
          rw [hc] at h
          cases e with
          | ok =>
            simp only [addProperty] at h ⊢
            split
            · rfl
            · next hm => rw [if_neg hm] at h; exact absurd rfl h
          | _ => rfl

example : (add Demo.fresh (some "Irig")).2 = .ok ∧ (add Demo.fresh (some "Point")).2 = .invalidArgument ∧
    (add Demo.fresh (some "Plain")).2 = .invalidArgument ∧ (add Demo.fresh (some "Gps")).2 = .invalidArgument ∧
    (add Demo.fresh (some "SyncInterfaceBase")).2 = .invalidArgument ∧ (add Demo.full (some "Ptp")).2 = .alreadyExists ∧
    (add (create none) (some "Ptp")).2 = .argumentNull := by decide +kernel

/-! ## C318: the selected index within and after updates -/

/-- The index remains valid in every sequence of calls, with updates nested at will, in which
interfaces are only removed outside of updates. Missing: interfaces removed during updates. -/
theorem C318_valid_partial (t : Option (AList Name Ty)) (l : List Op)
    (h : ∀ l₁ c l₂, l = l₁ ++ .remove c :: l₂ → (run (create t) l₁).1.depth = 0) :
    Sound (interfaces (run (create t) l).1) (selected (run (create t) l).1) := by
  have key : ∀ (l : List Op) (s : St), Sound s.names s.src → (s.names = [] → s.src = 0) → s.names.Nodup →
      (∀ l₁ c l₂, l = l₁ ++ .remove c :: l₂ → (run s l₁).1.depth = 0) → Sound (run s l).1.names (run s l).1.src := by
    intro l
    induction l with
    | nil => intro s hs _ _ _; exact hs
    | cons o l ih =>
      intro s hs hz hd hr
      have hrest : ∀ l₁ c l₂, l = l₁ ++ .remove c :: l₂ → (run (step s o).1 l₁).1.depth = 0 :=
        fun l₁ c l₂ e => hr (o :: l₁) c l₂ (by rw [e]; rfl)
      have hgoal : Sound (step s o).1.names (step s o).1.src ∧ ((step s o).1.names = [] → (step s o).1.src = 0) ∧
          (step s o).1.names.Nodup := by
        have hwrite : ∀ (s : St) v, (write s v).1.names = s.names ∧ (s.names = [] → (write s v).1.src = s.src) := by
          intro s v
          unfold write
          split
          · next hv => exact ⟨rfl, fun e => by rw [e] at hv; simp at hv; omega⟩
          · exact ⟨rfl, fun _ => rfl⟩
        have happ : ∀ (q : List Int) (s : St), (apply s q).1.names = s.names ∧ (s.names = [] → (apply s q).1.src = s.src) := by
          intro q
          induction q with
          | nil => intro s; exact ⟨rfl, fun _ => rfl⟩
          | cons v q ihq =>
            intro s
            have hw := hwrite s v
            unfold apply
            rcases hx : write s v with ⟨s', e⟩
            rw [hx] at hw
            have hw1 : s'.names = s.names := hw.1
            cases e with
            | ok => exact ⟨(ihq s').1.trans hw1, fun e => ((ihq s').2 (hw1.trans e)).trans (hw.2 e)⟩
            | _ => exact hw
        cases o with
        | add c =>
          rcases add_grows s c with e | ⟨n, hn, e⟩
          · show Sound (add s c).1.names (add s c).1.src ∧ ((add s c).1.names = [] → (add s c).1.src = 0) ∧ (add s c).1.names.Nodup
            rw [e]; exact ⟨hs, hz, hd⟩
          · show Sound (add s c).1.names (add s c).1.src ∧ ((add s c).1.names = [] → (add s c).1.src = 0) ∧ (add s c).1.names.Nodup
            rw [e]
            refine ⟨fun _ => ?_, fun e => absurd e (by simp), ?_⟩
            · show 0 ≤ s.src ∧ s.src < ((s.names ++ [n]).length : Int)
              simp only [List.length_append, List.length_singleton, Int.natCast_add, Int.natCast_one]
              by_cases hnil : s.names = []
              · have := hz hnil; omega
              · have := hs hnil; omega
            · show (s.names ++ [n]).Nodup
              rw [List.nodup_append]
              exact ⟨hd, by simp, fun x hx y hy exy => by simp at hy; subst hy; subst exy; exact hn hx⟩
        | remove c =>
          have h0 : s.depth = 0 := hr [] c l rfl
          have r : Rel { s with queue := [] } ⟨s.names, s.names[s.src.toNat]?⟩ := by
            refine ⟨rfl, rfl, hd, h0, rfl, ?_, ?_⟩
            · show 0 ≤ s.src
              by_cases hnil : s.names = []
              · have := hz hnil; omega
              · exact (hs hnil).1
            · show s.src < max (1 : Int) (s.names.length : Int)
              by_cases hnil : s.names = []
              · have := hz hnil; omega
              · have := (hs hnil).2; omega
          have hsel : ∀ (u : St) (v : Int), u.depth = 0 →
              (select { u with queue := [] } v).1.names = (select u v).1.names ∧
              (select { u with queue := [] } v).1.src = (select u v).1.src ∧
              (select { u with queue := [] } v).2 = (select u v).2 := by
            intro u v hu
            unfold select
            rw [if_neg (show ¬ u.depth > 0 by omega), if_neg (show ¬ u.depth > 0 by omega)]
            unfold write
            show (if 0 ≤ v ∧ v < u.names.length then _ else _ : St × Code).1.names = _ ∧ _
            by_cases hv : 0 ≤ v ∧ v < u.names.length
            · rw [if_pos hv, if_pos hv]; exact ⟨rfl, rfl, rfl⟩
            · rw [if_neg hv, if_neg hv]; exact ⟨rfl, rfl, rfl⟩
          have hsame : (remove s c).1.names = (remove { s with queue := [] } c).1.names ∧
              (remove s c).1.src = (remove { s with queue := [] } c).1.src := by
            unfold remove
            simp only
            cases locate c 0 s.names with
            | none => exact ⟨rfl, rfl⟩
            | some i =>
              simp only
              have q0 := hsel { s with names := s.names.erase c } 0 h0
              have q1 := hsel { s with names := s.names.erase c } (s.src - 1) h0
              split
              · generalize select { names := s.names.erase c, src := s.src, depth := s.depth, queue := [], types := s.types } 0 = x at *
                generalize select { names := s.names.erase c, src := s.src, depth := s.depth, queue := s.queue, types := s.types } 0 = y at *
                obtain ⟨x1, x2⟩ := x
                obtain ⟨y1, y2⟩ := y
                have e1 : x1.names = y1.names := q0.1
                have e2 : x1.src = y1.src := q0.2.1
                cases x2 <;> cases y2 <;> exact ⟨e1.symm, e2.symm⟩
              · split
                · exact ⟨q1.1.symm, q1.2.1.symm⟩
                · exact ⟨rfl, rfl⟩
          obtain ⟨b, _, r', _⟩ := remove_rel r c
          have lo := r'.low
          have hi := r'.high
          show Sound (remove s c).1.names (remove s c).1.src ∧ ((remove s c).1.names = [] → (remove s c).1.src = 0) ∧ (remove s c).1.names.Nodup
          rw [hsame.1, hsame.2]
          refine ⟨fun hn => ?_, fun hn => ?_, r'.nodup⟩
          · have hp := List.length_pos_iff.2 hn
            exact ⟨lo, by omega⟩
          · rw [hn] at hi; simp at hi; omega
        | select v =>
          show Sound (select s v).1.names (select s v).1.src ∧ ((select s v).1.names = [] → (select s v).1.src = 0) ∧ (select s v).1.names.Nodup
          unfold select
          split
          · exact ⟨hs, hz, hd⟩
          · have hw := hwrite s v
            refine ⟨(write_sound hs v).1, fun e => ?_, hw.1 ▸ hd⟩
            rw [hw.1] at e
            rw [hw.2 e]; exact hz e
        | beginUpdate => exact ⟨hs, hz, hd⟩
        | endUpdate =>
          show Sound (endUpdate s).1.names (endUpdate s).1.src ∧ ((endUpdate s).1.names = [] → (endUpdate s).1.src = 0) ∧ (endUpdate s).1.names.Nodup
          unfold endUpdate
          split
          · exact ⟨hs, hz, hd⟩
          · split
            · have hw := happ s.queue { s with depth := 0, queue := [] }
              refine ⟨(apply_sound s.queue { s with depth := 0, queue := [] } hs).1, fun e => ?_, by rw [hw.1]; exact hd⟩
              rw [hw.1] at e
              rw [hw.2 e]; exact hz e
            · exact ⟨hs, hz, hd⟩
        | setTypes t => exact ⟨hs, hz, hd⟩
      exact ih _ hgoal.1 hgoal.2.1 hgoal.2.2 hrest
  exact key l _ (fun h => absurd rfl h) (fun _ => rfl) List.nodup_nil h

/-- The hypothesis holds of a sequence that selects and adds in an update, and removes afterwards. -/
example : (run Demo.fresh (Demo.three ++ [.beginUpdate, .select 1, .select 0, .endUpdate, .remove "Ptp"])).2 =
      [.ok, .ok, .ok, .ok, .ok, .ok, .ok, .ok, .ok] ∧
    (run Demo.fresh (Demo.three ++ [.beginUpdate, .select 1, .select 0, .endUpdate])).1.depth = 0 ∧
    (run Demo.fresh (Demo.three ++ [.beginUpdate, .select 1, .select 0, .endUpdate])).1.src = 0 := by decide +kernel

/-- When the first two of three interfaces are removed in an update then the selection of the third
is lost: the update fails, and the index is one no interface has. -/
theorem C318_violation_update : interfaces (run Demo.full Demo.trim).1 = ["Irig"] ∧
    selected (run Demo.full Demo.trim).1 = 2 ∧ (run Demo.full Demo.trim).2 = [.ok, .ok, .ok, .notFound] ∧
    ¬ Sound (interfaces (run Demo.full Demo.trim).1) (selected (run Demo.full Demo.trim).1) := by
  have h : (run Demo.full Demo.trim).1.names = ["Irig"] ∧ (run Demo.full Demo.trim).1.src = 2 ∧
      (run Demo.full Demo.trim).2 = [.ok, .ok, .ok, .notFound] := by decide +kernel
  refine ⟨h.1, h.2.1, h.2.2, fun hs => ?_⟩
  have := hs (by show (run Demo.full Demo.trim).1.names ≠ []; rw [h.1]; simp)
  have h1 : (run Demo.full Demo.trim).1.src < ((run Demo.full Demo.trim).1.names.length : Int) := this.2
  rw [h.1, h.2.1] at h1
  exact absurd h1 (by decide)

/-- The same update, with a fourth interface, selects the fourth instead of the third, and nothing
fails. -/
theorem C318_violation_other : interfaces Demo.four = ["Ptp", "Clock", "Irig", "Dcf"] ∧ selected Demo.four = 2 ∧
    interfaces (run Demo.four Demo.trim).1 = ["Irig", "Dcf"] ∧ selected (run Demo.four Demo.trim).1 = 1 ∧
    (run Demo.four Demo.trim).2 = [.ok, .ok, .ok, .ok] := by decide +kernel

/-! ## C319: adding an interface returns -/

/-- It returns when the parents of the class come to an end or reach the base class. -/
theorem C319_returns_partial (s : St) (c : Name) (h : ∀ t, s.types = some t → ¬ Endless t c) :
    (add s (some c)).2 ≠ .never := by
  unfold add
  simp only
  split
  · exact fun h => (nomatch h)
  · cases ht : s.types with
    | none => exact fun h => (nomatch h)
    | some t =>
      simp only
      cases hc : check (t.length + 1) t c with
      | none => exact absurd (check_endless hc) (h t ht)
      | some e =>
        rcases check_code _ _ _ hc with rfl | rfl
        · simp only [addProperty]; split <;> exact fun h => (nomatch h)
        · exact fun h => (nomatch h)

/-- No stack is large enough for two classes that are each other's parents. -/
theorem C319_violation_cycle : (add Demo.fresh (some "Left")).2 = .never ∧
    ∀ k, check k Demo.types "Left" = none :=
  ⟨by decide +kernel, fun k => endless_check k _ ⟨fun i => if i % 2 = 0 then "Left" else "Right", rfl, by
    intro i
    rcases Nat.mod_two_eq_zero_or_one i with h | h
    · have h' : (i + 1) % 2 = 1 := by omega
      simp only [h, h', if_true, if_neg (show ¬ (1 : Nat) = 0 by decide)]
      exact ⟨by decide +kernel, by decide⟩
    · have h' : (i + 1) % 2 = 0 := by omega
      simp only [h, h', if_true, if_neg (show ¬ (1 : Nat) = 0 by decide)]
      exact ⟨by decide +kernel, by decide⟩⟩⟩

/-! ## C320: selecting during updates -/

/-- Updates nest: one more has to end than before. -/
theorem C320_begin (s : St) : (beginUpdate s).2 = .ok ∧ (beginUpdate s).1.depth = s.depth + 1 ∧
    selected (beginUpdate s).1 = selected s ∧ interfaces (beginUpdate s).1 = interfaces s ∧
    (beginUpdate s).1.queue = s.queue := ⟨rfl, rfl, rfl, rfl, rfl⟩

/-- A selection made during an update is accepted, whatever the index, and nothing is selected yet. -/
theorem C320_deferred (s : St) (v : Int) (h : 0 < s.depth) :
    (select s v).2 = .ok ∧ selected (select s v).1 = selected s ∧ interfaces (select s v).1 = interfaces s ∧
      (select s v).1.queue = s.queue ++ [v] ∧ (select s v).1.depth = s.depth := by
  unfold select
  rw [if_pos (show s.depth > 0 from h)]
  exact ⟨rfl, rfl, rfl, rfl, rfl⟩

/-- At the end of the outermost update the selections are made in order, up to the first index no
interface has then, which the update fails with; the rest is dropped. -/
theorem C320_end (s : St) (h : s.depth = 1) :
    let fits : Int → Bool := fun v => decide (0 ≤ v) && decide (v < (interfaces s).length)
    selected (endUpdate s).1 = ((s.queue.takeWhile fits).getLast?).getD (selected s) ∧
    interfaces (endUpdate s).1 = interfaces s ∧
    (endUpdate s).2 = (if s.queue.all fits then .ok else .notFound) ∧
    (endUpdate s).1.depth = 0 ∧ (endUpdate s).1.queue = [] := by
  have key : ∀ (q : List Int) (u : St), u.names = s.names →
      (apply u q).1.src = ((q.takeWhile fun v => decide (0 ≤ v) && decide (v < (s.names.length : Int))).getLast?).getD u.src ∧
      (apply u q).1.names = s.names ∧
      (apply u q).2 = (if q.all (fun v => decide (0 ≤ v) && decide (v < (s.names.length : Int))) then .ok else .notFound) ∧
      (apply u q).1.depth = u.depth ∧ (apply u q).1.queue = u.queue := by
    intro q
    induction q with
    | nil => intro u hu; exact ⟨rfl, hu, rfl, rfl, rfl⟩
    | cons v q ih =>
      intro u hu
      obtain ⟨un, us, ud, uq, ut⟩ := u
      have hu' : un = s.names := hu
      subst hu'
      unfold apply write
      by_cases hv : 0 ≤ v ∧ v < (s.names.length : Int)
      · rw [if_pos hv]
        have hb : (decide (0 ≤ v) && decide (v < (s.names.length : Int))) = true := by simp [hv.1, hv.2]
        have := ih ⟨s.names, v, ud, uq, ut⟩ hu
        refine ⟨?_, this.2.1, ?_, this.2.2.2.1, this.2.2.2.2⟩
        · show (apply ⟨s.names, v, ud, uq, ut⟩ q).1.src = _
          rw [this.1, List.takeWhile_cons_of_pos (p := fun v => decide (0 ≤ v) && decide (v < (s.names.length : Int))) hb]
          cases hq : (q.takeWhile fun v => decide (0 ≤ v) && decide (v < (s.names.length : Int))) with
          | nil => rfl
          | cons x y => simp [List.getLast?_cons]
        · show (apply ⟨s.names, v, ud, uq, ut⟩ q).2 = _
          rw [this.2.2.1]
          simp only [List.all_cons, hb, Bool.true_and]
      · rw [if_neg hv]
        have hb : (decide (0 ≤ v) && decide (v < (s.names.length : Int))) = false := by
          by_cases h0 : 0 ≤ v
          · have : ¬ v < (s.names.length : Int) := fun h => hv ⟨h0, h⟩
            simp [h0, this]
          · simp [h0]
        refine ⟨?_, hu, ?_, rfl, rfl⟩
        · rw [List.takeWhile_cons_of_neg (by rw [hb]; simp)]; rfl
        · simp only [List.all_cons, hb, Bool.false_and]; rfl
  have := key s.queue { s with depth := 0, queue := [] } rfl
  unfold endUpdate
  rw [if_neg (show ¬ s.depth = 0 by omega), if_pos (show s.depth - 1 = 0 by omega)]
  exact ⟨this.1, this.2.1, this.2.2.1, this.2.2.2.1, this.2.2.2.2⟩

/-- An inner update that ends selects nothing, and one that was not begun is refused. -/
theorem C320_inner (s : St) (h : s.depth ≠ 1) :
    selected (endUpdate s).1 = selected s ∧ interfaces (endUpdate s).1 = interfaces s ∧
    (endUpdate s).1.queue = s.queue ∧ (endUpdate s).1.depth = s.depth - 1 ∧
    (endUpdate s).2 = (if s.depth = 0 then .invalidState else .ok) := by
  unfold endUpdate
  by_cases h0 : s.depth = 0
  · rw [if_pos h0, if_pos h0]; exact ⟨rfl, rfl, rfl, by show s.depth = _; omega, rfl⟩
  · rw [if_neg h0, if_neg (show ¬ s.depth - 1 = 0 by omega), if_neg h0]
    exact ⟨rfl, rfl, rfl, rfl, rfl⟩

example : (run Demo.full [.beginUpdate, .select 1, .select 9, .select 0, .endUpdate]).2 = [.ok, .ok, .ok, .ok, .notFound] ∧
    selected (run Demo.full [.beginUpdate, .select 1, .select 9, .select 0, .endUpdate]).1 = 1 := by decide +kernel

end Verif.Sync
