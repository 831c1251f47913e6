import Verif.Search.Props
import Mathlib.Tactic.ByContra

/-!
# No signal is missed (C104)
-/

namespace Verif.Search.Props

open Verif.Search Spec Relation

theorem tidy_sub {c e : Comp} (h : Tidy c) (he : Inside c e) : Tidy e := fun n hn => h n (he.trans hn)

theorem tidy_typed {c : Comp} (h : Tidy c) : Typed c := fun n hn r hr d hd => ((h n hn).role r hr).2 d hd

/-- Everything in an io folder that leads to a signal leads through a channel. -/
theorem io_reaches {d : Comp} (hd : d.info.kind = .signal) (n : Nat) : ∀ c : Comp, sizeOf c < n → Tidy c →
    c.info.kind = .ioFolder → Inside c d → ∃ ch, IoChannel (fun _ => True) c.items ch ∧ Inside ch d := by
  induction n with
  | zero => intro c h; omega
  | succ n ih =>
    intro c hn ht hk hi
    cases hi with
    | self => rw [hk] at hd; exact absurd hd (by decide)
    | @step _ e _ he hi =>
      rcases (ht c .self).io hk e he with h | h | h
      · exact ⟨e, .here he h, hi⟩
      · obtain ⟨ch, h1, h2⟩ := ih e (by have := size_item he; omega) (tidy_sub ht (inside_item he)) h hi
        exact ⟨ch, .deeper he h trivial h1, h2⟩
      · exact absurd hd (h d hi)

theorem all_reached {d : Comp} (hd : d.info.kind = .signal) (n : Nat) : ∀ c : Comp, sizeOf c < n → Tidy c →
    Owner c.info.kind → Inside c d →
    ∃ o, ReflTransGen (Step fun _ => True) c o ∧ Holds .sig o d := by
  induction n with
  | zero => intro c h; omega
  | succ n ih =>
    intro c hn ht hk hi
    cases hi with
    | self => rw [hd] at hk; exact absurd hk (by simp [Owner])
    | @step _ e _ he hi =>
      rcases (ht c .self).owner hk e he with h | ⟨r, hr, hf, hall⟩
      · exact absurd hd (h d hi)
      · have hte := tidy_sub ht (inside_item he)
        have hrole := (hte e .self).role r hr
        cases hi with
        | self => rw [hd] at hrole; exact absurd hrole.1 (by split <;> decide)
        | @step _ e' _ he' hi' =>
          have hfit := hrole.2 e' he'
          have hhold : Holds r c e' := ⟨e, hf, he'⟩
          have hte' := tidy_sub hte (inside_item he')
          have hsz : sizeOf e' < n := by have := hhold.size; omega
          have go : Owner e'.info.kind → Step (fun _ => True) c e' →
              ∃ o, ReflTransGen (Step fun _ => True) c o ∧ Holds .sig o d := by
            intro ho hs
            obtain ⟨o, h1, h2⟩ := ih e' hsz hte' ho hi'
            exact ⟨o, .head hs h1, h2⟩
          rcases hall with rfl | rfl | ⟨hdev, rfl | rfl⟩
          · have hleaf := (hte' e' .self).leaf (sig_leaf _ hfit)
            cases hi' with
            | self => exact ⟨c, .refl, hhold⟩
            | step hm _ => rw [hleaf] at hm; exact absurd hm (by simp)
          · exact go (.inr hfit) ⟨trivial, .inl hhold⟩
          · exact go (.inl hfit) ⟨trivial, .inr ⟨hdev, .inl hhold⟩⟩
          · obtain ⟨ch, h1, h2⟩ := io_reaches hd _ e (Nat.lt_succ_self _) hte (by simpa using hrole.1)
              (.step he' hi')
            have hc : HasChannel (fun _ => True) c ch := ⟨e, hf, h1⟩
            have hin := hc.inside
            obtain ⟨o, h3, h4⟩ := ih ch (by omega) (tidy_sub ht hin.1) (.inr (.inr h1.kind)) h2
            exact ⟨o, .head ⟨trivial, .inr ⟨hdev, .inr hc⟩⟩ h3, h4⟩

theorem inside_under {v : Info → Prop} (hv : ∀ i, v i) {c d : Comp} (ht : Tidy c) (h : Inside c d) :
    d = c ∨ Under v c d := by
  induction h with
  | self => exact .inl rfl
  | @step c e d he hi ih =>
    right
    rcases ih (tidy_sub ht (inside_item he)) with rfl | hu
    · exact .child he
    · refine .deeper he (hv _) ?_ hu
      by_contra hk
      have hl := (ht e (inside_item he)).leaf (by simpa using hk)
      cases hu with
      | child h => rw [hl] at h; exact absurd h (by simp)
      | deeper h _ _ _ => rw [hl] at h; exact absurd h (by simp)

/-- A filter that enters everything finds every wanted signal of a device, channel or function block, at any depth
and through any mixture of devices, io folders, channels and function blocks. -/
theorem C104_no_signal_missed (f : Filter) (hv : ∀ i, Enters f i) (c d : Comp) (h : DistinctIds c) (ht : Tidy c)
    (hk : Owner c.info.kind) :
    d ∈ getSignals c (some (.recursive f)) ↔
      Wants f d.info ∧ d.info.kind = .signal ∧ Inside c d := by
  have hve : Enters f = fun _ => True := by funext i; exact eq_true (hv i)
  rw [C101_signals f c d h (tidy_typed ht)]
  refine and_congr Iff.rfl ⟨?_, ?_⟩
  · rintro ⟨o, ho, hd⟩
    have hi := Reach.inside ho
    exact ⟨Holds.fits (tidy_typed (tidy_sub ht hi)) hd, hi.trans hd.inside⟩
  · rintro ⟨hd, hi⟩
    rw [hve]
    exact all_reached hd _ c (Nat.lt_succ_self _) ht hk hi

/-- Listing the signals and searching the whole tree for signals agree. -/
theorem C104_agrees (f : Filter) (hv : ∀ i, Enters f i) (c d : Comp) (h : DistinctIds c) (ht : Tidy c)
    (hk : Owner c.info.kind) :
    d ∈ getSignals c (some (.recursive f)) ↔ d ∈ getItems (.recursive (.and (.intf .signal) f)) c := by
  rw [C104_no_signal_missed f hv c d h ht hk, C100_exact _ c d h]
  have hs : Wants (.and (.intf .signal) f) d.info ↔ d.info.kind = .signal ∧ Wants f d.info := by
    simp only [Wants]
    refine and_congr ?_ Iff.rfl
    cases d.info.kind <;> simp [Kind.supports]
  rw [hs]
  constructor
  · rintro ⟨hw, hd, hi⟩
    refine ⟨⟨hd, hw⟩, ?_⟩
    rcases inside_under (v := Enters (.and (.intf .signal) f)) (fun i => ⟨trivial, hv i⟩) ht hi with rfl | hu
    · rw [hd] at hk; exact absurd hk (by simp [Owner])
    · exact hu
  · rintro ⟨⟨hd, hw⟩, hu⟩
    exact ⟨hw, hd, hu.inside⟩

/-- A check that implies `Tidy`. -/
def noSignalsB (c : Comp) : Bool := (nodes c).all fun d => !decide (d.info.kind = .signal)

def tidyNodeB (n : Comp) : Bool :=
  (n.info.kind.supports .folder || n.items.isEmpty) &&
  (!(decide (n.info.kind = .device) || decide (n.info.kind = .fb) || decide (n.info.kind = .channel)) ||
    n.items.all fun e => noSignalsB e || match e.info.role with
      | none => false
      | some r => ((n.items.find? (fun x => decide (x.info.role = some r))).map (fun x => x.info.gid) ==
          some e.info.gid) &&
        (decide (r = .sig) || decide (r = .fb) ||
          (decide (n.info.kind = .device) && (decide (r = .dev) || decide (r = .io))))) &&
  (match n.info.role with
    | none => true
    | some r => decide (n.info.kind = (if r = .io then .ioFolder else .folder)) &&
        n.items.all fun d => fitsB r d.info.kind) &&
  (!decide (n.info.kind = .ioFolder) || n.items.all fun e =>
    decide (e.info.kind = .channel) || decide (e.info.kind = .ioFolder) || noSignalsB e)

theorem noSignals_of {c : Comp} (h : noSignalsB c = true) : NoSignals c := by
  intro d hd
  have := List.all_eq_true.mp h d (inside_nodes hd)
  simpa using this

theorem tidy_of {c : Comp} (hd : DistinctIds c) (h : (nodes c).all tidyNodeB = true) : Tidy c := by
  intro n hn
  have hb := List.all_eq_true.mp h n (inside_nodes hn)
  simp only [tidyNodeB, Bool.and_eq_true] at hb
  obtain ⟨⟨⟨h1, h2⟩, h3⟩, h4⟩ := hb
  refine ⟨?_, ?_, ?_, ?_⟩
  · intro hk
    rw [hk] at h1
    simpa using h1
  · intro ho e he
    have hall : (n.items.all fun e => noSignalsB e || match e.info.role with
      | none => false
      | some r => ((n.items.find? (fun x => decide (x.info.role = some r))).map (fun x => x.info.gid) ==
          some e.info.gid) &&
        (decide (r = .sig) || decide (r = .fb) ||
          (decide (n.info.kind = .device) && (decide (r = .dev) || decide (r = .io))))) = true := by
      rcases ho with hk | hk | hk <;> rw [hk] at h2 <;> simpa [hk] using h2
    have hx := List.all_eq_true.mp hall e he
    rw [Bool.or_eq_true] at hx
    rcases hx with hx | hx
    · exact .inl (noSignals_of hx)
    · right
      cases hr : e.info.role with
      | none => rw [hr] at hx; exact absurd hx (by simp)
      | some r =>
        rw [hr] at hx
        simp only [Bool.and_eq_true, beq_iff_eq, Option.map_eq_some_iff] at hx
        obtain ⟨⟨x, hx1, hx2⟩, hx3⟩ := hx
        have hxe : x = e := DistinctIds.unique hd x e (hn.trans (inside_item (find_mem hx1)))
          (hn.trans (inside_item he)) hx2
        refine ⟨r, rfl, hxe ▸ hx1, ?_⟩
        simp only [Bool.or_eq_true, Bool.and_eq_true, decide_eq_true_eq] at hx3
        rcases hx3 with (h | h) | h
        · exact .inl h
        · exact .inr (.inl h)
        · exact .inr (.inr h)
  · intro r hr
    rw [hr] at h3
    simp only [Bool.and_eq_true, decide_eq_true_eq] at h3
    refine ⟨h3.1, fun d hd' => ?_⟩
    have hq := List.all_eq_true.mp h3.2 d hd'
    cases r <;> simpa [fitsB, Fits] using hq
  · intro hk e he
    rw [hk] at h4
    simp only [decide_true, Bool.not_true, Bool.false_or] at h4
    have hq := List.all_eq_true.mp h4 e he
    simp only [Bool.or_eq_true, decide_eq_true_eq] at hq
    rcases hq with (h | h) | h
    · exact .inl h
    · exact .inr (.inl h)
    · exact .inr (.inr (noSignals_of h))

/-- The system of the examples is laid out this way. -/
example : Tidy root := tidy_of root_distinct (by decide +kernel)
example : ∀ i, Enters (.and (.intf .signal) (.localId 20)) i := fun _ => ⟨trivial, trivial⟩
example : gids (getSignals root (some (.recursive (.and (.intf .signal) (.localId 20))))) =
    [114, 105, 124, 134, 145] := by decide +kernel

end Verif.Search.Props
