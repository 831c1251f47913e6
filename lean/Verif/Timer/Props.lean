import Verif.Timer.Demo

/-! # Properties of timers -/

namespace Verif.Timer

def Ts.value (t : Ts) : Int := t.sec * K + t.nsec

theorem value_add (a b : Ts) : (a.add b).value = a.value + b.value := by
  have h := Int.mul_tdiv_add_tmod (a.nsec + b.nsec) K
  simp only [Ts.value, Ts.add, Ts.norm]
  have e : (a.sec + b.sec + (a.nsec + b.nsec).tdiv K) * K
      = a.sec * K + b.sec * K + K * (a.nsec + b.nsec).tdiv K := by
    rw [Int.add_mul, Int.add_mul, Int.mul_comm K]
  rw [e]
  omega

theorem value_ofMicros (m : Int) : (ofMicros m).value = 1000 * m := by
  have h := Int.mul_tdiv_add_tmod m 1000000
  simp only [Ts.value, ofMicros, K]
  omega

theorem value_ofClock (n : Nat) : (ofClock n).value = n := by
  simp only [Ts.value, ofClock, K]
  omega

theorem ok_add (a b : Ts) (ha : 0 ≤ a.nsec) (hb : 0 ≤ b.nsec) : (a.add b).ok = true := by
  have p : (0 : Int) < K := by decide
  exact decide_eq_true ⟨Int.tmod_nonneg _ (Int.add_nonneg ha hb), Int.tmod_lt_of_pos _ p⟩

theorem nsec_ofMicros (m : Int) (h : 0 ≤ m) : 0 ≤ (ofMicros m).nsec := by
  have := Int.tmod_nonneg 1000000 h
  simp only [ofMicros]
  omega

theorem nsec_ofClock (n : Nat) : 0 ≤ (ofClock n).nsec := Int.emod_nonneg _ (by decide)

theorem nsec_ok (t : Ts) (h : t.ok = true) : 0 ≤ t.nsec := by
  exact (of_decide_eq_true h).1

theorem past_iff (t : Ts) (n : Nat) : t.past n = true ↔ t.value ≤ n := by
  simp [Ts.past, Ts.value]

/-! ## C368, C369: when calls begin -/

/-- When the next call may begin. -/
def due (i d : Int) (r : Bool) (s : State) : Int :=
  if r then atRate s.birth d i s.begun.length else afterDelay s.birth d i s.ended.getLast?

/-- What holds of a timer with these times. -/
structure Good (i d : Int) (r : Bool) (s : State) : Prop where
  interval : s.interval = i
  delay : s.delay = d
  rate : s.rate = r
  count : s.count = s.begun.length
  fresh : s.pc = .born → s.begun = [] ∧ s.ended = []
  next : s.pc = .loop ∨ s.pc = .checked ∨ s.pc = .wait →
    s.ts.value = due i d r s ∧ s.ts.ok = true ∧ s.waitTs = ofMicros i
  call : s.pc = .calling → s.ended.length + 1 = s.begun.length ∧ s.ts.ok = true ∧ s.waitTs = ofMicros i
    ∧ s.ts.value + 1000 * i = atRate s.birth d i s.begun.length ∨ r = false ∧ s.pc = .calling
      ∧ s.ended.length + 1 = s.begun.length ∧ s.waitTs = ofMicros i
  live : s.started = false → s.pc = .idle
  pairs : s.pc ≠ .calling → s.ended.length = s.begun.length
  rates : r = true → ∀ k t : Nat, s.begun[k]? = some t → atRate s.birth d i k ≤ t
  first : r = false → ∀ t : Nat, s.begun[0]? = some t → afterDelay s.birth d i none ≤ t
  gaps : r = false → ∀ k t e : Nat, s.begun[k + 1]? = some t → s.ended[k]? = some e → afterDelay s.birth d i (some e) ≤ t

theorem append_at {α : Type} (l : List α) (a b : α) (k : Nat) (h : (l ++ [a])[k]? = some b) :
    l[k]? = some b ∨ k = l.length ∧ b = a := by
  rcases Nat.lt_trichotomy k l.length with c | c | c
  · left; rw [List.getElem?_append_left c] at h; exact h
  · right; subst c; rw [List.getElem?_concat_length] at h; exact ⟨rfl, (Option.some.inj h).symm⟩
  · rw [List.getElem?_eq_none (by simp; omega)] at h; cases h

theorem lt_of_at {α : Type} (l : List α) (b : α) (k : Nat) (h : l[k]? = some b) : k < l.length := by
  rcases Nat.lt_or_ge k l.length with c | c
  · exact c
  · rw [List.getElem?_eq_none c] at h; cases h

/-- A step that moves the thread only. -/
theorem good_move {i d : Int} {r : Bool} (s t : State) (g : Good i d r s) (a : t.interval = s.interval)
    (b : t.delay = s.delay) (c : t.rate = s.rate) (e : t.count = s.count) (f : t.begun = s.begun)
    (h : t.ended = s.ended) (j : t.birth = s.birth) (k : t.ts = s.ts) (l : t.waitTs = s.waitTs)
    (lv : t.started = false → t.pc = .idle)
    (p : t.pc = s.pc ∨ (s.pc ≠ .calling ∧ (t.pc = .idle ∨ t.pc = .done))
      ∨ ((s.pc = .loop ∨ s.pc = .checked ∨ s.pc = .wait) ∧ (t.pc = .loop ∨ t.pc = .checked ∨ t.pc = .wait))) :
    Good i d r t := by
  have du : due i d r t = due i d r s := by simp only [due, f, h, j]
  refine ⟨a.trans g.interval, b.trans g.delay, c.trans g.rate, by rw [e, f]; exact g.count, fun q => ?_,
    fun q => ?_, fun q => ?_, lv, fun q => ?_, ?_, ?_, ?_⟩
  · rw [f, h]
    rcases p with p | ⟨-, p | p⟩ | ⟨-, p | p | p⟩
    · exact g.fresh (p.symm.trans q)
    all_goals rw [q] at p; cases p
  · rw [k, l, du]
    rcases p with p | ⟨-, p⟩ | ⟨p, -⟩
    · rw [p] at q; exact g.next q
    · rcases p with p | p <;> rw [p] at q <;> rcases q with q | q | q <;> cases q
    · exact g.next p
  · rcases p with p | ⟨-, p | p⟩ | ⟨-, p | p | p⟩
    · have := g.call (p.symm.trans q)
      rw [h, f, k, l, j, p]
      exact this
    all_goals rw [q] at p; cases p
  · rw [f, h]
    refine g.pairs fun z => ?_
    rcases p with p | ⟨p, -⟩ | ⟨p, -⟩
    · exact q (p.trans z)
    · exact p z
    · rw [z] at p; rcases p with p | p | p <;> cases p
  · rw [f, j]; exact g.rates
  · rw [f, j]; exact g.first
  · rw [f, h, j]; exact g.gaps

theorem good_step {i d : Int} {r : Bool} (hi : 0 ≤ i) (hd : 0 ≤ d) (s : State) (op : Op) (fx : Fixed op)
    (g : Good i d r s) : Good i d r (s.step op) := by
  cases op with
  | tick n => exact good_move s _ g rfl rfl rfl rfl rfl rfl rfl rfl rfl g.live (.inl rfl)
  | setInterval ms => exact fx.elim
  | setDelay ms => exact fx.elim
  | setRate b => exact fx.elim
  | start =>
    simp only [State.step]
    split
    · exact g
    · exact ⟨g.interval, g.delay, g.rate, rfl, fun _ => ⟨rfl, rfl⟩, fun q => by simp at q, fun q => by simp at q,
        fun q => by simp at q, fun _ => rfl, fun _ _ _ z => by simp at z, fun _ _ z => by simp at z, fun _ _ _ _ z => by simp at z⟩
  | stop =>
    simp only [State.step]
    split
    · exact good_move s _ g rfl rfl rfl rfl rfl rfl rfl rfl rfl g.live (.inl rfl)
    · exact g
  | notify =>
    simp only [State.step]
    split
    · refine good_move s _ g rfl rfl rfl rfl rfl rfl rfl rfl rfl (fun z => by have := g.live z; simp_all) ?_
      by_cases w : s.pc = .wait
      · exact .inr (.inr ⟨.inr (.inr w), .inl (by simp [w])⟩)
      · exact .inl (by simp [w])
    · exact g
  | join =>
    simp only [State.step]
    split
    · next h =>
      by_cases c : s.pc = .calling
      · have ns : s.started ≠ true := fun z => by have := h.2 z; rw [c] at this; cases this
        have := g.live (Bool.eq_false_iff.mpr ns)
        rw [c] at this
        cases this
      · exact good_move s _ g rfl rfl rfl rfl rfl rfl rfl rfl rfl (fun _ => rfl) (.inr (.inl ⟨c, .inl rfl⟩))
    · exact g
  | born =>
    simp only [State.step]
    split
    · next h =>
      obtain ⟨fb, fe⟩ := g.fresh h
      refine ⟨g.interval, g.delay, g.rate, g.count, nofun, fun _ => ⟨?_, ?_, by rw [← g.interval]⟩,
        nofun, fun z => (by have := g.live z; simp_all), fun _ => by rw [fb, fe], ?_, ?_, ?_⟩
      · simp only [due, fb, fe, value_add, value_ofClock, value_ofMicros, g.delay, atRate, afterDelay,
          List.getLast?_nil, List.length_nil]
        cases r <;> simp
      · exact ok_add _ _ (nsec_ofClock _) (nsec_ofMicros _ (by rw [g.delay]; exact hd))
      · intro _ k t z; rw [fb] at z; simp at z
      · intro _ t z; rw [fb] at z; simp at z
      · intro _ k t e z; rw [fb] at z; simp at z
    · exact g
  | check =>
    simp only [State.step]
    split
    · next h =>
      refine good_move s _ g rfl rfl rfl rfl rfl rfl rfl rfl rfl (fun z => by have := g.live z; simp_all) ?_
      cases s.terminated
      · exact .inr (.inr ⟨.inl h, .inr (.inl rfl)⟩)
      · exact .inr (.inl ⟨by rw [h]; decide, .inr rfl⟩)
    · exact g
  | sleep =>
    simp only [State.step]
    split
    · next h => exact good_move s _ g rfl rfl rfl rfl rfl rfl rfl rfl rfl (fun z => by have := g.live z; simp_all) (.inr (.inr ⟨.inr (.inl h), .inr (.inr rfl)⟩))
    · exact g
  | wake =>
    simp only [State.step]
    split
    · next h => exact good_move s _ g rfl rfl rfl rfl rfl rfl rfl rfl rfl (fun z => by have := g.live z; simp_all) (.inr (.inr ⟨.inr (.inr h), .inl rfl⟩))
    · exact g
  | timeout =>
    simp only [State.step]
    split
    · next h =>
      obtain ⟨w, ok, pa⟩ := h
      rw [past_iff] at pa
      obtain ⟨v, -, wt⟩ := g.next (.inr (.inr w))
      have pr := g.pairs (by rw [w]; decide)
      rw [v] at pa
      refine ⟨g.interval, g.delay, g.rate, by simp [g.count], nofun, fun q => by simp at q,
        fun _ => ?_, fun z => (by have := g.live z; simp_all), fun q => absurd rfl q, ?_, ?_, ?_⟩
      · cases r with
        | false => exact .inr ⟨rfl, rfl, by simp [pr], wt⟩
        | true =>
          refine .inl ⟨by simp [pr], ok, wt, ?_⟩
          rw [v]
          simp only [due, if_true, atRate, List.length_append, List.length_singleton]
          rw [Int.natCast_add, Int.add_mul]
          omega
      · intro hr k t z
        rcases append_at _ _ _ _ z with z | ⟨z, y⟩
        · exact g.rates hr k t z
        · subst hr; subst z; subst y; exact pa
      · intro hr t z
        rcases append_at _ _ _ _ z with z | ⟨z, y⟩
        · exact g.first hr t z
        · subst hr; subst y
          have : s.ended = [] := List.length_eq_zero_iff.mp (by omega)
          simpa [due, this] using pa
      · intro hr k t e z x
        rcases append_at _ _ _ _ z with z | ⟨z, y⟩
        · exact g.gaps hr k t e z x
        · subst hr; subst y
          have : s.ended.getLast? = some e := by
            rw [List.getLast?_eq_getElem?, show s.ended.length - 1 = k by omega]; exact x
          simpa [due, this] using pa
    · exact g
  | finish =>
    simp only [State.step]
    split
    · next h =>
      have cl := g.call h
      have le : s.ended.length + 1 = s.begun.length := by
        rcases cl with x | x
        · exact x.1
        · exact x.2.2.1
      have wt : s.waitTs = ofMicros i := by
        rcases cl with x | x
        · exact x.2.2.1
        · exact x.2.2.2
      refine ⟨g.interval, g.delay, g.rate, g.count, nofun, fun _ => ⟨?_, ?_, wt⟩, nofun,
        fun z => (by have := g.live z; simp_all), fun _ => (by rw [List.length_append]; exact le), g.rates, g.first, ?_⟩
      · rw [value_add, wt, value_ofMicros, g.rate]
        cases r with
        | false => simp [due, afterDelay, value_ofClock]
        | true =>
          rcases cl with x | x
          · exact x.2.2.2
          · cases x.1
      · rw [wt]
        refine ok_add _ _ ?_ (nsec_ofMicros _ hi)
        rw [g.rate]
        cases r with
        | false => exact nsec_ofClock _
        | true =>
          rcases cl with x | x
          · exact nsec_ok _ x.2.1
          · cases x.1
      · intro hr k t e z x
        rcases append_at _ _ _ _ x with x | ⟨x, -⟩
        · exact g.gaps hr k t e z x
        · have : k + 1 < s.begun.length := lt_of_at _ _ _ z
          omega
    · exact g

theorem good_make (i d : Int) (r : Bool) (n : Nat) : Good i d r (make i (some d) r n) :=
  ⟨rfl, rfl, rfl, rfl, nofun, fun q => by simp [make] at q, nofun, fun _ => rfl, fun _ => rfl,
    fun _ _ _ z => by simp [make] at z, fun _ _ z => by simp [make] at z, fun _ _ _ _ z => by simp [make] at z⟩

theorem good_run {i d : Int} {r : Bool} (hi : 0 ≤ i) (hd : 0 ≤ d) (ops : List Op) : ∀ s, (∀ op ∈ ops, Fixed op) →
    Good i d r s → Good i d r (run s ops) := by
  induction ops with
  | nil => exact fun _ _ g => g
  | cons op ops ih =>
    exact fun s f g => ih _ (fun o m => f o (List.mem_cons_of_mem _ m))
      (good_step hi hd s op (f op List.mem_cons_self) g)

/-- At a fixed rate no call begins too early, and the times do not drift: whatever the calls before took,
the call of number `k` since the start begins not before the delay and `k` intervals have passed since the
thread began. -/
theorem C368_rate (i d : Int) (n : Nat) (ops : List Op) (hi : 0 ≤ i) (hd : 0 ≤ d) (f : ∀ op ∈ ops, Fixed op)
    (k t : Nat) (h : (run (make i (some d) true n) ops).begun[k]? = some t) :
    atRate (run (make i (some d) true n) ops).birth d i k ≤ t :=
  (good_run hi hd ops _ f (good_make i d true n)).rates rfl k t h

example : (run (make 1000000 (some 500000) true 7) calls).begun = [1100000007, 2400000007]
    ∧ atRate 7 500000 1000000 1 = 1500000007 := by decide

/-- A waiting timer of fixed rate can call as soon as the time has come. -/
theorem C368_due (i d : Int) (n : Nat) (ops : List Op) (hi : 0 ≤ i) (hd : 0 ≤ d) (f : ∀ op ∈ ops, Fixed op) :
    ∀ s, s = run (make i (some d) true n) ops → s.pc = .wait → atRate s.birth d i s.begun.length ≤ s.now →
      (s.step .timeout).begun = s.begun ++ [s.now] := by
  intro s e w h
  have g : Good i d true s := by rw [e]; exact good_run hi hd ops _ f (good_make i d true n)
  obtain ⟨v, o, -⟩ := g.next (.inr (.inr w))
  have p : s.ts.past s.now = true := (past_iff _ _).mpr (by rw [v]; exact h)
  simp [State.step, w, o, p]

example : (run (make 1000000 none true 7) up).pc = .wait := by decide

/-- The number of calls is the number of calls that began since the last start. -/
theorem C368_count (i d : Int) (r : Bool) (n : Nat) (ops : List Op) (hi : 0 ≤ i) (hd : 0 ≤ d)
    (f : ∀ op ∈ ops, Fixed op) :
    (run (make i (some d) r n) ops).count = (run (make i (some d) r n) ops).begun.length :=
  (good_run hi hd ops _ f (good_make i d r n)).count

example : (run (make 1000000 none true 7) calls).count = 2 := by decide

/-- With a fixed delay, the first call begins not before the delay has passed, and every other not before the
interval has passed since the call before ended. -/
theorem C369_delay (i d : Int) (n : Nat) (ops : List Op) (hi : 0 ≤ i) (hd : 0 ≤ d) (f : ∀ op ∈ ops, Fixed op) :
    ∀ s, s = run (make i (some d) false n) ops →
      (∀ t : Nat, s.begun[0]? = some t → s.birth + 1000 * d ≤ t)
        ∧ ∀ k t : Nat, s.begun[k + 1]? = some t → ∃ e, s.ended[k]? = some e ∧ e + 1000 * i ≤ t := by
  intro s q
  have g : Good i d false s := by rw [q]; exact good_run hi hd ops _ f (good_make i d false n)
  refine ⟨fun t h => g.first rfl t h, fun k t h => ?_⟩
  have lt := lt_of_at _ _ _ h
  have le : k < s.ended.length := by
    by_cases c : s.pc = .calling
    · rcases g.call c with x | x
      · have := x.1; omega
      · have := x.2.2.1; omega
    · have := g.pairs c; omega
  exact ⟨s.ended[k], List.getElem?_eq_getElem le, g.gaps rfl k t _ h (List.getElem?_eq_getElem le)⟩

example : (run (make 1000000 (some 500000) false 7) calls).begun = [1100000007, 2400000007]
    ∧ (run (make 1000000 (some 500000) false 7) calls).ended = [1400000007, 2700000007] := by decide

/-- A waiting timer of fixed delay can call as soon as the time has come. -/
theorem C369_due (i d : Int) (n : Nat) (ops : List Op) (hi : 0 ≤ i) (hd : 0 ≤ d) (f : ∀ op ∈ ops, Fixed op) :
    ∀ s, s = run (make i (some d) false n) ops → s.pc = .wait →
      afterDelay s.birth d i s.ended.getLast? ≤ s.now → (s.step .timeout).begun = s.begun ++ [s.now] := by
  intro s e w h
  have g : Good i d false s := by rw [e]; exact good_run hi hd ops _ f (good_make i d false n)
  obtain ⟨v, o, -⟩ := g.next (.inr (.inr w))
  have p : s.ts.past s.now = true := (past_iff _ _).mpr (by rw [v]; exact h)
  simp [State.step, w, o, p]

example : (run (make 1000000 none false 7) up).pc = .wait := by decide

/-! ## C370: a timer that was stopped is still -/

/-- Once `stop` has returned, nothing begins, and nothing is under way, until the timer is started again. -/
theorem C370_stopped (s : State) (ops : List Op) (h : (s.step .join).stop ≠ s.stop) (m : ∀ op ∈ ops, op ≠ .start) :
    (run (s.step .join) ops).begun = s.begun ∧ (run (s.step .join) ops).ended = s.ended
      ∧ (run (s.step .join) ops).pc = .idle := by
  have k : ∀ (ops : List Op) (t : State), t.pc = .idle → (∀ op ∈ ops, op ≠ .start) →
      (run t ops).begun = t.begun ∧ (run t ops).ended = t.ended ∧ (run t ops).pc = .idle := by
    intro ops
    induction ops with
    | nil => exact fun t p _ => ⟨rfl, rfl, p⟩
    | cons op ops ih =>
      intro t p m
      have st : (t.step op).pc = .idle ∧ (t.step op).begun = t.begun ∧ (t.step op).ended = t.ended := by
        have ns := m op List.mem_cons_self
        cases op with
        | start => exact absurd rfl ns
        | stop => simp only [State.step]; split <;> exact ⟨p, rfl, rfl⟩
        | notify => simp only [State.step, p]; split <;> exact ⟨by simp [p], rfl, rfl⟩
        | join => simp only [State.step]; split <;> exact ⟨by simp [p], rfl, rfl⟩
        | _ => simp [State.step, p]
      obtain ⟨a, b, c⟩ := ih _ st.1 (fun o q => m o (List.mem_cons_of_mem _ q))
      exact ⟨a.trans st.2.1, b.trans st.2.2, c⟩
  have e : (s.step .join).pc = .idle ∧ (s.step .join).begun = s.begun ∧ (s.step .join).ended = s.ended := by
    simp only [State.step] at h ⊢
    split at h
    · next c => rw [if_pos c]; exact ⟨rfl, rfl, rfl⟩
    · exact absurd rfl h
  obtain ⟨a, b, c⟩ := k ops _ e.1 m
  exact ⟨a.trans e.2.1, b.trans e.2.2, c⟩

example : (run (make 1000000 none true 7) late).started = false
    ∧ (run (make 1000000 none true 7) late).stop = .none := by decide

/-- It can then be started again, and counts from 0. -/
theorem C370_again (s : State) (h : (s.step .join).stop ≠ s.stop) :
    ((s.step .join).step .start).started = true ∧ ((s.step .join).step .start).terminated = false
      ∧ ((s.step .join).step .start).pc = .born ∧ ((s.step .join).step .start).count = 0 := by
  have e : s.step .join = { s with stop := .none, started := false, pc := .idle } := by
    simp only [State.step] at h ⊢
    split at h
    · next c => rw [if_pos c]
    · exact absurd rfl h
  rw [e]
  simp [State.step]

example : (run (make 1000000 none true 7) (late ++ [.start])).pc = .born := by decide

/-- Calls are paired with their ends, and a timer that is not started has no thread. -/
def Paired (s : State) : Prop :=
  (s.started = false → s.pc = .idle) ∧ s.begun.length = s.ended.length + (if s.pc = .calling then 1 else 0)

theorem paired_step (s : State) (op : Op) (h : Paired s) : Paired (s.step op) := by
  obtain ⟨a, b⟩ := h
  have live : ∀ q : PC, s.pc = q → q ≠ .idle → s.started = true := fun q e n =>
    (Bool.eq_false_or_eq_true s.started).resolve_right (fun f => n (e ▸ a f))
  cases op with
  | tick n => exact ⟨a, b⟩
  | setInterval ms => exact ⟨a, b⟩
  | setDelay ms => exact ⟨a, b⟩
  | setRate r => exact ⟨a, b⟩
  | start =>
    simp only [State.step]
    split
    · exact ⟨a, b⟩
    · exact ⟨nofun, rfl⟩
  | stop =>
    simp only [State.step]
    split <;> exact ⟨a, b⟩
  | notify =>
    simp only [State.step]
    split
    · by_cases w : s.pc = .wait
      · refine ⟨fun f => absurd (f.symm.trans (live _ w nofun)) nofun, ?_⟩
        simpa [w] using b
      · rw [if_neg w]; exact ⟨a, b⟩
    · exact ⟨a, b⟩
  | join =>
    simp only [State.step]
    split
    · next c =>
      have n : s.pc ≠ .calling := by
        cases e : s.started with
        | true => rw [c.2 e]; nofun
        | false => rw [a e]; nofun
      exact ⟨fun _ => rfl, by simpa [n] using b⟩
    · exact ⟨a, b⟩
  | born =>
    simp only [State.step]
    split
    · next w => exact ⟨fun f => absurd (f.symm.trans (live _ w nofun)) nofun, by simpa [w] using b⟩
    · exact ⟨a, b⟩
  | check =>
    simp only [State.step]
    split
    · next w =>
      refine ⟨fun f => absurd (f.symm.trans (live _ w nofun)) nofun, ?_⟩
      cases s.terminated <;> simpa [w] using b
    · exact ⟨a, b⟩
  | sleep =>
    simp only [State.step]
    split
    · next w => exact ⟨fun f => absurd (f.symm.trans (live _ w nofun)) nofun, by simpa [w] using b⟩
    · exact ⟨a, b⟩
  | timeout =>
    simp only [State.step]
    split
    · next w => exact ⟨fun f => absurd (f.symm.trans (live _ w.1 nofun)) nofun, by simpa [w.1] using b⟩
    · exact ⟨a, b⟩
  | wake =>
    simp only [State.step]
    split
    · next w => exact ⟨fun f => absurd (f.symm.trans (live _ w nofun)) nofun, by simpa [w] using b⟩
    · exact ⟨a, b⟩
  | finish =>
    by_cases w : s.pc = .calling
    · have e : s.step .finish = { s with
          ended := s.ended ++ [s.now]
          ts := (if s.rate then s.ts else ofClock s.now).add s.waitTs
          pc := .loop } := if_pos w
      rw [e]
      refine ⟨fun f => absurd (f.symm.trans (live _ w nofun)) nofun, ?_⟩
      rw [if_pos w] at b
      show s.begun.length = (s.ended ++ [s.now]).length + 0
      rw [b, List.length_append]; rfl
    · have e : s.step .finish = s := if_neg w
      rw [e]; exact ⟨a, b⟩

theorem paired_run (ops : List Op) : ∀ s : State, Paired s → Paired (run s ops) := by
  induction ops with
  | nil => exact fun s h => h
  | cons op ops ih => exact fun s h => ih _ (paired_step s op h)

/-- When `stop` returns, every call that began has ended. -/
theorem C370_ended (i : Int) (d : Option Int) (r : Bool) (now : Nat) (ops : List Op)
    (h : ((run (make i d r now) ops).step .join).stop ≠ (run (make i d r now) ops).stop) :
    (run (make i d r now) ops).begun.length = (run (make i d r now) ops).ended.length := by
  have p : Paired (run (make i d r now) ops) := paired_run ops _ ⟨fun _ => rfl, rfl⟩
  generalize run (make i d r now) ops = s at h p ⊢
  obtain ⟨a, b⟩ := p
  simp only [State.step] at h
  split at h
  · next c =>
    have n : s.pc ≠ .calling := by
      cases e : s.started with
      | true => rw [c.2 e]; nofun
      | false => rw [a e]; nofun
    rw [b, if_neg n, Nat.add_zero]
  · exact absurd rfl h

example : (run (make 1000000 none true 7) late).stop = .none
    ∧ (run (make 1000000 none true 7) (late.take 10)).stop = .notified
    ∧ (run (make 1000000 none true 7) late).ended.length = 1 := by decide

/-- Starting a timer that is started changes nothing: it gets no second thread. -/
theorem C370_twice (s : State) (h : s.started = true) : s.step .start = s := by
  simp [State.step, h]

/-- A thread that waits when it is notified of the stop ends without another call, and `stop` returns. -/
theorem C370_prompt (s : State) (w : s.pc = .wait) (f : s.stop = .flagged) (t : s.terminated = true) :
    (run s [.notify, .check, .join]).stop = .none ∧ (run s [.notify, .check, .join]).begun = s.begun := by
  simp [run, State.step, w, f, t]

example : (run (make 1000000 none true 7) (up ++ [.stop])).pc = .wait
    ∧ (run (make 1000000 none true 7) (up ++ [.stop])).stop = .flagged
    ∧ (run (make 1000000 none true 7) (up ++ [.stop])).terminated = true
    ∧ (run (make 1000000 none true 7) up).started = true := by decide

/-! ## C371: a timer that is being stopped calls no more -/

/-- After `stop` has been called, at most one more call begins.  Missing: that none does. -/
theorem C371_stopping_partial (s : State) (ops : List Op) (h : s.stop = .none) (m : ∀ op ∈ ops, op ≠ .start) :
    (run (s.step .stop) ops).begun.length ≤ s.begun.length + 1 := by
  let w : State → Nat := fun t => if t.pc = .checked ∨ t.pc = .wait then 1 else 0
  have k : ∀ (ops : List Op) (t : State), t.terminated = true → (∀ op ∈ ops, op ≠ .start) →
      (run t ops).begun.length ≤ t.begun.length + w t := by
    intro ops
    induction ops with
    | nil => exact fun t _ _ => Nat.le_add_right _ _
    | cons op ops ih =>
      intro t p m
      have st : (t.step op).terminated = true ∧ (t.step op).begun.length + w (t.step op) ≤ t.begun.length + w t := by
        have ns := m op List.mem_cons_self
        cases op with
        | start => exact absurd rfl ns
        | tick n => exact ⟨p, Nat.le_refl _⟩
        | setInterval n => exact ⟨p, Nat.le_refl _⟩
        | setDelay n => exact ⟨p, Nat.le_refl _⟩
        | setRate n => exact ⟨p, Nat.le_refl _⟩
        | stop => simp only [State.step]; split <;> exact ⟨by simp [p], Nat.le_refl _⟩
        | notify =>
          simp only [State.step]
          split
          · refine ⟨p, ?_⟩
            by_cases c : t.pc = .wait <;> simp [w, c]
          · exact ⟨p, Nat.le_refl _⟩
        | join => simp only [State.step]; split <;> exact ⟨p, by simp [w]⟩
        | born => simp only [State.step]; split <;> exact ⟨p, by simp [w]⟩
        | check => simp only [State.step]; split <;> exact ⟨p, by simp [w, p]⟩
        | sleep =>
          simp only [State.step]
          split
          · next c => exact ⟨p, by simp [w, c]⟩
          · exact ⟨p, Nat.le_refl _⟩
        | timeout =>
          simp only [State.step]
          split
          · next c => exact ⟨p, by simp [w, c.1]⟩
          · exact ⟨p, Nat.le_refl _⟩
        | wake => simp only [State.step]; split <;> exact ⟨p, by simp [w]⟩
        | finish => simp only [State.step]; split <;> exact ⟨p, by simp [w]⟩
      exact Nat.le_trans (ih _ st.1 (fun o q => m o (List.mem_cons_of_mem _ q))) st.2
  have e : (s.step .stop).terminated = true ∧ (s.step .stop).begun = s.begun := by simp [State.step, h]
  have le := k ops _ e.1 m
  have w1 : w (s.step .stop) ≤ 1 := by simp only [w]; split <;> omega
  rw [e.2] at le
  omega

example : (run (make 1000000 none true 7) (late.take 3)).stop = .none := by decide

/-- The notification of `stop` is lost when the thread is about to wait: it waits to the end, while the
client waits for it, and calls once more. -/
theorem C371_stopping_violation :
    (run (make 1000000 none true 7) (late.take 5)).stop = .notified
      ∧ (run (make 1000000 none true 7) (late.take 5)).begun = []
      ∧ (run (make 1000000 none true 7) late).begun = [1000000007] := by decide

/-! ## C372: negative delays -/

/-- Without delay, or with the delay -1, the delay is the interval; other delays are what they are.  Missing:
other negative delays, for which the interval is promised, too. -/
theorem C372_negative_partial (interval delay : Int) (r : Bool) (n : Nat) (h : -1 ≤ delay) :
    (makeMs interval delay r n).delay = (if delay < 0 then interval * 1000 else delay * 1000)
      ∧ (makeMs interval delay r n).interval = interval * 1000
      ∧ ∀ i, (make i none r n).delay = i := by
  refine ⟨?_, rfl, fun _ => rfl⟩
  simp only [makeMs, make, Option.getD_some]
  by_cases e : delay = -1
  · simp [e]
  · rw [if_neg e, if_neg (by omega)]

example : (makeMs 20 (-1) true 7).delay = 20000 := by decide

/-- With another negative delay, a timer calls at once, -/
theorem C372_negative_violation :
    (run (makeMs 1000 (-2) true 5000000) (up ++ [.timeout])).begun = [5000000] := by decide

/-- or, when the time falls into the first nanoseconds of a second, never: it tries to wait for no time again
and again. -/
theorem C372_never_violation (ops : List Op) (m : ∀ op ∈ ops, op ≠ .start) :
    (run (makeMs 1000 (-2) true 3000000000) (.start :: .born :: ops)).begun = [] := by
  have k : ∀ (ops : List Op) (t : State), t.ts.ok = false → t.pc ≠ .calling → t.pc ≠ .born → t.begun = [] →
      (∀ op ∈ ops, op ≠ .start) → (run t ops).begun = [] := by
    intro ops
    induction ops with
    | nil => exact fun t _ _ _ b _ => b
    | cons op ops ih =>
      intro t o c d b m
      have st : (t.step op).ts.ok = false ∧ (t.step op).pc ≠ .calling ∧ (t.step op).pc ≠ .born
          ∧ (t.step op).begun = [] := by
        have ns := m op List.mem_cons_self
        cases op with
        | start => exact absurd rfl ns
        | tick n => exact ⟨o, c, d, b⟩
        | setInterval n => exact ⟨o, c, d, b⟩
        | setDelay n => exact ⟨o, c, d, b⟩
        | setRate n => exact ⟨o, c, d, b⟩
        | stop => simp only [State.step]; split <;> exact ⟨o, c, d, b⟩
        | notify =>
          simp only [State.step]
          split
          · refine ⟨o, ?_, ?_, b⟩ <;> (simp only; split <;> simp_all)
          · exact ⟨o, c, d, b⟩
        | join => simp only [State.step]; split <;> simp_all
        | born => simp only [State.step, if_neg d]; exact ⟨o, c, d, b⟩
        | check =>
          simp only [State.step]
          split
          · refine ⟨o, ?_, ?_, b⟩ <;> (simp only; split <;> simp_all)
          · exact ⟨o, c, d, b⟩
        | sleep => simp only [State.step]; split <;> simp_all
        | timeout => simp [State.step, o, c, d, b]
        | wake => simp only [State.step]; split <;> simp_all
        | finish => simp only [State.step, if_neg c]; exact ⟨o, c, d, b⟩
      exact ih _ st.1 st.2.1 st.2.2.1 st.2.2.2 (fun o q => m o (List.mem_cons_of_mem _ q))
  exact k ops _ (by decide) (by decide) (by decide) (by decide) m

/-! ## C373: intervals that are set -/

/-- A new interval and a new delay are those of the next thread, counted from its beginning.  Missing: the
interval of a thread that is already there. -/
theorem C373_set_partial (s : State) (i d : Int) (h : s.pc = .born) :
    (((s.step (.setInterval i)).step (.setDelay d)).step .born).ts.value = s.now + 1000000 * d
      ∧ (((s.step (.setInterval i)).step (.setDelay d)).step .born).waitTs.value = 1000000 * i := by
  simp only [State.step, h, if_true, value_add, value_ofClock, value_ofMicros]
  omega

example : (run (make 1000000 none true 7) [.start, .setInterval 5, .setDelay 6, .born]).ts = ⟨0, 6000007⟩ := by decide

/-- A new interval set while the timer runs is not used: the next call comes after the interval before. -/
theorem C373_set_violation :
    (run (make 1000000 (some 0) true 0) (up ++ [.setInterval 1, .timeout, .finish, .check, .sleep,
      .tick 999999999, .timeout])).begun = [0]
      ∧ (run (make 1000000 (some 0) true 0) (up ++ [.setInterval 1, .timeout, .finish, .check, .sleep,
        .tick 1000000000, .timeout])).begun = [0, 1000000000] := by decide

end Verif.Timer
