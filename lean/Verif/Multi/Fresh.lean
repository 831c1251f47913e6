import Verif.Multi.Start
import Mathlib.Data.Nat.GCD.Basic

/-! # A new reader receives descriptors and its first packets -/

namespace Verif.Multi

open Spec

theorem run_append {cfg : Cfg} {a b : List Op} : ∀ {m : MR}, run cfg m (a ++ b) =
    ((run cfg (run cfg m a).1 b).1, (run cfg m a).2 ++ (run cfg (run cfg m a).1 b).2) := by
  induction a with
  | nil => intro m; rfl
  | cons op a ih =>
    intro m
    show ((run cfg (step cfg m op).1 (a ++ b)).1, (step cfg m op).2 :: (run cfg (step cfg m op).1 (a ++ b)).2) = _
    rw [ih]
    rfl

/-- A signal that has nothing or an event first. -/
def Idle (s : Sig) : Prop := s.cur = none ∧ (s.queue = [] ∨ ∃ e q, s.queue = .event e :: q)

theorem Idle.isFirst {s : Sig} (h : Idle s) : s.isFirst.1 = s := by
  unfold Sig.isFirst
  rw [h.1]
  rcases h.2 with hq | ⟨e, q, hq⟩ <;> rw [hq]

theorem ready_idle {sigs : List Sig} (h : ∀ s ∈ sigs, s.isFirst.1 = s) (b : Bool) : (ready sigs b).1 = sigs := by
  induction sigs generalizing b with
  | nil => rfl
  | cons s r ih =>
    unfold ready
    dsimp only
    rw [h s (by simp)]
    split
    · rfl
    · rw [ih fun t ht => h t (List.mem_cons_of_mem _ ht)]

theorem modify_append (f : Sig → Sig) (done : List Sig) (s : Sig) (todo : List Sig) :
    (done ++ s :: todo).modify done.length f = done ++ f s :: todo := by
  induction done with
  | nil => rfl
  | cons a done ih =>
    show a :: (done ++ s :: todo).modify done.length f = _
    rw [ih]
    rfl

/-- Events are queued. -/
theorem push_events {cfg : Cfg} {es : List Ev} : ∀ {m : MR} {done todo : List Sig}, m.sigs = done ++ todo → todo.length = es.length →
    (∀ s ∈ m.sigs, Idle s) → m.invalid = false →
    (run cfg m (pushes done.length (es.map .event))).1 =
      { m with sigs := done ++ List.zipWith (fun s e => { s with queue := s.queue ++ [.event e] }) todo es, calls := m.calls + es.length } := by
  induction es with
  | nil =>
    intro m done todo hs hl _ _
    cases todo with
    | nil => simp [run, pushes, ← hs]
    | cons s t => cases hl
  | cons e es ih =>
    intro m done todo hs hl hid hi
    cases todo with
    | nil => cases hl
    | cons s todo =>
      let s1 : Sig := { s with queue := s.queue ++ [.event e] }
      have hid1 : Idle s1 := by
        refine ⟨(hid s (by rw [hs]; simp)).1, Or.inr ?_⟩
        rcases (hid s (by rw [hs]; simp)).2 with hq | ⟨e', q, hq⟩
        · exact ⟨e, [], by simp [s1, hq]⟩
        · exact ⟨e', q ++ [.event e], by simp [s1, hq]⟩
      have hall : ∀ t ∈ done ++ s1 :: todo, Idle t := by
        intro t ht
        rcases List.mem_append.mp ht with ht | ht
        · exact hid t (by rw [hs]; exact List.mem_append_left _ ht)
        · rcases List.mem_cons.mp ht with rfl | ht
          · exact hid1
          · exact hid t (by rw [hs]; exact List.mem_append_right _ (List.mem_cons_of_mem _ ht))
      have hstep : (step cfg m (.push done.length (.event e))).1 = { m with sigs := done ++ s1 :: todo, calls := m.calls + 1 } := by
        show push { m with calls := m.calls + 1 } done.length (.event e) = _
        unfold push
        dsimp only
        rw [if_neg (by rw [hi]; decide), hs, modify_append, ready_idle fun t ht => (hall t ht).isFirst]
      show (run cfg (step cfg m (.push done.length (.event e))).1 (pushes (done.length + 1) (es.map .event))).1 = _
      rw [hstep]
      have key := ih (m := { m with sigs := done ++ s1 :: todo, calls := m.calls + 1 }) (done := done ++ [s1]) (todo := todo)
        (by simp) (by simpa using hl) hall hi
      rw [List.length_append] at key
      rw [show done.length + 1 = done.length + [s1].length from rfl, key]
      rw [List.zipWith_cons_cons, List.append_assoc, List.singleton_append, List.length_cons]
      have hc : m.calls + (es.length + 1) = m.calls + 1 + es.length := by omega
      rw [hc]

/-- A signal that has nothing, or a packet at hand. -/
def Calm (s : Sig) : Prop := s.cur.isSome ∨ s.queue = []

theorem Calm.isFirst {s : Sig} (h : Calm s) : s.isFirst.1 = s := by
  unfold Sig.isFirst
  rcases Option.eq_none_or_eq_some s.cur with hc | ⟨c, hc⟩
  · rw [hc]
    rcases h with h | h
    · rw [hc] at h; cases h
    · rw [h]
  · rw [hc]

/-- First packets are taken from the queues. -/
theorem push_data {cfg : Cfg} {ps : List DP} : ∀ {m : MR} {done todo : List Sig}, m.sigs = done ++ todo → todo.length = ps.length →
    (∀ s ∈ done, Calm s) → (∀ s ∈ todo, s.cur = none ∧ s.queue = [] ∧ s.prev = 0) → m.invalid = false →
    (run cfg m (pushes done.length (ps.map .data))).1 =
      { m with sigs := done ++ List.zipWith (fun s p => { s with cur := some p }) todo ps, calls := m.calls + ps.length } := by
  induction ps with
  | nil =>
    intro m done todo hs hl _ _ _
    cases todo with
    | nil => simp [run, pushes, ← hs]
    | cons s t => cases hl
  | cons p ps ih =>
    intro m done todo hs hl hd ht hi
    cases todo with
    | nil => cases hl
    | cons s todo =>
      obtain ⟨c1, c2, c3⟩ := ht s (by simp)
      let s0 : Sig := { s with queue := s.queue ++ [.data p] }
      let s1 : Sig := { s with cur := some p }
      have e0 : s0.isFirst = (s1, false) := by
        unfold Sig.isFirst
        simp [s0, s1, c1, c2, c3]
      have hst : ∀ (l : List Sig), (∀ s ∈ l, Calm s) → ∀ b, (ready (l ++ s0 :: todo) b).1 = l ++ s1 :: todo := by
        intro l hl
        have htodo : ∀ b, (ready todo b).1 = todo := fun b => ready_idle (fun t h =>
          (show Calm t from Or.inr (ht t (List.mem_cons_of_mem _ h)).2.1).isFirst) b
        induction l with
        | nil =>
          intro b
          show (ready (s0 :: todo) b).1 = s1 :: todo
          unfold ready
          dsimp only
          rw [e0]
          simp only [Bool.false_eq_true, if_false]
          rw [htodo]
        | cons a l ihl =>
          intro b
          show (ready (a :: (l ++ s0 :: todo)) b).1 = a :: (l ++ s1 :: todo)
          have ha := hl a (by simp)
          have hf2 : a.isFirst.2 = false := by
            unfold Sig.isFirst
            rcases Option.eq_none_or_eq_some a.cur with hc | ⟨c, hc⟩
            · rw [hc]
              rcases ha with h | h
              · rw [hc] at h; cases h
              · rw [h]
            · rw [hc]
          unfold ready
          dsimp only
          rw [ha.isFirst, hf2]
          simp only [Bool.false_eq_true, if_false]
          rw [ihl fun t h => hl t (List.mem_cons_of_mem _ h)]
      have hstep : (step cfg m (.push done.length (.data p))).1 = { m with sigs := done ++ s1 :: todo, calls := m.calls + 1 } := by
        show push { m with calls := m.calls + 1 } done.length (.data p) = _
        unfold push
        dsimp only
        rw [if_neg (by rw [hi]; decide), hs, modify_append, hst done hd]
      show (run cfg (step cfg m (.push done.length (.data p))).1 (pushes (done.length + 1) (ps.map .data))).1 = _
      rw [hstep]
      have key := ih (m := { m with sigs := done ++ s1 :: todo, calls := m.calls + 1 }) (done := done ++ [s1]) (todo := todo)
        (by simp) (by simpa using hl) (by
          intro t h
          rcases List.mem_append.mp h with h | h
          · exact hd t h
          · rw [List.mem_singleton.mp h]; exact Or.inl rfl) (fun t h => ht t (List.mem_cons_of_mem _ h)) hi
      rw [List.length_append] at key
      rw [show done.length + 1 = done.length + [s1].length from rfl, key]
      rw [List.zipWith_cons_cons, List.append_assoc, List.singleton_append, List.length_cons]
      have hc : m.calls + (ps.length + 1) = m.calls + 1 + ps.length := by omega
      rw [hc]

/-- The rate of a descriptor. -/
theorem rateOf_exact {d : DomDesc} {r : Nat} (hn : 0 < d.num) (hd : 0 < d.delta) (hr : 0 < r)
    (h : d.den = r * (d.num * d.delta)) : rateOf d = some (r : Int) := by
  unfold rateOf simplify
  have hg : Int.gcd d.num d.den = d.num.natAbs := by
    rw [h, show (r : Int) * (d.num * d.delta) = d.num * (r * d.delta) by ring]
    simp [Int.gcd, Int.natAbs_mul]
  have hg' : ((Int.gcd d.num d.den : Nat) : Int) = d.num := by rw [hg]; omega
  dsimp only
  rw [hg', Int.tdiv_self (by omega), h, show (r : Int) * (d.num * d.delta) = d.num * (r * d.delta) by ring,
    Int.mul_tdiv_cancel_left _ (by omega)]
  have h1 : (1 : Int) * d.delta = d.delta := by ring
  rw [h1, if_neg (by omega), if_pos (by simp), Int.mul_ediv_cancel _ (by omega)]

/-- The least common multiple of the rates. -/
def lcmOf (l : List Nat) : Nat := l.foldl (fun a r => Nat.lcm r a) 1

theorem foldl_lcm {l : List Nat} : ∀ {a : Nat}, a ∣ l.foldl (fun a r => Nat.lcm r a) a ∧ (∀ r ∈ l, r ∣ l.foldl (fun a r => Nat.lcm r a) a) ∧
    (0 < a → (∀ r ∈ l, 0 < r) → 0 < l.foldl (fun a r => Nat.lcm r a) a) ∧
    ∀ n, a ∣ n → (∀ r ∈ l, r ∣ n) → l.foldl (fun a r => Nat.lcm r a) a ∣ n := by
  induction l with
  | nil => intro a; exact ⟨Nat.dvd_refl _, (fun r h => by cases h), (fun h _ => h), fun n h _ => h⟩
  | cons x l ih =>
    intro a
    obtain ⟨h1, h2, h3, h4⟩ := ih (a := Nat.lcm x a)
    refine ⟨Nat.dvd_trans (Nat.dvd_lcm_right x a) h1, ?_, ?_, ?_⟩
    · intro r hr
      rcases List.mem_cons.mp hr with rfl | hr
      · exact Nat.dvd_trans (Nat.dvd_lcm_left r a) h1
      · exact h2 r hr
    · intro ha hp
      exact h3 (Nat.lcm_pos (hp x (by simp)) ha) fun r hr => hp r (List.mem_cons_of_mem _ hr)
    · intro n hn hp
      exact h4 n (Nat.lcm_dvd (hp x (by simp)) hn) fun r hr => hp r (List.mem_cons_of_mem _ hr)

theorem commonRate_lcm {allow : Bool} {first : Int} {sigs : List Sig} (h : allow = true ∨ ∀ s ∈ sigs, s.rate = first) :
    ∀ {c : Nat}, commonRate allow first sigs c = ((sigs.map fun s => s.rate.natAbs).foldl (fun a r => Nat.lcm r a) c, true) := by
  induction sigs with
  | nil => intro c; rfl
  | cons s r ih =>
    intro c
    unfold commonRate
    rw [if_neg ?_, ih (h.imp id fun g t ht => g t (List.mem_cons_of_mem _ ht))]
    · rfl
    · rintro ⟨h1, h2⟩
      rcases h with h | h
      · rw [h] at h2; cases h2
      · exact h1 (h s (by simp))

theorem setRates_exact {c : Nat} (hc : 0 < c) {sigs : List Sig} (h : ∀ s ∈ sigs, 0 < s.rate ∧ s.rate.toNat ∣ c ∧ s.invalid = false) :
    setRates c sigs = (sigs.map fun s => { s with div := c / s.rate.toNat }, true) := by
  induction sigs with
  | nil => rfl
  | cons s r ih =>
    obtain ⟨h1, ⟨k, h2⟩, h3⟩ := h s (by simp)
    have hk : 0 < s.rate.toNat := by omega
    have hd : c / s.rate.toNat = k := by rw [h2, Nat.mul_div_cancel_left _ hk]
    have hk0 : k ≠ 0 := fun h0 => by rw [h0] at h2; omega
    have hmod : c % k = 0 := by rw [h2]; exact Nat.mul_mod_left _ _
    have es : s.setCommon c = { s with div := c / s.rate.toNat } := by
      unfold Sig.setCommon
      rw [if_pos h1]
      dsimp only
      rw [hd, if_neg (by rintro (hh | hh); exact hk0 hh; exact hh hmod)]
    unfold setRates
    rw [es, if_neg (by rw [h3]; decide), ih fun t ht => h t (List.mem_cons_of_mem _ ht)]
    rfl

/-- The common rate. -/
def rateFor (cfg : Cfg) (L : List Input) : Nat := if 0 < cfg.required then cfg.required else lcmOf (L.map fun x => x.rate)

def sigFor (c : Nat) (x : Input) : Sig :=
  { dom := some (domain x), rate := x.rate, div := c / x.rate }

/-- The reader when it has taken the descriptors. -/
def taken (cfg : Cfg) (L : List Input) : MR :=
  { sigs := L.map (sigFor (rateFor cfg L)), common := rateFor cfg L, lcm := lcmOf (L.map fun x => rateFor cfg L / x.rate),
    buf := some (L.length + 1), calls := L.length + 1 }

theorem rateFor_spec {cfg : Cfg} {L : List Input} {num den epoch : Int} {ops : List Op} (h : Inputs cfg L ops num den epoch) :
    0 < rateFor cfg L ∧ ∀ x ∈ L, x.rate ∣ rateFor cfg L := by
  unfold rateFor
  split
  · rename_i hr
    exact ⟨hr, fun x hx => h.required hr x hx⟩
  · obtain ⟨_, h2, h3, _⟩ := foldl_lcm (l := L.map fun x => x.rate) (a := 1)
    refine ⟨h3 (by decide) fun r hr => ?_, fun x hx => h2 _ (List.mem_map_of_mem hx)⟩
    obtain ⟨x, hx, rfl⟩ := List.mem_map.mp hr
    exact (h.each x hx).rate_pos

theorem zipWith_fresh {f : Input → Ev} : ∀ {divs : List Nat} {L : List Input}, divs.length = L.length →
    List.zipWith (fun s e => { s with queue := s.queue ++ [.event e] }) (divs.map fun d => ({ div := d } : Sig)) (L.map f) =
      List.zipWith (fun d x => ({ div := d, queue := [.event (f x)] } : Sig)) divs L := by
  intro divs
  induction divs with
  | nil => intro L _; rfl
  | cons d divs ih =>
    intro L hl
    cases L with
    | nil => cases hl
    | cons x L =>
      simp only [List.map_cons, List.zipWith_cons_cons]
      rw [ih (by simpa using hl)]
      rfl

theorem readUntil_desc {x : Input} {d : Nat} (h : InputOk x) :
    ({ div := d, queue := [.event (.desc (some true) (some x.desc))] } : Sig).readUntil =
      ({ dom := some (domain x), rate := x.rate, div := d },
        some (.desc (some true) (some x.desc))) := by
  have hr := rateOf_exact h.num_pos h.delta_pos h.rate_pos h.rate_eq
  unfold Sig.readUntil Sig.isFirst
  simp [collect, Sig.handleDesc, h.ok, hr, domain]

theorem zipWith_fst {f : Sig → Input → Option Ev} : ∀ {a : List Sig} {b : List Input}, a.length = b.length →
    (List.zipWith (fun s x => (s, f s x)) a b).map (·.1) = a := by
  intro a
  induction a with
  | nil => intro b _; rfl
  | cons s a ih =>
    intro b hl
    cases b with
    | nil => cases hl
    | cons x b =>
      simp only [List.zipWith_cons_cons, List.map_cons]
      rw [ih (by simpa using hl)]

theorem zipWith_map {α : Type} {f : Nat → Input → Sig} {g : Sig → α} {k : Input → α} : ∀ {a : List Nat} {b : List Input},
    a.length = b.length → (∀ d x, g (f d x) = k x) → (List.zipWith f a b).map g = b.map k := by
  intro a
  induction a with
  | nil =>
    intro b hl _
    cases b with
    | nil => rfl
    | cons x b => cases hl
  | cons d a ih =>
    intro b hl hk
    cases b with
    | nil => cases hl
    | cons x b =>
      simp only [List.zipWith_cons_cons, List.map_cons]
      rw [hk, ih (by simpa using hl) hk]

theorem setup_state {cfg : Cfg} {L : List Input} {num den epoch : Int} {ops : List Op} (h : Inputs cfg L ops num den epoch)
    {divs : List Nat} (hl : divs.length = L.length) : (run cfg (fresh divs) (setup L)).1 = taken cfg L := by
  unfold setup
  rw [run_append]
  have e1 := push_events (cfg := cfg) (es := L.map fun x => Ev.desc (some true) (some x.desc)) (m := fresh divs) (done := [])
    (todo := divs.map fun d => { div := d }) rfl (by simp [hl]) (by
      intro s hs
      obtain ⟨d, _, rfl⟩ := List.mem_map.mp hs
      exact ⟨rfl, Or.inl rfl⟩) rfl
  rw [List.map_map] at e1
  have e1' : (run cfg (fresh divs) (pushes 0 (L.map fun x => .event (.desc (some true) (some x.desc))))).1 = _ := e1
  rw [e1']
  clear e1 e1'
  rw [zipWith_fresh hl, List.nil_append, List.length_map]
  -- the call that takes the descriptors
  let sigs0 : List Sig := List.zipWith (fun d x => ({ div := d, queue := [.event (.desc (some true) (some x.desc))] } : Sig)) divs L
  let sigs1 : List Sig := List.zipWith (fun d x => ({ dom := some (domain x), rate := x.rate, div := d } : Sig)) divs L
  have hru : sigs0.map Sig.readUntil = List.zipWith (fun s x => (s, some (Ev.desc (some true) (some x.desc)))) sigs1 L := by
    simp only [sigs0, sigs1]
    clear sigs0 sigs1
    have hall := h.each
    clear h
    induction divs generalizing L with
    | nil => rfl
    | cons d divs ih =>
      cases L with
      | nil => rfl
      | cons x L =>
        simp only [List.zipWith_cons_cons, List.map_cons]
        rw [readUntil_desc (hall x (by simp)), ih (by simpa using hl) fun y hy => hall y (List.mem_cons_of_mem _ hy)]
  have hfst : (sigs0.map Sig.readUntil).map (·.1) = sigs1 := by
    rw [hru]
    exact zipWith_fst (by simp [sigs1, hl])
  have hvalid : ((sigs0.map Sig.readUntil).any fun x => x.1.invalid) = false := by
    rw [List.any_eq_false]
    intro y hy
    have hy1 : y.1 ∈ sigs1 := hfst ▸ List.mem_map_of_mem hy
    obtain ⟨i, hi⟩ := List.mem_iff_getElem?.mp hy1
    simp only [sigs1, List.getElem?_zipWith] at hi
    split at hi
    · have := congrArg Sig.invalid (Option.some.inj hi)
      simp [← this]
    · cases hi
  have hany : ((sigs0.map Sig.readUntil).map (·.2)).any (·.isSome) = true := by
    rw [hru]
    cases hL : L with
    | nil => exact absurd hL h.nonempty
    | cons x L' =>
      cases hd : divs with
      | nil => rw [hL, hd] at hl; cases hl
      | cons d divs' =>
        simp [sigs1, hL, hd]
  have hcp := rateFor_spec h
  have hrate : sigs1.map (fun s => s.rate.natAbs) = L.map fun x => x.rate := by
    simp only [sigs1]
    exact zipWith_map hl fun d x => by simp
  have hmem1 : ∀ s ∈ sigs1, ∃ x ∈ L, s.rate = x.rate ∧ s.invalid = false ∧ s.cur = none := by
    intro s hs
    obtain ⟨i, hi⟩ := List.mem_iff_getElem?.mp hs
    simp only [sigs1, List.getElem?_zipWith] at hi
    split at hi
    · rename_i d x _ hx
      cases hi
      exact ⟨x, List.mem_of_getElem? hx, rfl, rfl, rfl⟩
    · cases hi
  have hset : setRates (rateFor cfg L) sigs1 = (L.map (sigFor (rateFor cfg L)), true) := by
    rw [setRates_exact hcp.1 fun s hs => ?_]
    · simp only [sigs1]
      congr 1
      exact zipWith_map hl fun d x => by simp [sigFor]
    · obtain ⟨x, hx, e1, e2, _⟩ := hmem1 s hs
      have := (h.each x hx).rate_pos
      rw [e1]
      exact ⟨by omega, by simpa using hcp.2 x hx, e2⟩
  have hlcm : (L.map (sigFor (rateFor cfg L))).foldl (fun l s => Nat.lcm s.div l) 1 = lcmOf (L.map fun x => rateFor cfg L / x.rate) := by
    unfold lcmOf
    rw [List.foldl_map, List.foldl_map]
    rfl
  have hupd : ∀ m : MR, m.sigs = sigs1 → m.invalid = false → update cfg m =
      { m with sigs := L.map (sigFor (rateFor cfg L)), common := rateFor cfg L, lcm := lcmOf (L.map fun x => rateFor cfg L / x.rate) } := by
    intro m hm hi
    have hc : cfg.rate m.sigs = (rateFor cfg L, true) := by
      unfold rateFor Cfg.rate
      by_cases hr : 0 < cfg.required
      · rw [if_pos hr, if_pos hr]
      · rw [if_neg hr, if_neg hr, hm]
        cases hs : sigs1 with
        | nil =>
          rw [hs] at hrate
          have : L.map (fun x => x.rate) = [] := hrate.symm
          rw [this]
          rfl
        | cons s r =>
          dsimp only
          rw [← hs, commonRate_lcm, hrate]
          · rfl
          · refine (h.rates (by omega)).imp id fun hh t ht => ?_
            obtain ⟨x, hx, e1, _⟩ := hmem1 t ht
            obtain ⟨y, hy, e2, _⟩ := hmem1 s (by rw [hs]; simp)
            rw [e1, e2, hh x hx y hy]
    unfold update
    dsimp only
    rw [hc]
    dsimp only
    rw [hm, hset]
    dsimp only
    rw [hlcm]
    simp
  have hsync : ∀ m : MR, m.sigs = L.map (sigFor (rateFor cfg L)) → synchronize cfg m = (m, minAvail m.sigs, syncStatus m.sigs, false) := by
    intro m hm
    have h0 : minAvail m.sigs = 0 := by
      cases hL : L with
      | nil => exact absurd hL h.nonempty
      | cons x L' =>
        have hx : sigFor (rateFor cfg L) x ∈ m.sigs := by rw [hm, hL]; simp
        have := minAvail_le hx
        simp [sigFor] at this
        exact this
    unfold synchronize
    dsimp only
    rw [if_pos (Or.inl h0)]
  show (run cfg { fresh divs with sigs := sigs0, calls := (fresh divs).calls + L.length } [.read false 0 false]).1 = _
  have hgo : ∀ m : MR, m.sigs = sigs0 → m.invalid = false → m.remaining = 0 → ∃ ev, readPackets cfg m = .ok
      ({ m with sigs := L.map (sigFor (rateFor cfg L)), common := rateFor cfg L, lcm := lcmOf (L.map fun x => rateFor cfg L / x.rate) }, ev, []) := by
    intro m hm hi hr
    unfold readPackets readAndSync
    dsimp only
    rw [hm, hany]
    simp only [if_true]
    rw [hupd _ hfst (by show (m.invalid || _) = false; rw [hi, hvalid]; rfl)]
    rw [hsync _ rfl]
    dsimp only
    refine ⟨(sigs0.map Sig.readUntil).map (·.2), ?_⟩
    rw [hvalid, hi]
    rfl
  show (read cfg { fresh divs with sigs := sigs0, calls := (fresh divs).calls + L.length + 1 } false 0 false).1 = _
  unfold read
  rw [if_neg (by simp), if_neg (by simp [fresh]), if_neg (by simp [fresh]), if_neg (by simp [fresh]), if_neg (by simp)]
  dsimp only
  obtain ⟨ev, e⟩ := hgo { fresh divs with sigs := sigs0, calls := (fresh divs).calls + L.length + 1, remaining := 0 / (fresh divs).lcm * (fresh divs).lcm, buf := some ((fresh divs).calls + L.length + 1) } rfl rfl (by simp)
  rw [if_neg (by decide), e]
  simp [taken, fresh]

/-- The reader when the first packets have arrived. -/
def started (cfg : Cfg) (L : List Input) : MR :=
  { taken cfg L with sigs := L.map fun x => { sigFor (rateFor cfg L) x with cur := some x.first }, calls := L.length + 1 + L.length }

theorem zipWith_first {c : Nat} {L : List Input} :
    List.zipWith (fun (s : Sig) p => { s with cur := some p }) (L.map (sigFor c)) (L.map fun x => x.first) =
      L.map fun x => { sigFor c x with cur := some x.first } := by
  induction L with
  | nil => rfl
  | cons x L ih =>
    simp only [List.map_cons, List.zipWith_cons_cons]
    rw [ih]

theorem started_state {cfg : Cfg} {L : List Input} {num den epoch : Int} {ops : List Op} (h : Inputs cfg L ops num den epoch)
    {divs : List Nat} (hl : divs.length = L.length) : (run cfg (fresh divs) (setup L ++ firstPackets L)).1 = started cfg L := by
  rw [run_append, setup_state h hl]
  have e1 := push_data (cfg := cfg) (ps := L.map fun x => x.first) (m := taken cfg L) (done := []) (todo := L.map (sigFor (rateFor cfg L)))
    rfl (by simp) (fun s hs => by cases hs) (by
      intro s hs
      obtain ⟨x, _, rfl⟩ := List.mem_map.mp hs
      exact ⟨rfl, rfl, rfl⟩) rfl
  rw [List.map_map] at e1
  have e2 : (run cfg (taken cfg L) (firstPackets L)).1 = _ := e1
  rw [e2, zipWith_first]
  simp [started, taken]

theorem started_ready {cfg : Cfg} {L : List Input} {num den epoch : Int} {ops : List Op} (h : Inputs cfg L ops num den epoch) :
    Ready cfg (started cfg L) ops num den epoch (firstOf L) (domainOf L) (deltaOf L) := by
  obtain ⟨hc0, hcd⟩ := rateFor_spec h
  have hdiv : ∀ x ∈ L, 0 < rateFor cfg L / x.rate := fun x hx =>
    Nat.div_pos (Nat.le_of_dvd hc0 (hcd x hx)) (h.each x hx).rate_pos
  have hden : ∀ x ∈ L, 0 < x.desc.den := fun x hx => by
    have e := h.each x hx
    rw [e.rate_eq]
    exact mul_pos (by have := e.rate_pos; omega) (mul_pos e.num_pos e.delta_pos)
  obtain ⟨_, hl2, hl3, _⟩ := foldl_lcm (l := L.map fun x => rateFor cfg L / x.rate) (a := 1)
  have hlpos : 0 < (started cfg L).lcm := hl3 (by decide) fun r hr => by
    obtain ⟨x, hx, rfl⟩ := List.mem_map.mp hr
    exact hdiv x hx
  obtain ⟨x0, hx0⟩ : ∃ x, x ∈ L := by
    cases hL : L with
    | nil => exact absurd hL h.nonempty
    | cons x l => exact ⟨x, by simp⟩
  have hmem : ∀ s ∈ (started cfg L).sigs, ∃ x ∈ L, s = { sigFor (rateFor cfg L) x with cur := some x.first } := by
    intro s hs
    obtain ⟨x, hx, rfl⟩ := List.mem_map.mp hs
    exact ⟨x, hx, rfl⟩
  have hin : ∀ x ∈ L, ({ sigFor (rateFor cfg L) x with cur := some x.first } : Sig) ∈ (started cfg L).sigs :=
    fun x hx => List.mem_map_of_mem (f := fun x => ({ sigFor (rateFor cfg L) x with cur := some x.first } : Sig)) hx
  refine ⟨by simp [started, h.nonempty], rfl, rfl, (fun t ht => by cases ht), ⟨_, hin x0 hx0, rfl⟩, hlpos, hc0, ⟨h.num_pos, h.den_pos, ?_, ?_, ?_⟩, ?_, ?_, ?_⟩
  · obtain ⟨x, hx, e⟩ := h.finest
    exact ⟨_, hin x hx, domain x, rfl, e⟩
  · obtain ⟨x, hx, e⟩ := h.earliest
    exact ⟨_, hin x hx, domain x, rfl, e⟩
  · intro s hs d hd
    obtain ⟨x, hx, rfl⟩ := hmem s hs
    cases hd
    obtain ⟨w1, w2, w3⟩ := h.whole x hx
    exact ⟨(h.each x hx).num_pos, hden x hx, w1, w2, w3⟩
  · -- the raster
    have e := h.each x0 hx0
    obtain ⟨_, ⟨k, hk⟩, _⟩ := h.whole x0 hx0
    have hr0 : (x0.rate : Rat) ≠ 0 := by have := e.rate_pos; positivity
    have hd0 : (den : Rat) ≠ 0 := by have := h.den_pos; positivity
    have hn0 : (num : Rat) ≠ 0 := by have := h.num_pos; positivity
    have hxn : (x0.desc.num : Rat) ≠ 0 := by have := e.num_pos; positivity
    have hdel : (x0.desc.delta : Rat) ≠ 0 := by have := e.delta_pos; positivity
    have hk' : (x0.desc.num : Rat) * den = k * ((x0.rate : Rat) * (x0.desc.num * x0.desc.delta) * num) := by
      rw [e.rate_eq] at hk
      exact_mod_cast hk
    -- one sample of the signal in ticks
    have hone : (1 : Rat) / x0.rate = k * x0.desc.delta * num / den := by
      have h1 : (den : Rat) = k * (x0.rate * x0.desc.delta * num) := by
        have : (x0.desc.num : Rat) * den = x0.desc.num * (k * (x0.rate * x0.desc.delta * num)) := by rw [hk']; ring
        exact mul_left_cancel₀ hxn this
      rw [h1]
      have hk0 : (k : Rat) ≠ 0 := by
        intro h0
        rw [h0] at h1
        apply hd0
        rw [h1]
        ring
      field_simp
    unfold raster
    split
    · refine ⟨x0.rate * k * x0.desc.delta, ?_⟩
      have : (1 : Rat) = x0.rate * (1 / x0.rate) := by field_simp
      rw [this, hone]
      push_cast
      ring
    · obtain ⟨q, hq⟩ := hl2 _ (List.mem_map_of_mem (f := fun x => rateFor cfg L / x.rate) hx0)
      refine ⟨q * k * x0.desc.delta, ?_⟩
      have hlc : (started cfg L).lcm = rateFor cfg L / x0.rate * q := hq
      obtain ⟨t, ht⟩ := hcd x0 hx0
      have hrt : rateFor cfg L / x0.rate = t := by rw [ht, Nat.mul_div_cancel_left _ e.rate_pos]
      have hcom : (started cfg L).common = x0.rate * t := ht
      have ht0 : (t : Rat) ≠ 0 := by
        intro h0
        have h0' : t = 0 := by exact_mod_cast h0
        rw [h0'] at ht
        omega
      rw [hlc, hcom, hrt]
      have : (((t * q : Nat) : Rat)) / ((x0.rate * t : Nat) : Rat) = q * (1 / x0.rate) := by
        push_cast
        field_simp
      rw [this, hone]
      push_cast
      ring
  · intro i s hi
    have hi' : (L[i]?).map (fun x => ({ sigFor (rateFor cfg L) x with cur := some x.first } : Sig)) = some s := by
      rw [← List.getElem?_map]
      exact hi
    obtain ⟨x, hx, rfl⟩ := Option.map_eq_some_iff.mp hi'
    have hxm := List.mem_of_getElem? hx
    have e := h.each x hxm
    obtain ⟨r1, r2, r3, r4⟩ := h.regular i x hx
    have ef : firstOf L i = x.first := by simp [firstOf, hx]
    have ed : domainOf L i = domain x := by simp [domainOf, hx]
    have ee : deltaOf L i = x.desc.delta := by simp [deltaOf, hx]
    rw [ef, ed, ee]
    have hp : packets x.first [] = samples x.first := by simp [packets, front]
    refine ⟨rfl, e.some_samples, rfl, hdiv x hxm, rfl, (fun y hy => by cases hy), e.delta_pos, ?_, ?_, r2, r3, ?_⟩
    · intro y hy
      have : y = x.first := by simpa [sigFor, front] using hy
      rw [this, e.same_delta]
    · show Regular x.desc.delta (packets x.first [] ++ given i ops)
      rw [hp]
      exact r1
    · show ∀ y ∈ packets x.first [] ++ given i ops, _
      rw [hp]
      exact r4
  · intro i p hp hi
    have hi' : i < L.length := by simpa [started] using hi
    have hx : L[i]? = some L[i] := List.getElem?_eq_getElem hi'
    rw [h.deltas i _ p hx hp]
    simp [deltaOf, hx]

end Verif.Multi
