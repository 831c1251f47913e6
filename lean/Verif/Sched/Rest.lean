import Verif.Sched.Order
import Mathlib.Order.RelClasses
import Mathlib.Data.Fintype.Order
import Mathlib.Data.Set.Finite.List
/-!
# Awaitables, graphs of tasks, and the stopped scheduler
-/

namespace Verif.Sched

open Spec

/-! ### Awaitables -/

/-- What is known about an awaitable after some calls. -/
structure AwInv (a : Aw) (ops : List AwOp) : Prop where
  done : ∀ r, a.done = some r → .done r ∈ ops
  none : a.done = .none → ∀ r, .done r ∉ ops
  valid : a.valid = false → a.done ≠ .none
  completed : a.completed = true → a.done ≠ .none
  get : .get ∉ ops → a.valid = true

theorem aw_step (a : Aw) (ops : List AwOp) (op : AwOp) (h : AwInv a ops) :
    AwInv (a.step op).1 (ops ++ [op]) := by
  have d : ∀ r, a.done = some r → .done r ∈ ops ++ [op] := fun r hr => by simp [h.done r hr]
  cases op with
  | done r =>
    change AwInv (if a.done = .none then { a with done := some r } else a) _
    split
    · exact ⟨by intro r' e; cases e; simp, by intro e; simp at e, by simp, by simp,
        by simpa using h.get⟩
    · rename_i hn
      exact ⟨d, fun e => absurd e hn, h.valid, h.completed, by simpa using h.get⟩
  | wait =>
    change AwInv a.wait.1 _
    unfold Aw.wait
    have base : AwInv a (ops ++ [.wait]) :=
      ⟨d, fun e r => by simpa using h.none e r, h.valid, h.completed, by simpa using h.get⟩
    split
    · exact base
    · split
      · exact base
      · split
        · exact base
        · rename_i hn
          exact ⟨d, fun e => absurd e hn, h.valid, fun _ => hn, by simpa using h.get⟩
  | get =>
    change AwInv a.get.1 _
    unfold Aw.get
    have base : AwInv a (ops ++ [.get]) :=
      ⟨d, fun e r => by simpa using h.none e r, h.valid, h.completed, by simp⟩
    split
    · exact base
    · split
      · exact base
      · cases e : a.done with
        | none => simpa [e] using base
        | some r =>
          have fin : ∀ gr c, AwInv ⟨gr, false, c, some r⟩ (ops ++ [.get]) := fun gr c =>
            ⟨(by intro r' e'; cases e'; exact d r e), (by intro e'; cases e'), by simp, by simp, by simp⟩
          dsimp only
          split
          · exact fin _ _
          · cases r <;> exact fin _ _
  | has =>
    change AwInv a _
    exact ⟨d, fun e r => by simpa using h.none e r, h.valid, h.completed, by simpa using h.get⟩

theorem aw_run (ops : List AwOp) (a : Aw) (ops₀ : List AwOp) (h : AwInv a ops₀) :
    AwInv (a.run ops).1 (ops₀ ++ ops) := by
  induction ops generalizing a ops₀ with
  | nil => simpa [Aw.run] using h
  | cons op ops ih => simpa [Aw.run] using ih _ _ (aw_step a ops₀ op h)

theorem aw_inv (g : Bool) (ops : List AwOp) : AwInv ((Aw.init g).run ops).1 ops := by
  have := aw_run ops (Aw.init g) [] ⟨by simp [Aw.init], by simp, by simp [Aw.init], by simp [Aw.init],
    by simp [Aw.init]⟩
  simpa using this

theorem aw_graph (ops : List AwOp) (a : Aw) : (a.run ops).1.graph = a.graph := by
  induction ops generalizing a with
  | nil => rfl
  | cons op ops ih =>
    change ((a.step op).1.run ops).1.graph = _
    rw [ih]
    cases op with
    | done r => change (if a.done = .none then { a with done := some r } else a).graph = _; split <;> rfl
    | wait => change a.wait.1.graph = _; unfold Aw.wait; split <;> [rfl; (split <;> [rfl; (split <;> rfl)])]
    | get =>
      change a.get.1.graph = _
      unfold Aw.get
      split
      · rfl
      · split
        · rfl
        · cases a.done with
          | none => rfl
          | some r => dsimp only; split <;> [rfl; (cases r <;> rfl)]
    | has => rfl

theorem aw_invalid (op : AwOp) (a : Aw) (h : a.valid = false) : (a.step op).1.valid = false := by
  cases op with
  | done r => change (if a.done = .none then { a with done := some r } else a).valid = _; split <;> exact h
  | wait =>
    change a.wait.1.valid = _; unfold Aw.wait
    split
    · exact h
    · simp [h]
  | get => change a.get.1.valid = _; unfold Aw.get; simp [h]; split <;> exact h
  | has => exact h

theorem aw_invalid_run (ops : List AwOp) (a : Aw) (h : a.valid = false) : (a.run ops).1.valid = false := by
  induction ops generalizing a with
  | nil => exact h
  | cons op ops ih => exact ih _ (aw_invalid op a h)

theorem aw_fetched (a : Aw) (h : a.get.2 = .null ∨ a.get.2 = .error ∨ ∃ n, a.get.2 = .value n) :
    a.get.1.valid = false := by
  unfold Aw.get at *
  split
  · rename_i h1; simp [h1] at h
  · rename_i h1
    split
    · rename_i h2; simp at h2; simp [h2] at h1; simp [h1, h2] at h
    · rename_i h2
      cases e : a.done with
      | none => simp [h1, h2, e] at h
      | some r => dsimp only; split <;> [rfl; (cases r <;> rfl)]

theorem aw_first (a : Aw) (r : Res) (hv : a.valid = true) (hd : a.done = some r) :
    a.get.2 = if a.graph then .null else match r with | .value n => .value n | .failed => .error := by
  unfold Aw.get
  simp [hv, hd]
  split
  · rfl
  · cases r <;> rfl

/-! ### Graphs of tasks -/

theorem belongs_iff (w : World) (g : Nat) (n : Node) :
    (w.graphOf n == some g && w.has n) = true ↔ Belongs w g n := by
  cases n with
  | root h =>
    simp [World.graphOf, World.has, World.alive, Belongs]
    rintro rfl; exact Iff.rfl
  | task t =>
    simp [World.graphOf, World.has, Belongs]
    constructor
    · rintro ⟨h1, _⟩
      cases e : w.tasks[t]? with
      | none => simp [e] at h1
      | some o => simp [e] at h1; rw [h1]
    · intro h
      exact ⟨by simp [h], (List.getElem?_eq_some_iff.mp h).1⟩

theorem ready_iff (w : World) (g : Nat) (l : List Node) (n : Node) :
    w.ready g l n = true ↔ CanRun w g l n := by
  unfold World.ready CanRun
  rw [Bool.and_eq_true, Bool.and_eq_true, belongs_iff, and_assoc]
  refine and_congr Iff.rfl (and_congr (by simp) ?_)
  simp only [List.all_eq_true, Edge, Bool.or_eq_true, bne_iff_ne, ne_eq, List.contains_iff_mem]
  constructor
  · intro h a ha
    rcases h (a, n) ha with h | h
    · exact absurd rfl h
    · exact h
  · rintro h ⟨a, b⟩ hab
    by_cases e : b = n
    · subst e; exact .inr (h a hab)
    · exact .inl e

/-- What holds of every execution. -/
def Good (w : World) (g : Nat) (l : List Node) : Prop :=
  l.Nodup ∧ (∀ n ∈ l, Belongs w g n) ∧ ∀ l₁ n l₂ a, l = l₁ ++ n :: l₂ → Edge w a n → a ∈ l₁

theorem good_schedule (w : World) (g : Nat) : ∀ (c l : List Node), Good w g l → Good w g (w.schedule g l c)
  | [], l, h => h
  | n :: c, l, h => by
    refine good_schedule w g c _ ?_
    split
    · rename_i hr
      obtain ⟨h1, h2, h3⟩ := (ready_iff w g l n).mp hr
      refine ⟨?_, ?_, ?_⟩
      · rw [List.nodup_append]
        refine ⟨h.1, by simp, ?_⟩
        intro a ha b hb e
        simp at hb; subst hb; subst e; exact h2 ha
      · intro m hm
        simp at hm
        rcases hm with hm | hm
        · exact h.2.1 m hm
        · subst hm; exact h1
      · intro l₁ m l₂ a eq ha
        rw [List.append_eq_append_iff] at eq
        rcases eq with ⟨as, e1, e2⟩ | ⟨bs, e1, e2⟩
        · cases as with
          | nil => simp at e2 e1; rw [e1]; rw [← e2.1] at ha; exact h3 a ha
          | cons d as => simp at e2
        · cases bs with
          | nil => simp at e2 e1; rw [← e1]; rw [e2.1] at ha; exact h3 a ha
          | cons d bs => simp at e2; rw [← e2.1] at e1; exact h.2.2 l₁ m bs a e1 ha
    · exact h

theorem good_before {w : World} {g : Nat} {l : List Node} (h : Good w g l) {a n : Node}
    (hb : Before w a n) : ∀ l₁ l₂, l = l₁ ++ n :: l₂ → a ∈ l₁ := by
  induction hb with
  | single e => intro l₁ l₂ eq; exact h.2.2 l₁ _ l₂ a eq e
  | @tail b c _ e ih =>
    intro l₁ l₂ eq
    have hb := h.2.2 l₁ c l₂ b eq e
    obtain ⟨u, v, huv⟩ := List.append_of_mem hb
    have := ih u (v ++ c :: l₂) (by rw [eq, huv]; simp)
    rw [huv]; simp [this]

theorem good_hope {w : World} {g : Nat} {l : List Node} (h : Good w g l) {n : Node} (hn : n ∈ l) :
    ¬ Hopeless w n := by
  have loop : ∀ m ∈ l, ¬ Before w m m := by
    intro m hm hb
    obtain ⟨u, v, huv⟩ := List.append_of_mem hm
    have := good_before h hb u v huv
    have hnd := h.1
    rw [huv, List.nodup_append] at hnd
    exact hnd.2.2 m this m (by simp) rfl
  rintro ⟨m, hm, rfl | hb⟩
  · exact loop m hn hm
  · obtain ⟨u, v, huv⟩ := List.append_of_mem hn
    have := good_before h hb u v huv
    exact loop m (by rw [huv]; simp [this]) hm

theorem good_complete {w : World} {g : Nat} {l : List Node} (hi : Inside w)
    (hmax : ∀ n, ¬ CanRun w g l n) {n : Node} (hn : Belongs w g n) (hh : ¬ Hopeless w n) : n ∈ l := by
  let S : Set Node := { m | m ∈ n :: w.edges.map (·.1) ∧ ¬ Before w m m }
  have hS : S.Finite := Set.Finite.subset (List.finite_toSet (n :: w.edges.map (fun e : Node × Node => e.1)))
    (fun m hm => hm.1)
  haveI : Finite S := hS
  let r : S → S → Prop := fun a b => Before w a.1 b.1
  haveI : IsTrans S r := ⟨fun a b c h1 h2 => Relation.TransGen.trans h1 h2⟩
  haveI : Std.Irrefl r := ⟨fun a h => a.2.2 h⟩
  have wf : WellFounded r := Finite.wellFounded_of_trans_of_irrefl r
  have key : ∀ m : S, Belongs w g m.1 → ¬ Hopeless w m.1 → m.1 ∈ l := by
    intro m
    induction m using wf.induction with
    | _ m ih =>
      intro hb hm
      apply Decidable.byContradiction
      intro hml
      have := hmax m.1
      simp only [CanRun, not_and, Classical.not_forall] at this
      obtain ⟨a, ha, hal⟩ := this hb hml
      have hah : ¬ Hopeless w a := by
        rintro ⟨k, hk, rfl | hka⟩
        · exact hm ⟨k, hk, .inr (.single ha)⟩
        · exact hm ⟨k, hk, .inr (.tail hka ha)⟩
      have haS : a ∈ S := by
        refine ⟨?_, fun h => hah ⟨a, h, .inl rfl⟩⟩
        exact List.mem_cons_of_mem _ (List.mem_map.mpr ⟨(a, m.1), ha, rfl⟩)
      exact hal (ih ⟨a, haS⟩ (Relation.TransGen.single ha) ((hi a m.1 g ha).mpr hb) hah)
  exact key ⟨n, by simp, fun h => hh ⟨n, h, .inl rfl⟩⟩ hn hh

/-- Tasks are in graphs that exist. -/
def Placed (w : World) : Prop := ∀ t g : Nat, w.tasks[t]? = some (some g) → w.graphs[g]? = some true

theorem belongs_graphOf {w : World} {g : Nat} {n : Node} (h : Belongs w g n) : w.graphOf n = some g := by
  have := (belongs_iff w g n).mpr h
  simp at this; exact this.1

theorem belongs_alive {w : World} (hp : Placed w) {g : Nat} {n : Node} (h : Belongs w g n) :
    w.alive g = true := by
  cases n with
  | root k => simp [World.alive, h.2]
  | task t => simp [World.alive, hp t g h]

theorem put_get {w : World} {t g : Nat} (h : w.has (.task t) = true) :
    (w.put t g).tasks[t]? = some (some g) := by
  simp [World.has] at h
  simp [World.put, h]

theorem put_ne {w : World} {t g u : Nat} (h : t ≠ u) : (w.put t g).tasks[u]? = w.tasks[u]? := by
  simp [World.put, List.getElem?_set, h]

theorem put_placed {w : World} {t g : Nat} (hp : Placed w) (hg : w.alive g = true) : Placed (w.put t g) := by
  intro u k hk
  by_cases e : t = u
  · subst e
    simp [World.put, List.getElem?_set] at hk
    obtain ⟨_, rfl⟩ := hk
    change w.graphs[g]? = some true
    simpa [World.alive] using hg
  · rw [put_ne e] at hk; exact hp u k hk

theorem join_ok {w : World} {a b : Node} {g h : Nat} (ha : w.graphOf a = some g) (hb : w.graphOf b = some h)
    (hg : w.alive g = true) (hh : w.alive h = true) :
    w.join a b = ({ w with edges := w.edges ++ [(a, b)] }, .ok) := by
  unfold World.join; rw [ha, hb]; simp [hg, hh]

theorem join_placed {w : World} (hp : Placed w) (a b : Node) : Placed (w.join a b).1 := by
  unfold World.join
  split
  · split <;> exact hp
  · exact hp

theorem andThen_placed {w : World} (hp : Placed w) (a b : Node) : Placed (w.andThen a b).1 := by
  unfold World.andThen
  cases b with
  | root => exact hp
  | task t =>
    dsimp only
    split
    · split
      · rename_i h; exact join_placed (put_placed hp h) _ _
      · exact hp
    · split
      · split
        · rename_i h; exact join_placed (put_placed hp h) _ _
        · exact hp
      · exact hp
    · exact join_placed hp _ _
    · split
      · exact join_placed hp _ _
      · split
        · rename_i h; exact join_placed (put_placed hp h) _ _
        · exact hp

theorem step_placed {w : World} (hp : Placed w) (op : GOp) (h : ∀ g, op ≠ .release g) :
    Placed (w.step op).1 := by
  cases op with
  | graph =>
    intro t g ht
    have := hp t g ht
    change (w.graphs ++ [true])[g]? = some true
    rw [List.getElem?_append_left (List.getElem?_eq_some_iff.mp this).1]; exact this
  | task =>
    intro t g ht
    change (w.tasks ++ [none])[t]? = some (some g) at ht
    rcases snoc_get ht with ⟨_, e⟩ | e
    · cases e
    · exact hp t g e
  | andThen a b =>
    change Placed (if w.has a && w.has b then ((w.andThen a b).1, some (w.andThen a b).2) else (w, none)).1
    split
    · exact andThen_placed hp a b
    · exact hp
  | release g => exact absurd rfl (h g)

theorem run_placed (ops : List GOp) (w : World) (hp : Placed w) (h : ∀ g, .release g ∉ ops) :
    Placed (w.run ops).1 := by
  induction ops generalizing w with
  | nil => exact hp
  | cons op ops ih =>
    refine ih _ (step_placed hp op ?_) (fun g hg => h g (by simp [hg]))
    rintro g rfl; exact h g (by simp)

theorem graphOf_some {w : World} {t g : Nat} (h : w.graphOf (.task t) = some g) : Belongs w g (.task t) := by
  unfold World.graphOf at h
  change w.tasks[t]? = some (some g)
  cases e : w.tasks[t]? with
  | none => simp [e] at h
  | some o => simp [e] at h; rw [h]

theorem graphOf_put {w : World} {t g : Nat} (h : w.has (.task t) = true) :
    (w.put t g).graphOf (.task t) = some g := by
  simp [World.graphOf, put_get h]

theorem belongs_put {w : World} {t g k : Nat} {n : Node} (hn : w.graphOf (.task t) = none)
    (h : Belongs w k n) : Belongs (w.put t g) k n := by
  cases n with
  | root j => exact h
  | task u =>
    by_cases e : t = u
    · subst e
      rw [belongs_graphOf h] at hn; cases hn
    · change (w.put t g).tasks[u]? = _
      rw [put_ne e]; exact h

/-- `then`, when one of the two is in a graph and nothing was released. -/
theorem andThen_ok {w : World} (hp : Placed w) {a : Node} {t g : Nat} (ha : w.has a = true)
    (ht : w.has (.task t) = true) (hg : Belongs w g a ∨ Belongs w g (.task t)) :
    (w.andThen a (.task t)).2 = .ok ∧
      (w.andThen a (.task t)).1.edges = w.edges ++ [(a, .task t)] ∧
      (w.andThen a (.task t)).1.graphs = w.graphs ∧
      (∀ k n, Belongs w k n → Belongs (w.andThen a (.task t)).1 k n) ∧
      ((∀ k k', Belongs w k a → Belongs w k' (.task t) → k = k') →
        ∃ k, Belongs (w.andThen a (.task t)).1 k a ∧ Belongs (w.andThen a (.task t)).1 k (.task t)) := by
  have edge : ∀ (v : World) (l : List (Node × Node)) k n, Belongs { v with edges := l } k n ↔ Belongs v k n := by
    intro v l k n; cases n <;> exact Iff.rfl
  -- both are in graphs
  have both : ∀ v : World, Placed v → v.edges = w.edges → v.graphs = w.graphs →
      (∀ k n, Belongs w k n → Belongs v k n) → ∀ k k', Belongs v k a → Belongs v k' (.task t) →
      (k = k' ∨ (Belongs w k a ∧ Belongs w k' (.task t))) →
      (v.join a (.task t)).2 = .ok ∧ (v.join a (.task t)).1.edges = w.edges ++ [(a, .task t)] ∧
      (v.join a (.task t)).1.graphs = w.graphs ∧
      (∀ k n, Belongs w k n → Belongs (v.join a (.task t)).1 k n) ∧
      ((∀ k k', Belongs w k a → Belongs w k' (.task t) → k = k') →
        ∃ k, Belongs (v.join a (.task t)).1 k a ∧ Belongs (v.join a (.task t)).1 k (.task t)) := by
    intro v hv he hgr hm k k' h1 h2 h3
    rw [join_ok (belongs_graphOf h1) (belongs_graphOf h2) (belongs_alive hv h1) (belongs_alive hv h2)]
    refine ⟨rfl, by simp [he], hgr, fun k n h => (edge _ _ _ _).mpr (hm k n h), fun hk => ?_⟩
    have e : k = k' := h3.elim id fun ⟨x, y⟩ => hk k k' x y
    subst e
    exact ⟨k, (edge _ _ _ _).mpr h1, (edge _ _ _ _).mpr h2⟩
  cases et : w.graphOf (.task t) with
  | some h =>
    have ht' := graphOf_some et
    cases a with
    | root k =>
      have e : w.andThen (.root k) (.task t) = w.join (.root k) (.task t) := by
        simp only [World.andThen, et]
      rw [e]
      have hk : Belongs w k (.root k) := by
        refine ⟨rfl, ?_⟩; simpa [World.has, World.alive] using ha
      exact both w hp rfl rfl (fun _ _ h => h) k h hk ht' (.inr ⟨hk, ht'⟩)
    | task s =>
      cases es : w.graphOf (.task s) with
      | some k =>
        have e : w.andThen (.task s) (.task t) = w.join (.task s) (.task t) := by
          simp only [World.andThen, et, es]
        rw [e]
        exact both w hp rfl rfl (fun _ _ h => h) k h (graphOf_some es) ht' (.inr ⟨graphOf_some es, ht'⟩)
      | none =>
        have hal := belongs_alive hp ht'
        have e : w.andThen (.task s) (.task t) = (w.put s h).join (.task s) (.task t) := by
          simp only [World.andThen, et, es, hal, if_true]
        rw [e]
        exact both (w.put s h) (put_placed hp hal) rfl rfl (fun _ _ h' => belongs_put es h') h h
          (graphOf_some (graphOf_put ha)) (belongs_put es ht') (.inl rfl)
  | none =>
    have hga : Belongs w g a := by
      rcases hg with h | h
      · exact h
      · rw [belongs_graphOf h] at et; cases et
    have hal := belongs_alive hp hga
    have e : w.andThen a (.task t) = (w.put t g).join a (.task t) := by
      cases a with
      | root k =>
        have hk : k = g := hga.1
        subst hk
        simp only [World.andThen, et, hal, if_true]
      | task s =>
        simp only [World.andThen, et, belongs_graphOf hga, hal, if_true]
    rw [e]
    exact both (w.put t g) (put_placed hp hal) rfl rfl (fun _ _ h' => belongs_put et h') g g
      (belongs_put et hga) (graphOf_some (graphOf_put ht)) (.inl rfl)

end Verif.Sched
