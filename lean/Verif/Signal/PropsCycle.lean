import Verif.Signal.CycleSpec
import Mathlib.Data.List.Perm.Subperm
import Mathlib.Tactic.ByContra

/-! # C36: the cyclic reference check -/

namespace Verif.Signal
open Verif.Graph Relation

/-! ## The structure of reachable nets -/

structure WF (net : Net) : Prop where
  listener : ∀ p b, net.listener p = some b → b < net.blocks
  link : ∀ p s, p ∈ net.conns s ↔ net.conn p = some s
  fresh : ∀ s, net.signals ≤ s → net.conns s = []
  port : ∀ p s, net.conn p = some s → p < net.ports
  nodup : ∀ s, (net.conns s).Nodup
  outs : ∀ b s, s ∈ net.outs b → b < net.blocks ∧ s < net.signals

theorem wf_init : WF init := by
  refine ⟨?_, ?_, ?_, ?_, ?_, ?_⟩
  · intro p b h; cases h
  · intro p s; constructor <;> (intro h; cases h)
  · intro s _; rfl
  · intro p s h; cases h
  · intro s; exact List.nodup_nil
  · intro b s h; cases h

theorem wf_unlink {net : Net} (h : WF net) (p : Nat) : WF (unlink net p) := by
  unfold unlink
  split
  · exact h
  · rename_i s hs
    have hc : ∀ q t, q ∈ upd net.conns s ((net.conns s).filter (· ≠ p)) t ↔ q ∈ net.conns t ∧ q ≠ p := by
      intro q t
      by_cases e : t = s
      · subst e; rw [upd_eq, List.mem_filter]; simp
      · rw [upd_ne _ _ e]
        constructor
        · intro hq
          refine ⟨hq, ?_⟩
          rintro rfl
          have := (h.link q t).mp hq
          rw [hs] at this
          exact e (Option.some.inj this).symm
        · exact fun hq => hq.1
    refine ⟨h.listener, ?_, ?_, ?_, ?_, h.outs⟩
    · intro q t
      rw [hc, h.link]
      by_cases e : q = p
      · subst e; simp [upd_eq]
      · show _ ↔ upd net.conn p none q = some t
        rw [upd_ne _ _ e]; simp [e]
    · intro t ht
      show upd net.conns s _ t = []
      by_cases e : t = s
      · subst e; rw [upd_eq, h.fresh t ht]; rfl
      · rw [upd_ne _ _ e]; exact h.fresh t ht
    · intro q t hq
      have hq : upd net.conn p none q = some t := hq
      by_cases e : q = p
      · subst e; rw [upd_eq] at hq; cases hq
      · rw [upd_ne _ _ e] at hq; exact h.port q t hq
    · intro t
      show (upd net.conns s _ t).Nodup
      by_cases e : t = s
      · subst e; rw [upd_eq]; exact (h.nodup t).filter _
      · rw [upd_ne _ _ e]; exact h.nodup t

theorem unlink_conn (net : Net) (p : Nat) : (unlink net p).conn p = none := by
  unfold unlink
  split
  · rename_i h; exact h
  · simp [upd_eq]

theorem unlink_same (net : Net) (p : Nat) : (unlink net p).ports = net.ports ∧ (unlink net p).signals = net.signals ∧
    (unlink net p).outs = net.outs ∧ (unlink net p).listener = net.listener ∧ (unlink net p).blocks = net.blocks := by
  unfold unlink; split <;> exact ⟨rfl, rfl, rfl, rfl, rfl⟩

theorem unlink_conns (net : Net) (p s q : Nat) (h : q ∈ (unlink net p).conns s) : q ∈ net.conns s := by
  unfold unlink at h
  split at h
  · exact h
  · rename_i t _
    have h : q ∈ upd net.conns t ((net.conns t).filter (· ≠ p)) s := h
    by_cases e : s = t
    · subst e; rw [upd_eq] at h; exact (List.mem_filter.mp h).1
    · rwa [upd_ne _ _ e] at h

theorem wf_link {net : Net} (h : WF net) {p s : Nat} (hp : p < net.ports) (hs : s < net.signals) (hn : net.conn p = none) :
    WF (link net p s) := by
  have hc : ∀ q t, q ∈ upd net.conns s (net.conns s ++ [p]) t ↔ q ∈ net.conns t ∨ (q = p ∧ t = s) := by
    intro q t
    by_cases e : t = s
    · subst e; rw [upd_eq]; simp
    · rw [upd_ne _ _ e]; simp [e]
  refine ⟨h.listener, ?_, ?_, ?_, ?_, h.outs⟩
  · intro q t
    show q ∈ upd net.conns s (net.conns s ++ [p]) t ↔ upd net.conn p (some s) q = some t
    rw [hc, h.link]
    by_cases e : q = p
    · subst e; rw [upd_eq, hn]; simp [eq_comm]
    · rw [upd_ne _ _ e]; simp [e]
  · intro t ht
    have ht : net.signals ≤ t := ht
    show upd net.conns s (net.conns s ++ [p]) t = []
    rw [upd_ne _ _ (by omega)]; exact h.fresh t ht
  · intro q t hq
    have hq : upd net.conn p (some s) q = some t := hq
    by_cases e : q = p
    · subst e; exact hp
    · rw [upd_ne _ _ e] at hq; exact h.port q t hq
  · intro t
    show (upd net.conns s (net.conns s ++ [p]) t).Nodup
    by_cases e : t = s
    · subst e
      rw [upd_eq, List.nodup_append]
      refine ⟨h.nodup t, by simp, ?_⟩
      intro a ha b hb e
      simp at hb
      subst hb; subst e
      have := (h.link a t).mp ha
      rw [hn] at this; cases this
    · rw [upd_ne _ _ e]; exact h.nodup t

theorem known_lt {net : Net} {l : Option Nat} (h : known net l = true) {b : Nat} (e : l = some b) : b < net.blocks := by
  subst e; simpa [known] using h

theorem wf_step {net : Net} (h : WF net) (op : Op) : WF (step net op).1 := by
  cases op with
  | newBlock =>
    exact ⟨fun p b hb => Nat.lt_succ_of_lt (h.listener p b hb), h.link, h.fresh, h.port, h.nodup,
      fun b s hs => ⟨Nat.lt_succ_of_lt (h.outs b s hs).1, (h.outs b s hs).2⟩⟩
  | newSignal o =>
    unfold step; dsimp only
    split
    · rename_i hk
      cases o with
      | none =>
        exact ⟨h.listener, h.link, fun s hs => h.fresh s (by have : net.signals + 1 ≤ s := hs; omega), h.port, h.nodup,
          fun b s hs => ⟨(h.outs b s hs).1, Nat.lt_succ_of_lt (h.outs b s hs).2⟩⟩
      | some b0 =>
        refine ⟨h.listener, h.link, fun s hs => h.fresh s (by have : net.signals + 1 ≤ s := hs; omega), h.port, h.nodup, ?_⟩
        intro b s hs
        have hs : s ∈ upd net.outs b0 (net.outs b0 ++ [net.signals]) b := hs
        show b < net.blocks ∧ s < net.signals + 1
        by_cases e : b = b0
        · subst e
          rw [upd_eq] at hs
          rcases List.mem_append.mp hs with hs | hs
          · exact ⟨(h.outs b s hs).1, Nat.lt_succ_of_lt (h.outs b s hs).2⟩
          · simp at hs; exact ⟨known_lt hk rfl, by omega⟩
        · rw [upd_ne _ _ e] at hs
          exact ⟨(h.outs b s hs).1, Nat.lt_succ_of_lt (h.outs b s hs).2⟩
    · exact h
  | newPort l =>
    unfold step; dsimp only
    split
    · rename_i hk
      refine ⟨?_, h.link, h.fresh, fun p s hp => Nat.lt_succ_of_lt (h.port p s hp), h.nodup, h.outs⟩
      intro p b hb
      have hb : upd net.listener net.ports l p = some b := hb
      by_cases e : p = net.ports
      · subst e; rw [upd_eq] at hb; exact known_lt (net := net) hk hb
      · rw [upd_ne _ _ e] at hb; exact h.listener p b hb
    · exact h
  | connect p s a =>
    unfold step; dsimp only
    split
    · rename_i hps
      simp only [Bool.and_eq_true, decide_eq_true_eq] at hps
      unfold connect
      split
      · exact h
      · split
        · exact wf_link (wf_unlink h p) (by rw [(unlink_same net p).1]; exact hps.1) (by rw [(unlink_same net p).2.1]; exact hps.2)
            (unlink_conn net p)
        · exact wf_unlink h p
    · exact h
  | disconnect p =>
    unfold step; dsimp only
    split
    · exact wf_unlink h p
    · exact h
  | setListener p l =>
    unfold step; dsimp only
    split
    · rename_i hk
      simp only [Bool.and_eq_true, decide_eq_true_eq] at hk
      refine ⟨?_, h.link, h.fresh, h.port, h.nodup, h.outs⟩
      intro q b hb
      have hb : upd net.listener p l q = some b := hb
      by_cases e : q = p
      · subst e; rw [upd_eq] at hb; exact known_lt (net := net) hk.2 hb
      · rw [upd_ne _ _ e] at hb; exact h.listener q b hb
    · exact h

theorem wf_exec (ops : List Op) : WF (exec ops).1 := by
  unfold exec
  induction ops using list_snoc_induction with
  | nil => exact wf_init
  | snoc ops op ih => rw [runTrace_snoc]; exact wf_step ih op

/-! ## The search -/

section
variable {net : Net} {target : Nat}

/-- `V'` adds to `V` only blocks that do not produce the target and all successors of which are in `V'`. -/
structure Grow (net : Net) (target : Nat) (V V' : List Nat) : Prop where
  sub : ∀ x ∈ V, x ∈ V'
  nodup : V'.Nodup
  bound : ∀ x ∈ V', x < net.blocks
  closed : ∀ x ∈ V', x ∉ V → target ∉ net.outs x ∧ ∀ y, Feeds net x y → y ∈ V'

theorem grow_refl {V : List Nat} (hn : V.Nodup) (hb : ∀ x ∈ V, x < net.blocks) : Grow net target V V :=
  ⟨fun _ h => h, hn, hb, fun _ h h' => absurd h h'⟩

theorem grow_trans {A B C : List Nat} (h1 : Grow net target A B) (h2 : Grow net target B C) : Grow net target A C := by
  refine ⟨fun x h => h2.sub x (h1.sub x h), h2.nodup, h2.bound, fun x hx hn => ?_⟩
  by_cases hb : x ∈ B
  · obtain ⟨h3, h4⟩ := h1.closed x hb hn
    exact ⟨h3, fun y hy => h2.sub y (h4 y hy)⟩
  · exact h2.closed x hx hb

theorem anyM_true {α : Type} {f : List Nat → α → Bool × List Nat} {Q : Prop} {l : List α}
    (h : ∀ a ∈ l, ∀ V, (f V a).1 = true → Q) : ∀ V, (anyM f V l).1 = true → Q := by
  induction l with
  | nil => intro V hV; cases hV
  | cons a l ih =>
    intro V hV
    unfold anyM at hV
    split at hV
    · rename_i V' e; exact h a List.mem_cons_self V (by rw [e])
    · rename_i V' e; exact ih (fun a ha => h a (List.mem_cons_of_mem _ ha)) V' hV

/-- If the loop finds nothing, every step found nothing, and what each step achieved lasts. -/
theorem anyM_false {α : Type} {f : List Nat → α → Bool × List Nat} {P : α → List Nat → Prop} {V0 : List Nat} {l : List α}
    (h : ∀ a ∈ l, ∀ V, Grow net target V0 V → (f V a).1 = false → Grow net target V (f V a).2 ∧ P a (f V a).2)
    (hmono : ∀ a V V', (∀ x ∈ V, x ∈ V') → P a V → P a V') :
    ∀ V, Grow net target V0 V → (anyM f V l).1 = false → Grow net target V (anyM f V l).2 ∧ ∀ a ∈ l, P a (anyM f V l).2 := by
  induction l with
  | nil => intro V hg _; exact ⟨grow_refl hg.nodup hg.bound, fun a ha => by cases ha⟩
  | cons a l ih =>
    intro V hg hV
    unfold anyM at hV ⊢
    have ha := h a List.mem_cons_self V hg
    revert hV ha
    generalize f V a = r
    obtain ⟨r1, V'⟩ := r
    intro hV ha
    cases r1 with
    | true => dsimp only at hV; cases hV
    | false =>
      dsimp only at hV ha ⊢
      obtain ⟨g1, p1⟩ := ha rfl
      obtain ⟨g2, p2⟩ := ih (fun a ha => h a (List.mem_cons_of_mem _ ha)) V' (grow_trans hg g1) hV
      refine ⟨grow_trans g1 g2, fun b hb => ?_⟩
      rcases List.mem_cons.mp hb with rfl | hb
      · exact hmono b _ _ g2.sub p1
      · exact p2 b hb

theorem visit_true : ∀ n V b, (visit net target n V b).1 = true →
    ∃ b', ReflTransGen (Feeds net) b b' ∧ target ∈ net.outs b' := by
  intro n
  induction n with
  | zero => intro V b h; cases h
  | succ n ih =>
    intro V b h
    unfold visit at h
    split at h
    · cases h
    · refine anyM_true ?_ _ h
      intro s hs V h
      split at h
      · rename_i e
        have e : s = target := by simpa using e
        subst e
        exact ⟨b, .refl, hs⟩
      · refine anyM_true ?_ _ h
        intro p hp V h
        split at h
        · cases h
        · rename_i b' hl
          obtain ⟨c, h1, h2⟩ := ih V b' h
          exact ⟨c, .head ⟨s, hs, p, hp, hl⟩ h1, h2⟩

theorem visit_false (hw : WF net) : ∀ n V b, V.Nodup → (∀ x ∈ V, x < net.blocks) → b < net.blocks → net.blocks < n + V.length →
    (visit net target n V b).1 = false → Grow net target V (visit net target n V b).2 ∧ b ∈ (visit net target n V b).2 := by
  intro n
  induction n with
  | zero =>
    intro V b hn hb _ hlen
    have : V.length ≤ net.blocks := by
      have := (List.subperm_of_subset hn (l₂ := List.range net.blocks) (fun x hx => List.mem_range.mpr (hb x hx))).length_le
      simpa using this
    omega
  | succ n ih =>
    intro V b hn hb hbb hlen h
    unfold visit at h ⊢
    split at h
    · rename_i hc
      rw [if_pos hc]
      exact ⟨grow_refl hn hb, by simpa using hc⟩
    · rename_i hc
      rw [if_neg hc]
      have hbV : b ∉ V := by simpa using hc
      have hn1 : (b :: V).Nodup := List.nodup_cons.mpr ⟨hbV, hn⟩
      have hb1 : ∀ x ∈ b :: V, x < net.blocks := by
        intro x hx
        rcases List.mem_cons.mp hx with rfl | hx
        · exact hbb
        · exact hb x hx
      have hlen1 : ∀ W, Grow net target (b :: V) W → net.blocks < n + W.length := by
        intro W hW
        have h1 : (b :: V).length ≤ W.length := (List.subperm_of_subset hn1 hW.sub).length_le
        simp at h1
        omega
      have key := anyM_false (net := net) (target := target) (V0 := b :: V) (l := net.outs b)
        (f := fun V s =>
          if s == target then (true, V)
          else anyM (fun V p => match net.listener p with
            | none => (false, V)
            | some b' => visit net target n V b') V (net.conns s))
        (P := fun s W => s ≠ target ∧ ∀ p ∈ net.conns s, ∀ b', net.listener p = some b' → b' ∈ W)
        (by
          intro s hs W hW hf
          split at hf
          · cases hf
          · rename_i hst
            rw [if_neg hst]
            have := anyM_false (net := net) (target := target) (V0 := b :: V) (l := net.conns s)
              (f := fun V p => match net.listener p with
                | none => (false, V)
                | some b' => visit net target n V b')
              (P := fun p W => ∀ b', net.listener p = some b' → b' ∈ W)
              (by
                intro p hp W hW hf
                cases hl : net.listener p with
                | none =>
                  simp only
                  exact ⟨grow_refl hW.nodup hW.bound, fun b' h => by cases h⟩
                | some b' =>
                  simp only [hl] at hf ⊢
                  obtain ⟨g, m⟩ := ih W b' hW.nodup hW.bound (hw.listener p b' hl) (hlen1 W hW) hf
                  exact ⟨g, fun b'' e => by cases e; exact m⟩)
              (fun p A B hAB hA b' hb' => hAB b' (hA b' hb')) W hW hf
            exact ⟨this.1, by simpa using hst, fun p hp => this.2 p hp⟩)
        (fun s A B hAB hA => ⟨hA.1, fun p hp b' hb' => hAB b' (hA.2 p hp b' hb')⟩)
        (b :: V) (grow_refl hn1 hb1) h
      obtain ⟨g, hall⟩ := key
      refine ⟨⟨fun x hx => g.sub x (List.mem_cons_of_mem _ hx), g.nodup, g.bound, ?_⟩, g.sub b List.mem_cons_self⟩
      intro x hx hxV
      by_cases e : x = b
      · subst e
        refine ⟨fun ht => (hall target ht).1 rfl, ?_⟩
        rintro y ⟨s, hs, p, hp, hl⟩
        exact (hall s hs).2 p hp y hl
      · exact g.closed x hx (by simp [e, hxV])

theorem visit_iff (hw : WF net) {b : Nat} (hb : b < net.blocks) : (visit net target (net.blocks + 1) [] b).1 = true ↔
    ∃ b', ReflTransGen (Feeds net) b b' ∧ target ∈ net.outs b' := by
  constructor
  · exact visit_true _ _ _
  · rintro ⟨b', hr, ht⟩
    by_contra hf
    have hf : (visit net target (net.blocks + 1) [] b).1 = false := by simpa using hf
    obtain ⟨g, hm⟩ := visit_false hw (net.blocks + 1) [] b List.nodup_nil (fun x hx => by cases hx) hb (by simp) hf
    have : b' ∈ (visit net target (net.blocks + 1) [] b).2 := by
      clear ht
      induction hr with
      | refl => exact hm
      | tail _ hs ih => exact (g.closed _ ih (by simp)).2 _ hs
    exact (g.closed b' this (by simp)).1 ht

end

/-- **C36** The check answers, after any history, exactly whether the signal is produced downstream of the port, also when
the graph has cycles. (The search is a total function; its depth bound is never what ends it.) -/
theorem C36_exact (ops : List Op) (s p : Nat) :
    hasCyclicReferenceIfConnected (exec ops).1 s p = true ↔ Downstream (exec ops).1 s p := by
  have hw := wf_exec ops
  revert hw
  generalize (exec ops).1 = net
  intro hw
  unfold hasCyclicReferenceIfConnected Downstream
  cases hl : net.listener p with
  | none => simp
  | some b =>
    dsimp only
    rw [visit_iff hw (hw.listener p b hl)]
    constructor
    · rintro ⟨b', h1, h2⟩; exact ⟨b, b', rfl, h1, h2⟩
    · rintro ⟨b0, b', e, h1, h2⟩; cases e; exact ⟨b', h1, h2⟩

/-- **C36** A search that finds nothing has entered every function block downstream, and each of them once. -/
theorem C36_once (ops : List Op) (s b : Nat) (hb : b < (exec ops).1.blocks)
    (hf : (visit (exec ops).1 s ((exec ops).1.blocks + 1) [] b).1 = false) :
    (visit (exec ops).1 s ((exec ops).1.blocks + 1) [] b).2.Nodup ∧
    ∀ b', ReflTransGen (Feeds (exec ops).1) b b' → b' ∈ (visit (exec ops).1 s ((exec ops).1.blocks + 1) [] b).2 := by
  have hw := wf_exec ops
  revert hw hb hf
  generalize (exec ops).1 = net
  intro hb hf hw
  obtain ⟨g, hm⟩ := visit_false hw (net.blocks + 1) [] b List.nodup_nil (fun x hx => by cases hx) hb (by simp) hf
  refine ⟨g.nodup, fun b' hr => ?_⟩
  induction hr with
  | refl => exact hm
  | tail _ hs ih => exact (g.closed _ ih (by simp)).2 _ hs

/-- **C36** The bound on the depth does not matter: with any larger one the search gives the same answer. -/
theorem C36_terminates (ops : List Op) (s b extra : Nat) (hb : b < (exec ops).1.blocks) :
    (visit (exec ops).1 s ((exec ops).1.blocks + 1 + extra) [] b).1 = (visit (exec ops).1 s ((exec ops).1.blocks + 1) [] b).1 := by
  have hw := wf_exec ops
  revert hw hb
  generalize (exec ops).1 = net
  intro hb hw
  rw [Bool.eq_iff_iff, visit_iff hw hb]
  constructor
  · exact visit_true _ _ _
  · rintro ⟨b', hr, ht⟩
    by_contra hf
    have hf : (visit net s (net.blocks + 1 + extra) [] b).1 = false := by simpa using hf
    obtain ⟨g, hm⟩ := visit_false hw (net.blocks + 1 + extra) [] b List.nodup_nil (fun x hx => by cases hx) hb (by simp; omega) hf
    have : b' ∈ (visit net s (net.blocks + 1 + extra) [] b).2 := by
      clear ht
      induction hr with
      | refl => exact hm
      | tail _ hs ih => exact (g.closed _ ih (by simp)).2 _ hs
    exact (g.closed b' this (by simp)).1 ht

/-- **C36** Connecting is refused as cyclic, and changes nothing, exactly when the signal is produced downstream. Otherwise,
if the listener accepts, the port is connected to that signal alone and the other ports are as before. -/
theorem C36_connect (ops : List Op) (p s : Nat) (a : Bool) (hp : p < (exec ops).1.ports) (hs : s < (exec ops).1.signals) :
    (Downstream (exec ops).1 s p → step (exec ops).1 (.connect p s a) = ((exec ops).1, .cyclicReference)) ∧
    (¬ Downstream (exec ops).1 s p →
      (step (exec ops).1 (.connect p s a)).2 = (if a then .ok else .refused) ∧
      (∀ t, p ∈ (step (exec ops).1 (.connect p s a)).1.conns t ↔ t = s ∧ a = true) ∧
      ∀ q t, q ≠ p → (q ∈ (step (exec ops).1 (.connect p s a)).1.conns t ↔ q ∈ (exec ops).1.conns t)) := by
  have hw := wf_exec ops
  have hex := C36_exact ops s p
  revert hw hex hp hs
  generalize (exec ops).1 = net
  intro hp hs hw hex
  have hst : step net (.connect p s a) = connect net p s a := by
    unfold step; dsimp only; rw [if_pos (by simp [hp, hs])]
  rw [hst]
  unfold connect
  have hu := wf_unlink hw p
  have hnone := unlink_conn net p
  have hother : ∀ q t, q ≠ p → (q ∈ (unlink net p).conns t ↔ q ∈ net.conns t) := by
    intro q t hq
    rw [hu.link, hw.link]
    unfold unlink
    split
    · rfl
    · show upd net.conn p none q = some t ↔ _
      rw [upd_ne _ _ hq]
  have hself : ∀ t, p ∉ (unlink net p).conns t := by
    intro t h
    have := (hu.link p t).mp h
    rw [hnone] at this; cases this
  constructor
  · intro h; rw [if_pos (hex.mpr h)]
  · intro h
    rw [if_neg (fun e => h (hex.mp e))]
    cases a with
    | false =>
      refine ⟨rfl, fun t => ⟨fun h => absurd h (hself t), fun h => by cases h.2⟩, hother⟩
    | true =>
      have hc : ∀ q t, q ∈ (link (unlink net p) p s).conns t ↔ q ∈ (unlink net p).conns t ∨ (q = p ∧ t = s) := by
        intro q t
        show q ∈ upd (unlink net p).conns s ((unlink net p).conns s ++ [p]) t ↔ _
        by_cases e : t = s
        · subst e; rw [upd_eq]; simp
        · rw [upd_ne _ _ e]; simp [e]
      refine ⟨rfl, fun t => ?_, fun q t hq => ?_⟩
      · simp only [if_true]
        rw [hc]
        simp [hself t]
      · simp only [if_true]
        rw [hc, hother q t hq]
        simp [hq]

/-! ## No cycles arise -/

/-- Adding edges into `l` from blocks that `l` does not reach makes no cycle. -/
theorem acyclic_add {R R' : Nat → Nat → Prop} {S : Nat → Prop} {l : Nat} (hR : ∀ x y, R' x y → R x y ∨ (S x ∧ y = l))
    (hS : ∀ b, S b → ¬ ReflTransGen R l b) (hac : ∀ b, ¬ TransGen R b b) : ∀ b, ¬ TransGen R' b b := by
  have h1 : ∀ y, ReflTransGen R' l y → ReflTransGen R l y := by
    intro y h
    induction h with
    | refl => exact .refl
    | tail _ hs ih =>
      rcases hR _ _ hs with h | ⟨h, e⟩
      · exact ih.tail h
      · exact absurd ih (hS _ h)
  have h2 : ∀ x y, TransGen R' x y → TransGen R x y ∨ ∃ b, S b ∧ ReflTransGen R x b ∧ ReflTransGen R' l y := by
    intro x y h
    induction h with
    | single hs =>
      rcases hR _ _ hs with h | ⟨h, e⟩
      · exact .inl (.single h)
      · exact .inr ⟨_, h, .refl, e ▸ .refl⟩
    | tail _ hs ih =>
      rcases ih with ih | ⟨b, k1, k2, k3⟩
      · rcases hR _ _ hs with h | ⟨h, e⟩
        · exact .inl (ih.tail h)
        · exact .inr ⟨_, h, ih.to_reflTransGen, e ▸ .refl⟩
      · exact .inr ⟨b, k1, k2, k3.tail hs⟩
  intro b h
  rcases h2 b b h with h | ⟨c, k1, k2, k3⟩
  · exact hac b h
  · exact hS c k1 ((h1 b k3).trans k2)

theorem acyclic_mono {a b : Net} (h : ∀ x y, Feeds b x y → Feeds a x y) (ha : Acyclic a) : Acyclic b :=
  fun x hx => ha x (TransGen.mono (fun u v => h u v) _ _ hx)

theorem feeds_unlink (net : Net) (p x y : Nat) (h : Feeds (unlink net p) x y) : Feeds net x y := by
  obtain ⟨s, hs, q, hq, hl⟩ := h
  obtain ⟨-, -, e3, e4, -⟩ := unlink_same net p
  rw [e3] at hs
  rw [e4] at hl
  exact ⟨s, hs, q, unlink_conns net p s q hq, hl⟩

theorem acyclic_step {net : Net} (hw : WF net) (hex : ∀ s p, hasCyclicReferenceIfConnected net s p = true ↔ Downstream net s p)
    (h : Acyclic net) {op : Op} (ho : NoSetListener op) : Acyclic (step net op).1 := by
  cases op with
  | newBlock => exact acyclic_mono (fun x y hf => hf) h
  | newSignal o =>
    unfold step; dsimp only
    split
    · cases o with
      | none => exact acyclic_mono (fun x y hf => hf) h
      | some b0 =>
        refine acyclic_mono ?_ h
        rintro x y ⟨s, hs, q, hq, hl⟩
        have hs : s ∈ upd net.outs b0 (net.outs b0 ++ [net.signals]) x := hs
        have hq : q ∈ net.conns s := hq
        refine ⟨s, ?_, q, hq, hl⟩
        by_cases e : x = b0
        · subst e
          rw [upd_eq] at hs
          rcases List.mem_append.mp hs with hs | hs
          · exact hs
          · simp at hs
            change q ∈ net.conns s at hq
            rw [hs, hw.fresh net.signals (Nat.le_refl _)] at hq; cases hq
        · rwa [upd_ne _ _ e] at hs
    · exact h
  | newPort l =>
    unfold step; dsimp only
    split
    · refine acyclic_mono ?_ h
      rintro x y ⟨s, hs, q, hq, hl⟩
      have hl : upd net.listener net.ports l q = some y := hl
      have hq : q ∈ net.conns s := hq
      have : q < net.ports := hw.port q s ((hw.link q s).mp hq)
      rw [upd_ne _ _ (Nat.ne_of_lt this)] at hl
      exact ⟨s, hs, q, hq, hl⟩
    · exact h
  | connect p s a =>
    unfold step; dsimp only
    split
    · unfold connect
      split
      · exact h
      · rename_i hc
        have hc : ¬ Downstream net s p := fun e => hc ((hex s p).mpr e)
        split
        · cases hl : net.listener p with
          | none =>
            refine acyclic_mono ?_ h
            rintro x y ⟨t, ht, q, hq, hlq⟩
            obtain ⟨-, -, e3, e4, -⟩ := unlink_same net p
            have ht : t ∈ (unlink net p).outs x := ht
            have hlq : (unlink net p).listener q = some y := hlq
            have hq : q ∈ upd (unlink net p).conns s ((unlink net p).conns s ++ [p]) t := hq
            refine feeds_unlink net p x y ⟨t, ht, q, ?_, hlq⟩
            by_cases e : t = s
            · subst e
              rw [upd_eq] at hq
              rcases List.mem_append.mp hq with hq | hq
              · exact hq
              · simp at hq
                change (unlink net p).listener q = some y at hlq
                rw [hq, e4, hl] at hlq; cases hlq
            · rwa [upd_ne _ _ e] at hq
          | some l =>
            refine acyclic_add (R := Feeds net) (S := fun b => s ∈ net.outs b) (l := l) ?_ ?_ h
            · rintro x y ⟨t, ht, q, hq, hlq⟩
              obtain ⟨-, -, e3, e4, -⟩ := unlink_same net p
              have ht : t ∈ (unlink net p).outs x := ht
              have hlq : (unlink net p).listener q = some y := hlq
              have hq : q ∈ upd (unlink net p).conns s ((unlink net p).conns s ++ [p]) t := hq
              by_cases e : t = s
              · subst e
                rw [upd_eq] at hq
                rcases List.mem_append.mp hq with hq | hq
                · exact .inl (feeds_unlink net p x y ⟨t, ht, q, hq, hlq⟩)
                · simp at hq
                  change (unlink net p).listener q = some y at hlq
                  change t ∈ (unlink net p).outs x at ht
                  rw [hq, e4, hl] at hlq
                  rw [e3] at ht
                  exact .inr ⟨ht, (Option.some.inj hlq).symm⟩
              · rw [upd_ne _ _ e] at hq
                exact .inl (feeds_unlink net p x y ⟨t, ht, q, hq, hlq⟩)
            · intro b hb hr
              exact hc ⟨l, b, hl, hr, hb⟩
        · exact acyclic_mono (feeds_unlink net p) h
    · exact h
  | disconnect p =>
    unfold step; dsimp only
    split
    · exact acyclic_mono (feeds_unlink net p) h
    · exact h
  | setListener p l => exact absurd ho id

/-- **C36** As long as ports keep their listener, no history of connecting and disconnecting makes function blocks feed
themselves. -/
theorem C36_acyclic_partial (ops : List Op) (h : ∀ op ∈ ops, NoSetListener op) : Acyclic (exec ops).1 := by
  induction ops using list_snoc_induction with
  | nil =>
    intro b hb
    have : ∀ x y, ¬ Feeds init x y := by rintro x y ⟨s, hs, -⟩; cases hs
    cases hb with
    | single h => exact this _ _ h
    | tail _ h => exact this _ _ h
  | snoc ops op ih =>
    have e : (exec (ops ++ [op])).1 = (step (exec ops).1 op).1 := by unfold exec; rw [runTrace_snoc]
    rw [e]
    exact acyclic_step (wf_exec ops) (C36_exact ops) (ih (fun o ho => h o (List.mem_append_left _ ho)))
      (h op (List.mem_append_right _ List.mem_cons_self))

/-- Two function blocks, the first feeding the second. -/
def chain : List Op :=
  [.newBlock, .newBlock, .newSignal (some 0), .newSignal (some 1), .newPort (some 0), .newPort (some 1), .connect 1 0 true]

example : (∀ op ∈ chain, NoSetListener op) ∧ Feeds (exec chain).1 0 1 ∧ Downstream (exec chain).1 1 0 ∧
    (step (exec chain).1 (.connect 0 1 true)).2 = .cyclicReference ∧
    (step (exec chain).1 (.connect 0 0 true)).2 = .cyclicReference := by
  have hf : Feeds (exec chain).1 0 1 := ⟨0, by decide, 1, by decide, rfl⟩
  refine ⟨?_, hf, ⟨0, 1, rfl, .single hf, by decide⟩, by decide, by decide⟩
  intro op h
  simp only [chain, List.mem_cons, List.not_mem_nil, or_false] at h
  rcases h with rfl | rfl | rfl | rfl | rfl | rfl | rfl <;> trivial

/-- **C36 (violation)** A port without listener can be connected to any signal; a listener set afterwards closes the cycle
unnoticed. -/
theorem C36_violation_setListener :
    (let net := (exec [.newBlock, .newSignal (some 0), .newPort none, .connect 0 0 true, .setListener 0 (some 0)]).1
     TransGen (Feeds net) 0 0) :=
  .single ⟨0, by decide, 0, by decide, rfl⟩

/-- **C36 (violation)** When the listener refuses the new connection the old one is gone. -/
theorem C36_violation_lostConnection :
    (let net := (exec [.newBlock, .newSignal none, .newSignal none, .newPort (some 0), .connect 0 0 true]).1
     net.conn 0 = some 0 ∧ (step net (.connect 0 1 false)).2 = .refused ∧ (step net (.connect 0 1 false)).1.conn 0 = none) := by
  decide

end Verif.Signal
