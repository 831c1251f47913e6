import Verif.Sources.Spec
/-!
# Lemmas about the connections of one device
-/
namespace Verif.Sources
open Spec

theorem idxOf?_spec [BEq α] [LawfulBEq α] [DecidableEq α] : ∀ (l : List α) (x : α) (p : Nat),
    l.idxOf? x = some p ↔ l[p]? = some x ∧ ∀ q, q < p → l[q]? ≠ some x
  | [], x, p => by simp
  | a :: l, x, p => by
    rw [List.idxOf?_cons]
    by_cases h : a = x
    · have hb : (a == x) = true := by simp [h]
      rw [if_pos hb]
      constructor
      · intro e
        obtain rfl := Option.some.inj e
        exact ⟨by simp [h], fun q hq => absurd hq (Nat.not_lt_zero q)⟩
      · rintro ⟨_, h2⟩
        cases p with
        | zero => rfl
        | succ p => exact absurd (by simp [h]) (h2 0 (Nat.succ_pos p))
    · have hb : ¬ (a == x) = true := by simp [h]
      rw [if_neg hb]
      cases p with
      | zero =>
        constructor
        · intro e
          cases e2 : l.idxOf? x with
          | none => rw [e2] at e; cases e
          | some k => rw [e2] at e; cases e
        · rintro ⟨e, _⟩
          simp at e; exact absurd e h
      | succ p =>
        have ih := idxOf?_spec l x p
        constructor
        · intro e
          have e' : l.idxOf? x = some p := by
            cases e2 : l.idxOf? x with
            | none => rw [e2] at e; cases e
            | some k => rw [e2] at e; simp at e; rw [e]
          obtain ⟨h1, h2⟩ := ih.mp e'
          refine ⟨by simpa using h1, fun q hq => ?_⟩
          cases q with
          | zero => simp [h]
          | succ q => simpa using h2 q (Nat.lt_of_succ_lt_succ hq)
        · rintro ⟨h1, h2⟩
          have e' : l.idxOf? x = some p :=
            ih.mpr ⟨by simpa using h1, fun q hq => by simpa using h2 (q + 1) (Nat.succ_lt_succ hq)⟩
          rw [e']; rfl

theorem priority_iff (cfg : Cfg) (c : Cap) (p : Nat) : priority cfg c = some p ↔ Eligible cfg c p := by
  unfold priority
  by_cases hs : c.streaming = false
  · rw [if_pos hs]
    exact ⟨(fun h => by cases h), fun h => absurd h.streaming (by rw [hs]; decide)⟩
  · rw [if_neg hs]
    by_cases ha : cfg.allowed ≠ [] ∧ c.proto ∉ cfg.allowed
    · rw [if_pos ha]
      exact ⟨(fun h => by cases h), fun h => h.allowed.elim (fun e => absurd e ha.1) (fun e => absurd e ha.2)⟩
    · rw [if_neg ha, idxOf?_spec]
      constructor
      · rintro ⟨h1, h2⟩
        refine ⟨by simpa using hs, ?_, h1, h2⟩
        by_cases e : cfg.allowed = []
        · exact .inl e
        · exact .inr (Decidable.byContradiction fun e' => ha ⟨e, e'⟩)
      · exact fun h => ⟨h.place, h.first⟩

theorem best_spec (cfg : Cfg) (g : Text) : ∀ (l : List Cap) (p : Nat), best cfg g l = some p ↔
    (∃ c ∈ l, c.group = g ∧ Eligible cfg c p) ∧ ∀ c ∈ l, c.group = g → ∀ q, Eligible cfg c q → p ≤ q
  | [], p => by simp [best]
  | c :: l, p => by
    have ih := best_spec cfg g l
    have hl : best cfg g l = none → ∀ d ∈ l, d.group = g → ∀ q, ¬ Eligible cfg d q := by
      intro hn
      -- otherwise there is a least one
      intro d hd hg q hq
      have : ∃ n, ∃ d ∈ l, d.group = g ∧ Eligible cfg d n := ⟨q, d, hd, hg, hq⟩
      have hmin : ∃ n, (∃ d ∈ l, d.group = g ∧ Eligible cfg d n) ∧
          ∀ m, (∃ d ∈ l, d.group = g ∧ Eligible cfg d m) → n ≤ m := by
        obtain ⟨n, hn⟩ := this
        induction n using Nat.strongRecOn with
        | ind n ihn =>
          by_cases hx : ∃ m, m < n ∧ ∃ d ∈ l, d.group = g ∧ Eligible cfg d m
          · obtain ⟨m, hm, h⟩ := hx
            exact ihn m hm h
          · exact ⟨n, hn, fun m h => Nat.le_of_not_lt fun hlt => hx ⟨m, hlt, h⟩⟩
      obtain ⟨n, hn1, hn2⟩ := hmin
      have := (ih n).mpr ⟨hn1, fun c hc hg q hq => hn2 q ⟨c, hc, hg, hq⟩⟩
      rw [hn] at this; cases this
    have huniq : ∀ a b, Eligible cfg c a → Eligible cfg c b → a = b := by
      intro a b ha hb
      have h1 := (priority_iff cfg c a).mpr ha
      rw [(priority_iff cfg c b).mpr hb] at h1
      exact (Option.some.inj h1).symm
    unfold best
    by_cases hg : c.group = g
    · rw [if_pos hg]
      cases hp : priority cfg c with
      | none =>
        have hno : ∀ q, ¬ Eligible cfg c q := fun q hq => by
          rw [← priority_iff, hp] at hq; cases hq
        dsimp only
        rw [ih]
        constructor
        · rintro ⟨⟨d, hd, h⟩, h2⟩
          refine ⟨⟨d, List.mem_cons_of_mem _ hd, h⟩, fun e he heg q hq => ?_⟩
          rcases List.mem_cons.mp he with rfl | he
          · exact absurd hq (hno q)
          · exact h2 e he heg q hq
        · rintro ⟨⟨d, hd, h⟩, h2⟩
          rcases List.mem_cons.mp hd with rfl | hd
          · exact absurd h.2 (hno p)
          · exact ⟨⟨d, hd, h⟩, fun e he => h2 e (List.mem_cons_of_mem _ he)⟩
      | some a =>
        have ha : Eligible cfg c a := (priority_iff cfg c a).mp hp
        cases hb : best cfg g l with
        | none =>
          dsimp only
          constructor
          · intro e
            obtain rfl := Option.some.inj e
            refine ⟨⟨c, List.mem_cons_self, hg, ha⟩, fun e he heg q hq => ?_⟩
            rcases List.mem_cons.mp he with rfl | he
            · exact Nat.le_of_eq (huniq _ _ ha hq)
            · exact absurd hq (hl hb e he heg q)
          · rintro ⟨⟨d, hd, h⟩, h2⟩
            rcases List.mem_cons.mp hd with rfl | hd
            · rw [huniq _ _ ha h.2]
            · exact absurd h.2 (hl hb d hd h.1 p)
        | some b =>
          obtain ⟨⟨d, hd, hdg, hde⟩, hmin⟩ := (ih b).mp hb
          dsimp only
          constructor
          · intro e
            have e := Option.some.inj e
            refine ⟨?_, fun e' he heg q hq => ?_⟩
            · by_cases hab : a ≤ b
              · exact ⟨c, List.mem_cons_self, hg, by rw [← e, Nat.min_eq_left hab]; exact ha⟩
              · exact ⟨d, List.mem_cons_of_mem _ hd, hdg, by rw [← e, Nat.min_eq_right (by omega)]; exact hde⟩
            · rcases List.mem_cons.mp he with rfl | he
              · rw [← huniq _ _ ha hq]; omega
              · have := hmin e' he heg q hq; omega
          · rintro ⟨⟨d', hd', hdg', hde'⟩, h2⟩
            have h3 := h2 c List.mem_cons_self hg a ha
            have h4 := h2 d (List.mem_cons_of_mem _ hd) hdg b hde
            congr 1
            rcases List.mem_cons.mp hd' with rfl | hd'
            · rw [huniq _ _ hde' ha] at *; omega
            · have := hmin d' hd' hdg' p hde'; omega
    · rw [if_neg hg]
      dsimp only
      rw [ih]
      constructor
      · rintro ⟨⟨d, hd, h⟩, h2⟩
        refine ⟨⟨d, List.mem_cons_of_mem _ hd, h⟩, fun e he heg q hq => ?_⟩
        rcases List.mem_cons.mp he with rfl | he
        · exact absurd heg hg
        · exact h2 e he heg q hq
      · rintro ⟨⟨d, hd, h⟩, h2⟩
        rcases List.mem_cons.mp hd with rfl | hd
        · exact absurd h.1 hg
        · exact ⟨⟨d, hd, h⟩, fun e he => h2 e (List.mem_cons_of_mem _ he)⟩

/-- When a connection is made. -/
theorem connect_some (cfg : Cfg) (make : Text → Option Strm) (i : Info) (got : List Strm) (c : Cap) (x : Nat × Strm) :
    connect cfg make i got c = some x ↔
      Eligible cfg c x.1 ∧ (c.group ≠ [] → best cfg c.group i.caps = some x.1 ∧ ∀ y ∈ got, y.group ≠ c.group) ∧
      ∃ s, choose cfg i c = some s ∧ (∀ y ∈ got, y.conn ≠ s) ∧ make s = some x.2 := by
  obtain ⟨p, x⟩ := x
  unfold connect
  cases hp : priority cfg c with
  | none =>
    dsimp only
    constructor
    · intro h; cases h
    · rintro ⟨h, _⟩
      rw [← priority_iff, hp] at h; cases h
  | some q =>
    dsimp only
    have he : Eligible cfg c q := (priority_iff cfg c q).mp hp
    have hany : ∀ (f : Strm → Text) (v : Text), (got.any fun x => f x == v) = true ↔ ¬ ∀ y ∈ got, f y ≠ v := by
      intro f v
      rw [List.any_eq_true]
      constructor
      · rintro ⟨y, hy, e⟩ h
        exact h y hy (by simpa using e)
      · intro h
        refine Decidable.byContradiction fun hn => h fun y hy e => hn ⟨y, hy, by simp [e]⟩
    by_cases hc : c.group ≠ [] ∧ (best cfg c.group i.caps ≠ some q ∨ (got.any fun x => x.group == c.group) = true)
    · rw [if_pos hc]
      constructor
      · intro h; cases h
      · rintro ⟨h1, h2, _⟩
        have : p = q := by
          have := (priority_iff cfg c p).mpr h1
          rw [hp] at this; exact (Option.some.inj this).symm
        obtain ⟨h3, h4⟩ := h2 hc.1
        rcases hc.2 with h | h
        · rw [this] at h3; exact absurd h3 h
        · exact absurd h4 ((hany (·.group) c.group).mp h)
    · rw [if_neg hc]
      have hc' : c.group ≠ [] → best cfg c.group i.caps = some q ∧ ∀ y ∈ got, y.group ≠ c.group := by
        intro hg
        constructor
        · exact Decidable.byContradiction fun h => hc ⟨hg, .inl h⟩
        · refine Decidable.byContradiction fun h => hc ⟨hg, .inr ((hany (·.group) c.group).mpr h)⟩
      cases hch : choose cfg i c with
      | none =>
        dsimp only
        constructor
        · intro h; cases h
        · rintro ⟨_, _, s, hs, _⟩; cases hs
      | some s =>
        dsimp only
        by_cases hd : (got.any fun x => x.conn == s) = true
        · rw [if_pos hd]
          constructor
          · intro h; cases h
          · rintro ⟨_, _, s', hs, h, _⟩
            obtain rfl := Option.some.inj hs
            exact absurd h ((hany (·.conn) s).mp hd)
        · rw [if_neg hd]
          have hd' : ∀ y ∈ got, y.conn ≠ s := Decidable.byContradiction fun h => hd ((hany (·.conn) s).mpr h)
          constructor
          · intro h
            cases hm : make s with
            | none => rw [hm] at h; cases h
            | some y =>
              rw [hm] at h
              have h := Option.some.inj h
              obtain ⟨rfl, rfl⟩ := Prod.mk.inj h
              exact ⟨he, hc', s, rfl, hd', hm⟩
          · rintro ⟨h1, _, s', hs, _, hm⟩
            obtain rfl := Option.some.inj hs
            rw [hm]
            have : p = q := by
              have := (priority_iff cfg c p).mpr h1
              rw [hp] at this; exact (Option.some.inj this).symm
            rw [this]; rfl

/-- The connections come from a part of the capabilities, in their order. -/
theorem pick_from (cfg : Cfg) (make : Text → Option Strm) (i : Info) (old : List Strm) :
    ∀ (l : List Cap) (acc : List (Nat × Strm)), ∃ sel : List (Cap × (Nat × Strm)),
      pick cfg make i old l acc = acc ++ sel.map (·.2) ∧ (sel.map (·.1)).Sublist l ∧
      ∀ pre y post, sel = pre ++ y :: post →
        connect cfg make i (old ++ (acc ++ pre.map (·.2)).map (·.2)) y.1 = some y.2
  | [], acc => ⟨[], by simp [pick], by simp, fun pre y post h => by simp at h⟩
  | c :: l, acc => by
    unfold pick
    cases h : connect cfg make i (old ++ acc.map (·.2)) c with
    | none =>
      obtain ⟨sel, h1, h2, h3⟩ := pick_from cfg make i old l acc
      exact ⟨sel, h1, h2.cons _, h3⟩
    | some x =>
      obtain ⟨sel, h1, h2, h3⟩ := pick_from cfg make i old l (acc ++ [x])
      refine ⟨(c, x) :: sel, ?_, h2.cons_cons _, ?_⟩
      · dsimp only; rw [h1]; simp
      · intro pre y post e
        cases pre with
        | nil =>
          obtain ⟨rfl, _⟩ := List.cons.inj e
          simpa using h
        | cons z pre =>
          obtain ⟨rfl, e'⟩ := List.cons.inj e
          have := h3 pre y post e'
          simpa using this

/-- What is connected afterwards leaves nothing to connect. -/
theorem pick_closed (cfg : Cfg) {make : Text → Option Strm} (hf : Faithful make) (i : Info) (old : List Strm) :
    ∀ (l : List Cap) (acc : List (Nat × Strm)) (got : List Strm),
      (∀ y ∈ old ++ (pick cfg make i old l acc).map (·.2), y ∈ got) → ∀ c ∈ l, connect cfg make i got c = none
  | [], _, _, _, _, h => nomatch h
  | c :: l, acc, got, hg, d, hd => by
    unfold pick at hg
    have hacc : ∀ acc' : List (Nat × Strm), (∀ y ∈ old ++ (pick cfg make i old l acc').map (·.2), y ∈ got) →
        ∀ y ∈ old ++ acc'.map (·.2), y ∈ got := by
      intro acc' h y hy
      refine h y ?_
      obtain ⟨sel, h1, _, _⟩ := pick_from cfg make i old l acc'
      rw [h1]
      rcases List.mem_append.mp hy with hy | hy
      · exact List.mem_append_left _ hy
      · exact List.mem_append_right _ (by rw [List.map_append]; exact List.mem_append_left _ hy)
    cases h : connect cfg make i (old ++ acc.map (·.2)) c with
    | none =>
      rw [h] at hg
      dsimp only at hg
      rcases List.mem_cons.mp hd with rfl | hd
      · cases hx : connect cfg make i got d with
        | none => rfl
        | some x =>
          obtain ⟨h1, h2, s, h3, h4, h5⟩ := (connect_some ..).mp hx
          have hsub := hacc acc hg
          have : connect cfg make i (old ++ acc.map (·.2)) d = some x :=
            (connect_some ..).mpr ⟨h1, fun g => ⟨(h2 g).1, fun y hy => (h2 g).2 y (hsub y hy)⟩, s, h3,
              fun y hy => h4 y (hsub y hy), h5⟩
          rw [h] at this; cases this
      · exact pick_closed cfg hf i old l acc got hg d hd
    | some x =>
      rw [h] at hg
      dsimp only at hg
      rcases List.mem_cons.mp hd with rfl | hd
      · cases hx : connect cfg make i got d with
        | none => rfl
        | some x' =>
          obtain ⟨_, _, s', h3', h4', _⟩ := (connect_some ..).mp hx
          obtain ⟨_, _, s, h3, _, h5⟩ := (connect_some ..).mp h
          rw [h3] at h3'
          obtain rfl := Option.some.inj h3'
          have hin : x.2 ∈ got := hacc (acc ++ [x]) hg x.2 (by simp)
          exact absurd (hf _ _ h5) (h4' x.2 hin)
      · exact pick_closed cfg hf i old l (acc ++ [x]) got hg d hd

/-! ## Sorting -/

theorem ins_perm (x : Nat × Strm) : ∀ l, (ins x l).Perm (x :: l)
  | [] => .refl _
  | y :: l => by
    unfold ins
    split
    · exact .refl _
    · exact ((ins_perm x l).cons y).trans (.swap x y l)

theorem ins_sorted (x : Nat × Strm) : ∀ {l : List (Nat × Strm)}, l.Pairwise (fun a b => a.1 ≤ b.1) →
    (ins x l).Pairwise (fun a b => a.1 ≤ b.1)
  | [], _ => List.pairwise_singleton _ _
  | y :: l, h => by
    rw [List.pairwise_cons] at h
    unfold ins
    split
    · rename_i hlt
      rw [List.pairwise_cons]
      refine ⟨fun b hb => ?_, List.pairwise_cons.mpr h⟩
      rcases List.mem_cons.mp hb with rfl | hb
      · exact Nat.le_of_lt hlt
      · exact Nat.le_trans (Nat.le_of_lt hlt) (h.1 b hb)
    · rename_i hlt
      rw [List.pairwise_cons]
      refine ⟨fun b hb => ?_, ins_sorted x h.2⟩
      rcases List.mem_cons.mp ((ins_perm x l).mem_iff.mp hb) with rfl | hb
      · exact Nat.le_of_not_lt hlt
      · exact h.1 b hb

theorem ins_filter (x : Nat × Strm) (p : Nat) : ∀ {l : List (Nat × Strm)}, l.Pairwise (fun a b => a.1 ≤ b.1) →
    (ins x l).filter (fun y => y.1 == p) = l.filter (fun y => y.1 == p) ++ [x].filter (fun y => y.1 == p)
  | [], _ => by simp [ins]
  | y :: l, h => by
    have h' := h
    rw [List.pairwise_cons] at h
    unfold ins
    split
    · rename_i hlt
      by_cases hx : x.1 = p
      · have hnone : (y :: l).filter (fun y => y.1 == p) = [] := by
          rw [List.filter_eq_nil_iff]
          intro z hz
          have : y.1 ≤ z.1 := by
            rcases List.mem_cons.mp hz with rfl | hz
            · exact Nat.le_refl _
            · exact h.1 z hz
          simp only [beq_iff_eq]; omega
        rw [hnone, List.filter_cons, hnone]
        simp [hx]
      · rw [List.filter_cons]
        simp [hx]
    · rw [List.filter_cons, List.filter_cons, ins_filter x p h.2]
      split <;> simp

theorem sort_spec : ∀ (l acc : List (Nat × Strm)), acc.Pairwise (fun a b => a.1 ≤ b.1) →
    (sort l acc).Perm (acc ++ l) ∧ (sort l acc).Pairwise (fun a b => a.1 ≤ b.1) ∧
    ∀ p, (sort l acc).filter (fun y => y.1 == p) = (acc ++ l).filter (fun y => y.1 == p)
  | [], acc, h => by simp [sort, h]
  | x :: l, acc, h => by
    obtain ⟨h1, h2, h3⟩ := sort_spec l (ins x acc) (ins_sorted x h)
    unfold sort
    refine ⟨?_, h2, fun p => ?_⟩
    · refine h1.trans ?_
      refine ((ins_perm x acc).append_right l).trans ?_
      exact List.perm_middle.symm
    · rw [h3, List.filter_append, ins_filter x p h]
      rw [List.append_assoc, ← List.filter_append, ← List.filter_append]; simp

theorem addAll_spec : ∀ (l old : List Strm), (∀ x ∈ l, ∀ y ∈ old, y.conn ≠ x.conn) → (l.map (·.conn)).Nodup →
    addAll old l = (old ++ l, true)
  | [], old, _, _ => by simp [addAll]
  | x :: l, old, h, hn => by
    rw [List.map_cons, List.nodup_cons] at hn
    unfold addAll
    have : ¬ (old.any fun y => y.conn == x.conn) = true := by
      intro e
      obtain ⟨y, hy, e⟩ := List.any_eq_true.mp e
      exact h x List.mem_cons_self y hy (by simpa using e)
    rw [if_neg this, addAll_spec l (old ++ [x])]
    · simp
    · intro z hz y hy
      rcases List.mem_append.mp hy with hy | hy
      · exact h z (List.mem_cons_of_mem _ hz) y hy
      · rw [List.mem_singleton.mp hy]
        intro e
        exact hn.1 (List.mem_map.mpr ⟨z, hz, e.symm⟩)
    · exact hn.2

end Verif.Sources
