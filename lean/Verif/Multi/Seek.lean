import Verif.Multi.Sync
import Verif.Multi.Flow

/-! # From the first packets to synchronised reading -/

namespace Verif.Multi

open Spec

/-- The samples of a signal from the beginning of its current packet on. -/
def whole (s : Sig) : List (Tok × Int) := pending { s with prev := 0 }

/-- The samples of a signal can be compared with the target. -/
structure Good (d : Dom) (T delta : Int) (l : List (Tok × Int)) : Prop where
  whole : Whole d
  pos : 0 < delta
  reg : Regular delta l
  fit : AllFit d delta l
  head : ∀ x, l.head? = some x → before d T (x.1, x.2 - delta) = true

theorem regular_prefix {delta : Int} : ∀ {a b : List (Tok × Int)}, Regular delta (a ++ b) → Regular delta a
  | [], _, _ => trivial
  | [_], _, _ => trivial
  | x :: y :: a, b, h => by
    have h2 : Regular delta (y :: a ++ b) := h.2
    exact ⟨h.1, regular_prefix h2⟩

theorem head_append {α : Type} {a b : List α} {x : α} (h : a.head? = some x) : (a ++ b).head? = some x := by
  cases a with
  | nil => cases h
  | cons y a => exact h

theorem Good.pre {d : Dom} {T delta : Int} {a b : List (Tok × Int)} (h : Good d T delta (a ++ b)) : Good d T delta a :=
  ⟨h.whole, h.pos, regular_prefix h.reg,
    ⟨h.fit.dist, fun x hx => h.fit.mem x (List.mem_append_left _ hx), fun x hx => h.fit.head x (head_append hx)⟩,
    fun x hx => h.head x (head_append hx)⟩

/-- What follows samples before the target. -/
theorem Good.suf {d : Dom} {T delta : Int} {a b : List (Tok × Int)} (h : Good d T delta (a ++ b))
    (ha : ∀ x ∈ a, before d T x = true) : Good d T delta b := by
  rcases List.eq_nil_or_concat a with rfl | ⟨l, y, rfl⟩
  · exact h
  · rw [List.concat_eq_append] at h ha
    have hj : ∀ x, b.head? = some x → x.2 = y.2 + delta := by
      intro x hx
      cases b with
      | nil => cases hx
      | cons z b =>
        cases hx
        have := h.reg
        rw [List.append_assoc] at this
        exact regular_join this
    refine ⟨h.whole, h.pos, regular_tail h.reg, ⟨h.fit.dist, fun x hx => h.fit.mem x (List.mem_append_right _ hx), ?_⟩, ?_⟩
    · intro x hx
      rw [hj x hx, Int.add_sub_cancel]
      exact h.fit.mem y (by simp)
    · intro x hx
      have := ha y (by simp)
      unfold before at this ⊢
      dsimp only
      rw [hj x hx, Int.add_sub_cancel]
      exact this

theorem dropWhile_nil {α : Type} {P : α → Bool} {l : List α} (h : l.dropWhile P = []) : ∀ x ∈ l, P x = true := by
  induction l with
  | nil => intro x hx; cases hx
  | cons a l ih =>
    by_cases ha : P a = true
    · rw [List.dropWhile_cons_of_pos ha] at h
      intro x hx
      rcases List.mem_cons.mp hx with rfl | hx
      · exact ha
      · exact ih h x hx
    · rw [List.dropWhile_cons_of_neg ha] at h
      cases h

/-- A signal being synchronised to the target `T`; `L` are its samples. -/
structure Seeks (d : Dom) (T delta : Int) (s : Sig) (L : List (Tok × Int)) : Prop where
  dom : s.dom = some d
  data : DataOnly s
  div : 0 < s.div
  valid : s.invalid = false
  state : (s.sync = .synced ∧ s.cur.isSome ∧ Within s ∧ pending s = L.dropWhile (before d T) ∧ L.dropWhile (before d T) ≠ []) ∨
    (s.sync = .syncing ∧ (s.cur = none → s.queue = []) ∧ (s.cur.isSome → s.prev = 0) ∧
      (∀ p, s.cur = some p → p.delta = delta) ∧ (∀ p ∈ front s.queue, p.delta = delta) ∧
      ∃ a, L = a ++ whole s ∧ ∀ x ∈ a, before d T x = true)

/-- One signal in `sync`. -/
theorem syncTo_seek {d : Dom} {T delta : Int} {s : Sig} {L a : List (Tok × Int)} {p : DP} (hdom : s.dom = some d)
    (hdata : DataOnly s) (hdiv : 0 < s.div) (hval : s.invalid = false) (hs : s.sync ≠ .synced) (hp : s.cur = some p)
    (hpd : p.delta = delta) (hqd : ∀ p ∈ front s.queue, p.delta = delta) (hL : L = a ++ whole s)
    (ha : ∀ x ∈ a, before d T x = true) (hg : Good d T delta L) :
    Seeks d T delta (s.syncTo T).1 L ∧ (s.syncTo T).1.div = s.div ∧
      (L.dropWhile (before d T) ≠ [] → (s.syncTo T).1.sync = .synced) := by
  have e : s.syncTo T = syncLoop d T s p s.queue := by
    unfold Sig.syncTo Sig.isFirst
    rw [if_neg hs, hp]
    dsimp only
    rw [if_neg (by simp), hp, hdom]
  have hw : whole s = samples p ++ (front s.queue).flatMap samples := by
    unfold whole pending
    dsimp only
    rw [hp]
    rfl
  subst hL
  have hg2 := hg.suf ha
  rw [hw] at hg2
  have key := syncLoop_whole hg2.whole (T := T) hg2.pos (q := s.queue) (s := s) (p := p)
    (by
      intro x hx
      rcases List.mem_cons.mp hx with rfl | hx
      · exact hpd
      · exact hqd x hx) hg2.reg hg2.fit hg2.head
  rw [e]
  have eW : (a ++ whole s).dropWhile (before d T) = (samples p ++ (front s.queue).flatMap samples).dropWhile (before d T) := by
    rw [hw]; exact dropWhile_all_append ha
  refine ⟨?_, key.div, fun hh => (key.yes (eW ▸ hh)).2.1⟩
  by_cases hn : (samples p ++ (front s.queue).flatMap samples).dropWhile (before d T) = []
  · obtain ⟨k1, k2⟩ := key.no hn
    obtain ⟨k2, k3, k4⟩ := k2 hdata
    refine ⟨key.dom.trans hdom, ?_, by rw [key.div]; exact hdiv, key.invalid.trans hval, Or.inr ?_⟩
    · intro y hy
      rw [k4] at hy
      cases hy
    · refine ⟨k2, fun _ => k4, ?_, ?_, ?_, a ++ whole s, ?_, ?_⟩
      · intro h; rw [k3] at h; cases h
      · intro p h; rw [k3] at h; cases h
      · intro p h; rw [k4] at h; cases h
      · unfold whole pending
        dsimp only
        rw [k3, k4]
        simp [front]
      · intro x hx
        rw [hw] at hx
        rcases List.mem_append.mp hx with hx | hx
        · exact ha x hx
        · exact dropWhile_nil hn x hx
  · obtain ⟨k1, k2, k3, k4, k5, k6⟩ := key.yes hn
    refine ⟨key.dom.trans hdom, fun y hy => hdata y (k6 y hy), by rw [key.div]; exact hdiv, key.invalid.trans hval, Or.inl ?_⟩
    rw [eW]
    exact ⟨k2, k3, k4, k5, hn⟩

theorem Seeks.syncTo {d : Dom} {T delta : Int} {s : Sig} {L : List (Tok × Int)} (h : Seeks d T delta s L) (hc : s.cur.isSome)
    (hg : Good d T delta L) : Seeks d T delta (s.syncTo T).1 L ∧ (s.syncTo T).1.div = s.div ∧
      (L.dropWhile (before d T) ≠ [] → (s.syncTo T).1.sync = .synced) := by
  rcases h.state with h1 | ⟨h1, h2, h3, h4, h5, a, h6, h7⟩
  · have e : s.syncTo T = (s, true) := by
      unfold Sig.syncTo
      rw [if_pos h1.1]
    rw [e]
    exact ⟨h, rfl, fun _ => h1.1⟩
  · obtain ⟨p, hp⟩ := Option.isSome_iff_exists.mp hc
    exact syncTo_seek h.dom h.data h.div h.valid (by rw [h1]; decide) hp (h4 p hp) h5 h6 h7 hg

theorem Seeks.settled {d : Dom} {T delta : Int} {s : Sig} {L : List (Tok × Int)} (h : Seeks d T delta s L) :
    s.isFirst = (s, false) := by
  unfold Sig.isFirst
  cases hc : s.cur with
  | some p => rfl
  | none =>
    rcases h.state with h1 | h1
    · rw [hc] at h1; exact absurd h1.2.1 (by simp)
    · rw [h1.2.1 hc]

theorem Seeks.live {d : Dom} {T delta : Int} {s : Sig} {L : List (Tok × Int)} (h : Seeks d T delta s L) (hs : s.sync = .synced) :
    Live s ∧ pending s = L.dropWhile (before d T) ∧ L.dropWhile (before d T) ≠ [] := by
  rcases h.state with h1 | h1
  · exact ⟨⟨h1.2.2.1, h.data, h.div, h1.1, h.valid⟩, h1.2.2.2⟩
  · rw [hs] at h1; cases h1.1

theorem front_snoc {q : List Pkt} (h : ∀ x ∈ q, ∃ p, x = .data p) (p : DP) : front (q ++ [.data p]) = front q ++ [p] :=
  front_append h p

/-- A packet arrives. -/
theorem Seeks.push {d : Dom} {T delta : Int} {s : Sig} {L : List (Tok × Int)} (h : Seeks d T delta s L) {p : DP}
    (hp : p.delta = delta) :
    Seeks d T delta ({ s with queue := s.queue ++ [.data p] } : Sig).isFirst.1 (L ++ samples p) ∧
    ({ s with queue := s.queue ++ [.data p] } : Sig).isFirst.2 = false ∧
    ({ s with queue := s.queue ++ [.data p] } : Sig).isFirst.1.div = s.div := by
  have hdata : ∀ x ∈ s.queue ++ [Pkt.data p], ∃ p, x = .data p := by
    intro x hx
    rcases List.mem_append.mp hx with hx | hx
    · exact h.data x hx
    · exact ⟨p, by simpa using hx⟩
  have hfr : front (s.queue ++ [.data p]) = front s.queue ++ [p] := front_append h.data p
  rcases Option.eq_none_or_eq_some s.cur with hc | ⟨c, hc⟩
  rotate_left
  · have ef : ({ s with queue := s.queue ++ [.data p] } : Sig).isFirst = ({ s with queue := s.queue ++ [.data p] }, false) := by
      unfold Sig.isFirst
      simp [hc]
    rw [ef]
    refine ⟨⟨h.dom, hdata, h.div, h.valid, ?_⟩, rfl, rfl⟩
    rcases h.state with ⟨h1, h2, h3, h4, h5⟩ | ⟨h1, h2, h3, h4, h5, a, h6, h7⟩
    · refine Or.inl ⟨h1, h2, h3, ?_, ?_⟩
      · have : pending ({ s with queue := s.queue ++ [.data p] } : Sig) = pending s ++ samples p := by
          unfold pending
          dsimp only
          rw [hfr, List.flatMap_append]
          simp
        have e2 : (L ++ samples p).dropWhile (before d T) = L.dropWhile (before d T) ++ samples p := by
          rw [List.dropWhile_append, if_neg (by simpa using h5)]
        rw [e2, ← h4, ← this]
      · rw [List.dropWhile_append, if_neg (by simpa using h5)]
        intro hh
        exact h5 (List.append_eq_nil_iff.mp hh).1
    · refine Or.inr ⟨h1, ?_, ?_, ?_, ?_, a, ?_, h7⟩
      · intro hcc; change s.cur = none at hcc; rw [hc] at hcc; cases hcc
      · intro hcc; exact h3 (by rw [hc]; rfl)
      · intro q hq; exact h4 q hq
      · intro q hq
        rw [hfr] at hq
        rcases List.mem_append.mp hq with hq | hq
        · exact h5 q hq
        · rw [List.mem_singleton.mp hq]; exact hp
      · rw [h6, List.append_assoc]
        congr 1
        unfold whole pending
        dsimp only
        rw [hfr, List.flatMap_append, hc]
        simp
  · rcases h.state with ⟨h1, h2, h3, h4, h5⟩ | ⟨h1, h2, h3, h4, h5, a, h6, h7⟩
    · rw [hc] at h2; cases h2
    · have hq := h2 hc
      have ef : ({ s with queue := s.queue ++ [.data p] } : Sig).isFirst =
          ({ s with queue := [], cur := some p, prev := 0 }, false) := by
        unfold Sig.isFirst
        simp [hc, hq]
      rw [ef]
      refine ⟨⟨h.dom, ?_, h.div, h.valid, Or.inr ⟨h1, ?_, ?_, ?_, ?_, a, ?_, h7⟩⟩, rfl, rfl⟩
      · intro x hx; cases hx
      · intro hcc; cases hcc
      · intro _; rfl
      · intro q hqq; cases hqq; exact hp
      · intro q hqq; cases hqq
      · have e1 : whole s = [] := by
          unfold whole pending
          dsimp only
          rw [hc, hq]
          rfl
        rw [h6, e1]
        unfold whole pending
        simp [front]

end Verif.Multi
