import Verif.Bulk.Spec
import Mathlib.Tactic.Ring

/-!
# Layout: lemmas
-/

namespace Verif.Bulk

open Spec

theorem up_ge (k v : Nat) (hk : 1 ≤ k) : v ≤ up k v := by
  unfold up
  have h1 := Nat.div_add_mod (v + (k - 1)) k
  have h2 := Nat.mod_lt (v + (k - 1)) (show k > 0 by omega)
  rw [Nat.mul_comm] at h1
  omega

theorem up_le (k v : Nat) (hk : 1 ≤ k) : up k v ≤ v + (k - 1) := by
  unfold up
  exact Nat.div_mul_le_self _ _

theorem up_dvd (k v : Nat) : k ∣ up k v := Nat.dvd_mul_left _ _

theorem up_add (k m v : Nat) (hk : 1 ≤ k) (hm : k ∣ m) : up k (m + v) = m + up k v := by
  unfold up
  obtain ⟨q, rfl⟩ := hm
  rw [Nat.add_assoc, Nat.mul_add_div (by omega), Nat.add_mul, Nat.mul_comm q k]

theorem up_mono (k : Nat) {a b : Nat} (h : a ≤ b) : up k a ≤ up k b := by
  unfold up
  exact Nat.mul_le_mul_right _ (Nat.div_le_div_right (by omega))

theorem wrap_id {n : Nat} (h : n < 18446744073709551616) : wrap n = n := Nat.mod_eq_of_lt h

theorem alignTo_up {v k : Nat} (hk : 1 ≤ k) (h : v + k < 18446744073709551616) : alignTo v k = up k v := by
  unfold alignTo
  rw [wrap_id h]
  have e : wrap (v + k + (18446744073709551616 - 1)) = v + (k - 1) := by
    unfold wrap; omega
  rw [e]
  apply wrap_id
  have := Nat.div_mul_le_self (v + (k - 1)) k
  omega

/-- The two buffers of one packet, in order. -/
theorem need_eq (c : Cfg) (i : Item) (hk : 1 ≤ c.align) :
    need c i = (if c.rule = .explicit then up c.align (8 * i.samples) else 0) + up c.align (i.rawSize * i.samples) := by
  unfold need
  split
  · rw [up_add _ _ _ hk (up_dvd _ _)]
  · simp

theorem dataSize_eq (c : Cfg) (i : Item) (hk : 1 ≤ c.align) (h : need c i + c.align < 18446744073709551616) :
    dataSize c i = need c i := by
  have e := need_eq c i hk
  have h2 := up_ge c.align (i.rawSize * i.samples) hk
  have h1 := up_ge c.align (8 * i.samples) hk
  unfold dataSize need
  dsimp only
  rw [Nat.mul_comm i.samples 8, Nat.mul_comm i.samples i.rawSize]
  split
  · rename_i hr
    rw [if_pos hr] at e
    rw [wrap_id (n := 8 * i.samples) (by omega), wrap_id (n := i.rawSize * i.samples) (by omega),
      alignTo_up hk (v := 8 * i.samples) (by omega), wrap_id (by omega), alignTo_up hk (by omega)]
  · rename_i hr
    rw [if_neg hr] at e
    rw [wrap_id (n := i.rawSize * i.samples) (by omega), wrap_id (by omega), alignTo_up hk (by omega)]

theorem headSize_eq (c : Cfg) (n : Nat) (hk : 1 ≤ c.align)
    (h : up c.align (20 + ((if c.offsets then c.intSize else 0) + 2 * c.pktSize) * n) + c.align < 18446744073709551616) :
    headSize c n = up c.align (20 + ((if c.offsets then c.intSize else 0) + 2 * c.pktSize) * n) := by
  unfold headSize
  rw [Nat.mul_comm c.pktSize 2]
  generalize ((if c.offsets then c.intSize else 0) + 2 * c.pktSize) * n = m at *
  have := up_ge c.align (20 + m) hk
  rw [wrap_id (n := m) (by omega), wrap_id (by omega), alignTo_up hk (by omega)]

theorem fold_eq (c : Cfg) (hk : 1 ≤ c.align) (items : List Item) (m : Nat)
    (h : m + (items.map (need c)).sum + c.align < 18446744073709551616) :
    items.foldl (fun m i => wrap (m + dataSize c i)) m = m + (items.map (need c)).sum := by
  induction items generalizing m with
  | nil => rfl
  | cons i items ih =>
    simp only [List.map_cons, List.sum_cons] at h
    rw [List.foldl_cons, dataSize_eq c i hk (by omega), wrap_id (by omega), ih _ (by omega), List.map_cons, List.sum_cons]
    omega

theorem memSize_eq (c : Cfg) (items : List Item) (hk : 1 ≤ c.align) (h : total c items + c.align < 18446744073709551616) :
    memSize c items = total c items := by
  unfold memSize total at *
  rw [headSize_eq c _ hk (by omega), fold_eq c hk _ _ h]

/-- Where a piece may be: an object between `p` and `H`, samples between `d` and `e`, or nothing. -/
def Within (p H d e : Nat) (x : Piece) : Prop :=
  match x.what with
  | .header => False
  | .offset | .domain | .value => p ≤ x.pos ∧ x.pos + x.size ≤ H
  | .domainData | .valueData => d ≤ x.pos ∧ x.pos + x.size ≤ e
  | .nullData => x.pos = 0 ∧ x.size = 0

theorem within_mono {p p' H H' d d' e e' : Nat} {x : Piece} (hp : p ≤ p') (hH : H' ≤ H) (hd : d ≤ d') (he : e' ≤ e)
    (h : Within p' H' d' e' x) : Within p H d e x := by
  unfold Within at *
  split <;> simp_all <;> omega

theorem within_apart {p0 p H d0 d e : Nat} {x y : Piece} (hx : Within p H d e x)
    (hy : Within p0 p d0 d y) (hH : p ≤ H ∧ H ≤ d0 ∧ d0 ≤ d) : Apart y x := by
  unfold Within at hx hy
  unfold Apart
  split at hx <;> split at hy <;> first | exact hx.elim | exact hy.elim | omega

theorem wrap_le (n : Nat) : wrap n ≤ n := Nat.mod_le _ _
theorem wrap32_le (n : Nat) : wrap32 n ≤ n := Nat.mod_le _ _

theorem domBytes_le (i : Item) : domBytes i ≤ i.domRaw * i.samples := by
  unfold domBytes
  calc wrap32 (wrap32 i.samples * wrap32 i.domRaw) ≤ wrap32 i.samples * wrap32 i.domRaw := wrap32_le _
    _ ≤ i.samples * i.domRaw := Nat.mul_le_mul (wrap32_le _) (wrap32_le _)
    _ = i.domRaw * i.samples := Nat.mul_comm _ _

theorem valBytes_le (i : Item) : valBytes i ≤ i.rawSize * i.samples := Nat.le_trans (wrap32_le _) (wrap_le _)

/-- The data pointers of a list of pieces are aligned. -/
def Al (k : Nat) (x : Piece) : Prop := (x.what = .domainData ∨ x.what = .valueData) → k ∣ x.pos

theorem join {k p p' H d d' e : Nat} {A B : List Piece} (h1 : ∀ x ∈ A, Within p p' d d' x ∧ Al k x) (h2 : A.Pairwise Apart)
    (h3 : ∀ x ∈ B, Within p' H d' e x ∧ Al k x) (h4 : B.Pairwise Apart) (h5 : p ≤ p') (h6 : p' ≤ H) (h7 : H ≤ d)
    (h8 : d ≤ d') (h9 : d' ≤ e) : (∀ x ∈ A ++ B, Within p H d e x ∧ Al k x) ∧ (A ++ B).Pairwise Apart := by
  constructor
  · intro x hx
    rcases List.mem_append.mp hx with h | h
    · exact ⟨within_mono (Nat.le_refl _) h6 (Nat.le_refl _) h9 (h1 x h).1, (h1 x h).2⟩
    · exact ⟨within_mono h5 (Nat.le_refl _) h8 (Nat.le_refl _) (h3 x h).1, (h3 x h).2⟩
  · rw [List.pairwise_append]
    exact ⟨h2, h4, fun x hx y hy => within_apart (h3 y hy).1 (h1 x hx).1 ⟨h6, h7, h8⟩⟩

/-- The pieces of one packet, with the positions as parameters. -/
def one (offsets explicit : Bool) (isz psz k p pd pv d dv db vb : Nat) : List Piece :=
  (if offsets then [⟨.offset, k, p, isz⟩] else []) ++
    [⟨.domain, k, pd, psz⟩, ⟨.value, k, pv, psz⟩,
      if explicit then ⟨.domainData, k, d, db⟩ else ⟨.nullData, k, 0, db⟩, ⟨.valueData, k, dv, vb⟩]

theorem one_ok (offsets explicit : Bool) (isz psz k a p pd pv d dv db vb d' : Nat)
    (h1 : pd = if offsets then p + isz else p) (h2 : pv = pd + psz) (h4 : explicit = false → db = 0)
    (h5 : d + db ≤ dv) (h6 : dv + vb ≤ d') (h7 : pv + psz ≤ d) (hd : a ∣ d) (hv : a ∣ dv) :
    (∀ x ∈ one offsets explicit isz psz k p pd pv d dv db vb, Within p (pv + psz) d d' x ∧ Al a x) ∧
    (one offsets explicit isz psz k p pd pv d dv db vb).Pairwise Apart := by
  cases offsets <;> cases explicit <;>
    simp [one, Within, Al, Apart] at h1 h4 ⊢ <;> subst h1 <;> subst h2 <;> (try subst h4) <;>
    refine ⟨?_, ?_⟩ <;> (try simp only [hd, hv, and_true, true_and]) <;> omega

theorem place_cons (c : Cfg) (k p d : Nat) (i : Item) (items : List Item) :
    place c k p d (i :: items) =
      one c.offsets (decide (c.rule = .explicit)) c.intSize c.pktSize k p (if c.offsets then p + c.intSize else p)
        ((if c.offsets then p + c.intSize else p) + c.pktSize) d
        (if c.rule = .explicit then d + alignTo (wrap (8 * i.samples)) c.align else d) (domBytes i) (valBytes i) ++
      place c (k + 1) ((if c.offsets then p + c.intSize else p) + c.pktSize + c.pktSize)
        ((if c.rule = .explicit then d + alignTo (wrap (8 * i.samples)) c.align else d) +
          alignTo (wrap (i.rawSize * i.samples)) c.align) items := by
  simp only [place, one, decide_eq_true_eq, List.append_assoc]

/-- One packet and the rest. -/
theorem place_ok (c : Cfg) (hk : 1 ≤ c.align) (items : List Item) (hf : ∀ i ∈ items, Fit c i) (H e : Nat) :
    ∀ k p d, p + ((if c.offsets then c.intSize else 0) + 2 * c.pktSize) * items.length ≤ H → H ≤ d → c.align ∣ d →
      d + (items.map (need c)).sum ≤ e → e + c.align < 18446744073709551616 →
      (∀ x ∈ place c k p d items, Within p H d e x ∧ Al c.align x) ∧ (place c k p d items).Pairwise Apart := by
  induction items with
  | nil => intro k p d _ _ _ _ _; exact ⟨by simp [place], by simp [place]⟩
  | cons i items ih =>
    intro k p d hp hH hd he hlt
    have hfi : Fit c i := hf i (by simp)
    simp only [List.map_cons, List.sum_cons, List.length_cons] at hp he
    have en := need_eq c i hk
    have h1 := up_ge c.align (8 * i.samples) hk
    have h2 := up_ge c.align (i.rawSize * i.samples) hk
    have hdb := domBytes_le i
    have hvb := valBytes_le i
    have hdvd : c.align ∣ up c.align (8 * i.samples) := up_dvd _ _
    have hdvd2 : c.align ∣ up c.align (i.rawSize * i.samples) := up_dvd _ _
    rw [Nat.mul_add, Nat.mul_one] at hp
    unfold Fit at hfi
    rw [place_cons]
    have e2 : alignTo (wrap (i.rawSize * i.samples)) c.align = up c.align (i.rawSize * i.samples) := by
      rw [wrap_id (by omega), alignTo_up hk (by omega)]
    have e1 : c.rule = .explicit → alignTo (wrap (8 * i.samples)) c.align = up c.align (8 * i.samples) := by
      intro hr
      rw [if_pos hr] at en
      rw [wrap_id (by omega), alignTo_up hk (by omega)]
    have e3 : (if c.rule = .explicit then d + alignTo (wrap (8 * i.samples)) c.align else d) =
        d + (if c.rule = .explicit then up c.align (8 * i.samples) else 0) := by
      split
      · rw [e1 ‹_›]
      · rfl
    rw [e2, e3]
    have e4 : (if c.offsets then p + c.intSize else p) = p + (if c.offsets then c.intSize else 0) := by split <;> rfl
    have hdx : c.align ∣ (if c.rule = .explicit then up c.align (8 * i.samples) else 0) := by
      split
      · exact hdvd
      · exact Nat.dvd_zero _
    have hbx : domBytes i ≤ (if c.rule = .explicit then up c.align (8 * i.samples) else 0) := by
      split
      · rename_i hr; rw [hfi, if_pos hr] at hdb; omega
      · rename_i hr; rw [hfi, if_neg hr] at hdb; omega
    have hz : decide (c.rule = .explicit) = false → domBytes i = 0 := by
      intro hr
      rw [if_neg (of_decide_eq_false hr)] at hbx; omega
    generalize (if c.rule = .explicit then up c.align (8 * i.samples) else 0) = X at *
    have h0 := one_ok c.offsets (decide (c.rule = .explicit)) c.intSize c.pktSize k c.align p
      (if c.offsets then p + c.intSize else p) ((if c.offsets then p + c.intSize else p) + c.pktSize) d (d + X)
      (domBytes i) (valBytes i) (d + X + up c.align (i.rawSize * i.samples)) rfl rfl hz (by omega) (by omega)
      (by rw [e4]; omega) hd ((Nat.dvd_add_right hd).mpr hdx)
    have hr := ih (fun j hj => hf j (by simp [hj])) (k + 1) ((if c.offsets then p + c.intSize else p) + c.pktSize + c.pktSize)
      (d + X + up c.align (i.rawSize * i.samples)) (by rw [e4]; omega) (by omega)
      ((Nat.dvd_add_right ((Nat.dvd_add_right hd).mpr hdx)).mpr hdvd2) (by omega) hlt
    exact join h0.1 h0.2 hr.1 hr.2 (by rw [e4]; omega) (by rw [e4]; omega) hH (by omega) (by omega)

end Verif.Bulk
