import Verif.Connection.Props
import Verif.Reader.StreamHist

/-! Helper lemmas about the number of samples a read can return (no claims here). -/

namespace Verif.Reader

open Connection (Packet EventKind SamplesBeforeFirst totalSamples samplesOf)

def isSample : Item → Bool
  | .sample _ => true
  | .event _ _ => false

/-- Samples before the first event. -/
def leading (l : List Item) : Nat := (l.takeWhile isSample).length

@[simp] theorem leading_sample (t) (l : List Item) : leading (.sample t :: l) = leading l + 1 := by
  simp [leading, List.takeWhile_cons, isSample]

theorem leading_samples (a : List Tok) (l : List Item) : leading (a.map Item.sample ++ l) = a.length + leading l := by
  induction a with
  | nil => simp
  | cons x a ih =>
    rw [List.map_cons, List.cons_append, leading_sample, ih, List.length_cons]; omega

@[simp] theorem leading_nil : leading [] = 0 := rfl
@[simp] theorem leading_event (i k) (l : List Item) : leading (.event i k :: l) = 0 := by simp [leading, isSample]

theorem leading_le (l : List Item) : leading l ≤ l.countP isSample := by
  induction l with
  | nil => simp
  | cons x l ih =>
    cases x with
    | sample t =>
      rw [leading_sample, List.countP_cons_of_pos (by rfl)]; omega
    | event i k => simp

theorem itemsOf_leading (cfg : Cfg) (q : Packet) (h : ∀ i k, q = .event i k → reported cfg k = false)
    (l : List Item) : leading (itemsOf cfg q ++ l) = samplesOf q + leading l := by
  cases q with
  | data i n d =>
    have : itemsOf cfg (.data i n d) = (slice i 0 n).map Item.sample := by
      simp [itemsOf, slice, Function.comp_def]
    rw [this, leading_samples]; simp [samplesOf]
  | event i k => simp [itemsOf, h i k rfl, samplesOf]
  | none i => simp [itemsOf, samplesOf]

theorem leading_packets {cfg : Cfg} {Q : Packet → Prop} (ps : List Packet) (n : Nat)
    (hQ : ∀ q ∈ ps, Q q ↔ ∃ i k, q = .event i k ∧ reported cfg k = true)
    (h : SamplesBeforeFirst Q ps n) : leading (ps.flatMap (itemsOf cfg)) = n := by
  have pre : ∀ (pre : List Packet) (l : List Item), (∀ q ∈ pre, q ∈ ps) → (∀ q ∈ pre, ¬ Q q) →
      leading (pre.flatMap (itemsOf cfg) ++ l) = totalSamples pre + leading l := by
    intro pre l hm hn
    induction pre with
    | nil => simp [totalSamples]
    | cons q pre ih =>
      have hq : ∀ i k, q = .event i k → reported cfg k = false := by
        intro i k hq
        cases hr : reported cfg k with
        | false => rfl
        | true => exact absurd ((hQ q (hm q (by simp))).mpr ⟨i, k, hq, hr⟩) (hn q (by simp))
      rw [List.flatMap_cons, List.append_assoc, itemsOf_leading cfg q hq,
        ih (fun q hq => hm q (by simp [hq])) (fun q hq => hn q (by simp [hq]))]
      simp [totalSamples]; omega
  rcases h with ⟨a, q, b, rfl, h1, h2, rfl⟩ | ⟨h1, rfl⟩
  · obtain ⟨i, k, rfl, hr⟩ := (hQ q (by simp)).mp h2
    rw [List.flatMap_append, pre a _ (fun q hq => by simp [hq]) h1]
    simp [itemsOf, hr]
  · have := pre ps [] (fun q hq => hq) h1
    simpa using this

theorem countP_items (cfg : Cfg) (ps : List Packet) : (ps.flatMap (itemsOf cfg)).countP isSample = totalSamples ps := by
  induction ps with
  | nil => rfl
  | cons q ps ih =>
    rw [List.flatMap_cons, List.countP_append, ih]
    have : (itemsOf cfg q).countP isSample = samplesOf q := by
      cases q with
      | data i n d =>
        simp only [itemsOf, samplesOf, List.countP_map]
        rw [List.countP_eq_length.mpr (by simp [isSample])]; simp
      | event i k => simp only [itemsOf, samplesOf]; split <;> simp [isSample]
      | none i => rfl
    rw [this]; simp [totalSamples]

theorem pending_leading (cfg : Cfg) (r : R) :
    leading (pending cfg r) = buffered r + leading (r.conn.packets.flatMap (itemsOf cfg)) := by
  unfold pending buffered
  cases r.cur with
  | none => simp
  | some c => simp only []; rw [leading_samples]; simp

/-- A read returns as many samples as requested, or all up to the next reported event. -/
theorem readOp_count (cfg : Cfg) (r : R) (m : Mode) (n : Nat) (hinv : r.invalid = false) (hg : Good r)
    (hf : ¬ IsFault (readOp cfg r m n).2) : (readOp cfg r m n).2.count = min n (leading (pending cfg r)) := by
  obtain ⟨p', new, k, s, -, hc, -⟩ := readOp_spec cfg r m n hinv hg hf
  rw [hc]
  have hr := s.rem
  have hp := s.pend
  have hm := s.more
  rw [hp, List.append_assoc, leading_samples]
  dsimp only at hr
  by_cases h0 : p'.rem = 0
  · rw [Nat.min_eq_left (by omega)]; omega
  · have : leading (((readOp cfg r m n).2.event.toList.map fun e => Item.event e.1 e.2) ++ pending cfg (readOp cfg r m n).1) = 0 := by
      cases he : (readOp cfg r m n).2.event with
      | some e => simp
      | none =>
        obtain ⟨h1, h2⟩ := hm h0 he
        simp [pending, h1, h2]
    rw [this, Nat.min_eq_right (by omega)]; omega

theorem exec_ops (cfg : Cfg) (g : Bool) (ops : List Op) : (exec cfg g ops).2.map Prod.fst = ops := by
  have : ∀ (s : R) (l : List Op), (runTrace (step cfg) s l).2.map Prod.fst = l := by
    intro s l; induction l generalizing s with
    | nil => rfl
    | cons a l ih => simp [runTrace, ih]
  exact this _ _

theorem pending_lt {cfg : Cfg} {g : Bool} {r : R} {t : Trace} (h : RInv cfg g r t) {b : Nat}
    (ht : totalSamples (packetStream g t) < b) : leading (pending cfg r) < b := by
  obtain ⟨K, hK, -⟩ := h.items
  have h1 := leading_le (pending cfg r)
  have h2 := countP_items cfg (packetStream g t)
  rw [show (packetStream g t).flatMap (itemsOf cfg) = itemStream cfg g t from rfl, hK, List.countP_append] at h2
  omega

end Verif.Reader
