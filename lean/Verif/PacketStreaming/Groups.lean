import Verif.PacketStreaming.Spec

/-! Invariant of the cacheable group bookkeeping (helper lemmas). -/

namespace Verif.PacketStreaming

def cntG (g : Nat) (q : List Buf) : Nat := q.countP (fun b => b.group == g)
def sizG (g : Nat) (q : List Buf) : Nat := ((q.filter (fun b => b.group == g)).map Buf.size).sum

@[simp] theorem cntG_nil (g) : cntG g [] = 0 := rfl
@[simp] theorem sizG_nil (g) : sizG g [] = 0 := rfl
theorem cntG_append (g a b) : cntG g (a ++ b) = cntG g a + cntG g b := by simp [cntG]
theorem sizG_append (g a b) : sizG g (a ++ b) = sizG g a + sizG g b := by simp [sizG]
theorem cntG_cons (g b q) : cntG g (b :: q) = cntG g q + if b.group = g then 1 else 0 := by
  simp [cntG, List.countP_cons]
theorem sizG_cons (g b q) : sizG g (b :: q) = (if b.group = g then b.size else 0) + sizG g q := by
  by_cases h : b.group = g <;> simp [sizG, h]

/-- Runs of cacheable buffers have one group id each, different runs have different ones. -/
def Seg : List Buf → Prop
  | [] => True
  | b :: rest => Seg rest ∧ (b.group ≠ 0 → rest = [] ∨ (∃ c r, rest = c :: r ∧
      (c.group = b.group ∨ (c.group = 0 ∧ ∀ d ∈ rest, d.group ≠ b.group))))

structure GInv (s : Srv) : Prop where
  find : ∀ g, g ≠ 0 → s.groups.get g =
    if cntG g s.queue = 0 then none else some (cntG g s.queue, sizG g s.queue)
  find0 : s.groups.get 0 = none
  non : s.nonCacheable = cntG 0 s.queue
  seg : Seg s.queue
  le : ∀ b ∈ s.queue, b.group ≤ s.currentGroup
  back : ∀ b, s.queue.getLast? = some b → b.group ≠ 0 → b.group = s.currentGroup
  pos : ∀ b ∈ s.queue, b.group ≠ 0 → 0 < b.size

theorem seg_snoc {q : List Buf} {y : Buf} (h : Seg q)
    (hy : y.group = 0 ∨ (∃ b, q.getLast? = some b ∧ b.group = y.group) ∨ ∀ b ∈ q, b.group ≠ y.group)
    (hlast : ∀ b, q.getLast? = some b → b.group ≠ 0 → y.group = b.group ∨ y.group = 0) :
    Seg (q ++ [y]) := by
  induction q with
  | nil => exact ⟨trivial, fun _ => .inl rfl⟩
  | cons b rest ih =>
    obtain ⟨h1, h2⟩ := h
    have htail : Seg (rest ++ [y]) := by
      cases rest with
      | nil => exact ⟨trivial, fun _ => .inl rfl⟩
      | cons c r =>
        refine ih h1 ?_ ?_
        · rcases hy with hy | ⟨x, hx, he⟩ | hy
          · exact .inl hy
          · refine .inr (.inl ⟨x, ?_, he⟩)
            rwa [List.getLast?_cons_cons] at hx
          · exact .inr (.inr fun x hx => hy x (List.mem_cons_of_mem _ hx))
        · intro x hx
          exact hlast x (by rwa [List.getLast?_cons_cons])
    refine ⟨htail, fun hb => .inr ?_⟩
    cases rest with
    | nil =>
      refine ⟨y, [], rfl, ?_⟩
      rcases hlast b rfl hb with h | h
      · exact .inl h
      · refine .inr ⟨h, ?_⟩
        intro d hd
        have : d = y := by simpa using hd
        rw [this, h]; exact fun hh => hb hh.symm
    | cons c r =>
      refine ⟨c, r ++ [y], rfl, ?_⟩
      rcases h2 hb with h | ⟨c', r', hc, h⟩
      · cases h
      · cases hc
        rcases h with h | ⟨h0, hall⟩
        · exact .inl h
        · refine .inr ⟨h0, ?_⟩
          intro d hd
          have hd' : d ∈ c :: r ∨ d = y := by simpa [or_assoc] using hd
          rcases hd' with hd | rfl
          · exact hall _ hd
          · rcases hy with hy | ⟨x, hx, he⟩ | hy
            · rw [hy]; exact fun hh => hb hh.symm
            · rw [← he]
              refine hall x ?_
              rw [List.getLast?_cons_cons] at hx
              exact List.mem_of_getLast? hx
            · exact fun hh => hy b (by simp) hh.symm

theorem seg_head_count {b : Buf} {rest : List Buf} (h : Seg (b :: rest)) (hb : b.group ≠ 0) :
    cntG b.group (b :: rest) = ((b :: rest).takeWhile Buf.cacheable).length ∧
    sizG b.group (b :: rest) = (((b :: rest).takeWhile Buf.cacheable).map Buf.size).sum := by
  induction rest generalizing b with
  | nil =>
    have : b.cacheable = true := by simp [Buf.cacheable, hb]
    simp [cntG_cons, sizG_cons, this]
  | cons c r ih =>
    have hc : b.cacheable = true := by simp [Buf.cacheable, hb]
    obtain ⟨h1, h2⟩ := h
    rw [List.takeWhile_cons, hc]
    simp only [if_true, List.length_cons, List.map_cons, List.sum_cons]
    rcases h2 hb with h | ⟨c', r', he, h⟩
    · cases h
    · cases he
      rcases h with h | ⟨h0, hall⟩
      · have := ih h1 (by rw [h]; exact hb)
        rw [h] at this
        rw [cntG_cons, sizG_cons, this.1, this.2]
        simp
      · have hz : ∀ l : List Buf, (∀ d ∈ l, d.group ≠ b.group) →
            cntG b.group l = 0 ∧ sizG b.group l = 0 := by
          intro l hl
          constructor
          · simp only [cntG, List.countP_eq_zero]
            intro d hd; simpa using hl d hd
          · have : l.filter (fun d => d.group == b.group) = [] := by
              rw [List.filter_eq_nil_iff]; intro d hd; simpa using hl d hd
            simp [sizG, this]
        have := hz _ hall
        rw [cntG_cons, sizG_cons, this.1, this.2]
        have hc0 : c.cacheable = false := by simp [Buf.cacheable, h0]
        simp [List.takeWhile_cons, hc0]

/-- Buffer sizes do not wrap for cacheable payloads. -/
def SizeOK (cacheMax : Nat) : Prop := cacheMax + 48 < U32

theorem headerSize_bounds (b : Body) : 12 ≤ b.headerSize ∧ b.headerSize ≤ 48 := by
  cases b <;> simp [Body.headerSize]

theorem size_pos {b : Buf} {m : Nat} (hm : SizeOK m) (h : b.payloadSize ≤ m) :
    b.size = b.body.headerSize + b.payloadSize ∧ 0 < b.size := by
  have := headerSize_bounds b.body
  unfold SizeOK at hm
  have e : b.size = b.body.headerSize + b.payloadSize := Nat.mod_eq_of_lt (by omega)
  rw [e]; omega

/-- Fields of the state not touched by queueing. -/
theorem groupFor_spec {s : Srv} (h : GInv s) (n : Nat) :
    ∃ g s1, s.groupFor n = some (g, s1) ∧ s1.queue = s.queue ∧ s1.groups = s.groups ∧
      s1.nonCacheable = s.nonCacheable ∧ s1.cacheMax = s.cacheMax ∧ s1.threshold = s.threshold ∧
      s1.descs = s.descs ∧ s1.sent = s.sent ∧ s1.ready = s.ready ∧ s1.subscribed = s.subscribed ∧
      s1.emitted = s.emitted ∧
      ((n ≤ s.cacheMax ∧ g ≠ 0 ∧ g = s1.currentGroup ∧ (∀ b ∈ s.queue, b.group ≤ g) ∧
        ((∃ b, s.queue.getLast? = some b ∧ b.group = g) ∨ ∀ b ∈ s.queue, b.group ≠ g) ∧
        (∀ b, s.queue.getLast? = some b → b.group ≠ 0 → g = b.group)) ∨
       (s.cacheMax < n ∧ g = 0 ∧ s1 = s)) := by
  unfold Srv.groupFor
  by_cases hn : n ≤ s.cacheMax
  · rw [if_pos hn]
    have hemp : (s.queue.isEmpty && !s.groups.isEmpty) = false := by
      cases hq : s.queue with
      | nil =>
        have : s.groups = [] := by
          apply AList.get_eq_none_of_nil
          intro g
          by_cases hg : g = 0
          · rw [hg]; exact h.find0
          · rw [h.find g hg, hq]; simp [cntG]
        simp [this]
      | cons => simp
    rw [hemp]
    simp only [Bool.false_eq_true, if_false]
    refine ⟨_, _, rfl, rfl, rfl, rfl, rfl, rfl, rfl, rfl, rfl, rfl, rfl, .inl ⟨hn, ?_⟩⟩
    cases hq : s.queue with
    | nil => simp
    | cons b0 r =>
      have hne : s.queue ≠ [] := by rw [hq]; simp
      obtain ⟨b, hb⟩ : ∃ b, s.queue.getLast? = some b := ⟨_, List.getLast?_eq_some_getLast hne⟩
      have hmem : b ∈ s.queue := List.mem_of_getLast? hb
      rw [← hq, hb]
      simp only [hq, List.isEmpty_cons, Bool.false_eq_true, if_false]
      rw [← hq]
      by_cases hg : b.group = 0
      · have : b.cacheable = false := by simp [Buf.cacheable, hg]
        simp only [this, Bool.not_false, if_true, Nat.add_one_ne_zero, if_false]
        refine ⟨by simp, trivial, fun x hx => by have := h.le x hx; omega, .inr ?_, ?_⟩
        · intro x hx; have := h.le x hx; omega
        · intro x hx; cases hx; exact fun hh => absurd hg hh
      · have : b.cacheable = true := by simp [Buf.cacheable, hg]
        have hcur := h.back b hb hg
        have hc0 : s.currentGroup ≠ 0 := by rw [← hcur]; exact hg
        simp only [this, Bool.not_true, Bool.false_eq_true, if_false, hc0]
        refine ⟨hc0, trivial, h.le, .inl ⟨b, rfl, hcur⟩, ?_⟩
        intro x hx; cases hx; intro _; exact hcur.symm
  · rw [if_neg hn]
    exact ⟨0, s, rfl, rfl, rfl, rfl, rfl, rfl, rfl, rfl, rfl, rfl, rfl, .inr ⟨by omega, rfl, rfl⟩⟩

theorem push_fields (s : Srv) (b : Buf) :
    (s.push b).queue = s.queue ++ [b] ∧ (s.push b).emitted = s.emitted ++ [b] ∧
    (s.push b).cacheMax = s.cacheMax ∧ (s.push b).threshold = s.threshold ∧
    (s.push b).descs = s.descs ∧ (s.push b).sent = s.sent ∧ (s.push b).ready = s.ready ∧
    (s.push b).subscribed = s.subscribed ∧ (s.push b).currentGroup = s.currentGroup := by
  unfold Srv.push
  split <;> simp

theorem ginv_push {s s1 : Srv} {g n : Nat} {body : Body} (h : GInv s) (hm : SizeOK s.cacheMax)
    (hg : s1.queue = s.queue ∧ s1.groups = s.groups ∧ s1.nonCacheable = s.nonCacheable)
    (hcase : (n ≤ s.cacheMax ∧ g ≠ 0 ∧ g = s1.currentGroup ∧ (∀ b ∈ s.queue, b.group ≤ g) ∧
        ((∃ b, s.queue.getLast? = some b ∧ b.group = g) ∨ ∀ b ∈ s.queue, b.group ≠ g) ∧
        (∀ b, s.queue.getLast? = some b → b.group ≠ 0 → g = b.group)) ∨
       (s.cacheMax < n ∧ g = 0 ∧ s1.currentGroup = s.currentGroup)) :
    GInv (s1.push ⟨body, n, g⟩) := by
  obtain ⟨hq, hgr, hnon⟩ := hg
  obtain ⟨pq, -, -, -, -, -, -, -, pcur⟩ := push_fields s1 ⟨body, n, g⟩
  rcases hcase with ⟨hn, hg0, hcur, hle, hback, hlast⟩ | ⟨hn, hg0, hcur⟩
  · have hcache : (Buf.mk body n g).cacheable = true := by simp [Buf.cacheable, hg0]
    have hgroups : (s1.push ⟨body, n, g⟩).groups = s1.groups.put g
        (((s1.groups.get g).getD (0, 0)).1 + 1, ((s1.groups.get g).getD (0, 0)).2 +
          (Buf.mk body n g).size) := by
      unfold Srv.push; rw [hcache]; rfl
    have hnon' : (s1.push ⟨body, n, g⟩).nonCacheable = s1.nonCacheable := by
      unfold Srv.push; rw [hcache]; rfl
    refine ⟨?_, ?_, ?_, ?_, ?_, ?_, ?_⟩
    · intro k hk
      rw [hgroups, AList.get_put, pq, hq, hgr, cntG_append, sizG_append]
      by_cases hkg : k = g
      · subst hkg
        rw [h.find k hk]
        by_cases hc : cntG k s.queue = 0
        · have hs : sizG k s.queue = 0 := by
            have : s.queue.filter (fun b => b.group == k) = [] := by
              rw [List.filter_eq_nil_iff]
              simpa [cntG, List.countP_eq_zero] using hc
            simp [sizG, this]
          simp [hc, hs, cntG_cons, sizG_cons]
        · simp [hc, cntG_cons, sizG_cons]
      · rw [if_neg hkg, h.find k hk]
        have : g ≠ k := fun e => hkg e.symm
        simp [cntG_cons, sizG_cons, this]
    · rw [hgroups, AList.get_put, if_neg (by simpa using hg0.symm), hgr, h.find0]
    · rw [hnon', hnon, pq, hq, cntG_append, h.non]
      simp [cntG_cons, hg0]
    · rw [pq, hq]
      refine seg_snoc h.seg (.inr ?_) ?_
      · exact hback
      · intro b hb hb0; exact .inl (hlast b hb hb0)
    · rw [pq, hq, pcur, ← hcur]
      intro b hb
      rcases List.mem_append.mp hb with hb | hb
      · exact hle b hb
      · simp at hb; rw [hb]; exact Nat.le_refl _
    · rw [pq, pcur]
      intro b hb _
      simp at hb; rw [← hb]; exact hcur
    · rw [pq, hq]
      intro b hb hb0
      rcases List.mem_append.mp hb with hb | hb
      · exact h.pos b hb hb0
      · simp at hb; rw [hb]; exact (size_pos hm hn).2
  · subst hg0
    have hcache : (Buf.mk body n 0).cacheable = false := by simp [Buf.cacheable]
    have hgroups : (s1.push ⟨body, n, 0⟩).groups = s1.groups := by
      unfold Srv.push; rw [hcache]; rfl
    have hnon' : (s1.push ⟨body, n, 0⟩).nonCacheable = s1.nonCacheable + 1 := by
      unfold Srv.push; rw [hcache]; rfl
    refine ⟨?_, ?_, ?_, ?_, ?_, ?_, ?_⟩
    · intro k hk
      have : (0 : Nat) ≠ k := fun e => hk e.symm
      rw [hgroups, pq, hq, hgr, cntG_append, sizG_append, h.find k hk]
      simp [cntG_cons, sizG_cons, this]
    · rw [hgroups, hgr, h.find0]
    · rw [hnon', hnon, pq, hq, cntG_append, h.non]
      simp [cntG_cons]
    · rw [pq, hq]
      exact seg_snoc h.seg (.inl rfl) (fun _ _ _ => .inr rfl)
    · rw [pq, hq, pcur, hcur]
      intro b hb
      rcases List.mem_append.mp hb with hb | hb
      · exact h.le b hb
      · simp at hb; rw [hb]; exact Nat.zero_le _
    · rw [pq]
      intro b hb hb0
      simp at hb; rw [← hb] at hb0; exact absurd rfl hb0
    · rw [pq, hq]
      intro b hb hb0
      rcases List.mem_append.mp hb with hb | hb
      · exact h.pos b hb hb0
      · simp at hb; rw [hb] at hb0; exact absurd rfl hb0

theorem GInv.congr {s s' : Srv} (h : GInv s) (h1 : s'.queue = s.queue) (h2 : s'.groups = s.groups)
    (h3 : s'.nonCacheable = s.nonCacheable) (h4 : s'.currentGroup = s.currentGroup) : GInv s' := by
  obtain ⟨a, b, c, d, e, f, g⟩ := h
  exact ⟨by rw [h1, h2]; exact a, by rw [h2]; exact b, by rw [h1, h3]; exact c,
    by rw [h1]; exact d, by rw [h1, h4]; exact e, by rw [h1, h4]; exact f, by rw [h1]; exact g⟩

/-- Queueing a buffer always succeeds and appends it. -/
theorem enqueue_spec {s : Srv} (h : GInv s) (hm : SizeOK s.cacheMax) (body : Body) (n : Nat) :
    ∃ s' g, s.enqueue body n = some s' ∧ GInv s' ∧ s'.queue = s.queue ++ [⟨body, n, g⟩] ∧
      s'.emitted = s.emitted ++ [⟨body, n, g⟩] ∧ s'.cacheMax = s.cacheMax ∧
      s'.threshold = s.threshold ∧ s'.descs = s.descs ∧ s'.sent = s.sent ∧ s'.ready = s.ready ∧
      s'.subscribed = s.subscribed := by
  obtain ⟨g, s1, he, h1, h2, h3, h4, h5, h6, h7, h8, h9, h10, hc⟩ := groupFor_spec h n
  obtain ⟨p1, p2, p3, p4, p5, p6, p7, p8, p9⟩ := push_fields s1 ⟨body, n, g⟩
  refine ⟨s1.push ⟨body, n, g⟩, g, by simp [Srv.enqueue, he], ?_, by rw [p1, h1], by rw [p2, h10],
    by rw [p3, h4], by rw [p4, h5], by rw [p5, h6], by rw [p6, h7], by rw [p7, h8], by rw [p8, h9]⟩
  refine ginv_push h hm ⟨h1, h2, h3⟩ ?_
  rcases hc with hc | ⟨a, b, c⟩
  · exact .inl hc
  · exact .inr ⟨a, b, by rw [c]⟩

end Verif.PacketStreaming
