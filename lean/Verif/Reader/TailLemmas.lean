import Verif.Reader.StreamAvail
import Verif.Reader.TailSpec

/-! Helper lemmas for the tail reader (no claims here). -/

namespace Verif.Reader.Tail

open Connection (Packet EventKind DomPacket DomDesc wadd wsub W)

/-! ### Item lists -/

def cnt (l : List Item) : Nat := l.countP isSample

@[simp] theorem cnt_nil : cnt [] = 0 := rfl
@[simp] theorem cnt_sample (t l) : cnt (.sample t :: l) = cnt l + 1 := by
  simp only [cnt]; rw [List.countP_cons_of_pos (by rfl)]
@[simp] theorem cnt_event (i k l) : cnt (.event i k :: l) = cnt l := by
  simp only [cnt]; rw [List.countP_cons_of_neg (by simp [isSample])]
@[simp] theorem cnt_append (l m) : cnt (l ++ m) = cnt l + cnt m := by simp [cnt]

@[simp] theorem dropSamples_zero (l) : dropSamples 0 l = l := by cases l <;> rfl
@[simp] theorem dropSamples_nil (k) : dropSamples k [] = [] := by cases k <;> rfl
@[simp] theorem dropSamples_sample (k t l) : dropSamples (k + 1) (.sample t :: l) = dropSamples k l := rfl
@[simp] theorem dropSamples_event (k i e l) :
    dropSamples k (.event i e :: l) = .event i e :: dropSamples k l := by cases k <;> simp [dropSamples]

theorem cnt_dropSamples (k : Nat) (l : List Item) : cnt (dropSamples k l) = cnt l - k := by
  induction l generalizing k with
  | nil => simp
  | cons x l ih =>
    cases x with
    | event i e => simp [ih]
    | sample t =>
      cases k with
      | zero => simp
      | succ k => simp [ih]

theorem dropSamples_dropSamples (a b : Nat) (l : List Item) :
    dropSamples a (dropSamples b l) = dropSamples (b + a) l := by
  induction l generalizing b with
  | nil => simp
  | cons x l ih =>
    cases x with
    | event i e => simp [ih]
    | sample t =>
      cases b with
      | zero => simp
      | succ b => rw [dropSamples_sample, ih, Nat.add_right_comm, dropSamples_sample]

theorem dropSamples_append (k : Nat) (l m : List Item) :
    dropSamples k (l ++ m) = dropSamples k l ++ dropSamples (k - cnt l) m := by
  induction l generalizing k with
  | nil => simp
  | cons x l ih =>
    cases x with
    | event i e => simp [ih]
    | sample t =>
      cases k with
      | zero => simp
      | succ k => simp [ih]

theorem dropSamples_append_le {k : Nat} {l : List Item} (h : k ≤ cnt l) (m : List Item) :
    dropSamples k (l ++ m) = dropSamples k l ++ m := by
  rw [dropSamples_append, Nat.sub_eq_zero_of_le h, dropSamples_zero]

theorem dropSamples_samples (k : Nat) (ts : List Tok) (m : List Item) :
    dropSamples k (ts.map Item.sample ++ m) = (ts.drop k).map Item.sample ++ dropSamples (k - ts.length) m := by
  induction ts generalizing k with
  | nil => simp
  | cons t ts ih =>
    cases k with
    | zero => simp
    | succ k => simp [ih]

@[simp] theorem firstEvent_dropSamples (k : Nat) (l : List Item) : firstEvent (dropSamples k l) = firstEvent l := by
  induction l generalizing k with
  | nil => simp
  | cons x l ih =>
    cases x with
    | event i e => simp [firstEvent]
    | sample t =>
      cases k with
      | zero => simp
      | succ k => simp [firstEvent, ih]

theorem firstEvent_samples (ts : List Tok) (m : List Item) :
    firstEvent (ts.map Item.sample ++ m) = firstEvent m := by
  induction ts with
  | nil => rfl
  | cons t ts ih => simpa [firstEvent] using ih

theorem untilEvent_samples (ts : List Tok) (m : List Item) :
    untilEvent (ts.map Item.sample ++ m) = ts ++ untilEvent m := by
  induction ts with
  | nil => rfl
  | cons t ts ih => simp [untilEvent, ih]

theorem untilEvent_le (l : List Item) : (untilEvent l).length ≤ cnt l := by
  induction l with
  | nil => simp [untilEvent]
  | cons x l ih =>
    cases x with
    | event i e => simp [untilEvent]
    | sample t => simp [untilEvent, ih]

/-- Item version of `afterFirstEvent`. -/
def afterEv : List Item → List Item
  | [] => []
  | .event _ _ :: l => l
  | .sample _ :: l => afterEv l

theorem afterEv_samples (ts : List Tok) (m : List Item) : afterEv (ts.map Item.sample ++ m) = afterEv m := by
  induction ts with
  | nil => rfl
  | cons t ts ih => simpa [afterEv] using ih

theorem itemsOf_data (id n dom) : itemsOf (.data id n dom) = (slice id 0 n).map Item.sample := by
  simp [itemsOf, slice, Function.comp_def]

@[simp] theorem items_nil : items [] = [] := rfl
@[simp] theorem items_cons (q ps) : items (q :: ps) = itemsOf q ++ items ps := by simp [items]
@[simp] theorem items_append (a b) : items (a ++ b) = items a ++ items b := by simp [items]

theorem items_after (ps : List Packet) : items (afterFirstEvent ps) = afterEv (items ps) := by
  induction ps with
  | nil => rfl
  | cons q ps ih =>
    cases q with
    | event i k => simp [afterFirstEvent, itemsOf, afterEv]
    | data i n d => rw [items_cons, itemsOf_data, afterEv_samples]; exact ih
    | none i => simpa [afterFirstEvent, itemsOf] using ih

theorem total_cnt (ps : List Packet) : total ps = cnt (items ps) := by
  induction ps with
  | nil => rfl
  | cons q ps ih =>
    rw [items_cons, cnt_append, ← ih]
    have : cnt (itemsOf q) = Connection.samplesOf q := by
      cases q with
      | data i n d =>
        rw [itemsOf_data]
        simp only [cnt, List.countP_map, Connection.samplesOf]
        rw [List.countP_eq_length.mpr (by simp [isSample])]; simp
      | event i k => simp [itemsOf, Connection.samplesOf]
      | none i => rfl
    rw [this]; simp [total, Connection.totalSamples]

theorem cnt_after (l : List Item) (e) (h : firstEvent l = some e) :
    (untilEvent l).length + cnt (afterEv l) = cnt l := by
  induction l with
  | nil => simp [firstEvent] at h
  | cons x l ih =>
    cases x with
    | event i k => simp [untilEvent, afterEv]
    | sample t =>
      have := ih (by simpa [firstEvent] using h)
      simp only [untilEvent, afterEv, cnt_sample, List.length_cons]; omega

theorem afterEv_dropSamples (k : Nat) (l : List Item) (e) (h : firstEvent l = some e) :
    afterEv (dropSamples k l) = dropSamples (k - (untilEvent l).length) (afterEv l) := by
  induction l generalizing k with
  | nil => simp [firstEvent] at h
  | cons x l ih =>
    cases x with
    | event i k => simp [untilEvent, afterEv]
    | sample t =>
      cases k with
      | zero => simp
      | succ k =>
        have := ih k (by simpa [firstEvent] using h)
        simp [untilEvent, afterEv, this]

/-! ### Receiving -/

theorem wsub_eq {a b : Nat} (ha : a < W) (hb : b ≤ a) : wsub a b = a - b := by
  simp only [wsub]
  rw [Nat.mod_eq_of_lt (show b < W by omega), if_pos hb]

theorem evict_spec (h : Nat) (ps : List Packet) (avail : Nat) (hw : avail < W) (ht : total ps ≤ avail)
    (hh : h ≤ avail) : ∃ d, d ≤ total ps ∧ items (evict h ps avail).1 = dropSamples d (items ps) ∧
      (evict h ps avail).2 = avail - d ∧ h ≤ avail - d ∧
      (∀ q ∈ (evict h ps avail).1, q ∈ ps) := by
  induction ps generalizing avail with
  | nil => exact ⟨0, Nat.zero_le _, by simp [evict], rfl, hh, fun q hq => hq⟩
  | cons q ps ih =>
    cases q with
    | data id n dom =>
      have htot : total (.data id n dom :: ps) = n + total ps := by
        simp [total, Connection.totalSamples, Connection.samplesOf]
      rw [htot] at ht
      rw [evict]
      rw [wsub_eq hw (by omega)]
      by_cases hc : h ≤ avail - n
      · rw [if_pos hc]
        obtain ⟨d, h1, h2, h3, h4, h5⟩ := ih (avail - n) (by omega) (by omega) hc
        refine ⟨n + d, by omega, ?_, by rw [h3]; omega, by omega, fun q hq => List.mem_cons_of_mem _ (h5 q hq)⟩
        rw [h2, items_cons, itemsOf_data, dropSamples_samples]
        have : (slice id 0 n).drop (n + d) = [] := by simp
        rw [this, slice_length, Nat.add_sub_cancel_left]; rfl
      · rw [if_neg hc]
        exact ⟨0, by omega, by simp, rfl, by omega, fun q hq => hq⟩
    | event id k =>
      have htot : total (.event id k :: ps) = total ps := by
        simp [total, Connection.totalSamples, Connection.samplesOf]
      rw [htot] at ht
      obtain ⟨d, h1, h2, h3, h4, h5⟩ := ih avail hw ht hh
      refine ⟨d, by omega, ?_, ?_, h4, ?_⟩
      · simp [evict, h2, itemsOf]
      · simp [evict, h3]
      · intro q hq
        simp only [evict, List.mem_cons] at hq
        rcases hq with hq | hq
        · rw [hq]; simp
        · exact List.mem_cons_of_mem _ (h5 q hq)
    | none id =>
      have htot : total (.none id :: ps) = total ps := by
        simp [total, Connection.totalSamples, Connection.samplesOf]
      rw [htot] at ht
      obtain ⟨d, h1, h2, h3, h4, h5⟩ := ih avail hw ht hh
      refine ⟨d, by omega, ?_, ?_, h4, ?_⟩
      · simp [evict, h2, itemsOf]
      · simp [evict, h3]
      · intro q hq
        simp only [evict, List.mem_cons] at hq
        rcases hq with hq | hq
        · rw [hq]; simp
        · exact List.mem_cons_of_mem _ (h5 q hq)

/-- The cache holds the last `cached` samples of the window and all its events. -/
structure Cache (h : Nat) (s : T) (w : List Packet) : Prop where
  total : s.cached = total s.packets
  items : items s.packets = dropSamples (Tail.total w - s.cached) (items w)
  le : s.cached ≤ Tail.total w
  full : s.cached = Tail.total w ∨ h ≤ s.cached

theorem receive_cache {cfg : Cfg} {s : T} {w : List Packet} (hc : Cache cfg.historySize s w) (q : Packet)
    (hw : total (w ++ [q]) < W) : Cache cfg.historySize (receive cfg s q) (w ++ [q]) := by
  have htw : ∀ q, total (w ++ [q]) = total w + Connection.samplesOf q := by
    intro q; simp [total, Connection.totalSamples]
  have htp : ∀ ps q, total (ps ++ [q]) = total ps + Connection.samplesOf q := by
    intro ps q; simp [total, Connection.totalSamples]
  have hle := hc.le
  have hct := hc.total
  rw [htw] at hw
  have hdc : total w - s.cached ≤ cnt (items w) := by rw [← total_cnt]; omega
  cases q with
  | none i =>
    have : Connection.samplesOf (.none i) = 0 := rfl
    constructor
    · exact hc.total
    · rw [htw, this]; simp only [receive, Nat.add_zero]; rw [hc.items]; simp [itemsOf]
    · rw [htw, this]; exact hle
    · rw [htw, this]; exact hc.full
  | event i k =>
    have : Connection.samplesOf (.event i k) = 0 := rfl
    constructor
    · simp only [receive]; rw [htp, this]; exact hct
    · rw [htw, this]; simp only [receive, Nat.add_zero, items_append]
      rw [dropSamples_append_le hdc, hc.items]
    · rw [htw, this]; exact hle
    · rw [htw, this]; exact hc.full
  | data i n dom =>
    have hs : Connection.samplesOf (.data i n dom) = n := rfl
    rw [hs] at hw
    have hwadd : wadd s.cached n = s.cached + n := Connection.wadd_eq (by omega)
    by_cases hlt : s.cached < cfg.historySize
    · have hrec : receive cfg s (.data i n dom) =
          { s with packets := s.packets ++ [.data i n dom], cached := s.cached + n } := by
        simp only [receive, if_pos hlt, hwadd]
      rw [hrec]
      constructor
      · dsimp only; rw [htp, hs, hct]
      · dsimp only
        rw [htw, hs, show total w + n - (s.cached + n) = total w - s.cached by omega, items_append, items_append,
          dropSamples_append_le hdc, hc.items]
      · dsimp only; rw [htw, hs]; omega
      · dsimp only; rw [htw, hs]
        rcases hc.full with h | h
        · exact .inl (by omega)
        · omega
    · obtain ⟨d, e1, e2, e3, e4, e5⟩ := evict_spec cfg.historySize s.packets (s.cached + n) (by omega) (by omega) (by omega)
      have hrec : receive cfg s (.data i n dom) =
          { s with packets := (evict cfg.historySize s.packets (s.cached + n)).1 ++ [.data i n dom],
                   cached := s.cached + n - d } := by
        simp only [receive, if_neg hlt, hwadd, e3]
      rw [hrec]
      have htev : total (evict cfg.historySize s.packets (s.cached + n)).1 = s.cached - d := by
        rw [total_cnt, e2, cnt_dropSamples, ← total_cnt]; omega
      constructor
      · dsimp only; rw [htp, hs, htev]; omega
      · dsimp only
        rw [htw, hs, show total w + n - (s.cached + n - d) = (total w - s.cached) + d by omega, items_append,
          items_append, dropSamples_append_le (by rw [← total_cnt]; omega), e2, hc.items, dropSamples_dropSamples]
      · dsimp only; rw [htw, hs]; omega
      · exact .inr e4

/-! ### Reading -/

theorem handleDescriptorChanged_fields (cfg : Cfg) (s : T) (v d) :
    (handleDescriptorChanged cfg s v d).packets = s.packets ∧
    (handleDescriptorChanged cfg s v d).cached = s.cached ∧
    (s.typed = true → (handleDescriptorChanged cfg s v d).typed = true) ∧
    (∀ i, announces (.event i (.descChanged v d)) = true → (handleDescriptorChanged cfg s v d).typed = true) := by
  rcases v with _ | _ | v <;> rcases d with _ | _ | d <;> simp [handleDescriptorChanged, announces]

theorem noteOffset_fields (id n) (a : Acc) : (noteOffset id n a).rem = a.rem ∧ (noteOffset id n a).skip = a.skip ∧
    (noteOffset id n a).vals = a.vals ∧ (noteOffset id n a).doms = a.doms ∧ (noteOffset id n a).seen = a.seen ∧
    (∀ o, a.offset = some o → (noteOffset id n a).offset = some o) ∧
    (a.offset = none → (noteOffset id n a).offset = if a.skip < n then some (id, a.skip) else none) := by
  unfold noteOffset
  cases h : a.offset with
  | none => by_cases h2 : a.skip < n <;> simp [h2, h]
  | some o => simp [h]

/-- The samples before the first event, in packets. -/
def beforeEvent : List Packet → Nat
  | [] => 0
  | .event _ _ :: _ => 0
  | q :: ps => Connection.samplesOf q + beforeEvent ps

theorem beforeEvent_eq (ps : List Packet) : beforeEvent ps = (untilEvent (items ps)).length := by
  induction ps with
  | nil => rfl
  | cons q ps ih =>
    cases q with
    | data i n d => rw [items_cons, itemsOf_data, untilEvent_samples]; simp [beforeEvent, Connection.samplesOf, ih]
    | event i k => rfl
    | none i => simp [beforeEvent, Connection.samplesOf, itemsOf, ih]

structure ReadSpec (cfg : Cfg) (m : Mode) (ps : List Packet) (s : T) (a : Acc) (s' : T) (a' : Acc)
    (ev : Option (Nat × EventKind)) (new : List Tok) : Prop where
  event : ev = firstEvent (items ps)
  none : ev = none → s' = s
  some : ev.isSome = true → s'.packets = afterFirstEvent ps ∧ s'.cached = wsub s.cached (a.seen + beforeEvent ps) ∧
    (s.typed = true → s'.typed = true) ∧
    (∀ i k, ev = some (i, k) → announces (.event i k) = true → s'.typed = true)
  vals : a'.vals = a.vals ++ new
  doms : a'.doms = if m = .withDomain then a.doms ++ new else a.doms
  rem : new.length + a'.rem = a.rem
  newTyped : s.typed = true → new = (untilEvent (dropSamples a.skip (items ps))).take a.rem
  newUntyped : s.typed = false → new = []
  offKeep : ∀ o, a.offset = Option.some o → a'.offset = Option.some o
  off : a.offset = Option.none → 0 < a.rem → new ≠ [] → a'.offset = new.head?

theorem readLoop_spec (cfg : Cfg) (hsk : cfg.skipEvents = false) (m : Mode) (ps : List Packet) (s : T) (a : Acc)
    (s' : T) (a' : Acc) (ev : Option (Nat × EventKind))
    (h : readLoop cfg m ps s a = (s', a', .done ev)) : ∃ new, ReadSpec cfg m ps s a s' a' ev new := by
  induction ps generalizing a with
  | nil =>
    simp only [readLoop, Prod.mk.injEq, Res.done.injEq] at h
    obtain ⟨rfl, rfl, rfl⟩ := h
    refine ⟨[], ?_⟩
    constructor <;> simp [firstEvent, untilEvent]
  | cons q ps ih =>
    cases q with
    | none i =>
      rw [readLoop] at h
      obtain ⟨new, hs⟩ := ih a h
      have e : items (.none i :: ps) = items ps := by simp [itemsOf]
      refine ⟨new, ?_⟩
      constructor
      · rw [e]; exact hs.event
      · exact hs.none
      · intro hh; simpa [afterFirstEvent, beforeEvent, Connection.samplesOf] using hs.some hh
      · exact hs.vals
      · exact hs.doms
      · exact hs.rem
      · rw [e]; exact hs.newTyped
      · exact hs.newUntyped
      · exact hs.offKeep
      · exact hs.off
    | event i k =>
      cases k with
      | gap d => simp [readLoop] at h
      | other d => simp [readLoop] at h
      | descChanged v d =>
        simp only [readLoop, hsk, Bool.not_false, Bool.true_or, if_true, Prod.mk.injEq, Res.done.injEq] at h
        obtain ⟨rfl, rfl, rfl⟩ := h
        obtain ⟨f1, f2, f3, f4⟩ := handleDescriptorChanged_fields cfg s v d
        refine ⟨[], ?_⟩
        constructor
        · simp [itemsOf, firstEvent]
        · simp
        · intro _
          refine ⟨rfl, ?_, f3, ?_⟩
          · simp [erase, beforeEvent, f2]
          · intro i' k' he ha
            injection he with he
            injection he with h1 h2
            subst h1 h2
            exact f4 _ ha
        · simp
        · simp
        · simp
        · simp [itemsOf, untilEvent]
        · simp
        · exact fun o ho => ho
        · simp
    | data id n dom =>
      rw [readLoop] at h
      obtain ⟨n1, n2, n3, n4, n5, n6, n7⟩ := noteOffset_fields id n a
      generalize hb : noteOffset id n a = b at *
      have e : items (.data id n dom :: ps) = (slice id 0 n).map Item.sample ++ items ps := by
        rw [items_cons, itemsOf_data]
      have hdrop : dropSamples a.skip (items (.data id n dom :: ps)) =
          (slice id a.skip (n - a.skip)).map Item.sample ++ dropSamples (a.skip - n) (items ps) := by
        rw [e, dropSamples_samples, slice_length]
        congr 2
        simp only [slice, ← List.map_drop, Nat.zero_add]
        rw [show (List.range n).drop a.skip = (List.range (n - a.skip)).map (a.skip + ·) by
          by_cases hle : a.skip ≤ n
          · have : n = a.skip + (n - a.skip) := by omega
            rw [this, List.range_add, List.drop_left' (by simp)]; simp
          · rw [List.drop_eq_nil_of_le (by simp; omega), show n - a.skip = 0 by omega]; rfl]
        simp [Function.comp_def]
      -- a packet that adds nothing
      have nothing : ∀ c : Acc, c.rem = a.rem → c.vals = a.vals → c.doms = a.doms → c.seen = a.seen + n →
          (s.typed = true → untilEvent (dropSamples c.skip (items ps)) =
            untilEvent (dropSamples a.skip (items (.data id n dom :: ps)))) →
          (∀ o, a.offset = some o → c.offset = some o) →
          (s.typed = true → a.offset = none → c.offset = none) →
          readLoop cfg m ps s c = (s', a', .done ev) →
          ∃ new, ReadSpec cfg m (.data id n dom :: ps) s a s' a' ev new := by
        intro c c1 c2 c3 c4 c5 c6 c7 hc
        obtain ⟨new, hs⟩ := ih c hc
        refine ⟨new, ?_⟩
        constructor
        · rw [e, firstEvent_samples]; exact hs.event
        · exact hs.none
        · intro hh
          have := hs.some hh
          rw [c4] at this
          simpa [afterFirstEvent, beforeEvent, Connection.samplesOf, Nat.add_assoc] using this
        · rw [hs.vals, c2]
        · rw [hs.doms, c3]
        · rw [hs.rem, c1]
        · intro ht; rw [hs.newTyped ht, c1, c5 ht]
        · exact hs.newUntyped
        · intro o ho; exact hs.offKeep o (c6 o ho)
        · intro ho hr hne
          have ht : s.typed = true := by
            cases ht : s.typed with
            | true => rfl
            | false => exact absurd (hs.newUntyped ht) hne
          exact hs.off (c7 ht ho) (by rw [c1]; exact hr) hne
      -- a packet of which `k` samples are copied
      have copies : ∀ c : Acc, s.typed = true → a.skip ≤ n →
          c.rem = a.rem - min a.rem (n - a.skip) → c.skip = 0 →
          c.vals = a.vals ++ slice id a.skip (min a.rem (n - a.skip)) →
          c.doms = (if m = .withDomain then a.doms ++ slice id a.skip (min a.rem (n - a.skip)) else a.doms) →
          c.seen = a.seen + n → c.offset = b.offset →
          readLoop cfg m ps s c = (s', a', .done ev) →
          ∃ new, ReadSpec cfg m (.data id n dom :: ps) s a s' a' ev new := by
        intro c ht hle c1 c2 c3 c4 c5 c6 hc
        obtain ⟨new, hs⟩ := ih c hc
        have hnew := hs.newTyped ht
        rw [c2, dropSamples_zero] at hnew
        refine ⟨slice id a.skip (min a.rem (n - a.skip)) ++ new, ?_⟩
        constructor
        · rw [e, firstEvent_samples]; exact hs.event
        · exact hs.none
        · intro hh
          have := hs.some hh
          rw [c5] at this
          simpa [afterFirstEvent, beforeEvent, Connection.samplesOf, Nat.add_assoc] using this
        · rw [hs.vals, c3, List.append_assoc]
        · rw [hs.doms, c4]; split <;> simp [List.append_assoc]
        · have := hs.rem
          rw [c1] at this
          have : min a.rem (n - a.skip) ≤ a.rem := Nat.min_le_left _ _
          simp only [List.length_append, slice_length]; omega
        · intro _
          rw [hdrop, Nat.sub_eq_zero_of_le hle, dropSamples_zero, untilEvent_samples, List.take_append,
            slice_length, hnew, c1]
          congr 1
          · simp only [slice, ← List.map_take, List.take_range]
          · by_cases hh : n - a.skip ≤ a.rem
            · rw [Nat.min_eq_right hh]
            · rw [Nat.min_eq_left (by omega)]
              simp; omega
        · intro hf; rw [ht] at hf; exact nomatch hf
        · intro o ho; exact hs.offKeep o (by rw [c6]; exact n6 o ho)
        · intro ho hr hne
          by_cases hlt : a.skip < n
          · have ho' : c.offset = some (id, a.skip) := by rw [c6, n7 ho, if_pos hlt]
            rw [hs.offKeep _ ho']
            obtain ⟨j, hj⟩ : ∃ j, min a.rem (n - a.skip) = j + 1 :=
              ⟨_, (Nat.succ_pred_eq_of_pos (Nat.lt_min.mpr ⟨hr, by omega⟩)).symm⟩
            rw [hj]
            simp [slice, List.range_succ_eq_map]
          · have ho' : c.offset = none := by rw [c6, n7 ho, if_neg hlt]
            have h0 : n - a.skip = 0 := by omega
            rw [h0, Nat.min_zero] at hne c1 ⊢
            have hsl : slice id a.skip 0 = [] := by simp [slice]
            rw [hsl, List.nil_append] at hne ⊢
            exact hs.off ho' (by rw [c1]; exact hr) hne
      simp only [readPacket, n1, n2] at h
      by_cases hsk1 : a.skip > n
      · rw [if_pos hsk1] at h
        refine nothing { b with rem := a.rem, skip := a.skip - n, seen := b.seen + n } rfl n3 n4 (by rw [← n5]) ?_ n6 ?_ h
        · intro _
          dsimp only
          rw [hdrop, show n - a.skip = 0 by omega]
          simp [slice]
        · intro _ ho; dsimp only; rw [n7 ho, if_neg (by omega)]
      · rw [if_neg hsk1] at h
        by_cases ht : s.typed = false
        · rw [if_pos ht] at h
          refine nothing { b with seen := b.seen + n } n1 n3 n4 (by rw [← n5]) ?_ n6 ?_ h
          · intro ht'; rw [ht] at ht'; exact nomatch ht'
          · intro ht'; rw [ht] at ht'; exact nomatch ht'
        · rw [if_neg ht] at h
          have ht' : s.typed = true := by simpa using ht
          cases m with
          | withDomain =>
            cases dom with
            | none => exact nomatch h
            | some dp =>
              refine copies { b with
                rem := a.rem - min a.rem (n - a.skip), skip := 0
                vals := b.vals ++ slice id a.skip (min a.rem (n - a.skip))
                doms := b.doms ++ slice id a.skip (min a.rem (n - a.skip)), seen := b.seen + n }
                ht' (by omega) rfl rfl ?_ ?_ ?_ rfl h
              · dsimp only; rw [n3]
              · dsimp only; rw [n4]; rfl
              · dsimp only; rw [n5]
          | values =>
            refine copies { b with
              rem := a.rem - min a.rem (n - a.skip), skip := 0
              vals := b.vals ++ slice id a.skip (min a.rem (n - a.skip)), seen := b.seen + n }
              ht' (by omega) rfl rfl ?_ ?_ ?_ rfl h
            · dsimp only; rw [n3]
            · dsimp only; rw [n4]; rfl
            · dsimp only; rw [n5]
          | skip =>
            refine copies { b with
              rem := a.rem - min a.rem (n - a.skip), skip := 0
              vals := b.vals ++ slice id a.skip (min a.rem (n - a.skip)), seen := b.seen + n }
              ht' (by omega) rfl rfl ?_ ?_ ?_ rfl h
            · dsimp only; rw [n3]
            · dsimp only; rw [n4]; rfl
            · dsimp only; rw [n5]

theorem readLoop_total (cfg : Cfg) (m : Mode) (ps : List Packet) (s : T) (a : Acc)
    (hp : ∀ q ∈ ps, plain q = true)
    (hd : m = .withDomain → ∀ i n, Packet.data i n none ∉ ps) :
    ∃ s' a' ev, readLoop cfg m ps s a = (s', a', .done ev) := by
  induction ps generalizing s a with
  | nil => exact ⟨_, _, _, rfl⟩
  | cons q ps ih =>
    have hp' : ∀ q ∈ ps, plain q = true := fun q hq => hp q (by simp [hq])
    have hd' : m = .withDomain → ∀ i n, Packet.data i n none ∉ ps := fun hm i n hq => hd hm i n (by simp [hq])
    cases q with
    | none i => rw [readLoop]; exact ih _ _ hp' hd'
    | event i k =>
      have := hp (.event i k) (by simp)
      cases k with
      | gap d => simp [plain] at this
      | other d => simp [plain] at this
      | descChanged v d =>
        rw [readLoop]
        split
        · exact ⟨_, _, _, rfl⟩
        · exact ih _ _ hp' hd'
    | data id n dom =>
      rw [readLoop]
      have : ∃ c, readPacket m s id n dom (noteOffset id n a) = some c := by
        simp only [readPacket]
        split
        · exact ⟨_, rfl⟩
        · split
          · exact ⟨_, rfl⟩
          · split
            · exact absurd (by simp) (hd rfl id n)
            · exact ⟨_, rfl⟩
            · exact ⟨_, rfl⟩
      obtain ⟨c, hc⟩ := this
      rw [hc]
      exact ih _ _ hp' hd'


/-- An exception in a read that does not skip events leaves the reader as it was. -/
theorem readLoop_throws (cfg : Cfg) (hsk : cfg.skipEvents = false) (m : Mode) (ps : List Packet) (s : T) (a : Acc)
    (s' : T) (a' : Acc) (h : readLoop cfg m ps s a = (s', a', .throws)) : s' = s := by
  induction ps generalizing a with
  | nil => simp [readLoop] at h
  | cons q ps ih =>
    cases q with
    | none i => rw [readLoop] at h; exact ih _ h
    | event i k =>
      cases k with
      | gap d => simp only [readLoop, Prod.mk.injEq] at h; exact h.1.symm
      | other d => simp only [readLoop, Prod.mk.injEq] at h; exact h.1.symm
      | descChanged v d => simp [readLoop, hsk] at h
    | data id n dom =>
      rw [readLoop] at h
      cases hc : readPacket m s id n dom (noteOffset id n a) with
      | none => rw [hc] at h; simp only [Prod.mk.injEq] at h; exact h.1.symm
      | some c => rw [hc] at h; exact ih _ h

/-! ### Histories -/

theorem window_snoc_receive (t : Trace) (ps : List Packet) (o : Out) :
    window (t ++ [(.receive ps, o)]) = window t ++ ps := by simp [window]

theorem window_snoc_read (t : Trace) (m : Mode) (n : Nat) (o : Out) :
    window (t ++ [(.read m n, o)]) = if o.event.isSome then afterFirstEvent (window t) else window t := by
  simp [window]

@[simp] theorem received_append (a b : List Op) : received (a ++ b) = received a ++ received b := by
  simp [received]

theorem after_sub (ps : List Packet) : ∀ q ∈ afterFirstEvent ps, q ∈ ps := by
  induction ps with
  | nil => simp [afterFirstEvent]
  | cons q ps ih =>
    intro x hx
    cases q with
    | event i k => simp only [afterFirstEvent] at hx; simp [hx]
    | data i n d => exact List.mem_cons_of_mem _ (ih x hx)
    | none i => exact List.mem_cons_of_mem _ (ih x hx)

theorem total_append (a b : List Packet) : total (a ++ b) = total a + total b := by
  simp [total, Connection.totalSamples]

theorem startsTyped_append (a b : List Packet) (h : startsTyped (a ++ b) = true) : startsTyped a = true := by
  induction a with
  | nil => rfl
  | cons q a ih =>
    cases q with
    | none i => exact ih h
    | event i k => exact h
    | data i n d => simp [startsTyped] at h

theorem startsTyped_items (a : List Packet) (h : startsTyped a = true) :
    items a = [] ∨ ∃ i k l, items a = .event i k :: l ∧ announces (.event i k) = true := by
  induction a with
  | nil => exact .inl rfl
  | cons q a ih =>
    cases q with
    | none i => simpa [itemsOf] using ih h
    | event i k => exact .inr ⟨i, k, items a, by simp [itemsOf], h⟩
    | data i n d => simp [startsTyped] at h

/-- What every history establishes. -/
structure TInv (cfg : Cfg) (s : T) (t : Trace) (recv : List Packet) : Prop where
  cache : Cache cfg.historySize s (window t)
  le : total (window t) ≤ total recv
  typed : s.typed = true ∨ (window t = recv ∧ startsTyped recv = true)
  sub : ∀ q ∈ s.packets, q ∈ recv

theorem evict_sub (h : Nat) (ps : List Packet) (avail : Nat) : ∀ q ∈ (evict h ps avail).1, q ∈ ps := by
  induction ps generalizing avail with
  | nil => exact fun q hq => hq
  | cons p ps ih =>
    intro q hq
    cases p with
    | data id n dom =>
      rw [evict] at hq
      split at hq
      · exact List.mem_cons_of_mem _ (ih _ q hq)
      · exact hq
    | event id k =>
      simp only [evict, List.mem_cons] at hq ⊢
      exact hq.imp (fun h => h) (ih _ q)
    | none id =>
      simp only [evict, List.mem_cons] at hq ⊢
      exact hq.imp (fun h => h) (ih _ q)

theorem receive_sub (cfg : Cfg) (s : T) (p : Packet) : ∀ q ∈ (receive cfg s p).packets, q ∈ s.packets ∨ q = p := by
  intro q hq
  cases p with
  | data id n dom =>
    simp only [receive] at hq
    split at hq
    · simpa using hq
    · simp only [List.mem_append, List.mem_singleton] at hq
      exact hq.imp (evict_sub _ _ _ q) (fun h => h)
  | event id k => simpa [receive] using hq
  | none id => exact .inl hq

theorem receives_sub (cfg : Cfg) (ps : List Packet) (s : T) :
    ∀ q ∈ (ps.foldl (receive cfg) s).packets, q ∈ s.packets ∨ q ∈ ps := by
  induction ps generalizing s with
  | nil => exact fun q hq => .inl hq
  | cons p ps ih =>
    intro q hq
    rcases ih _ q hq with h | h
    · rcases receive_sub cfg s p q h with h | h
      · exact .inl h
      · exact .inr (by simp [h])
    · exact .inr (by simp [h])

theorem receives_cache {cfg : Cfg} (ps : List Packet) {s : T} {w : List Packet} (hc : Cache cfg.historySize s w)
    (hw : total (w ++ ps) < W) :
    Cache cfg.historySize (ps.foldl (receive cfg) s) (w ++ ps) ∧ (ps.foldl (receive cfg) s).typed = s.typed ∧
      (ps.foldl (receive cfg) s).invalid = s.invalid := by
  induction ps generalizing s w with
  | nil => simpa using hc
  | cons q ps ih =>
    have e : w ++ q :: ps = (w ++ [q]) ++ ps := by simp
    rw [e] at hw ⊢
    obtain ⟨h1, h2, h3⟩ := ih (receive_cache hc q (by rw [total_append] at hw; omega)) hw
    refine ⟨h1, ?_, ?_⟩
    · simp only [List.foldl_cons]; rw [h2]; cases q <;> simp only [receive]; split <;> rfl
    · simp only [List.foldl_cons]; rw [h3]; cases q <;> simp only [receive]; split <;> rfl

theorem read_cache {cfg : Cfg} (hsk : cfg.skipEvents = false) {s : T} {w : List Packet}
    (hc : Cache cfg.historySize s w) (hw : total w < W) (m : Mode) (n : Nat) (s' : T) (o : Out)
    (h : read cfg s m n = (s', o)) :
    Cache cfg.historySize s' (if o.event.isSome then afterFirstEvent w else w) ∧
    (s.typed = true → s'.typed = true) ∧
    (∀ q ∈ s'.packets, q ∈ s.packets) ∧
    (o.event.isSome = false → s' = s) ∧
    (∀ i k, o.event = some (i, k) → firstEvent (items w) = some (i, k) ∧
      (announces (.event i k) = true → s'.typed = true)) := by
  unfold read at h
  split at h
  · obtain ⟨rfl, rfl⟩ := Prod.mk.inj h; exact ⟨hc, id, fun _ h => h, fun _ => rfl, fun _ _ h => nomatch h⟩
  split at h
  · obtain ⟨rfl, rfl⟩ := Prod.mk.inj h; exact ⟨hc, id, fun _ h => h, fun _ => rfl, fun _ _ h => nomatch h⟩
  split at h
  · rename_i s1 a1 ev hl
    obtain ⟨new, hs⟩ := readLoop_spec cfg hsk m _ _ _ _ _ _ hl
    obtain ⟨rfl, rfl⟩ := Prod.mk.inj h
    dsimp only
    have hfe : ev = firstEvent (items w) := by rw [hs.event, hc.items, firstEvent_dropSamples]
    cases hev : ev with
    | none =>
      have := hs.none hev
      subst this
      exact ⟨hc, id, fun _ h => h, fun _ => rfl, fun _ _ h => nomatch h⟩
    | some e =>
      obtain ⟨g1, g2, g3, g4⟩ := hs.some (by rw [hev]; rfl)
      have hfw : firstEvent (items w) = some e := by rw [← hfe, hev]
      refine ⟨?_, g3, by rw [g1]; exact after_sub _, fun h => (nomatch h), ?_⟩
      · have hfp : firstEvent (items s.packets) = some e := by rw [← hs.event, hev]
        have hA := cnt_after _ _ hfp
        have hB := cnt_after _ _ hfw
        have hct := hc.total
        have hle := hc.le
        have hD := cnt_dropSamples (total w - s.cached) (items w)
        rw [total_cnt] at hct
        have hcached : s1.cached = cnt (afterEv (items s.packets)) := by
          rw [g2, beforeEvent_eq]
          simp only [Nat.zero_add]
          rw [wsub_eq (by omega) (by omega)]; omega
        have hav : afterEv (items s.packets) =
            dropSamples (total w - s.cached - (untilEvent (items w)).length) (afterEv (items w)) := by
          conv => lhs; rw [hc.items]
          rw [afterEv_dropSamples _ _ e hfw]
        have hcc : s1.cached =
            cnt (afterEv (items w)) - (total w - s.cached - (untilEvent (items w)).length) := by
          rw [hcached, hav, cnt_dropSamples]
        have htw : total w = cnt (items w) := total_cnt w
        have hta : total (afterFirstEvent w) = cnt (afterEv (items w)) := by rw [total_cnt, items_after]
        simp only [Option.isSome_some, if_true]
        constructor
        · rw [g1, total_cnt, items_after, hcached]
        · rw [g1, items_after, items_after, hav, hta, hcc]
          congr 1
          omega
        · rw [hta, hcc]; omega
        · rw [hta, hcc]
          rcases hc.full with hf | hf <;> omega
      · intro i k he
        exact ⟨by rw [hfw, he], fun ha => g4 i k (by rw [hev, he]) ha⟩
  · rename_i s1 a1 hl
    obtain ⟨rfl, rfl⟩ := Prod.mk.inj h
    have := readLoop_throws cfg hsk m _ _ _ _ _ hl
    subst this
    exact ⟨hc, id, fun _ h => h, fun _ => rfl, fun _ _ h => nomatch h⟩

theorem total_after_le (w : List Packet) : total (afterFirstEvent w) ≤ total w := by
  induction w with
  | nil => exact Nat.le_refl _
  | cons q w ih =>
    have e : total (q :: w) = Connection.samplesOf q + total w := by simp [total, Connection.totalSamples]
    rw [e]
    cases q with
    | event i k => simp only [afterFirstEvent]; omega
    | data i n d => simp only [afterFirstEvent]; omega
    | none i => simp only [afterFirstEvent]; omega

theorem tinv_step {cfg : Cfg} (hsk : cfg.skipEvents = false) {s : T} {t : Trace} {recv : List Packet}
    (hi : TInv cfg s t recv) (op : Op) (hw : total (recv ++ received [op]) < W)
    (hst : s.typed = true ∨ startsTyped (recv ++ received [op]) = true) :
    TInv cfg (step cfg s op).1 (t ++ [(op, (step cfg s op).2)]) (recv ++ received [op]) := by
  cases op with
  | receive ps =>
    have er : received [.receive ps] = ps := by simp [received]
    rw [er] at hw hst ⊢
    have hle := hi.le
    rw [total_append] at hw
    obtain ⟨h1, h2, h3⟩ := receives_cache ps hi.cache (by rw [total_append]; omega)
    simp only [step]
    constructor
    · rw [window_snoc_receive]; exact h1
    · rw [window_snoc_receive, total_append, total_append]; omega
    · rw [window_snoc_receive, h2]
      rcases hst with h | h
      · exact .inl h
      · exact hi.typed.imp id fun h' => ⟨by rw [h'.1], h⟩
    · intro q hq
      rw [List.mem_append]
      exact (receives_sub cfg ps s q hq).imp (hi.sub q) id
  | read m n =>
    have er : received [.read m n] = [] := rfl
    rw [er, List.append_nil] at hw hst ⊢
    have hle := hi.le
    obtain ⟨h1, h2, h5, h3, h4⟩ := read_cache hsk hi.cache (by omega) m n (read cfg s m n).1 (read cfg s m n).2 rfl
    simp only [step]
    constructor
    · rw [window_snoc_read]; exact h1
    · rw [window_snoc_read]
      split
      · exact Nat.le_trans (total_after_le _) hle
      · exact hle
    · rw [window_snoc_read]
      cases hev : (read cfg s m n).2.event with
      | none =>
        rw [h3 (by rw [hev]; rfl)]
        simpa using hi.typed
      | some e =>
        obtain ⟨i, k⟩ := e
        obtain ⟨g1, g2⟩ := h4 i k hev
        rcases hi.typed with h | ⟨e1, e2⟩
        · exact .inl (h2 h)
        · refine .inl (g2 ?_)
          rw [e1] at g1
          rcases startsTyped_items _ e2 with h | ⟨i', k', l, h, ha⟩
          · rw [h] at g1; exact nomatch g1
          · rw [h] at g1
            simp only [firstEvent, Option.some.injEq, Prod.mk.injEq] at g1
            rw [← g1.1, ← g1.2]; exact ha
    · exact fun q hq => hi.sub q (h5 q hq)

theorem tinv (cfg : Cfg) (hsk : cfg.skipEvents = false) (typed : Bool) (ops : List Op)
    (hw : total (received ops) < W) (hst : typed = true ∨ startsTyped (received ops) = true) :
    TInv cfg (exec cfg typed ops).1 (exec cfg typed ops).2 (received ops) ∧
      (typed = true → (exec cfg typed ops).1.typed = true) := by
  induction ops using list_snoc_induction with
  | nil =>
    refine ⟨⟨⟨rfl, rfl, Nat.le_refl _, .inl rfl⟩, Nat.le_refl _, ?_, by simp [exec, runTrace, init]⟩, fun h => h⟩
    rcases hst with h | h
    · exact .inl h
    · exact .inr ⟨rfl, h⟩
  | snoc ops op ih =>
    rw [received_append] at hw hst ⊢
    have hw' : total (received ops) < W := by rw [total_append] at hw; omega
    obtain ⟨h1, h2⟩ := ih hw' (hst.imp id (startsTyped_append _ _))
    have e : exec cfg typed (ops ++ [op]) = ((step cfg (exec cfg typed ops).1 op).1,
        (exec cfg typed ops).2 ++ [(op, (step cfg (exec cfg typed ops).1 op).2)]) := by
      simp only [exec, runTrace_snoc]
    rw [e]
    refine ⟨tinv_step hsk h1 op hw (hst.imp h2 id), fun h => ?_⟩
    cases op with
    | receive ps =>
      simp only [step]
      rw [(receives_cache ps h1.cache (by
        have := h1.le
        rw [total_append] at hw ⊢
        have : total (received [.receive ps]) = total ps := by simp [received]
        omega)).2.1]
      exact h2 h
    | read m n =>
      exact (read_cache hsk h1.cache (by have := h1.le; omega) m n
        (read cfg (exec cfg typed ops).1 m n).1 (read cfg (exec cfg typed ops).1 m n).2 rfl).2.1 (h2 h)

/-! ### How much is kept -/

theorem evict_bound (h M : Nat) (ps : List Packet) (n : Nat) (hw : total ps + n < W)
    (hM : ∀ q ∈ ps, Connection.samplesOf q ≤ M) (hn : n ≤ M) :
    (evict h ps (total ps + n)).2 ≤ h + M := by
  induction ps with
  | nil => simp [evict, total, Connection.totalSamples]; omega
  | cons q ps ih =>
    have ih := ih
    have e : total (q :: ps) = Connection.samplesOf q + total ps := by simp [total, Connection.totalSamples]
    have hq := hM q (by simp)
    have hM' : ∀ q ∈ ps, Connection.samplesOf q ≤ M := fun q h => hM q (by simp [h])
    rw [e] at hw ⊢
    cases q with
    | data id k dom =>
      have e2 : Connection.samplesOf (.data id k dom) = k := rfl
      rw [e2] at hw hq ⊢
      rw [evict, wsub_eq hw (by omega)]
      have e3 : k + total ps + n - k = total ps + n := by omega
      split
      · rw [e3]; exact ih (by omega) hM'
      · dsimp only; omega
    | event id k =>
      have e2 : Connection.samplesOf (.event id k) = 0 := rfl
      rw [e2] at hw ⊢
      simp only [evict, Nat.zero_add]
      exact ih (by omega) hM'
    | none id =>
      have e2 : Connection.samplesOf (.none id) = 0 := rfl
      rw [e2] at hw ⊢
      simp only [evict, Nat.zero_add]
      exact ih (by omega) hM'

theorem receive_bound {cfg : Cfg} {s : T} {M : Nat} (hc : s.cached = total s.packets)
    (hM : ∀ q ∈ s.packets, Connection.samplesOf q ≤ M) (q : Packet) (hq : Connection.samplesOf q ≤ M)
    (hw : s.cached + Connection.samplesOf q < W) (hb : s.cached ≤ cfg.historySize + M) :
    (receive cfg s q).cached ≤ cfg.historySize + M := by
  cases q with
  | data id n dom =>
    have e2 : Connection.samplesOf (.data id n dom) = n := rfl
    rw [e2] at hq hw
    simp only [receive]
    rw [Connection.wadd_eq hw]
    split
    · dsimp only; omega
    · dsimp only; rw [hc]; exact evict_bound _ _ _ _ (by omega) hM hq
  | event id k => exact hb
  | none id => exact hb

theorem receives_bound {cfg : Cfg} {M : Nat} (ps : List Packet) {s : T} {w : List Packet}
    (hc : Cache cfg.historySize s w) (hM : ∀ q ∈ s.packets, Connection.samplesOf q ≤ M)
    (hp : ∀ q ∈ ps, Connection.samplesOf q ≤ M)
    (hw : total (w ++ ps) < W) (hb : s.cached ≤ cfg.historySize + M) :
    (ps.foldl (receive cfg) s).cached ≤ cfg.historySize + M := by
  induction ps generalizing s w with
  | nil => exact hb
  | cons q ps ih =>
    have e : w ++ q :: ps = (w ++ [q]) ++ ps := by simp
    rw [e] at hw
    have hw1 : total (w ++ [q]) < W := by rw [total_append] at hw; omega
    refine ih (receive_cache hc q hw1) ?_ (fun q h => hp q (by simp [h])) hw ?_
    · intro x hx
      rcases receive_sub cfg s q x hx with h | h
      · exact hM x h
      · rw [h]; exact hp q (by simp)
    · refine receive_bound hc.total hM q (hp q (by simp)) ?_ hb
      have := hc.le
      rw [total_append] at hw1
      have : total [q] = Connection.samplesOf q := by simp [total, Connection.totalSamples]
      omega

end Verif.Reader.Tail
