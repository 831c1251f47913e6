import Mathlib.Data.List.Perm.Subperm
import Verif.Ping.Demo

/-! # Properties of pings -/

namespace Verif.Ping

/-! ## C374: requests are well-formed -/

theorem words_sum (l : List Nat) : (words l).sum = bodySum l := by
  fun_induction words l with
  | case1 => rfl
  | case2 => simp [bodySum]
  | case3 a b l ih => simp [bodySum, ih]

theorem bodySum_le (l : List Nat) (h : ∀ b ∈ l, b < 256) : bodySum l ≤ 65535 * l.length := by
  fun_induction bodySum l with
  | case1 => simp
  | case2 a => have := h a List.mem_cons_self; simp; omega
  | case3 a b l ih =>
    have x := h a List.mem_cons_self
    have y := h b (List.mem_cons_of_mem _ List.mem_cons_self)
    have z := ih (fun c m => h c (List.mem_cons_of_mem _ (List.mem_cons_of_mem _ m)))
    simp only [List.length_cons]
    omega

theorem fold_zero (S c : Nat) (h : S < 65536 * 65536)
    (hc : c = 65535 - (S / 65536 + S % 65536 + (S / 65536 + S % 65536) / 65536) % 65536) :
    (S + c) % 65535 = 0 := by
  rw [hc]
  clear hc
  obtain ⟨q, r, hq, hr, e⟩ : ∃ q r, q < 65536 ∧ r < 65536 ∧ S = 65536 * q + r :=
    ⟨S / 65536, S % 65536, by omega, by omega, by omega⟩
  have d : S / 65536 = q := by omega
  have m : S % 65536 = r := by omega
  rw [d, m]
  rcases Nat.lt_or_ge (q + r) 65536 with l | l
  · have : (q + r) / 65536 = 0 := by omega
    rw [this, Nat.add_zero, Nat.mod_eq_of_lt l, show S + (65535 - (q + r)) = 65535 * (q + 1) by omega]
    exact Nat.mul_mod_right _ _
  · have : (q + r) / 65536 = 1 := by omega
    have n : (q + r + 1) % 65536 = q + r + 1 - 65536 := by omega
    rw [this, n, show S + (65535 - (q + r + 1 - 65536)) = 65535 * (q + 2) by omega]
    exact Nat.mul_mod_right _ _

/-- Every request of bytes whose body fits into a packet is accepted by a receiver that checks it. -/
theorem C374_checksum (ident seq : Nat) (body : List Nat) (hi : ident < 65536) (hs : seq < 65536)
    (hb : ∀ b ∈ body, b < 256) (hl : body.length < 65500) : Accepted (request ident seq body) := by
  have le := bodySum_le body hb
  have e : (words (request ident seq body)).sum
      = 2048 + (withChecksum ⟨8, 0, 0, ident, seq⟩ body).checksum + ident + seq + bodySum body := by
    have c : (withChecksum ⟨8, 0, 0, ident, seq⟩ body).checksum < 65536 := by
      simp only [withChecksum]; omega
    have r : request ident seq body = 8 :: 0 :: (withChecksum ⟨8, 0, 0, ident, seq⟩ body).checksum / 256 % 256
        :: (withChecksum ⟨8, 0, 0, ident, seq⟩ body).checksum % 256 :: ident / 256 % 256 :: ident % 256
        :: seq / 256 % 256 :: seq % 256 :: body := rfl
    rw [r]
    simp only [words, List.sum_cons, words_sum]
    omega
  have c : (withChecksum ⟨8, 0, 0, ident, seq⟩ body).checksum
      = 65535 - ((2048 + ident + seq + bodySum body) / 65536 + (2048 + ident + seq + bodySum body) % 65536
        + ((2048 + ident + seq + bodySum body) / 65536 + (2048 + ident + seq + bodySum body) % 65536) / 65536)
          % 65536 := by
    simp only [withChecksum]
    rw [show (8 * 256 + 0 + ident + seq + bodySum body) % 2 ^ 32 = 2048 + ident + seq + bodySum body by omega]
  refine ⟨?_, by rw [e]; omega⟩
  have f := fold_zero (2048 + ident + seq + bodySum body) _ (by omega) c
  rw [e]
  clear c e
  generalize (withChecksum ⟨8, 0, 0, ident, seq⟩ body).checksum = x at f ⊢
  rw [← f]
  exact congrArg (· % 65535) (by omega)

example : request 513 1 [72, 105] = [8, 0, 173, 148, 2, 1, 0, 1, 72, 105] := by decide

/-- The receiver finds the fields that were set. -/
theorem C374_fields (ident seq : Nat) (body : List Nat) (hi : ident < 65536) (hs : seq < 65536) :
    ∃ c, header (request ident seq body) = some ⟨8, 0, c, ident, seq⟩ := by
  refine ⟨(withChecksum ⟨8, 0, 0, ident, seq⟩ body).checksum, ?_⟩
  have c : (withChecksum ⟨8, 0, 0, ident, seq⟩ body).checksum < 65536 := by
    simp only [withChecksum]; omega
  have r : header (request ident seq body) = some ⟨8, 0,
      decode ((withChecksum ⟨8, 0, 0, ident, seq⟩ body).checksum / 256 % 256)
        ((withChecksum ⟨8, 0, 0, ident, seq⟩ body).checksum % 256), decode (ident / 256 % 256) (ident % 256),
      decode (seq / 256 % 256) (seq % 256)⟩ := rfl
  have d : ∀ n, n < 65536 → decode (n / 256 % 256) (n % 256) = n := by
    intro n hn
    simp only [decode]
    omega
  rw [r, d _ c, d _ hi, d _ hs]

example : header (request 513 1 [72, 105]) = some ⟨8, 0, 44436, 513, 1⟩ := by decide

/-! ## C375: answers are recognised -/

/-- An answer to the requests, with options of any length and any body, is counted, and its address is
found. -/
theorem C375_recognised (s : State) (first src dst options body : List Nat) (code checksum : Nat)
    (h : s.stopped = false) (hf : first.length = 11) (hs : src.length = 4) (hd : dst.length = 4)
    (ho : options.length % 4 = 0) (hm : options.length ≤ 40) (hi : s.ident < 65536) (hq : s.seq < 65536) :
    (s.receive (reply first src dst options code checksum s.ident s.seq body)).replies = s.replies + 1
      ∧ (∀ a, a ∈ (s.receive (reply first src dst options code checksum s.ident s.seq body)).addresses
        ↔ a = src ∨ a ∈ s.addresses) := by
  let tail := ([0, code] ++ encode checksum ++ encode s.ident ++ encode s.seq) ++ body
  have e : reply first src dst options code checksum s.ident s.seq body
      = (64 + (5 + options.length / 4)) :: (first ++ (src ++ (dst ++ (options ++ tail)))) := by
    simp [reply, tail, List.append_assoc]
  have ip : ipv4 (reply first src dst options code checksum s.ident s.seq body) = some (src, tail) := by
    rw [e]
    have n : (64 + (5 + options.length / 4)) % 16 * 4 = 20 + options.length := by omega
    have v : (64 + (5 + options.length / 4)) / 16 % 16 = 4 := by omega
    have len : ((64 + (5 + options.length / 4)) :: (first ++ (src ++ (dst ++ (options ++ tail))))).length
        = 20 + options.length + tail.length := by
      simp only [List.length_cons, List.length_append, hf, hs, hd]; omega
    simp only [ipv4, len, n, v]
    rw [if_neg (by omega), if_neg (by omega), if_neg (by omega), if_neg (by omega)]
    have d1 : ((64 + (5 + options.length / 4)) :: (first ++ (src ++ (dst ++ (options ++ tail))))).drop 12
        = src ++ (dst ++ (options ++ tail)) := by
      rw [show 12 = 11 + 1 from rfl, List.drop_succ_cons, ← hf, List.drop_left]
    have d2 : ((64 + (5 + options.length / 4)) :: (first ++ (src ++ (dst ++ (options ++ tail))))).drop
        (20 + options.length) = tail := by
      rw [show 20 + options.length = ((first ++ src ++ dst ++ options).length) + 1 by
        simp only [List.length_append, hf, hs, hd]; omega, List.drop_succ_cons]
      rw [show first ++ (src ++ (dst ++ (options ++ tail))) = (first ++ src ++ dst ++ options) ++ tail by simp]
      exact List.drop_left
    rw [d1, d2, ← hs, List.take_left]
  have hd' : header tail = some ⟨0, code, decode (checksum / 256 % 256) (checksum % 256), s.ident, s.seq⟩ := by
    have d : ∀ n, n < 65536 → decode (n / 256 % 256) (n % 256) = n := by
      intro n hn
      simp only [decode]
      omega
    have r : header tail = some ⟨0, code, decode (checksum / 256 % 256) (checksum % 256),
      decode (s.ident / 256 % 256) (s.ident % 256), decode (s.seq / 256 % 256) (s.seq % 256)⟩ := rfl
    rw [r, d _ hi, d _ hq]
  simp only [State.receive, h, Bool.false_eq_true, if_false, ip, hd', and_self, if_true, true_and]
  intro a
  split
  · next m =>
    constructor
    · exact .inr
    · rintro (rfl | q)
      · exact m
      · exact q
  · simp [or_comm]

example : ((asked.receive (answer 1)).receive (answer 2)).addresses = [[10, 0, 0, 1], [10, 0, 0, 2]]
    ∧ ((asked.receive (answer 1)).receive (answer 2)).complete = true := by decide

/-- Whatever arrives, an address is found only if a packet of IP version 4 came from it that answers a
request of this number and identifier; a packet that is cut off, or anything else, changes nothing. -/
theorem C375_only (s : State) (p : List Nat) :
    s.receive p = s ∨ (∃ src rest h, ipv4 p = some (src, rest) ∧ header rest = some h ∧ h.type = 0
      ∧ h.ident = s.ident ∧ h.seq = s.seq ∧ s.stopped = false ∧ src = (p.drop 12).take 4
      ∧ (∃ a q, p = a :: q ∧ a / 16 % 16 = 4) ∧ 28 ≤ p.length) := by
  unfold State.receive
  cases st : s.stopped with
  | true => left; simp
  | false =>
    simp only [Bool.false_eq_true, if_false]
    cases hp : ipv4 p with
    | none => left; rfl
    | some x =>
      obtain ⟨src, rest⟩ := x
      cases hh : header rest with
      | none => left; simp [hh]
      | some h =>
        simp only [hh]
        split
        · next c =>
          right
          refine ⟨src, rest, h, rfl, hh, c.1, c.2.1, c.2.2, trivial, ?_⟩
          cases p with
          | nil => cases hp
          | cons a q =>
            simp only [ipv4] at hp
            split at hp
            · cases hp
            · split at hp
              · cases hp
              · next v =>
                split at hp
                · cases hp
                · next w =>
                  split at hp
                  · cases hp
                  · next z =>
                    obtain ⟨rfl, rfl⟩ := Prod.mk.inj (Option.some.inj hp)
                    refine ⟨rfl, ⟨a, q, rfl, Decidable.not_not.mp v⟩, ?_⟩
                    have l8 : 8 ≤ ((a :: q).drop (a % 16 * 4)).length := by
                      generalize (a :: q).drop (a % 16 * 4) = r at hh
                      rcases r with _ | ⟨_, _ | ⟨_, _ | ⟨_, _ | ⟨_, _ | ⟨_, _ | ⟨_, _ | ⟨_, _ | ⟨_, r⟩⟩⟩⟩⟩⟩⟩⟩ <;>
                        first | (cases hh; done) | (simp only [List.length_cons]; omega)
                    rw [List.length_drop] at l8
                    omega
        · left; rfl

example : asked.receive ((answer 1).take 30) = asked ∧ asked.receive (5 :: (answer 1).tail) = asked := by decide

/-! ## C376: the wait ends when all have answered -/

/-- The source of a packet that is accepted. -/
def source (s : State) (p : List Nat) : Option (List Nat) :=
  if (s.receive p).replies = s.replies then none else some ((p.drop 12).take 4)

theorem receive_cases (s : State) (p : List Nat) :
    (s.receive p = s ∧ source s p = none)
      ∨ ∃ src, source s p = some src ∧ s.receive p = { s with
          addresses := if src ∈ s.addresses then s.addresses else s.addresses ++ [src], replies := s.replies + 1 } := by
  rcases C375_only s p with h | ⟨src, rest, h, a, b, c, d, e, f, g, -, -⟩
  · left; exact ⟨h, by simp [source, h]⟩
  · right
    have r : s.receive p = { s with
        addresses := if src ∈ s.addresses then s.addresses else s.addresses ++ [src], replies := s.replies + 1 } := by
      simp [State.receive, f, a, b, c, d, e]
    exact ⟨src, by simp [source, r, g], r⟩

/-- When every address that was asked, and no other, answers at most once, the wait ends before its time only
when all of them are found.  Missing: several answers of one address, and answers of others. -/
theorem C376_complete_partial (s : State) (remotes : List (List Nat)) (ps : List (List Nat))
    (h : ((ps.filterMap (source (s.start remotes))).Nodup))
    (sub : ∀ a ∈ ps.filterMap (source (s.start remotes)), a ∈ remotes)
    (c : ((s.start remotes).receiveAll ps).complete = true) :
    ∀ a ∈ remotes, a ∈ ((s.start remotes).receiveAll ps).addresses := by
  have same : ∀ (t u : State) p, t.ident = u.ident → t.seq = u.seq → t.stopped = u.stopped →
      source t p = source u p := by
    intro t u p a b c
    have r : (t.receive p).replies = t.replies ↔ (u.receive p).replies = u.replies := by
      unfold State.receive
      rw [c]
      by_cases hu : u.stopped = true
      · rw [if_pos hu, if_pos hu]; simp
      · rw [if_neg hu, if_neg hu, a, b]
        cases ipv4 p with
        | none => simp
        | some x =>
          obtain ⟨x, y⟩ := x
          cases hh : header y with
          | none => simp [hh]
          | some z => simp only [hh]; split <;> simp
    simp only [source, r]
  have k : ∀ (ps : List (List Nat)) (t : State), t.stopped = false →
      (t.receiveAll ps).replies = t.replies + (ps.filterMap (source t)).length
        ∧ (t.receiveAll ps).remotes = t.remotes ∧ (t.receiveAll ps).stopped = false
        ∧ (∀ a ∈ ps.filterMap (source t), a ∈ (t.receiveAll ps).addresses)
        ∧ ∀ a ∈ t.addresses, a ∈ (t.receiveAll ps).addresses := by
    intro ps
    induction ps with
    | nil => intro t st; exact ⟨rfl, rfl, st, fun a m => by simp at m, fun a m => m⟩
    | cons p ps ih =>
      intro t st
      rcases receive_cases t p with ⟨r, n⟩ | ⟨src, n, r⟩
      · have := ih t st
        simp only [State.receiveAll, List.foldl_cons, r, List.filterMap_cons, n] at this ⊢
        exact this
      · have st' : (t.receive p).stopped = false := by rw [r]; exact st
        have eq : ps.filterMap (source (t.receive p)) = ps.filterMap (source t) := by
          congr 1
          funext q
          exact same _ _ q (by rw [r]) (by rw [r]) (by rw [r])
        obtain ⟨a, b, c, d, e⟩ := ih (t.receive p) st'
        rw [eq] at a d
        have mem : ∀ x, x = src ∨ x ∈ t.addresses → x ∈ (t.receive p).addresses := by
          intro x hx
          rw [r]
          simp only
          split
          · next m => rcases hx with rfl | hx; exacts [m, hx]
          · rcases hx with rfl | hx <;> simp [*]
        refine ⟨?_, ?_, c, ?_, fun x m => e x (mem x (.inr m))⟩
        · rw [show t.receiveAll (p :: ps) = (t.receive p).receiveAll ps from rfl, a, r]
          simp only [List.filterMap_cons, n, List.length_cons]
          omega
        · rw [show t.receiveAll (p :: ps) = (t.receive p).receiveAll ps from rfl, b, r]
        · intro x m
          simp only [List.filterMap_cons, n, List.mem_cons] at m
          rcases m with rfl | m
          · exact e _ (mem _ (.inl rfl))
          · exact d x m
  obtain ⟨a, b, st, d, -⟩ := k ps (s.start remotes) rfl
  have len : remotes.length = (ps.filterMap (source (s.start remotes))).length := by
    simp only [State.complete, st, Bool.or_false, decide_eq_true_eq, b, a] at c
    simpa [State.start] using c
  intro x m
  have p := (List.subperm_of_subset h sub).perm_of_length_le (by omega)
  exact d x (p.mem_iff.mpr m)

example : (asked.receiveAll [answer 1, answer 2]).complete = true
    ∧ [answer 1, answer 2].filterMap (source asked) = [[10, 0, 0, 1], [10, 0, 0, 2]] := by decide

theorem recognised_rest (s : State) (p : List Nat) :
    (s.receive p).remotes = s.remotes ∧ (s.receive p).ident = s.ident ∧ (s.receive p).seq = s.seq
      ∧ (s.receive p).stopped = s.stopped := by
  rcases receive_cases s p with ⟨r, -⟩ | ⟨src, -, r⟩ <;> rw [r] <;> exact ⟨rfl, rfl, rfl, rfl⟩

/-- After answers of addresses, in any order and with any repetition, the addresses found are those and the ones
found before, and the wait ends just when there are as many answers as addresses asked. -/
theorem C376_count_partial (s : State) (remotes srcs ps : List (List Nat)) (hi : s.ident < 65536)
    (h : List.Forall₂ (Answers s.ident 1) srcs ps) :
    (((s.start remotes).receiveAll ps).complete = true ↔ srcs.length = remotes.length)
      ∧ ∀ a, a ∈ ((s.start remotes).receiveAll ps).addresses ↔ a ∈ srcs ∨ a ∈ s.addresses := by
  have k : ∀ (t : State), t.ident = s.ident → t.seq = 1 → t.stopped = false →
      (t.receiveAll ps).replies = t.replies + srcs.length ∧ (t.receiveAll ps).remotes = t.remotes
        ∧ (t.receiveAll ps).stopped = false
        ∧ ∀ a, a ∈ (t.receiveAll ps).addresses ↔ a ∈ srcs ∨ a ∈ t.addresses := by
    induction h with
    | nil => intro t _ _ st; exact ⟨rfl, rfl, st, fun a => by simp [State.receiveAll]⟩
    | @cons src p srcs ps x _ ih =>
      intro t ti tq st
      obtain ⟨l4, first, dst, options, body, code, checksum, f, d, o, m, rfl⟩ := x
      rw [← ti, ← tq]
      have r := C375_recognised t first src dst options body code checksum st f l4 d o m (by omega) (by omega)
      have q := recognised_rest t (reply first src dst options code checksum t.ident t.seq body)
      rw [show ∀ p, t.receiveAll (p :: ps) = (t.receive p).receiveAll ps from fun _ => rfl]
      generalize t.receive (reply first src dst options code checksum t.ident t.seq body) = u at r q ⊢
      obtain ⟨a, b, c, e⟩ := ih u (q.2.1.trans ti) (q.2.2.1.trans tq) (q.2.2.2.trans st)
      refine ⟨by rw [a, r.1, List.length_cons]; omega, b.trans q.1, c, fun x => ?_⟩
      rw [e, r.2, List.mem_cons]
      constructor
      · rintro (y | y | y)
        exacts [.inl (.inr y), .inl (.inl y), .inr y]
      · rintro ((y | y) | y)
        exacts [.inr (.inl y), .inl y, .inr (.inr y)]
  obtain ⟨a, b, c, e⟩ := k (s.start remotes) rfl rfl rfl
  refine ⟨?_, e⟩
  simp only [State.complete, a, b, c, Bool.or_false, decide_eq_true_eq]
  simp only [State.start, Nat.zero_add]
  exact eq_comm

example : List.Forall₂ (Answers 513 1) [[10, 0, 0, 1], [10, 0, 0, 2]] [answer 1, answer 2] := by
  refine .cons ⟨rfl, _, _, _, _, _, _, rfl, rfl, rfl, by decide, rfl⟩
    (.cons ⟨rfl, _, _, _, _, _, _, rfl, rfl, rfl, by decide, rfl⟩ .nil)

/-- One address that answers twice ends the wait for two. -/
theorem C376_complete_violation :
    (asked.receiveAll [answer 1, answer 1]).complete = true
      ∧ [10, 0, 0, 2] ∈ asked.remotes ∧ [10, 0, 0, 2] ∉ (asked.receiveAll [answer 1, answer 1]).addresses := by decide

/-! ## C377: the addresses found were asked -/

/-- When none were found before and only addresses that were asked answer with this identifier, only those are
found.  Missing: addresses found by a ping before, late answers to one, and answers nobody asked for. -/
theorem C377_asked_partial (s : State) (remotes : List (List Nat)) (ps : List (List Nat)) (e : s.addresses = [])
    (only : ∀ p ∈ ps, ∀ src rest h, ipv4 p = some (src, rest) → header rest = some h → h.type = 0 →
      h.ident = s.ident → h.seq = 1 → src ∈ remotes) :
    ∀ a ∈ ((s.start remotes).receiveAll ps).addresses, a ∈ remotes := by
  have k : ∀ (ps : List (List Nat)) (t : State), t.ident = s.ident → t.seq = 1 → (∀ a ∈ t.addresses, a ∈ remotes) →
      (∀ p ∈ ps, ∀ src rest h, ipv4 p = some (src, rest) → header rest = some h → h.type = 0 →
        h.ident = s.ident → h.seq = 1 → src ∈ remotes) →
      ∀ a ∈ (t.receiveAll ps).addresses, a ∈ remotes := by
    intro ps
    induction ps with
    | nil => intro t _ _ q _; exact q
    | cons p ps ih =>
      intro t hi hs q o
      have o' := fun p m => o p (List.mem_cons_of_mem _ m)
      rcases C375_only t p with r | ⟨src, rest, h, a, b, c, d, f, g, -, -, -⟩
      · rw [show t.receiveAll (p :: ps) = (t.receive p).receiveAll ps from rfl, r]
        exact ih t hi hs q o'
      · have r : t.receive p = { t with
            addresses := if src ∈ t.addresses then t.addresses else t.addresses ++ [src],
            replies := t.replies + 1 } := by
          simp [State.receive, g, a, b, c, d, f]
        rw [show t.receiveAll (p :: ps) = (t.receive p).receiveAll ps from rfl]
        refine ih _ (by rw [r]; exact hi) (by rw [r]; exact hs) ?_ o'
        rw [r]
        simp only
        intro x m
        split at m
        · exact q x m
        · rcases List.mem_append.mp m with m | m
          · exact q x m
          · rw [List.mem_singleton.mp m]
            exact o p List.mem_cons_self src rest h a b c (d.trans hi) (f.trans hs)
  exact k ps _ rfl rfl (fun a m => by simp [State.start, e] at m) only

example : ∀ a ∈ (asked.receiveAll [answer 1, answer 2]).addresses, a ∈ asked.remotes := by decide

/-- After a ping of two addresses, a ping of a third has found one of the two at once, and takes the late answer
of the other for its own, which also ends its wait. -/
theorem C377_asked_violation :
    let s := (asked.receive (answer 1)).start [[10, 0, 0, 3]]
    [10, 0, 0, 1] ∈ s.addresses ∧ s.complete = false ∧ (s.receive (answer 2)).complete = true
      ∧ (s.receive (answer 2)).addresses = [[10, 0, 0, 1], [10, 0, 0, 2]] := by decide

end Verif.Ping
