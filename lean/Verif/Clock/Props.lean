import Verif.Clock.Near
import Verif.Clock.Demo

/-!
# Time points (C340 to C347)
-/

namespace Verif.Clock

/-! ## C340: origins -/

/-- Every origin is given a time and an offset, and one that has been completed is not changed again. -/
theorem C340_completed (o : List Char) :
    fixup (fixup o) = fixup o ∧ 'T' ∈ fixup o ∧ '+' ∈ fixup o := by
  by_cases t : 'T' ∈ o
  · by_cases z : o.getLast? = some 'Z'
    · have e : fixup o = o.dropLast ++ "+00:00".toList := by
        unfold fixup
        rw [if_neg (fun h => h t), if_pos z]
      have m : 'T' ∈ o.dropLast := by
        have ne : o ≠ [] := List.ne_nil_of_mem t
        have s := List.dropLast_append_getLast? 'Z' z
        rw [← s] at t
        rcases List.mem_append.mp t with h | h
        · exact h
        · exact absurd (List.mem_singleton.mp h) (by decide)
      have m' : 'T' ∈ fixup o := by rw [e]; exact List.mem_append_left _ m
      have p : '+' ∈ fixup o := by rw [e]; exact List.mem_append_right _ (by decide)
      refine ⟨?_, m', p⟩
      have l : (fixup o).getLast? ≠ some 'Z' := by
        rw [e, List.getLast?_append]
        exact (by decide : some '0' ≠ some 'Z')
      generalize fixup o = x at *
      unfold fixup
      rw [if_neg (fun h => h m'), if_neg l, if_neg (fun h => h p)]
    · by_cases p : '+' ∈ o
      · have e : fixup o = o := by
          unfold fixup
          rw [if_neg (fun h => h t), if_neg z, if_neg (fun h => h p)]
        rw [e]
        exact ⟨e, t, p⟩
      · have e : fixup o = o ++ "+00:00".toList := by
          unfold fixup
          rw [if_neg (fun h => h t), if_neg z, if_pos p]
        have m' : 'T' ∈ fixup o := by rw [e]; exact List.mem_append_left _ t
        have p' : '+' ∈ fixup o := by rw [e]; exact List.mem_append_right _ (by decide)
        refine ⟨?_, m', p'⟩
        have l : (fixup o).getLast? ≠ some 'Z' := by
          rw [e, List.getLast?_append]
          exact (by decide : some '0' ≠ some 'Z')
        generalize fixup o = x at *
        unfold fixup
        rw [if_neg (fun h => h m'), if_neg l, if_neg (fun h => h p')]
  · have e : fixup o = o ++ "T00:00:00+00:00".toList := by
      unfold fixup
      rw [if_pos t]
    have m' : 'T' ∈ fixup o := by rw [e]; exact List.mem_append_right _ (by decide)
    have p' : '+' ∈ fixup o := by rw [e]; exact List.mem_append_right _ (by decide)
    refine ⟨?_, m', p'⟩
    have l : (fixup o).getLast? ≠ some 'Z' := by
      rw [e, List.getLast?_append]
      exact (by decide : some '0' ≠ some 'Z')
    generalize fixup o = x at *
    unfold fixup
    rw [if_neg (fun h => h m'), if_neg l, if_neg (fun h => h p')]

example : fixup "2022-09-27T00:02:03Z".toList = "2022-09-27T00:02:03+00:00".toList := by decide

/-! ## C341: the form of origins -/

/-- A date alone, and a time without a zone, of Greenwich or east of it, are written out as meant. -/
theorem C341_form_partial (date : List Char) (hd : Plain date) (time : Option (List Char × Zone))
    (ht : ∀ t z, time = some (t, z) → Plain t)
    (hz : ∀ t o, time = some (t, .plus o) → Plain o ∧ o ≠ [])
    (hm : ∀ t o, time ≠ some (t, .minus o)) :
    fixup (written date time) = complete date time := by
  have noT : 'T' ∉ date := fun h => (hd _ h).1 rfl
  have noP : '+' ∉ date := fun h => (hd _ h).2.2 rfl
  cases time with
  | none =>
    unfold fixup
    exact if_pos noT
  | some tz =>
    obtain ⟨t, z⟩ := tz
    have pt := ht t z rfl
    have tP : '+' ∉ t := fun h => (pt _ h).2.2 rfl
    cases z with
    | absent =>
      unfold fixup written complete
      rw [if_neg (fun h => h (by simp)), if_neg, if_pos]
      · rw [List.mem_append, List.mem_cons]
        rintro (h | h | h)
        · exact noP h
        · exact absurd h (by decide)
        · exact tP h
      · rw [List.getLast?_append]
        intro h
        have : (('T' :: t).getLast?).isSome := by simp
        obtain ⟨c, hc⟩ := Option.isSome_iff_exists.mp this
        rw [hc] at h
        have hc' := List.mem_of_getLast? hc
        have : c = 'Z' := by simpa using h
        subst this
        rcases List.mem_cons.mp hc' with h | h
        · exact absurd h (by decide)
        · exact (pt _ h).2.1 rfl
    | zulu =>
      unfold fixup written complete
      rw [if_neg (fun h => h (by simp)), if_pos List.getLast?_concat, List.dropLast_concat]
    | plus o =>
      obtain ⟨po, ne⟩ := hz t o rfl
      unfold fixup written complete
      rw [if_neg (fun h => h (by simp)), if_neg, if_neg (fun h => h (by simp))]
      rw [List.getLast?_append]
      intro h
      have : (('+' :: o).getLast?).isSome := by simp
      obtain ⟨c, hc⟩ := Option.isSome_iff_exists.mp this
      rw [hc] at h
      have hc' := List.mem_of_getLast? hc
      have : c = 'Z' := by simpa using h
      subst this
      rcases List.mem_cons.mp hc' with h | h
      · exact absurd h (by decide)
      · exact (po _ h).2.1 rfl
    | minus o => exact absurd rfl (hm t o)

example : Plain "2022-09-27".toList ∧ Plain "10:00:00.5".toList
    ∧ fixup (written "2022-09-27".toList (some ("10:00:00.5".toList, .plus "02:00".toList)))
      = "2022-09-27T10:00:00.5+02:00".toList := by
  refine ⟨?_, ?_, by decide⟩ <;> · unfold Plain; decide

/-- An origin with an offset west of Greenwich gets a second offset. -/
theorem C341_violation :
    fixup (written "2022-09-27".toList (some ("10:00:00".toList, .minus "05:00".toList)))
        = "2022-09-27T10:00:00-05:00+00:00".toList
      ∧ complete "2022-09-27".toList (some ("10:00:00".toList, .minus "05:00".toList))
        = "2022-09-27T10:00:00-05:00".toList := by
  constructor <;> decide

/-! ## C342 and C343: the order of time points -/

theorem product_fits (ty : Ty) (num v : Int) (f : Fits ty num v) : product ty num v = some (num * v) := by
  cases ty with
  | unsigned64 => exact congrArg some (Int.emod_eq_of_lt f.1 f.2)
  | whole => exact if_pos f
  | range => exact if_pos f
  | refused => exact if_pos f

theorem point_fits (F : Floats) (epoch num den : Int) (ty : Ty) (v : Int) (f : Fits ty num v) :
    point F epoch num den ty v
      = some (F.rnd (F.fl ((near epoch : Rat) + F.fl (F.fl ((near (num * v) : Rat) / near den) * 1000000000)))) := by
  unfold point
  rw [product_fits ty num v f]

theorem near_nonneg (a : Int) (h : 0 ≤ a) : (0 : Rat) ≤ near a := by
  have := near_mono 0 a h
  rw [show near 0 = 0 from by decide +kernel] at this
  exact_mod_cast this

/-- Time points are in the order of the ticks, as long as tick times numerator is a number of the type it
is computed in. -/
theorem C343_order_partial (F : Floats) (ff : Faithful F) (epoch num den : Int) (hn : 0 ≤ num)
    (hd : 0 ≤ den) (ty : Ty) (v w : Int) (le : v ≤ w) (fv : Fits ty num v) (fw : Fits ty num w) :
    ∃ a b, point F epoch num den ty v = some a ∧ point F epoch num den ty w = some b ∧ a ≤ b := by
  refine ⟨_, _, point_fits F epoch num den ty v fv, point_fits F epoch num den ty w fw, ?_⟩
  apply ff.rndMono
  apply ff.flMono
  have h1 : (near (num * v) : Rat) ≤ near (num * w) := by
    exact_mod_cast near_mono _ _ (Int.mul_le_mul_of_nonneg_left le hn)
  have h2 := ff.flMono _ _ (div_le_div_of_nonneg_right h1 (near_nonneg den hd))
  have h3 := ff.flMono _ _ (mul_le_mul_of_nonneg_right h2 (show (0 : Rat) ≤ 1000000000 by norm_num))
  exact add_le_add_right h3 _

/-- With a resolution of one by something, time points are in the order of the ticks. -/
theorem C342_order (F : Floats) (ff : Faithful F) (epoch den : Int) (hd : 0 ≤ den)
    (ty : Ty) (v w : Int) (le : v ≤ w) (fv : Tick ty v) (fw : Tick ty w) :
    ∃ a b, point F epoch 1 den ty v = some a ∧ point F epoch 1 den ty w = some b ∧ a ≤ b := by
  refine C343_order_partial F ff epoch 1 den (by decide) hd ty v w le ?_ ?_
  · unfold Fits
    rw [Int.one_mul]
    exact fv
  · unfold Fits
    rw [Int.one_mul]
    exact fw

theorem Demo.ideal_faithful : Faithful Demo.ideal where
  flMono := fun _ _ h => h
  flNear := fun a => by
    show |a - a| ≤ _
    rw [sub_self, abs_zero]
    positivity
  rndMono := fun a b h => Rat.floor_monotone (add_le_add_left h _)
  rndNear := fun a => by
    show |((a + 1 / 2).floor : Rat) - a| ≤ 1 / 2
    have h1 := Rat.floor_le (a + 1 / 2)
    have h2 := Rat.lt_floor_add_one (a + 1 / 2)
    rw [abs_le]
    push_cast at *
    constructor <;> linarith

example : Faithful Demo.ideal ∧ Tick .unsigned64 (2 ^ 63 + 1)
    ∧ point Demo.ideal 0 1 1000 .whole (-1500) = some (-1500000000)
    ∧ point Demo.ideal 946684800000000000 1 1000 .whole 1 = some 946684800001000000 :=
  ⟨Demo.ideal_faithful, by unfold Tick; decide, by decide +kernel, by decide +kernel⟩

/-- With another numerator the product wraps in `UInt64`, and a later tick is at the origin; with other
types it overflows. -/
theorem C343_violation :
    point Demo.ideal 0 2 1000000000 .unsigned64 (2 ^ 63 - 1) = some (2 ^ 64)
      ∧ point Demo.ideal 0 2 1000000000 .unsigned64 (2 ^ 63) = some 0
      ∧ point Demo.ideal 0 2 1000000000 .whole (2 ^ 62) = none := by
  refine ⟨?_, ?_, ?_⟩ <;> decide +kernel

/-! ## C344 and C345: how exact time points are -/

/-- A time point is off by at most half a nanosecond and 6/2⁵³ of the distances of the origin and of the
tick: by less than seven microseconds within the range of the system clock. -/
theorem C344_close (F : Floats) (ff : Faithful F) (epoch num den : Int) (hd : 0 < den)
    (small : den ≤ 2 ^ 53) (ty : Ty) (v : Int) (fv : Fits ty num v) :
    ∃ a, point F epoch num den ty v = some a ∧
      |(a : Rat) - (epoch + offset num den v)|
        ≤ 1 / 2 + 6 * (|(epoch : Rat)| + |offset num den v|) / 2 ^ 53 := by
  refine ⟨_, point_fits F epoch num den ty v fv, ?_⟩
  rw [near_exact den (by omega)]
  have dq : (0 : Rat) < den := by exact_mod_cast hd
  set p : Rat := (num : Rat) * v with hp
  have e1 : |(near (num * v) : Rat) - p| ≤ |p| / 2 ^ 53 := by
    have := near_error (num * v)
    push_cast at this
    exact this
  set x : Rat := (near (num * v) : Rat)
  have e2 := ff.flNear (x / den)
  set y : Rat := F.fl (x / den)
  have e3 := ff.flNear (y * 1000000000)
  set z : Rat := F.fl (y * 1000000000)
  have e4 := near_error epoch
  set c : Rat := (near epoch : Rat)
  have e5 := ff.flNear (c + z)
  set s : Rat := F.fl (c + z)
  have e6 := ff.rndNear s
  set A : Rat := offset num den v with hA
  have hA' : A = p / den * 1000000000 := by
    rw [hA, offset, hp]
    field_simp
  -- the quotient
  have q1 : |x / den - p / den| ≤ |p / den| / 2 ^ 53 := by
    rw [← sub_div, abs_div, abs_div, abs_of_pos dq, div_right_comm]
    exact div_le_div_of_nonneg_right e1 dq.le
  set P : Rat := p / den
  set X : Rat := x / den
  have tri : ∀ a b : Rat, |a| ≤ |b| + |a - b| := fun a b => by
    have := abs_add_le b (a - b)
    rwa [add_sub_cancel] at this
  have tri2 : ∀ a b c : Rat, |a - c| ≤ |a - b| + |b - c| := fun a b c => abs_sub_le a b c
  have q2 := tri X P
  have q3 : |y - P| ≤ |y - X| + |X - P| := tri2 _ _ _
  have q4 := tri y P
  have hP : |A| = |P| * 1000000000 := by
    rw [hA', abs_mul, abs_of_pos (show (0 : Rat) < 1000000000 by norm_num)]
  have q5 : |y * 1000000000 - A| = |y - P| * 1000000000 := by
    rw [hA', ← sub_mul, abs_mul, abs_of_pos (show (0 : Rat) < 1000000000 by norm_num)]
  have q6 : |y * 1000000000| = |y| * 1000000000 := by
    rw [abs_mul, abs_of_pos (show (0 : Rat) < 1000000000 by norm_num)]
  have q7 : |z - A| ≤ |z - y * 1000000000| + |y * 1000000000 - A| := tri2 _ _ _
  have q8 := tri z A
  have q9 := tri c epoch
  have q10 : |c + z| ≤ |c| + |z| := abs_add_le _ _
  have q11 : |(c + z) - (epoch + A)| ≤ |c - epoch| + |z - A| := by
    rw [show (c + z) - (epoch + A) = (c - epoch) + (z - A) by ring]
    exact abs_add_le _ _
  have q12 : |s - (epoch + A)| ≤ |s - (c + z)| + |(c + z) - (epoch + A)| := tri2 _ _ _
  have q13 := tri2 (F.rnd s : Rat) s (epoch + A)
  have n1 := abs_nonneg P
  have n2 := abs_nonneg (epoch : Rat)
  rw [q6] at e3
  rw [q5] at q7
  rw [hP] at q8 ⊢
  norm_num at e1 e2 e3 e4 e5 q1 ⊢
  linarith

example : Fits .whole 1 1500 ∧ offset 1 1000 1500 = 1500000000 := by
  refine ⟨by unfold Fits; decide, by unfold offset; norm_num⟩

/-- Ticks far enough from each other have different time points, the later tick the later one. -/
theorem C345_distinct_partial (F : Floats) (ff : Faithful F) (epoch num den : Int) (hd : 0 < den)
    (small : den ≤ 2 ^ 53) (ty : Ty) (v w : Int) (fv : Fits ty num v) (fw : Fits ty num w)
    (far : 1 + 6 * (2 * |(epoch : Rat)| + |offset num den v| + |offset num den w|) / 2 ^ 53
      < offset num den w - offset num den v) :
    ∃ a b, point F epoch num den ty v = some a ∧ point F epoch num den ty w = some b ∧ a < b := by
  obtain ⟨a, ha, ea⟩ := C344_close F ff epoch num den hd small ty v fv
  obtain ⟨b, hb, eb⟩ := C344_close F ff epoch num den hd small ty w fw
  refine ⟨a, b, ha, hb, ?_⟩
  rw [abs_le] at ea eb
  have : (a : Rat) < b := by
    have := ea.2
    have := eb.1
    linarith
  exact_mod_cast this

example : (1 : Rat) + 6 * (2 * |((0 : Int) : Rat)| + |offset 1 1000 5| + |offset 1 1000 6|) / 2 ^ 53
    < offset 1 1000 6 - offset 1 1000 5 := by
  unfold offset
  norm_num

/-- With the resolution of a nanosecond and the origin 1970, neighbouring ticks of today have the same
time point, whatever the operations on `double` are. -/
theorem C345_violation (F : Floats) :
    point F 0 1 1000000000 .unsigned64 1700000000000000000
      = point F 0 1 1000000000 .unsigned64 1700000000000000001 := by
  rw [point_fits F 0 1 1000000000 .unsigned64 _ (by unfold Fits; decide),
    point_fits F 0 1 1000000000 .unsigned64 _ (by unfold Fits; decide),
    show near (1 * 1700000000000000000) = near (1 * 1700000000000000001) from by decide +kernel]

/-! ## C346: readers have no memory -/

/-- The state is that of a reader that has seen nothing but its descriptor. -/
def Fresh (parse : List Char → Option Int) (s : State) : Prop :=
  ∀ d, s.desc = some d → change parse init d = .ok s ∧ (parse (fixup d.origin)).isSome

theorem change_fresh (parse : List Char → Option Int) (s : State) (d : Desc)
    (ok : (parse (fixup d.origin)).isSome) : change parse s d = change parse init d := by
  obtain ⟨e, h⟩ := Option.isSome_iff_exists.mp ok
  unfold change
  rw [h]
  rfl

theorem change_desc (parse : List Char → Option Int) (s t : State) (d : Desc)
    (h : change parse s d = .ok t) : t.desc = some d ∧ d.quantity = some "time" ∧ d.symbol = some "s"
      ∧ t.res = d.res ∧ t.ty = d.ty := by
  unfold change at h
  cases q : d.quantity with
  | none => rw [q] at h; cases h
  | some x =>
    rw [q] at h
    simp only at h
    split at h
    · cases h
    · rename_i nx
      cases u : d.symbol with
      | none => rw [u] at h; cases h
      | some y =>
        rw [u] at h
        simp only at h
        split at h
        · cases h
        · rename_i ny
          cases h
          exact ⟨rfl, congrArg some (Classical.byContradiction nx), congrArg some (Classical.byContradiction ny), rfl, rfl⟩

theorem transform_fresh (parse : List Char → Option Int) (F : Floats) (s : State) (f : Fresh parse s)
    (d : Desc) (vs : List Int) (ok : (parse (fixup d.origin)).isSome) :
    (transform parse F s d vs).2 = (transform parse F init d vs).2
      ∧ Fresh parse (transform parse F s d vs).1 := by
  have i : (transform parse F init d vs).2
      = match change parse init d with
        | .error e => .failed e
        | .ok s' => readData F s' vs := by
    unfold transform
    rw [if_neg (show ¬ init.desc = some d from nofun)]
    cases change parse init d <;> rfl
  rw [i]
  unfold transform
  by_cases e : s.desc = some d
  · rw [if_pos e, (f d e).1]
    exact ⟨rfl, f⟩
  · rw [if_neg e, change_fresh parse s d ok]
    cases h : change parse init d with
    | error x => exact ⟨rfl, f⟩
    | ok t =>
      refine ⟨rfl, fun d' h' => ?_⟩
      have := (change_desc parse init t d h).1
      have : d' = d := by
        have h'' : t.desc = some d' := h'
        rw [this] at h''
        exact (Option.some.inj h'').symm
      subst this
      exact ⟨h, ok⟩

/-- As long as every origin is a date, each call answers what a new reader answers. -/
theorem C346_memory_partial (parse : List Char → Option Int) (F : Floats) (cs : List (Desc × List Int))
    (ok : ∀ c ∈ cs, (parse (fixup c.1.origin)).isSome) :
    (run parse F init cs).2 = cs.map (fun c => (transform parse F init c.1 c.2).2) := by
  have key : ∀ (cs : List (Desc × List Int)) (s : State), Fresh parse s →
      (∀ c ∈ cs, (parse (fixup c.1.origin)).isSome) →
      (run parse F s cs).2 = cs.map (fun c => (transform parse F init c.1 c.2).2) := by
    intro cs
    induction cs with
    | nil => intros; rfl
    | cons c cs ih =>
      intro s f ok
      obtain ⟨h1, h2⟩ := transform_fresh parse F s f c.1 c.2 (ok c List.mem_cons_self)
      show _ :: _ = _ :: _
      rw [h1, ih _ h2 (fun c' m => ok c' (List.mem_cons_of_mem _ m))]
  exact key cs init nofun ok

example : (Demo.parse (fixup Demo.new2000.origin)).isSome ∧ (Demo.parse (fixup Demo.old1970.origin)).isSome
    ∧ (run Demo.parse Demo.ideal init [(Demo.new2000, [0, 1]), (Demo.old1970, [7]), (Demo.turns, [1]),
      (Demo.new2000, [2])]).2 = [.points [some 946684800000000000, some 946684800001000000], .points [some 7],
        .failed .quantity, .points [some 946684800002000000]] := by
  refine ⟨?_, ?_, ?_⟩ <;> decide +kernel

/-- A new reader counts the ticks from the origin of the descriptor. -/
theorem C346_origin_partial (parse : List Char → Option Int) (F : Floats) (d : Desc) (vs : List Int)
    (e num den : Int) (hq : d.quantity = some "time") (hs : d.symbol = some "s")
    (he : parse (fixup d.origin) = some e) (hr : d.res = some (num, den)) (ht : d.ty ≠ .refused) :
    (transform parse F init d vs).2 = .points (vs.map (fun v => point F e num den d.ty v)) := by
  have c : change parse init d = .ok ⟨some d, e, d.res, d.ty⟩ := by
    simp only [change, hq, hs, he, ne_eq, not_true_eq_false, if_false, Option.getD_some]
  unfold transform
  rw [if_neg (show ¬ init.desc = some d from nofun), c]
  simp only [readData, hr, if_neg ht]

/-- An origin that is no date is not noticed: the ticks are counted from the origin before. -/
theorem C346_violation :
    (run Demo.parse Demo.ideal init [(Demo.noOrigin, [1])]).2 = [.points [some 1000000]]
      ∧ (run Demo.parse Demo.ideal init [(Demo.new2000, [1]), (Demo.noOrigin, [1])]).2
        = [.points [some 946684800001000000], .points [some 946684800001000000]] := by
  constructor <;> decide +kernel

/-! ## C347: what is converted -/

/-- Whatever has been read before, time points are made only of ticks whose quantity is time and whose
unit is the second, one for each tick, with the resolution and the type of their descriptor. -/
theorem C347_only_time (parse : List Char → Option Int) (F : Floats) (before : List (Desc × List Int))
    (d : Desc) (vs : List Int) (ps : List (Option Int))
    (h : (transform parse F (run parse F init before).1 d vs).2 = .points ps) :
    d.quantity = some "time" ∧ d.symbol = some "s" ∧ d.ty ≠ .refused ∧ ps.length = vs.length
      ∧ (vs ≠ [] → ∃ num den e, d.res = some (num, den)
        ∧ ps = vs.map (fun v => point F e num den d.ty v)) := by
  have data : ∀ s : State, readData F s vs = .points ps → s.ty ≠ .refused ∧ ps.length = vs.length
      ∧ (vs ≠ [] → ∃ num den e, s.res = some (num, den) ∧ ps = vs.map (fun v => point F e num den s.ty v)) := by
    intro s hs
    unfold readData at hs
    split at hs
    · cases hs
    · rename_i nt
      refine ⟨nt, ?_⟩
      split at hs
      · split at hs
        · rename_i z
          cases hs
          exact ⟨by rw [z]; rfl, fun n => absurd z n⟩
        · cases hs
      · rename_i num den hr
        cases hs
        exact ⟨List.length_map _, fun _ => ⟨num, den, s.epoch, hr, rfl⟩⟩
  have inv : ∀ (cs : List (Desc × List Int)) (s : State),
      (∀ d, s.desc = some d → d.quantity = some "time" ∧ d.symbol = some "s" ∧ s.res = d.res ∧ s.ty = d.ty) →
      ∀ d, (run parse F s cs).1.desc = some d → d.quantity = some "time" ∧ d.symbol = some "s"
        ∧ (run parse F s cs).1.res = d.res ∧ (run parse F s cs).1.ty = d.ty := by
    intro cs
    induction cs with
    | nil => exact fun s f => f
    | cons c cs ih =>
      intro s f
      refine ih (transform parse F s c.1 c.2).1 ?_
      unfold transform
      split
      · exact f
      · cases hc : change parse s c.1 with
        | error e => exact f
        | ok t =>
          intro d hd
          obtain ⟨h1, h2, h3, h4, h5⟩ := change_desc parse s t c.1 hc
          have hd' : t.desc = some d := hd
          rw [h1] at hd'
          cases hd'
          exact ⟨h2, h3, h4, h5⟩
  have now := inv before init nofun
  generalize (run parse F init before).1 = s at *
  unfold transform at h
  split at h
  · rename_i e
    obtain ⟨h1, h2, h3, h4⟩ := now d e
    have := data s h
    rw [h3, h4] at this
    exact ⟨h1, h2, this⟩
  · cases hc : change parse s d with
    | error e => rw [hc] at h; cases h
    | ok t =>
      rw [hc] at h
      obtain ⟨_, h2, h3, h4, h5⟩ := change_desc parse s t d hc
      have := data t h
      rw [h4, h5] at this
      exact ⟨h2, h3, this⟩

example : (transform Demo.parse Demo.ideal (run Demo.parse Demo.ideal init [(Demo.turns, [1])]).1
    Demo.new2000 [5]).2 = .points [some 946684800005000000] := by decide +kernel

end Verif.Clock
