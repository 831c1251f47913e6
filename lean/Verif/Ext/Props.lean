import Verif.Ext.Steps
import Verif.Ext.Demo

/-!
# Signals of the client at input ports of a device (C321 to C331)
-/

namespace Verif.Ext
open Verif

/-! ## C321 and C322: asking about many signals -/

/-- From version 23 on, asking about many signals at once answers what asking about each of them
answers, and fails when and only when asking about one of them fails. -/
theorem C321_many (v : Nat) (hv : 23 ≤ v) (srv : Gid → Except Code Bool) (ss : List Sig) :
    (∀ bs, acceptsMany v srv ss = .ok bs ↔ List.Forall₂ (fun s b => acceptsOne v srv s = .ok b) ss bs) ∧
      ∀ e, acceptsMany v srv ss = .error e → ∃ s ∈ ss, acceptsOne v srv s = .error e := by
  unfold acceptsMany
  rw [if_neg (show ¬ v < 23 by omega)]
  simp only
  cases h : farMany srv ((ss.filter (fun s => s.inside)).map (·.node.gid)) with
  | error e =>
    obtain ⟨g, hg, he⟩ := far_error srv _ _ h
    obtain ⟨s, hs, hsg⟩ := List.mem_map.mp hg
    obtain ⟨h1, h2⟩ := List.mem_filter.mp hs
    have one : acceptsOne v srv s = .error e := by
      unfold acceptsOne
      rw [if_neg (by omega), if_pos h2, hsg]
      exact he
    refine ⟨fun bs => ⟨fun a => (nomatch a), fun a => ?_⟩, fun e' a => ?_⟩
    · exfalso
      clear h hs hg
      induction a with
      | nil => exact nomatch h1
      | cons x _ ih =>
        rcases List.mem_cons.mp h1 with r | r
        · rw [← r, one] at x
          cases x
        · exact ih r
    · cases a
      exact ⟨s, h1, one⟩
  | ok as =>
    obtain ⟨h1, cs, h2, h3⟩ := fill_ok srv v hv ss as ((far_ok srv _ _).mp h)
    simp only
    rw [if_pos h1, h2]
    refine ⟨fun bs => ⟨fun a => ?_, fun a => ?_⟩, fun e a => (nomatch a)⟩
    · cases a
      exact h3
    · have conv : ∀ (zs : List Bool), List.Forall₂ (fun s b => acceptsOne v srv s = .ok b) ss zs →
          List.Forall₂ (fun s b => (match acceptsOne v srv s with
            | .ok b => some b
            | .error _ => none) = some b) ss zs := by
        intro zs hz
        refine hz.imp ?_
        intro s b hb
        rw [hb]
      have := forall2_unique ss bs cs (conv bs a) (conv cs h3)
      rw [this]

example : acceptsMany 23 answers [sigV, sigS2, sigX, sigS] = .ok [true, false, true, true] := by rfl

/-- Below version 23 the answers are those one by one as long as none of these fails. -/
theorem C322_many_partial (v : Nat) (hv : v < 23) (srv : Gid → Except Code Bool) (ss : List Sig)
    (bs : List Bool) (h : List.Forall₂ (fun s b => acceptsOne v srv s = .ok b) ss bs) :
    acceptsMany v srv ss = .ok bs := by
  unfold acceptsMany
  rw [if_pos hv]
  congr 1
  induction h with
  | nil => rfl
  | cons a _ ih =>
    unfold acceptsOld
    rw [a, ih]

example : acceptsMany 22 answers [sigV, sigS2, sigX, sigS] = .ok [true, false, true, true] := by rfl

/-- Signals the device fails to answer for count as accepted; below version 4 these are all signals. -/
theorem C322_violation : acceptsOne 22 answers ⟨⟨9, "/d/q"⟩, [], true⟩ = .error .denied ∧
    acceptsMany 22 answers [⟨⟨9, "/d/q"⟩, [], true⟩] = .ok [true] ∧
    acceptsOne 3 answers sigS2 = .error .tooLow ∧ acceptsMany 3 answers [sigS2] = .ok [true] :=
  ⟨rfl, rfl, rfl, rfl⟩

/-- What asking about one signal answers: below version 4 it fails; later the device answers for its own
signals, and the client accepts all others. -/
theorem C321_one (v : Nat) (srv : Gid → Except Code Bool) (s : Sig) :
    (v < 4 → acceptsOne v srv s = .error .tooLow)
      ∧ (4 ≤ v → s.inside = true → acceptsOne v srv s = srv s.node.gid)
      ∧ (4 ≤ v → s.inside = false → acceptsOne v srv s = .ok true) := by
  unfold acceptsOne
  refine ⟨fun h => if_pos h, fun h i => ?_, fun h i => ?_⟩
  · rw [if_neg (by omega), if_pos i]
  · rw [if_neg (by omega), if_neg (by rw [i]; decide)]

/-! ## C323: numbers of signals -/

/-- Whatever happens at the ports, a signal keeps the number it has been given, no two signals have
the same one, and none has the number 0. -/
theorem C323_numbers (cfg : Cfg) (before after : List Op) (g h : Gid) (n k : Nat) :
    let c := (fresh cfg).run cfg before
    (Numbered c g n → Numbered (c.run cfg after) g n) ∧
      (Numbered c g n → Numbered c h n → g = h) ∧ (Numbered c g n → Numbered c g k → n = k) ∧
      (Numbered c g n → n ≠ 0) := by
  intro c
  have G : Good c.prod := (later_run cfg before (fresh cfg)).good (good_fresh cfg)
  refine ⟨?_, ?_, ?_, ?_⟩
  · rintro ⟨e, h1, h2⟩
    obtain ⟨f, h3, h4⟩ := (later_run cfg after c).keep g e h1
    exact ⟨f, h3, h4.trans h2⟩
  · rintro ⟨e, h1, h2⟩ ⟨f, h3, h4⟩
    exact G.inj g h e f h1 h3 (h2.trans h4.symm)
  · rintro ⟨e, h1, h2⟩ ⟨f, h3, h4⟩
    rw [h1] at h3
    cases h3
    exact h2.symm.trans h4
  · rintro ⟨e, h1, h2⟩
    have := (G.low g e h1).1
    omega

/-- A connection gives a signal and its domain signal numbers. -/
theorem C323_given (cfg : Cfg) (hv : 2 ≤ cfg.version) (c : Client) (p : Gid) (s : Sig) (k : Nat)
    (hs : s.inside = false) (ok : (c.connect cfg p s .yes k).2 = .ok) :
    ∃ n, Numbered (c.connect cfg p s .yes k).1 s.node.gid n := by
  unfold Client.connect at ok ⊢
  split at ok
  · cases ok
  · rename_i h1
    rw [if_neg h1]
    simp only at ok ⊢
    cases hl : (c.leave cfg p).2 with
    | true =>
      rw [hl] at ok
      simp only [if_true] at ok
      cases ok
    | false =>
      simp only [hs, Bool.false_eq_true, if_false, if_pos hv]
      have reg : ∃ e, ((c.leave cfg p).1.connectExt s p .yes).1.prod.entries.get s.node.gid = some e := by
        obtain ⟨e, he, _⟩ := registered ((c.leave cfg p).1.registerDomain s).1.prod s.node
        obtain ⟨f, hf, _⟩ := (later_addConnection
          (((c.leave cfg p).1.registerDomain s).1.prod.register s.node).1 s p).keep _ e he
        exact ⟨f, hf⟩
      obtain ⟨e, he⟩ := reg
      split
      · obtain ⟨f, hf, nf⟩ := (later_deliverN cfg k ((c.leave cfg p).1.connectExt s p .yes).1).keep _ e he
        exact ⟨_, f, hf, rfl⟩
      · exact ⟨_, e, he, rfl⟩

example : (((fresh old).connect old "/d/a" sigV .yes 0).1.prod.entries.map (fun e => (e.1, e.2.num))) =
    [("/c/v", 2), ("/c/t", 1)] := by decide +kernel

/-! ## C324 to C327: what is streamed, mirrored and connected -/

/-- When ports are disconnected before they get another signal, events of the device are handled in
time, the device does not refuse and domain signals neither change nor have domain signals: the
client reads the packets of the signals that ports have and of their domain signals, and of no
others. -/
theorem C324_streamed_partial (cfg : Cfg) (lo : 2 ≤ cfg.version) (hi : cfg.version < 18) (w : World)
    (pw : w.Plain) (as : List Act) (T : Tidy w (fun _ => none) as) (g : Gid) (o : Nat) :
    Reads ((fresh cfg).run cfg (as.map (Act.op w))) g o ↔
      Needed w (applyAll (fun _ => none) as) g ∧ o = w.obj g := by
  have I := tidy_inv pw cfg lo as _ _ (inv_fresh w cfg) T
  have f := I.fits g
  rw [live_iff I g]
  constructor
  · rintro ⟨e, h1, h2⟩
    rw [h1] at f
    have ne : e.triggers ≠ [] := by
      intro a
      rw [(f.2.2 a).2] at h2
      cases h2
    have := (f.2.1 ne).2
    rw [decide_eq_true hi, if_pos rfl, h2] at this
    cases this
    exact ⟨⟨e, h1, ne⟩, rfl⟩
  · rintro ⟨⟨e, h1, ne⟩, rfl⟩
    rw [h1] at f
    have := (f.2.1 ne).2
    rw [decide_eq_true hi, if_pos rfl] at this
    exact ⟨e, h1, this⟩

/-- The mirrored signals of the device are those of the signals needed. -/
theorem C325_mirrored_partial (cfg : Cfg) (lo : 2 ≤ cfg.version) (w : World)
    (pw : w.Plain) (as : List Act) (T : Tidy w (fun _ => none) as) (n : Nat) :
    let c := (fresh cfg).run cfg (as.map (Act.op w))
    n ∈ c.mirrored ↔ ∃ g, Numbered c g n ∧ Needed w (applyAll (fun _ => none) as) g := by
  intro c
  have I : Inv w _ (applyAll (fun _ => none) as) c := tidy_inv pw cfg lo as _ _ (inv_fresh w cfg) T
  rw [I.mirr n]
  constructor
  · rintro ⟨x, e, h1, h2, h3⟩
    exact ⟨x, ⟨e, h1, h2⟩, (live_iff I x).mpr ⟨e, h1, h3⟩⟩
  · rintro ⟨g, ⟨e, h1, h2⟩, h3⟩
    obtain ⟨f, h4, h5⟩ := (live_iff I g).mp h3
    rw [h1] at h4
    cases h4
    exact ⟨g, e, h1, h2, h5⟩

/-- The client and the device agree about what the ports have, and this is what the user last asked
for. -/
theorem C326_agree_partial (cfg : Cfg) (lo : 2 ≤ cfg.version) (w : World)
    (pw : w.Plain) (as : List Act) (T : Tidy w (fun _ => none) as) (p : Gid) :
    let c := (fresh cfg).run cfg (as.map (Act.op w))
    match applyAll (fun _ => none) as p with
    | none => c.ports.get p = none ∧ c.conn.get p = none
    | some g => c.ports.get p = some (w.sig g) ∧
        if w.inside g = true then c.conn.get p = some (.own g)
        else ∃ n, Numbered c g n ∧ c.conn.get p = some (.ext n) := by
  intro c
  have I : Inv w _ (applyAll (fun _ => none) as) c := tidy_inv pw cfg lo as _ _ (inv_fresh w cfg) T
  cases h : applyAll (fun _ => none) as p with
  | none => exact ⟨by rw [I.ports p, h]; rfl, I.free p h⟩
  | some g =>
    refine ⟨by rw [I.ports p, h]; rfl, ?_⟩
    cases hi : w.inside g with
    | true =>
      rw [if_pos rfl]
      exact I.own p g h hi
    | false =>
      rw [if_neg (by decide)]
      obtain ⟨e, h1, h2⟩ := I.ext p g h hi
      exact ⟨e.num, ⟨e, h1, rfl⟩, h2⟩

theorem apply_append (as : List Act) (a : Act) : ∀ m : Table, applyAll m (as ++ [a]) = a.apply (applyAll m as) := by
  induction as with
  | nil => intro m; rfl
  | cons b as ih => intro m; exact ih _

theorem tidy_append (w : World) (p : Gid) (as : List Act) : ∀ m : Table, Tidy w m as → Tidy w m (as ++ [.cut p]) := by
  induction as with
  | nil => intro m _; exact trivial
  | cons b as ih =>
    intro m h
    cases b with
    | link q g => exact ⟨h.1, h.2.1, ih _ h.2.2⟩
    | cut q => exact ih _ h

/-- Once a port has been disconnected and its event has been handled in time, the client does not read
the signal any more unless another port needs it. -/
theorem C327_stops_partial (cfg : Cfg) (lo : 2 ≤ cfg.version) (hi : cfg.version < 18) (w : World)
    (pw : w.Plain) (as : List Act) (T : Tidy w (fun _ => none) as) (p g : Gid) (o : Nat)
    (only : ∀ q s, q ≠ p → applyAll (fun _ => none) as q = some s → w.inside s = false → s ≠ g ∧ w.dom s ≠ some g) :
    ¬ Reads ((fresh cfg).run cfg ((as ++ [Act.cut p]).map (Act.op w))) g o := by
  rw [C324_streamed_partial cfg lo hi w pw _ (tidy_append w p as _ T)]
  rintro ⟨⟨q, s, h1, h2, h3⟩, _⟩
  rw [apply_append] at h1
  have h1' : (if q = p then none else applyAll (fun _ => none) as q) = some s := h1
  by_cases hq : q = p
  · rw [if_pos hq] at h1'
    cases h1'
  · rw [if_neg hq] at h1'
    obtain ⟨a, b⟩ := only q s hq h1' h2
    rcases h3 with h3 | h3
    · exact a h3
    · exact b h3

theorem code_inj : ∀ a b : List Char, code a = code b → a = b := by
  intro a
  induction a with
  | nil =>
    intro b h
    cases b with
    | nil => rfl
    | cons y ys => simp only [code] at h; omega
  | cons x xs ih =>
    intro b h
    cases b with
    | nil => simp only [code] at h; omega
    | cons y ys =>
      simp only [code] at h
      have hx := x.val.toNat_lt
      have hy := y.val.toNat_lt
      have h1 : x.val.toNat = y.val.toNat := by omega
      have h2 : code xs = code ys := by omega
      rw [ih ys h2, Char.ext (UInt32.toNat_inj.mp h1)]

theorem demo_plain : demo.Plain := by
  constructor
  · intro v d h
    have h' : (if v = "/c/v" ∨ v = "/c/u" then some "/c/t" else none) = some d := h
    split at h'
    · cases h'
      decide
    · cases h'
  · intro g h e
    exact String.toList_inj.mp (code_inj _ _ e)

theorem demo_tidy : Tidy demo (fun _ => none) script := by
  refine ⟨by decide, fun _ h => (nomatch h), by decide, fun _ h => (nomatch h), by decide, fun _ h => (nomatch h),
    by decide, fun _ h => (nomatch h), by decide, fun _ h => (nomatch h), by decide, fun o h => ?_, by decide,
    fun o h => ?_, trivial⟩
  · left
    have : some "/c/x" = some o := h
    cases this
    rfl
  · right
    have : some "/d/s" = some o := h
    cases this
    decide

example :
    let c := (fresh old).run old (script.map (Act.op demo))
    c.ports.map (fun e => (e.1, e.2.node.gid)) = [("/d/e", "/c/t"), ("/d/a", "/c/x"), ("/d/c", "/c/v")] ∧
      (c.prod.entries.filter (fun e => e.2.reading.isSome)).map (·.1) = ["/c/t", "/c/x", "/c/v"] ∧
      c.mirrored.length = 3 ∧ c.conn.length = 3 := by decide +kernel

/-- The domain signal of a signal changes while a port has it: when the port is disconnected, both are
still read and mirrored. -/
theorem C324_violation_changed :
    let c := (fresh old).run old [.connect "/d/a" sigV .yes 0, .setDomain 1 [⟨4, "/c/x"⟩], .disconnect "/d/a" .yes 1]
    c.ports.get "/d/a" = none ∧ c.conn.get "/d/a" = none ∧ c.pending = [] ∧
      (c.prod.entries.filter (fun e => e.2.reading.isSome)).map (·.1) = ["/c/v", "/c/t"] ∧ c.mirrored = [2, 1] := by
  decide +kernel

/-- The domain signal has a domain signal: the same. -/
theorem C324_violation_chain :
    let c := (fresh old).run old [.connect "/d/a" sigW .yes 0, .disconnect "/d/a" .yes 1]
    c.ports.get "/d/a" = none ∧ c.conn.get "/d/a" = none ∧ c.pending = [] ∧
      (c.prod.entries.filter (fun e => e.2.reading.isSome)).map (·.1) = ["/c/t", "/c/v"] ∧ c.mirrored = [2, 1] := by
  decide +kernel

/-- The port of the device does not accept a signal: the mirrored signals made for it stay. -/
theorem C325_violation :
    let c := (fresh old).connect old "/d/a" sigV .late 0
    c.2 = .denied ∧ c.1.ports = [] ∧ c.1.conn = [] ∧ c.1.mirrored = [2, 1] := by decide +kernel

/-- A port with an external signal is given another signal, which the device refuses: the client says
the port has the first one, the device has none at the port, and nothing is read. -/
theorem C326_violation_refused :
    let c := ((fresh old).run old [.connect "/d/a" sigX .yes 0]).connect old "/d/a" sigS .no 0
    c.2 = .denied ∧ c.1.ports.get "/d/a" = some sigX ∧ c.1.conn.get "/d/a" = none ∧
      c.1.prod.entries.all (fun e => e.2.reading.isNone) = true := by decide +kernel

/-- With streamings registered (version 18 and later) the port of the client then stays as it is: the
event of the device fails, and so does every further attempt to connect it. -/
theorem C326_violation_stuck :
    let c := ((fresh latest).run latest [.connect "/d/a" sigX .yes 0, .connect "/d/a" sigS .no 0, .deliver])
    c.ports.get "/d/a" = some sigX ∧ c.conn.get "/d/a" = none ∧ c.pending = [] ∧
      (c.connect latest "/d/a" sigS .yes 0).2 = .failed ∧ (c.connect latest "/d/a" sigU .yes 0).2 = .failed := by
  decide +kernel

/-- The event for the disconnected port is handled after the call: the signal is read and mirrored for
ever. -/
theorem C327_violation :
    let c := (fresh old).run old [.connect "/d/a" sigV .yes 0, .disconnect "/d/a" .yes 0, .deliver]
    c.ports.get "/d/a" = none ∧ c.conn.get "/d/a" = none ∧ c.pending = [] ∧
      (c.prod.entries.filter (fun e => e.2.reading.isSome)).map (·.1) = ["/c/v", "/c/t"] ∧ c.mirrored = [2, 1] := by
  decide +kernel

/-! ## C328: the object read -/

/-- The object given is the one read, when no object with its id is held. -/
theorem C328_object_partial (c : Client) (s : Sig) (p : Gid) (en : c.prod.enabled = true)
    (free : ∀ e, c.prod.entries.get s.node.gid = some e → e.sig = none ∧ e.triggers = [])
    (dom : ∀ d ∈ s.doms.head?, d.gid ≠ s.node.gid) :
    Reads (c.connectExt s p .yes).1 s.node.gid s.node.obj := by
  have reg : ∀ P : Producer, P.entries.get s.node.gid = c.prod.entries.get s.node.gid → P.enabled = true →
      (regE P s.node).sig = some s.node.obj ∧ (regE P s.node).triggers = [] := by
    intro P h _
    unfold regE
    rw [h]
    cases hg : c.prod.entries.get s.node.gid with
    | none => exact ⟨rfl, rfl⟩
    | some e =>
      obtain ⟨a, b⟩ := free e hg
      simp only [a, Option.isSome_none, Bool.false_eq_true, if_false]
      exact ⟨trivial, b⟩
  have last : ∀ P : Producer, ∀ e, P.entries.get s.node.gid = some e → P.enabled = true → e.sig = some s.node.obj →
      e.triggers = [] → ∃ f, (P.addTrigger s.node p).1.entries.get s.node.gid = some f ∧
        f.reading = some s.node.obj := by
    intro P e h1 h2 h3 h4
    rw [addTrigger_eq P s.node p e h1 h2]
    refine ⟨_, (AList.get_put _ _ _ _).trans (if_pos rfl), ?_⟩
    unfold trigE
    simp only [h4, List.isEmpty_nil, Bool.and_self, if_true]
    exact h3
  show ∃ e, (Producer.addConnection (Producer.register (Client.registerDomain c s).1.prod s.node).1 s p).1.entries.get
    s.node.gid = some e ∧ _
  cases hd : s.doms with
  | nil =>
    unfold Client.registerDomain Producer.addConnection
    rw [hd]
    simp only
    obtain ⟨a, b⟩ := reg c.prod rfl en
    exact last _ _ ((get_register _ _ _).trans (if_pos rfl)) ((enabled_register _ _).trans en) a b
  | cons d ds =>
    have ne : s.node.gid ≠ d.gid := by
      intro h
      exact dom d (by rw [hd]; rfl) h.symm
    unfold Client.registerDomain Producer.addConnection
    rw [hd]
    simp only
    have g1 : (c.prod.register d).1.entries.get s.node.gid = c.prod.entries.get s.node.gid :=
      (get_register _ _ _).trans (if_neg ne)
    have e1 : (c.prod.register d).1.enabled = true := (enabled_register _ _).trans en
    obtain ⟨a, b⟩ := reg _ g1 e1
    have e2 : ((c.prod.register d).1.register s.node).1.enabled = true := (enabled_register _ _).trans e1
    have hdd : ∃ f, ((c.prod.register d).1.register s.node).1.entries.get d.gid = some f := by
      obtain ⟨f, hf, _⟩ := registered c.prod d
      obtain ⟨f', hf', _⟩ := (later_register (c.prod.register d).1 s.node).keep _ f hf
      exact ⟨f', hf'⟩
    obtain ⟨f, hf⟩ := hdd
    rw [addTrigger_eq _ d s.node.gid f hf e2]
    simp only [Bool.false_eq_true, if_false]
    refine last _ _ ?_ e2 a b
    exact (AList.get_put _ _ _ _).trans ((if_neg ne).trans ((get_register _ _ _).trans (if_pos rfl)))

example : Reads ((fresh old).connectExt sigV "/d/a" .yes).1 "/c/v" 1 := ⟨_, rfl, rfl⟩

/-- After a refused connection the client keeps the object: another one with the same id, connected
later, is not the one read. -/
theorem C328_violation :
    let c := ((fresh old).run old [.connect "/d/a" sigX .no 0]).connect old "/d/a" sigX2 .yes 0
    c.2 = .ok ∧ c.1.ports.get "/d/a" = some sigX2 ∧
      c.1.prod.entries.map (fun e => (e.1, e.2.reading)) = [("/c/x", some sigX.node.obj)] := by decide +kernel

/-! ## C329 to C331: what the port of the client says -/

/-- A port keeps the signal when there is no event on its way. -/
theorem C329_keeps_partial (cfg : Cfg) (c : Client) (p : Gid) (s : Sig) (r : Reply) (k n : Nat)
    (ok : (c.connect cfg p s r k).2 = .ok) (quiet : (c.connect cfg p s r k).1.pending = []) :
    ((c.connect cfg p s r k).1.deliverN cfg n).ports.get p = (c.connect cfg p s r k).1.ports.get p := by
  have still : ∀ n (d : Client), d.pending = [] → d.deliverN cfg n = d := by
    intro n
    induction n with
    | zero => intro d _; rfl
    | succ n ih =>
      intro d h
      have : d.deliver cfg = d := by unfold Client.deliver; rw [h]
      show (d.deliver cfg).deliverN cfg n = d
      rw [this]
      exact ih d h
  rw [still n _ quiet]

example :
    let c := ((fresh old).connect old "/d/a" sigX .yes 0).1.connect old "/d/a" sigU .yes 1
    c.2 = .ok ∧ c.1.pending = [] ∧ c.1.ports.get "/d/a" = some sigU := by decide +kernel

/-- A port with an external signal is given another external one, and the device agrees: when the
event for the first one is handled after the call, the port has no signal, neither at the client nor
at the device. -/
theorem C329_violation :
    let c := ((fresh old).run old [.connect "/d/a" sigX .yes 0]).connect old "/d/a" sigU .yes 0
    c.2 = .ok ∧ c.1.ports.get "/d/a" = some sigU ∧ c.1.conn.get "/d/a" = some (.ext 3) ∧
      (c.1.deliver old).ports.get "/d/a" = none ∧ (c.1.deliver old).conn.get "/d/a" = none := by decide +kernel

/-- A connection that answers success gives the port the signal, whatever events are handled in
between. -/
theorem C330_connected (cfg : Cfg) (c : Client) (p : Gid) (s : Sig) (r : Reply) (k : Nat)
    (ok : (c.connect cfg p s r k).2 = .ok) : (c.connect cfg p s r k).1.ports.get p = some s := by
  have put : ∀ d : Client, (d.ports.put p s).get p = some s := fun d => (AList.get_put _ _ _ _).trans (if_pos rfl)
  unfold Client.connect at ok ⊢
  split at ok
  · cases ok
  · rename_i h1
    rw [if_neg h1]
    simp only at ok ⊢
    split at ok
    · cases ok
    · rename_i h2
      rw [if_neg h2]
      split at ok
      · rename_i h3
        rw [if_pos h3]
        split at ok
        · rename_i h4
          rw [if_pos h4]
          exact put _
        · cases ok
      · rename_i h3
        rw [if_neg h3]
        split at ok
        · rename_i h4
          rw [if_pos h4]
          split at ok
          · rename_i h5
            rw [if_pos h5]
            exact put _
          · rename_i h5
            exact absurd ok h5
        · cases ok

example : ((fresh old).connect old "/d/a" sigV .yes 3).2 = .ok := by decide +kernel

theorem ports_drop (cfg : Cfg) (c : Client) (s : Sig) (p : Gid) : (c.drop cfg s p).1.ports = c.ports := by
  unfold Client.drop
  simp only
  split
  · rfl
  · split
    · rfl
    · split <;> rfl

theorem ports_leave (cfg : Cfg) (c : Client) (p : Gid) : (c.leave cfg p).1.ports = c.ports := by
  unfold Client.leave
  cases c.ports.get p with
  | none => rfl
  | some o =>
    simp only
    split
    · rfl
    · exact ports_drop _ _ _ _

theorem ports_connectExt (c : Client) (s : Sig) (p : Gid) (r : Reply) : (c.connectExt s p r).1.ports = c.ports := by
  have : (c.registerDomain s).1.ports = c.ports := by
    unfold Client.registerDomain
    cases s.doms <;> rfl
  unfold Client.connectExt
  cases r <;> exact this

/-- A connection that does not answer success leaves the signals the ports of the client have. -/
theorem C331_refused (cfg : Cfg) (c : Client) (p : Gid) (s : Sig) (r : Reply) (k : Nat)
    (no : (c.connect cfg p s r k).2 ≠ .ok) : (c.connect cfg p s r k).1.ports = c.ports := by
  unfold Client.connect at no ⊢
  split
  · rfl
  · rename_i h1
    rw [if_neg h1] at no
    simp only at no ⊢
    split
    · exact ports_leave _ _ _
    · rename_i h2
      rw [if_neg h2] at no
      split
      · rename_i h3
        rw [if_pos h3] at no
        split
        · rename_i h4
          rw [if_pos h4] at no
          exact absurd rfl no
        · exact ports_leave _ _ _
      · rename_i h3
        rw [if_neg h3] at no
        split
        · rename_i h4
          rw [if_pos h4] at no
          split
          · rename_i h5
            rw [if_pos h5] at no
            exact absurd rfl no
          · exact (ports_connectExt _ _ _ _).trans (ports_leave _ _ _)
        · exact ports_leave _ _ _

example : (((fresh old).connect old "/d/a" sigX .yes 0).1.connect old "/d/a" sigU .late 2).2 = .denied := by
  decide +kernel

end Verif.Ext
