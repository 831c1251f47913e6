import Verif.Mgr.Spec
/-!
# Which module creates
-/

namespace Verif.Mgr

open Verif

theorem made_eq (k : Nat) (o : Option Nat) : made k o = Spec.result k o := by cases o <;> rfl

theorem fbFrom_skip {x : Text} {ms : List Module} : ∀ {pre : List Module} {k : Nat},
    (∀ m ∈ pre, ¬ Spec.Offers m.fbs x) → fbFrom x (pre ++ ms) k = fbFrom x ms (k + pre.length)
  | [], _, _ => rfl
  | m :: pre, k, h => by
    have ih := fbFrom_skip (ms := ms) (pre := pre) (k := k + 1) (fun n hn => h n (List.mem_cons_of_mem _ hn))
    have hk : k + 1 + pre.length = k + (m :: pre).length := by rw [List.length_cons]; omega
    rw [hk] at ih
    rw [← ih]
    change fbFrom x (m :: (pre ++ ms)) k = _
    rw [fbFrom]
    cases e : m.fbs with
    | offers l =>
      simp only
      rw [if_neg]
      intro hx
      exact h m List.mem_cons_self ⟨l, e, hx⟩
    | nothing => rfl
    | notImplemented => rfl
    | fails e => rfl

theorem convert_eq {table : List (Text × Text)} {x : Text} : convert table x = (List.lookup x table).getD x := by
  unfold convert
  induction table with
  | nil => rfl
  | cons p t ih =>
    rw [List.find?_cons, List.lookup_cons]
    by_cases h : p.1 = x
    · have h1 : (p.1 == x) = true := by simp [h]
      have h2 : (x == p.1) = true := by simp [h]
      rw [h1, h2]; rfl
    · have h1 : (p.1 == x) = false := by simp [h]
      have h2 : (x == p.1) = false := by simp [Ne.symm h]
      rw [h1, h2]; exact ih

/-- C214: a function block is created by the first module that offers its type, whatever the others
answer, and by no other … -/
theorem C214_first {x : Text} {pre post : List Module} {m : Module}
    (hp : ∀ n ∈ pre, ¬ Spec.Offers n.fbs (Spec.today Spec.renamedFbs x))
    (hm : Spec.Offers m.fbs (Spec.today Spec.renamedFbs x)) :
    createFb (pre ++ m :: post) x =
      ([pre.length], Spec.result pre.length (m.makeFb (Spec.today Spec.renamedFbs x))) := by
  unfold createFb
  rw [show convert oldFb x = Spec.today Spec.renamedFbs x from convert_eq, fbFrom_skip hp, Nat.zero_add, fbFrom]
  obtain ⟨l, e, hl⟩ := hm
  simp only [e]
  rw [if_pos hl, made_eq]

/-- … and it is not found if none does. -/
theorem C214_none {x : Text} {ms : List Module}
    (hp : ∀ n ∈ ms, ¬ Spec.Offers n.fbs (Spec.today Spec.renamedFbs x)) :
    createFb ms x = ([], .err .notFound) := by
  have h := fbFrom_skip (ms := []) (k := 0) hp
  rw [List.append_nil] at h
  unfold createFb
  rw [show convert oldFb x = Spec.today Spec.renamedFbs x from convert_eq, h]; rfl

/-- A module that offers nothing. -/
def demoModule : Module :=
  { fbs := .nothing, servers := .nothing, devices := .nothing, streamings := .nothing,
    makeFb := fun _ => none, makeServer := fun _ => none, makeDevice := fun _ => none,
    makeStreaming := fun _ => none }

/-- Non-vacuity: one module fails, two offer it, and the id is an old one. -/
example : createFb [{ demoModule with fbs := .fails 3 },
    { demoModule with fbs := .offers ["RefFBModuleFFT".toList] },
    { demoModule with fbs := .offers ["RefFBModuleFFT".toList], makeFb := fun _ => some 4 }]
    "ref_fb_module_fft".toList = ([1], .made 1) := by decide +kernel

theorem serverFrom_skip {x : Text} {ms : List Module} : ∀ {pre : List Module} {k : Nat},
    (∀ m ∈ pre, ¬ Spec.Offers m.servers x ∧ Spec.Says m.servers) →
    serverFrom x (pre ++ ms) k = serverFrom x ms (k + pre.length)
  | [], _, _ => rfl
  | m :: pre, k, h => by
    have ih := serverFrom_skip (ms := ms) (pre := pre) (k := k + 1) (fun n hn => h n (List.mem_cons_of_mem _ hn))
    have hk : k + 1 + pre.length = k + (m :: pre).length := by rw [List.length_cons]; omega
    rw [hk] at ih
    rw [← ih]
    change serverFrom x (m :: (pre ++ ms)) k = _
    rw [serverFrom]
    cases e : m.servers with
    | offers l =>
      simp only
      rw [if_neg]
      intro hx
      exact (h m List.mem_cons_self).1 ⟨l, e, hx⟩
    | nothing => rfl
    | notImplemented => rfl
    | fails c => exact absurd e ((h m List.mem_cons_self).2 c)

theorem withPrefix_none {p : Text} {l : List (Text × Text)} (h : ¬ ∃ t ∈ l, t.2 = p) : withPrefix p l = none := by
  unfold withPrefix
  rw [Option.map_eq_none_iff, List.find?_eq_none]
  intro t ht
  simp only [beq_iff_eq]
  exact fun e => h ⟨t, ht, e⟩

theorem withPrefix_some {p : Text} {l : List (Text × Text)} (h : ∃ t ∈ l, t.2 = p) :
    ∃ x, withPrefix p l = some x := by
  obtain ⟨t, ht, e⟩ := h
  unfold withPrefix
  cases hf : l.find? (fun t => t.2 == p) with
  | none => exact absurd (List.find?_eq_none.mp hf t ht) (by simp [e])
  | some y => exact ⟨y.1, rfl⟩

/-- The prefix of a connection string. -/
def Spec.HasPrefix (conn p : Text) : Prop := (∃ rest, ':' ∉ p ∧ conn = p ++ "://".toList ++ rest)

theorem prefixOf_of : ∀ {p rest : Text}, ':' ∉ p → prefixOf (p ++ "://".toList ++ rest) = p
  | [], rest, _ => by
    change prefixOf (':' :: '/' :: '/' :: rest) = []
    rw [prefixOf]; simp
  | c :: p, rest, h => by
    change prefixOf (c :: (p ++ "://".toList ++ rest)) = _
    have hc : c ≠ ':' := fun e => h (e ▸ List.mem_cons_self)
    rw [prefixOf, if_neg (by simp [hc]), prefixOf_of (fun x => h (List.mem_cons_of_mem _ x))]

theorem deviceFrom_skip {conn : Text} {ms : List Module} : ∀ {pre : List Module} {k : Nat},
    (∀ m ∈ pre, ¬ Spec.OffersPrefix m.devices (prefixOf conn) ∧ Spec.Says m.devices) →
    deviceFrom conn (pre ++ ms) k = deviceFrom conn ms (k + pre.length)
  | [], _, _ => rfl
  | m :: pre, k, h => by
    have ih := deviceFrom_skip (conn := conn) (ms := ms) (pre := pre) (k := k + 1)
      (fun n hn => h n (List.mem_cons_of_mem _ hn))
    have hk : k + 1 + pre.length = k + (m :: pre).length := by rw [List.length_cons]; omega
    rw [hk] at ih
    rw [← ih]
    change deviceFrom conn (m :: (pre ++ ms)) k = _
    rw [deviceFrom]
    cases e : m.devices with
    | offers l =>
      have : withPrefix (prefixOf conn) l = none :=
        withPrefix_none (fun hx => (h m List.mem_cons_self).1 ⟨l, e, hx⟩)
      simp only [this]
    | nothing => rfl
    | notImplemented => rfl
    | fails c => exact absurd e ((h m List.mem_cons_self).2 c)

/-- C215: a module that fails to list its devices keeps all others, of a later position, from creating
theirs … -/
theorem C215_violation_device :
    createDevice [{ demoModule with devices := .fails 3 },
      { demoModule with devices := .offers [("D".toList, "daq.x".toList)] }] "daq.x://1".toList =
      ([], .err (.module 3)) := by decide +kernel

/-- … and so does one that fails to list its servers. -/
theorem C215_violation_server :
    createServer [{ demoModule with servers := .fails 3 },
      { demoModule with servers := .offers ["S".toList] }] "S".toList = ([], .err (.module 3)) := by decide +kernel

/-- When the modules before say what they offer, a device is created by the first module that offers
its prefix.  Missing: those that fail to. -/
theorem C215_device_partial {conn p : Text} (hc : Spec.HasPrefix conn p) {pre post : List Module} {m : Module}
    (hp : ∀ n ∈ pre, ¬ Spec.OffersPrefix n.devices p ∧ Spec.Says n.devices) (hm : Spec.OffersPrefix m.devices p) :
    createDevice (pre ++ m :: post) conn = ([pre.length], Spec.result pre.length (m.makeDevice conn)) := by
  obtain ⟨rest, h1, h2⟩ := hc
  have e : prefixOf conn = p := by rw [h2]; exact prefixOf_of h1
  unfold createDevice
  rw [deviceFrom_skip (by rw [e]; exact hp), Nat.zero_add, deviceFrom]
  obtain ⟨l, el, hl⟩ := hm
  obtain ⟨x, hx⟩ := withPrefix_some hl
  simp only [el, e, hx, made_eq]

/-- It is not found if none does.  Missing: as above. -/
theorem C215_nodevice_partial {conn p : Text} (hc : Spec.HasPrefix conn p) {ms : List Module}
    (hp : ∀ n ∈ ms, ¬ Spec.OffersPrefix n.devices p ∧ Spec.Says n.devices) :
    createDevice ms conn = ([], .err .notFound) := by
  obtain ⟨rest, h1, h2⟩ := hc
  have e : prefixOf conn = p := by rw [h2]; exact prefixOf_of h1
  have h := deviceFrom_skip (conn := conn) (ms := []) (k := 0) (pre := ms) (by rw [e]; exact hp)
  rw [List.append_nil] at h
  unfold createDevice; rw [h]; rfl

/-- The same for servers.  Missing: as above. -/
theorem C215_server_partial {x : Text} {pre post : List Module} {m : Module}
    (hp : ∀ n ∈ pre, ¬ Spec.Offers n.servers (Spec.today Spec.renamedProtocols x) ∧ Spec.Says n.servers)
    (hm : Spec.Offers m.servers (Spec.today Spec.renamedProtocols x)) :
    createServer (pre ++ m :: post) x =
      ([pre.length], Spec.result pre.length (m.makeServer (Spec.today Spec.renamedProtocols x))) := by
  unfold createServer
  rw [show convert oldProtocol x = Spec.today Spec.renamedProtocols x from convert_eq, serverFrom_skip hp,
    Nat.zero_add, serverFrom]
  obtain ⟨l, e, hl⟩ := hm
  simp only [e]
  rw [if_pos hl, made_eq]

theorem C215_noserver_partial {x : Text} {ms : List Module}
    (hp : ∀ n ∈ ms, ¬ Spec.Offers n.servers (Spec.today Spec.renamedProtocols x) ∧ Spec.Says n.servers) :
    createServer ms x = ([], .err .notFound) := by
  have h := serverFrom_skip (ms := []) (k := 0) hp
  rw [List.append_nil] at h
  unfold createServer
  rw [show convert oldProtocol x = Spec.today Spec.renamedProtocols x from convert_eq, h]; rfl

/-- Non-vacuity. -/
example : createDevice [{ demoModule with devices := .notImplemented },
    { demoModule with devices := .offers [("E".toList, "daq.e".toList)] },
    { demoModule with devices := .offers [("C".toList, "daq.c".toList), ("D".toList, "daq.x".toList)] },
    { demoModule with devices := .fails 9 }] "daq.x://1".toList = ([2], .made 2) := by decide +kernel

example : createServer [{ demoModule with servers := .notImplemented },
    { demoModule with servers := .offers ["OpenDAQNativeStreaming".toList], makeServer := fun _ => some 8 }]
    "openDAQ Native Streaming".toList = ([1], .err (.module 8)) := by decide +kernel

/-- C216: when two modules offer streaming for a prefix, both create one, and that of the first is
dropped … -/
theorem C216_violation_twice :
    createStreaming [{ demoModule with streamings := .offers [("S".toList, "daq.s".toList)] },
      { demoModule with streamings := .offers [("T".toList, "daq.s".toList)] }] "daq.s://1".toList =
      ([0, 1], .made 1) := by decide +kernel

/-- … a later one that fails makes the call fail although a streaming was created … -/
theorem C216_violation_later :
    createStreaming [{ demoModule with streamings := .offers [("S".toList, "daq.s".toList)] },
      { demoModule with streamings := .offers [("T".toList, "daq.s".toList)], makeStreaming := fun _ => some 5 }]
      "daq.s://1".toList = ([0, 1], .err (.module 5)) := by decide +kernel

/-- … and when none offers it, the call ends without an error and without a streaming. -/
theorem C216_violation_null : createStreaming [demoModule] "daq.s://1".toList = ([], .null) := by decide +kernel

theorem streamingFrom_skip {conn : Text} {ms : List Module} : ∀ {pre : List Module} {k : Nat} {o : Out},
    (∀ m ∈ pre, ¬ Spec.OffersPrefix m.streamings (prefixOf conn)) →
    streamingFrom conn (pre ++ ms) k o = streamingFrom conn ms (k + pre.length) o
  | [], _, _, _ => rfl
  | m :: pre, k, o, h => by
    have ih := streamingFrom_skip (conn := conn) (ms := ms) (pre := pre) (k := k + 1) (o := o)
      (fun n hn => h n (List.mem_cons_of_mem _ hn))
    have hk : k + 1 + pre.length = k + (m :: pre).length := by rw [List.length_cons]; omega
    rw [hk] at ih
    rw [← ih]
    change streamingFrom conn (m :: (pre ++ ms)) k o = _
    rw [streamingFrom]
    cases e : m.streamings with
    | offers l =>
      have : withPrefix (prefixOf conn) l = none :=
        withPrefix_none (fun hx => h m List.mem_cons_self ⟨l, e, hx⟩)
      simp only [this]
    | nothing => rfl
    | notImplemented => rfl
    | fails c => rfl

/-- When one module only offers the prefix, it creates the streaming, whatever the others answer.
Missing: when several do, or none. -/
theorem C216_one_partial {conn p : Text} (hc : Spec.HasPrefix conn p) {pre post : List Module} {m : Module}
    (hp : ∀ n ∈ pre ++ post, ¬ Spec.OffersPrefix n.streamings p) (hm : Spec.OffersPrefix m.streamings p) :
    createStreaming (pre ++ m :: post) conn = ([pre.length], Spec.result pre.length (m.makeStreaming conn)) := by
  obtain ⟨rest, h1, h2⟩ := hc
  have e : prefixOf conn = p := by rw [h2]; exact prefixOf_of h1
  unfold createStreaming
  rw [streamingFrom_skip (by rw [e]; exact fun n hn => hp n (List.mem_append_left _ hn)), Nat.zero_add,
    streamingFrom]
  obtain ⟨l, el, hl⟩ := hm
  obtain ⟨x, hx⟩ := withPrefix_some hl
  have hpost : streamingFrom conn post (pre.length + 1) (.made pre.length) = ([], .made pre.length) := by
    have h := streamingFrom_skip (conn := conn) (ms := []) (k := pre.length + 1) (o := .made pre.length)
      (pre := post) (by rw [e]; exact fun n hn => hp n (List.mem_append_right _ hn))
    rw [List.append_nil] at h
    rw [h]; rfl
  simp only [el, e, hx]
  cases hs : m.makeStreaming conn with
  | none => simp only [hpost]; rfl
  | some c => rfl

example : createStreaming [{ demoModule with streamings := .fails 3 },
    { demoModule with streamings := .offers [("S".toList, "daq.s".toList)] },
    { demoModule with streamings := .offers [("T".toList, "daq.t".toList)] }] "daq.s://1".toList =
    ([1], .made 1) := by decide +kernel

end Verif.Mgr
