import Verif.Mgr.Model
/-!
# What users expect of the module manager

Stated with the plain data of the model (modules, texts, configurations, capabilities) and without its
functions.
-/

namespace Verif.Mgr.Spec

open Verif

/-- No file is there twice. -/
def Once (l : List Lib) : Prop := l.Pairwise fun a b => a.path = none ∨ a.path ≠ b.path

/-- No id is there twice. -/
def Unique (l : List Lib) : Prop := l.Pairwise fun a b => a.name = [] ∨ a.name ≠ b.name

/-- A module was accepted by the authenticator, with a key. -/
def Accepted (a : Text → Verdict) (l : Lib) (key : Text) : Prop := ∃ p, l.path = some p ∧ a p = .valid key

/-- An authenticator that always comes to a verdict. -/
def Decides (a : Text → Verdict) : Prop := ∀ p, a p ≠ .throws

/-- The module offers something. -/
def Offers (a : Answer (List Text)) (x : Text) : Prop := ∃ l, a = .offers l ∧ x ∈ l

/-- The module offers something for a prefix. -/
def OffersPrefix (a : Answer (List (Text × Text))) (p : Text) : Prop := ∃ l, a = .offers l ∧ ∃ t ∈ l, t.2 = p

/-- It says what it offers. -/
def Says {α : Type} (a : Answer α) : Prop := ∀ e, a ≠ .fails e

/-- What the module at a position makes of it. -/
def result (k : Nat) : Option Nat → Out
  | none => .made k
  | some e => .err (.module e)

/-- The ids of function blocks of old. -/
def renamedFbs : List (Text × Text) :=
  [("ref_fb_module_classifier".toList, "RefFBModuleClassifier".toList),
   ("ref_fb_module_fft".toList, "RefFBModuleFFT".toList),
   ("ref_fb_module_power".toList, "RefFBModulePower".toList),
   ("ref_fb_module_renderer".toList, "RefFBModuleRenderer".toList),
   ("ref_fb_module_scaling".toList, "RefFBModuleScaling".toList),
   ("ref_fb_module_statistics".toList, "RefFBModuleStatistics".toList),
   ("ref_fb_module_trigger".toList, "RefFBModuleTrigger".toList),
   ("audio_device_module_wav_writer".toList, "AudioDeviceModuleWavWriter".toList)]

/-- The ids of protocols of old. -/
def renamedProtocols : List (Text × Text) :=
  [("opendaq_native_config".toList, "OpenDAQNativeConfiguration".toList),
   ("opendaq_opcua_config".toList, "OpenDAQOPCUAConfiguration".toList),
   ("opendaq_native_streaming".toList, "OpenDAQNativeStreaming".toList),
   ("opendaq_lt_streaming".toList, "OpenDAQLTStreaming".toList),
   ("openDAQ LT Streaming".toList, "OpenDAQLTStreaming".toList),
   ("openDAQ Native Streaming".toList, "OpenDAQNativeStreaming".toList),
   ("openDAQ OpcUa".toList, "OpenDAQOPCUA".toList)]

/-- The id of today. -/
def today (table : List (Text × Text)) (x : Text) : Text := (List.lookup x table).getD x

/-! ## Connection strings -/

/-- An option as text. -/
def optionText (o : Text × Text) : Text := o.1 ++ '=' :: o.2

/-- Options as text, separated by `&`. -/
def optionsText : List (Text × Text) → Text
  | [] => []
  | [o] => optionText o
  | o :: os => optionText o ++ '&' :: optionsText os

/-- The connection string. -/
def connText (pure : Text) (os : List (Text × Text)) : Text :=
  if os = [] then pure else pure ++ '?' :: optionsText os

/-- A text that can be a name or value of an option. -/
def Clean (s : Text) : Prop := '?' ∉ s ∧ '&' ∉ s ∧ '=' ∉ s

/-- The first of the options with a name. -/
def firstOption (os : List (Text × Text)) (k : Text) : Option Text := List.lookup k os

/-! ## Configurations -/

/-- What a configuration says about a name. -/
def valueOf (c : Config) (n : Text) : Option Nat := (c.find? fun p => p.name == n).map (·.val)

/-! ## Discovery -/

/-- The device can be grouped with others. -/
def Known (d : Info) : Prop := d.manufacturer ≠ [] ∧ d.serial ≠ [] ∧ d.caps ≠ []

/-- The smart connection string of the device. -/
def smart (d : Info) : Text := "daq://".toList ++ d.manufacturer ++ "_".toList ++ d.serial

/-- A connection string is a smart one. -/
def IsSmart (s : Text) : Prop := "daq://".toList <+: s

/-- Which of two capabilities is better: the native configuration protocol first, then those for
configuration and streaming, configuration, streaming. -/
def rank (c : Cap) : Nat :=
  if c.proto = "OpenDAQNativeConfiguration".toList then 4
  else match c.type with | .both => 3 | .config => 2 | .streaming => 1 | .unknown => 0

/-- The first that is reachable, else the first of which it is not known, else the first. -/
def preferred (l : List Addr) : Option Addr :=
  (l.find? fun a => a.reach == .reachable).or
    ((l.find? fun a => a.reach == .unknown).or (l.find? fun a => a.reach == .unreachable))

/-- The first that is reachable, else the first of which it is not known. -/
def available (l : List Addr) : Option Addr :=
  (l.find? fun a => a.reach == .reachable).or (l.find? fun a => a.reach == .unknown)

end Verif.Mgr.Spec
