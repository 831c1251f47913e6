import Verif.Ext.Spec

/-!
# Signals of examples
-/

namespace Verif.Ext

/-- A number for a text. -/
def code : List Char → Nat
  | [] => 0
  | c :: cs => c.val.toNat + 1 + 4294967296 * code cs

/-- Two value signals of the client with a domain signal in common, one without, and a signal of the
device. -/
def demo : World where
  dom := fun g => if g = "/c/v" ∨ g = "/c/u" then some "/c/t" else none
  obj := fun g => code g.toList
  inside := fun g => decide (g = "/d/s")

/-- What a user does in the example. -/
def script : List Act :=
  [.link "/d/a" "/c/v", .link "/d/b" "/c/u", .link "/d/c" "/c/v", .link "/d/e" "/d/s", .cut "/d/a",
   .link "/d/a" "/c/x", .link "/d/a" "/c/x", .link "/d/e" "/c/t", .cut "/d/b", .cut "/d/z"]

/-- Signals with numbers for objects. -/
def sigV : Sig := ⟨⟨1, "/c/v"⟩, [⟨2, "/c/t"⟩], false⟩
def sigU : Sig := ⟨⟨3, "/c/u"⟩, [⟨2, "/c/t"⟩], false⟩
def sigX : Sig := ⟨⟨4, "/c/x"⟩, [], false⟩
/-- The domain signal of the domain signal has an id, too. -/
def sigW : Sig := ⟨⟨1, "/c/v"⟩, [⟨2, "/c/t"⟩, ⟨5, "/c/r"⟩], false⟩
/-- Another object with the same id. -/
def sigX2 : Sig := ⟨⟨6, "/c/x"⟩, [], false⟩
/-- A signal of the device. -/
def sigS : Sig := ⟨⟨7, "/d/s"⟩, [], true⟩
def sigS2 : Sig := ⟨⟨8, "/d/r"⟩, [], true⟩

def old : Cfg := ⟨17, false⟩
def latest : Cfg := ⟨23, true⟩

/-- A device answering for two signals and refusing the third. -/
def answers (g : Gid) : Except Code Bool :=
  if g = "/d/s" then .ok true else if g = "/d/r" then .ok false else .error .denied

end Verif.Ext
