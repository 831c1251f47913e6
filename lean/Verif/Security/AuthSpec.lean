import Verif.Security.AuthModel

/-! # Specification of authentication -/

namespace Verif.Security.Auth
open Verif.Security.Lock

/-- `u` is the last user of the list with the name `n`. -/
def IsLast (l : List User) (n : String) (u : User) : Prop :=
  u.name = n ∧ ∃ before after, l = before ++ u :: after ∧ ∀ v ∈ after, v.name ≠ n

def digits : List Char := "0123456789".toList
def lower : List Char := "abcdefghijklmnopqrstuvwxyz".toList
def upper : List Char := "ABCDEFGHIJKLMNOPQRSTUVWXYZ".toList

/-- The text has the form of a bcrypt hash: `$2`, possibly one of `a`, `y`, `b`, `$`, decimal digits, `$` and 53
letters, digits, dots and slashes. -/
def BcryptForm (h : List Char) : Prop :=
  ∃ variant cost tail, h = '$' :: '2' :: (variant ++ '$' :: (cost ++ '$' :: tail)) ∧
    (variant = [] ∨ variant = ['a'] ∨ variant = ['y'] ∨ variant = ['b']) ∧
    cost ≠ [] ∧ (∀ c ∈ cost, c ∈ digits) ∧ tail.length = 53 ∧ ∀ c ∈ tail, c ∈ lower ++ upper ++ digits ++ ['.', '/']

/-- The password fits the stored hash. -/
def Fits (bcrypt : String → String → Bool) (hash password : String) : Prop :=
  (BcryptForm hash.toList ∧ bcrypt password hash = true) ∨ (¬ BcryptForm hash.toList ∧ hash = password)

/-- The text without the null character and what follows it. -/
def Visible (s t : String) : Prop :=
  '\x00' ∉ t.toList ∧ (s = t ∨ ∃ rest, s.toList = t.toList ++ '\x00' :: rest)

/-- A list of groups in the configuration. -/
inductive GroupsAre : List Json → List String → Prop
  | nil : GroupsAre [] []
  | cons (s t : String) (l : List Json) (gs : List String) (h : Visible s t) (hl : GroupsAre l gs) :
      GroupsAre (.str s :: l) (t :: gs)

/-- `m` gives the user with this name, hash and these groups. -/
def UserIs (m : List (String × Json)) (name hash : String) (groups : List String) : Prop :=
  (∃ s, m.lookup "username" = some (.str s) ∧ Visible s name) ∧
  (∃ s, m.lookup "passwordHash" = some (.str s) ∧ Visible s hash) ∧
  ((m.lookup "groups" = none ∧ groups = []) ∨ ∃ l, m.lookup "groups" = some (.arr l) ∧ GroupsAre l groups)

/-- A list of users in the configuration. -/
inductive UsersAre : List Json → List User → Prop
  | nil : UsersAre [] []
  | cons (m : List (String × Json)) (name hash : String) (groups : List String) (l : List Json) (us : List User)
      (h : UserIs m name hash groups) (hl : UsersAre l us) : UsersAre (.obj m :: l) (mkUser name hash groups :: us)

/-- The document is a configuration with this flag and these users; anything but an array under `users` counts as
no users. -/
def Configures (m : List (String × Json)) (allow : Bool) (us : List User) : Prop :=
  m.lookup "allowAnonymous" = some (.bool allow) ∧
  ((∃ l, m.lookup "users" = some (.arr l) ∧ UsersAre l us) ∨ ((∀ l, m.lookup "users" ≠ some (.arr l)) ∧ us = []))

end Verif.Security.Auth
