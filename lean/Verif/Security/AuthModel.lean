import Verif.AList
import Verif.Security.PermModel
import Verif.Security.LockModel

/-!
# Authentication providers

Model of `core/coreobjects/src/authentication_provider_impl.cpp` (abbreviated `ap`) and of the constructor of
`UserImpl` (`core/coreobjects/src/user_impl.cpp`, abbreviated `user`).

Simplifications:
* strings are sequences of characters and compared as such; the null character only matters where a JSON string
  is read through a C string pointer, which is modelled;
* no null pointers are passed;
* `BCrypt::validatePassword` is a parameter (`bcrypt password hash`);
* the JSON text is given as the value the parser returns, or as nothing when the parser fails;
* reading the file of `JsonFileAuthenticationProviderImpl` is not modelled.
-/

namespace Verif.Security.Auth
open Verif.AList Verif.Security.Lock

/-! ## Users -/

/-- `User(username, passwordHash, groups)` (user:11-16). -/
def mkUser (name hash : String) (groups : List String) : User := ⟨name, hash, userGroups groups⟩

/-! ## Password check -/

/-- `[0-9]` (ap:15). -/
def isDigit (c : Char) : Bool := '0' ≤ c && c ≤ '9'

/-- `[a-zA-Z0-9\.\/]` (ap:15). -/
def isHashChar (c : Char) : Bool :=
  ('a' ≤ c && c ≤ 'z') || ('A' ≤ c && c ≤ 'Z') || isDigit c || c == '.' || c == '/'

/-- The rest of the pattern after the digits: `\$[a-zA-Z0-9\.\/]{53}` (ap:15). -/
def matchHash : List Char → Bool
  | '$' :: r => r.length == 53 && r.all isHashChar
  | _ => false

/-- `[0-9]*` followed by the rest (ap:15). -/
def matchDigits : List Char → Bool
  | c :: r => if isDigit c then matchDigits r else matchHash (c :: r)
  | [] => false

/-- `\$[0-9]+` followed by the rest (ap:15). -/
def matchCost : List Char → Bool
  | '$' :: c :: r => isDigit c && matchDigits r
  | _ => false

/-- `std::regex_match(hash, BcryptRegex)` (ap:14-15, ap:85). -/
def bcryptLike : List Char → Bool
  | '$' :: '2' :: c :: r => if c == 'a' || c == 'y' || c == 'b' then matchCost r else matchCost (c :: r)
  | _ => false

/-- `AuthenticationProviderImpl::isPasswordValid` (ap:83-89). -/
def isPasswordValid (bcrypt : String → String → Bool) (hash password : String) : Bool :=
  if bcryptLike hash.toList then bcrypt password hash else hash == password

/-! ## Providers -/

/-- The fields of `AuthenticationProviderImpl` (authentication_provider_impl.h); the anonymous user is constant. -/
structure Provider where
  allowAnonymous : Bool
  users : AList String User

/-- `AuthenticationProviderImpl::AuthenticationProviderImpl` (ap:20-25). -/
def Provider.create (allowAnonymous : Bool) : Provider := ⟨allowAnonymous, []⟩

/-- `AuthenticationProviderImpl::loadUserList` (ap:67-76). -/
def Provider.loadUserList (p : Provider) (l : List User) : Provider :=
  { p with users := l.foldl (fun m u => put m u.name u) [] }

/-- `StaticAuthenticationProviderImpl` (ap:94-98). -/
def Provider.static (allowAnonymous : Bool) (l : List User) : Provider := (Provider.create allowAnonymous).loadUserList l

inductive AuthErr where
  | userNotFound | invalidPassword | anonymousNotAllowed
  deriving DecidableEq, Repr

/-- `AuthenticationProviderImpl::findUser` (ap:58-65, ap:78-81). -/
def Provider.findUser (p : Provider) (name : String) : Option User := get p.users name

/-- `AuthenticationProviderImpl::authenticate` (ap:27-39). -/
def Provider.authenticate (bcrypt : String → String → Bool) (p : Provider) (name password : String) : Except AuthErr User :=
  match p.findUser name with
  | none => .error .userNotFound
  | some u => if isPasswordValid bcrypt u.hash password then .ok u else .error .invalidPassword

/-- `AuthenticationProviderImpl::isAnonymousAllowed` (ap:41-47). -/
def Provider.isAnonymousAllowed (p : Provider) : Bool := p.allowAnonymous

/-- `AuthenticationProviderImpl::authenticateAnonymous` (ap:49-56). -/
def Provider.authenticateAnonymous (p : Provider) : Except AuthErr User :=
  if p.allowAnonymous then .ok (mkUser "" "" []) else .error .anonymousNotAllowed

/-- The credentials of a native streaming client (native_streaming_server_handler.cpp:198-240). -/
inductive Credentials where
  | anonymous
  | basic (name password : String)

/-- `NativeStreamingServerHandler::onAuthenticate` (native_streaming_server_handler.cpp:198-240): the user of the
session, or nothing when the session is refused. -/
def onAuthenticate (bcrypt : String → String → Bool) (p : Provider) : Credentials → Option User
  | .anonymous => match p.authenticateAnonymous with
    | .ok u => some u
    | .error _ => none
  | .basic name password => match p.authenticate bcrypt name password with
    | .ok u => some u
    | .error _ => none

/-! ## JSON configuration -/

inductive Json where
  | null
  | bool (b : Bool)
  | num (n : Int)
  | str (s : String)
  | arr (l : List Json)
  | obj (m : List (String × Json))

/-- Outcome of building a provider: `undefined` is a call of `HasMember` on something that is not an object, which
is only guarded by an assertion of the JSON library. -/
inductive Res (α : Type) where
  | ok (a : α)
  | parseFailed
  | undefined

def Res.bind {α β : Type} : Res α → (α → Res β) → Res β
  | .ok a, f => f a
  | .parseFailed, _ => .parseFailed
  | .undefined, _ => .undefined

/-- `HasMember` and `operator[]` on an object: the first member with that name. -/
def member (m : List (String × Json)) (k : String) : Option Json := List.lookup k m

/-- `GetString` handed on as a C string: everything from the first null character on is lost. -/
def cstr (s : String) : String := String.ofList (s.toList.takeWhile (fun c => c != '\x00'))

/-- The loop of `parseUserGroups` (ap:177-184). -/
def parseGroups : List Json → Res (List String)
  | [] => .ok []
  | .str g :: t => (parseGroups t).bind fun gs => .ok (cstr g :: gs)
  | _ :: _ => .parseFailed

/-- `JsonStringAuthenticationProviderImpl::parseUserGroups` (ap:166-187). -/
def parseUserGroups (m : List (String × Json)) : Res (List String) :=
  match member m "groups" with
  | none => .ok []
  | some (.arr l) => parseGroups l
  | some _ => .parseFailed

/-- `JsonStringAuthenticationProviderImpl::parseUser` (ap:153-164). -/
def parseUser (m : List (String × Json)) : Res User :=
  match member m "username" with
  | some (.str name) =>
    match member m "passwordHash" with
    | some (.str hash) => (parseUserGroups m).bind fun gs => .ok (mkUser (cstr name) (cstr hash) gs)
    | _ => .parseFailed
  | _ => .parseFailed

/-- The loop of `parseUsers` (ap:141-148). -/
def parseUserList : List Json → AList String User → Res (AList String User)
  | [], acc => .ok acc
  | .obj m :: t, acc => (parseUser m).bind fun u => parseUserList t (put acc u.name u)
  | _ :: _, _ => .parseFailed

/-- `JsonStringAuthenticationProviderImpl::parseUsers` (ap:129-151). -/
def parseUsers (m : List (String × Json)) : Res (AList String User) :=
  match member m "users" with
  | some (.arr l) => parseUserList l []
  | _ => .ok []

/-- `JsonStringAuthenticationProviderImpl::parseAllowAnonymous` (ap:121-127). -/
def parseAllowAnonymous (m : List (String × Json)) : Res Bool :=
  match member m "allowAnonymous" with
  | some (.bool b) => .ok b
  | _ => .parseFailed

/-- `JsonStringAuthenticationProviderImpl::loadJsonString` (ap:103-119). -/
def loadJson : Option Json → Res Provider
  | none => .parseFailed
  | some (.obj m) => (parseAllowAnonymous m).bind fun b => (parseUsers m).bind fun us => .ok ⟨b, us⟩
  | some _ => .undefined

end Verif.Security.Auth
