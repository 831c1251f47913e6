import Verif.Access.Spec

/-! A small device tree, for examples: the state is the list of changing calls made on it. -/

namespace Verif.Access.Demo

open Verif.Access Spec

deriving instance DecidableEq for Except

/-- Root device 0 with a block 1 (port 2), a signal 3, a nested property object 4, a device info 5 and a
sub-device 6; external signal 7 is connected to the port; server 8; recorder 9; another object 10 in 4;
a mirrored device 11 below 6. -/
def demo (locked : Obj → Bool) (auth : User → Obj → Perm → Bool) : Api (List Call) where
  root := 0
  supports _ o i := match i with
    | .component => o != 4 && o != 5 && o != 10
    | .folder => o == 0 || o == 1 || o == 6
    | .device => o == 0 || o == 6 || o == 11
    | .block => o == 1 || o == 9
    | .signal => o == 3 || o == 7
    | .port => o == 2
    | .recorder => o == 9
    | .server => o == 8
    | .propertyObject => true
    | .external => o == 7
  localId _ o := if o = 0 then "dev".toList else "x".toList
  item _ o n :=
    if o = 0 ∧ n = "fb".toList then some 1
    else if o = 1 ∧ n = "ip".toList then some 2
    else if o = 0 ∧ n = "sig".toList then some 3
    else if o = 0 ∧ n = "sub".toList then some 6
    else if o = 0 ∧ n = "srv".toList then some 8
    else if o = 0 ∧ n = "rec".toList then some 9
    else none
  chain _ o := if o = 0 then [0] else if o = 2 then [2, 1, 0] else if o = 4 ∨ o = 5 ∨ o = 10 then [o] else [o, 0]
  locked _ := locked
  auth _ := auth
  info _ _ := 5
  constant _ _ n := if n = "f".toList then .ok true else if n = "g".toList then .ok false else .error .notFound
  blocks _ o n := if o = 0 ∧ n = "fb".toList then [1] else []
  devices _ o n := if o = 0 ∧ n = "sub".toList then [6] else []
  plan _ o := if o = 0 then [(6, false)] else if o = 6 then [(11, true)] else []
  portSignal _ o := if o = 2 then some 7 else none
  domain _ _ := none
  streamings _ := []
  shown v := match v with
    | .int 5 => "5".toList
    | .str s => s
    | _ => "?".toList
  exec w c := if Modifies c then (w ++ [c], match c with
      | .addExternal _ => .ok (.obj 7)
      | _ => .ok .null)
    else (w, match c with
      | .getValue 0 n => if n = "child".toList then .ok (.obj 4) else if n = "f".toList then .ok (.func 1)
          else if n = "g".toList then .ok (.func 2) else .ok (.int 7)
      | .getValue 4 n => if n = "deep".toList then .ok (.obj 10) else .ok (.int 8)
      | _ => .ok (.int 7))

/-- Everything is allowed. -/
def all : User → Obj → Perm → Bool := fun _ _ _ => true

/-- No device is locked. -/
def free : Obj → Bool := fun _ => false

end Verif.Access.Demo
