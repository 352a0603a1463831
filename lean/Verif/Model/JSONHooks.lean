import Verif.Model.JSON

/-!
Functions of the user that take part in loading JSON: `load_json` and `post_load` attributes of classes,
src/clReflectUtil/SerialiseJSON.cpp:336-350 and 530-549.  The rest of the loader is that of `Verif/Model/JSON.lean`.

Simplifications:
* a function is what it does to memory, given the token (`load_json`) and the address of the object; one that is not in the database
  (`name_attr->primitive` null, line 346) has undefined behaviour for `load_json` and is not called for `post_load`;
* functions of containers (classes with `type->ci` set) are not modelled.
-/
namespace Clr.JSON

/-- The functions of the classes, by the hash of the class's name and its size: `none` if the class does not have the flag attribute
(`attrFlag_CustomLoad`, `attrFlag_PostLoad`) or the attribute. -/
structure Hooks where
  load : BitVec 32 → Nat → Option (Tok → Nat → Mem → Res Mem)
  post : BitVec 32 → Nat → Option (Nat → Mem → Res Mem)

/-- Nothing but what the library does. -/
def Hooks.none : Hooks := ⟨fun _ _ => .none, fun _ _ => .none⟩

/-- The custom load function of what is loaded, SerialiseJSON.cpp:333-344, with the address. -/
def Hooks.loadOf (H : Hooks) : Target → Option ((Tok → Nat → Mem → Res Mem) × Nat)
  | some (.cls h z _ _ _, a) => (H.load h z).map fun f => (f, a)
  | _ => .none

/-- The post-load function, SerialiseJSON.cpp:530-549. -/
def Hooks.runPost (H : Hooks) (tgt : Target) (s : St) : Out St :=
  match tgt with
  | some (.cls h z _ _ _, a) =>
    match H.post h z with
    | some f => do
      let m ← Out.ofRes (f a s.m)
      .ok { s with m := m }
    | .none => .ok s
  | _ => .ok s

/-- `ParserObject`, SerialiseJSON.cpp:507-550, with the parsers of what is inside: the early returns (510-520) leave out the post-load
function, an error on the way does not. -/
def objectStep (e : Env) (H : Hooks) (pv : ValueParser) (po : ObjectParser) (n : Nat) (s : St) (tgt : Target) : Out St := do
  let r ← expect e s .lbrace
  if !r.1.isValid then .ok r.2
  else if r.2.t.type = .rbrace then .ok r.2
  else do
    let s ← (match tgt with
      | some (ty, a) =>
        if ty.isContainer then parseDict e pv po (n + 1) r.2 ty a
        else parseMembers e pv (n + 1) r.2 tgt
      | .none => parseMembers e pv (n + 1) r.2 .none)
    H.runPost tgt s

/-- The `switch` of `ParserValue`, SerialiseJSON.cpp:356-390, with the parsers of what is inside. -/
def valueStep (e : Env) (pv : ValueParser) (po : ObjectParser) (n : Nat) (s : St) (tgt : Target) (isPtr : Bool) (arr : Option Nat) : Out St :=
  match s.t.type with
  | .string => do
    let r ← expect e s .string
    .ok { r.2 with m := loadString r.2.m r.1 tgt }
  | .integer => do
    let r ← expect e s .integer
    .ok { r.2 with m := loadInteger e r.2.m r.1 (int64Of r.1.bits) tgt isPtr }
  | .decimal => do
    let r ← expect e s .decimal
    let m ← loadDecimal e r.2.m r.1 tgt
    .ok { r.2 with m := m }
  | .lbrace => do
    let s ← po s (objectTarget e tgt)
    let r ← expect e s .rbrace
    .ok r.2
  | .lbracket => parseArray e pv (n + 1) s tgt isPtr arr
  | .true => do
    let r ← expect e s .true
    .ok { r.2 with m := loadInteger e r.2.m r.1 1 tgt isPtr }
  | .false => do
    let r ← expect e s .false
    .ok { r.2 with m := loadInteger e r.2.m r.1 0 tgt isPtr }
  | .null => do
    let r ← expect e s .null
    .ok { r.2 with m := loadInteger e r.2.m r.1 0 tgt isPtr }
  | _ => .ok { s with c := s.c.setError .unexpectedToken }

mutual
/-- `ParserObject`, SerialiseJSON.cpp:507-550. -/
def parseObjectH (e : Env) (H : Hooks) : Nat → ObjectParser
  | 0, _, _ => .fuel
  | n + 1, s, tgt => objectStep e H (parseValueH e H n) (parseObjectH e H n) n s tgt

/-- `ParserValue`, SerialiseJSON.cpp:329-391: a custom load function is given the token that is looked at, whatever it is, and the next
one is read (346-348). -/
def parseValueH (e : Env) (H : Hooks) : Nat → ValueParser
  | 0, _, _, _, _ => .fuel
  | n + 1, s, tgt, isPtr, arr =>
    match H.loadOf tgt with
    | some (f, a) => do
      let m ← Out.ofRes (f s.t a s.m)
      nextTok e { s with m := m }
    | .none => valueStep e (parseValueH e H n) (parseObjectH e H n) n s tgt isPtr arr
end

/-- `LoadJSON`, SerialiseJSON.cpp:553-560, which calls `ParserObject`: the custom load function of the class of the object itself is not
called. -/
def loadJSONH (e : Env) (H : Hooks) (text : Bytes) (m : Mem) (ty : Ty) (a : Nat) : Out (Err × Mem) := do
  let s ← nextTok e { t := {}, c := { rest := text }, m := m }
  let s ← parseObjectH e H (fuelFor text) s (some (ty, a))
  .ok (s.c.err, s.m)

end Clr.JSON
