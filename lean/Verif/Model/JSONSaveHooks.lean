import Verif.Model.JSON

/-!
Functions of the user that take part in saving JSON: `save_json` and `pre_save` attributes of classes,
src/clReflectUtil/SerialiseJSON.cpp:1062-1118.  The rest is the saving of `Verif/Model/JSON.lean`, with memory handed on from one
object to the next, since a `pre_save` function may change it.

Simplifications:
* a `save_json` function is the token it makes of the object at an address; it changes no memory.  A `pre_save` function is what it does to
  memory;
* the elements of a container are listed once, when its read iterator is set up, as the iterators of the library do;
* a function that is not in the database (`name_attr->primitive` null) has undefined behaviour for `save_json` and is not called for
  `pre_save`.
-/
namespace Clr.JSON

/-- The functions of the classes, by the hash of the class's name and its size: `none` if the class does not have the flag attribute
(`attrFlag_CustomSave`, `attrFlag_PreSave`) or the attribute. -/
structure SaveHooks where
  save : BitVec 32 → Nat → Option (Nat → Mem → Res Tok)
  pre : BitVec 32 → Nat → Option (Nat → Mem → Res Mem)

/-- Memory is handed on. -/
abbrev SaveStep := Mem → Res (Bytes × Mem)

/-- The token of a `save_json` function is written, SerialiseJSON.cpp:1083-1097. -/
def saveToken (e : Env) (o : Opts) (t : Tok) : Res Bytes :=
  match t.type with
  | .string => .ok (quote t.text)
  | .integer => saveInteger (int64Of t.bits)
  | .decimal => saveDecimal e.fl o.hexFloats t.bits
  | _ => .trap

/-- The part of the loop of `SaveContainer` that writes an element's value, SerialiseJSON.cpp:834-849. -/
def saveValueH (o : Opts) (type : BitVec 32) (isPtr : Bool) (save : Nat → SaveStep) (v : Nat) (m : Mem) : Res (Option Bytes × Mem) :=
  if isPtr then
    match o.mapPtr type (m.ptr v) with
    | none => .ok (none, m)
    | some h => (savePtr o h).map fun t => (some t, m)
  else (save v m).map fun r => (some r.1, r.2)

/-- The key of a dictionary's element and the colon, SerialiseJSON.cpp:826-832. -/
def saveKeyH (key : Option (Nat → SaveStep)) (k : Nat) (m : Mem) : Res (Bytes × Mem) :=
  match key with
  | none => .ok ([], m)
  | some f => (f k m).map fun r => (r.1 ++ [58], r.2)

/-- The loop of `SaveContainer`, SerialiseJSON.cpp:817-853. -/
def saveItemsH (o : Opts) (type : BitVec 32) (isPtr : Bool) (key : Option (Nat → SaveStep)) (save : Nat → SaveStep) :
    Nat → List (Nat × Nat) → Bool → SaveStep
  | 0, _, _, m => .ok ([], m)
  | _ + 1, [], _, _ => .ub
  | n + 1, kv :: rest, written, m => do
    let k ← saveKeyH key kv.1 m
    let v ← saveValueH o type isPtr save kv.2 k.2
    match v.1 with
    | none => do
      let r ← saveItemsH o type isPtr key save n (kv :: rest) written v.2
      .ok ((if written then [44] else []) ++ k.1 ++ r.1, r.2)
    | some t => do
      let r ← saveItemsH o type isPtr key save n rest true v.2
      .ok ((if written then [44] else []) ++ k.1 ++ t ++ r.1, r.2)

/-- `SaveContainer`, SerialiseJSON.cpp:810-857, and the check for no elements of its callers (859-872, 1120-1133). -/
def saveContainerH (o : Opts) (type : BitVec 32) (isPtr : Bool) (key : Option (Nat → SaveStep)) (save : Nat → SaveStep) (items : List (Nat × Nat)) : SaveStep :=
  fun m =>
    if items = [] then .ok (b!"[]", m)
    else do
      let r ← saveItemsH o type isPtr key save items.length items false m
      .ok ((if key.isSome then [123] else [91]) ++ r.1 ++ (if key.isSome then [125] else [93]), r.2)

/-- A field with how its type is saved. -/
structure SaverH where
  info : FldInfo
  type : Ty
  /-- `SaveObject` of the field's type, from indentation level and address. -/
  save : Nat → Nat → SaveStep

/-- `SaveFieldObject`, SerialiseJSON.cpp:927-942. -/
def saveFieldH (o : Opts) (s : SaverH) (indent a : Nat) (m : Mem) : Res (Bytes × Mem) :=
  match s.info.count with
  | some n =>
    if strideOf s.type s.info.isPtr = 0 ∧ n ≠ 0 then .trap
    else saveContainerH o s.type.hash s.info.isPtr none (s.save indent) (arrayItems a n (strideOf s.type s.info.isPtr)) m
  | none =>
    if s.info.isPtr then
      match o.mapPtr s.type.hash (m.ptr a) with
      | some h => (savePtr o h).map fun t => (t, m)
      | none => .ok ([], m)
    else s.save indent a m

/-- A sequence of `SaveClassField`, SerialiseJSON.cpp:944-969. -/
def saveMembersH (o : Opts) (indent a : Nat) : List SaverH → Bool → SaveStep
  | [], _, m => .ok ([], m)
  | s :: r, written, m =>
    if s.info.isPtr ∧ o.mapPtr s.type.hash (m.ptr (a + s.info.offset)) = none then saveMembersH o indent a r written m
    else do
      let v ← saveFieldH o s indent (a + s.info.offset) m
      let t ← saveMembersH o indent a r true v.2
      .ok ((if written then 44 :: newLine o indent else []) ++ quote s.info.name ++ 58 :: v.1 ++ t.1, t.2)

/-- `lowest_field_offset`, SerialiseJSON.cpp:987, 1002. -/
def lowestOfH : Option SaverH → Int
  | none => 0x7FFFFFFF
  | some b => b.info.offset

/-- The inner loop of the sorted order, SerialiseJSON.cpp:991-1007. -/
def pickLowestH (e : Env) (last : Int) : List SaverH → Option SaverH → Option SaverH
  | [], best => best
  | s :: r, best =>
    if e.skips s.info.flags then pickLowestH e last r best
    else if (s.info.offset : Int) > last ∧ (s.info.offset : Int) < lowestOfH best then pickLowestH e last r (some s)
    else pickLowestH e last r best

/-- The outer loop, SerialiseJSON.cpp:986-1016. -/
def sortLoopH (e : Env) (all : List SaverH) : Nat → Int → List SaverH
  | 0, _ => []
  | n + 1, last =>
    match pickLowestH e last all none with
    | none => sortLoopH e all n last
    | some s => s :: sortLoopH e all n s.info.offset

/-- The order and choice of `SaveClassFields`, SerialiseJSON.cpp:971-1032. -/
def orderH (e : Env) (o : Opts) (all : List SaverH) : List SaverH :=
  if o.sort then sortLoopH e all all.length (-1) else all.filter fun s => !e.skips s.info.flags

/-- Any attached pre-save function is called, SerialiseJSON.cpp:1100-1112. -/
def SaveHooks.runPre (S : SaveHooks) (h : BitVec 32) (z a : Nat) (m : Mem) : Res Mem :=
  match S.pre h z with
  | some f => f a m
  | none => .ok m

mutual
/-- `SaveObject`, SerialiseJSON.cpp:1135-1166, with `SaveClass` for a class value (1062-1118): transient classes first, then the custom
save function, then the pre-save function and the members. -/
def saveObjH (e : Env) (o : Opts) (S : SaveHooks) : Ty → Nat → Nat → SaveStep
  | .prim h _, _, a, m => (saveType e o m h a).map fun t => (t, m)
  | .enum _ _ cs fl, _, a, m => .ok (saveEnum cs fl (BitVec.ofNat 32 (unle (m.read a 4))), m)
  | .cls h z flags fs bs, indent, a, m =>
    if e.skips flags then .ok ([], m)
    else match S.save h z with
      | some g => do
        let tok ← g a m
        let t ← saveToken e o tok
        .ok (t, m)
      | none => do
        let m1 ← S.runPre h z a m
        let t ← saveMembersH o (indent + 1) a (orderH e o (saversH e o S fs) ++ baseSaversH e o S bs) false m1
        .ok (openScope o indent ++ t.1 ++ closeScope o indent, t.2)
  | .tmpl _ _ _, _, _, m => .ok (b!"[]", m)
  | .vec _ _ elem p, indent, a, m => saveContainerH o elem.hash p none (fun x => saveObjH e o S elem indent x) (m.elems a) m
  | .dict _ _ key elem p, indent, a, m =>
    saveContainerH o elem.hash p (some fun x => saveObjH e o S key indent x) (fun x => saveObjH e o S elem indent x) (m.elems a) m

/-- The fields of a class with how to save them. -/
def saversH (e : Env) (o : Opts) (S : SaveHooks) : Flds → List SaverH
  | .nil => []
  | .cons f t r => { info := f, type := t, save := fun indent a => saveObjH e o S t indent a } :: saversH e o S r

/-- `SaveClass` of a type, SerialiseJSON.cpp:1034-1060: the functions of a base class are not called. -/
def classSaversH (e : Env) (o : Opts) (S : SaveHooks) : Ty → List SaverH
  | .cls _ _ flags fs bs => if e.skips flags then [] else orderH e o (saversH e o S fs) ++ baseSaversH e o S bs
  | .tmpl _ _ bs => baseSaversH e o S bs
  | _ => []

/-- The loop over the base types, SerialiseJSON.cpp:1053-1059. -/
def baseSaversH (e : Env) (o : Opts) (S : SaveHooks) : Tys → List SaverH
  | .nil => []
  | .cons t r => classSaversH e o S t ++ baseSaversH e o S r
end

/-- `SaveJSON` of an object, SerialiseJSON.cpp:1169-1174. -/
def saveJSONH (e : Env) (o : Opts) (S : SaveHooks) (m : Mem) (t : Ty) (indent a : Nat) : Res (Bytes × Mem) := saveObjH e o S t indent a m

end Clr.JSON
