import Verif.Model.JSONNum

/-!
The JSON serialiser of objects: src/clReflectUtil/SerialiseJSON.cpp, both directions.

Simplifications:
* a reflected type is the tree of what is reachable from it (`Ty`).  A C++ object type is such a tree: a class
  cannot contain or derive from itself, and what is behind a pointer is never visited by this code (a pointer
  is written as a number, so only the name of the type it points to matters);
* `type->ci` (a registered container) occurs on template types only, which is where `clcpp_container` puts it;
* the user's functions are not modelled: no class has `load_json`, `save_json`, `pre_save` or `post_load`
  (SerialiseJSON.cpp:336-350, 532-548, 1071-1112);
* `IPtrMap` is a pair of functions, i.e. its answers do not change during a call;
* `clcpp::FindPrimitive` is "the first element with that hash" (C01 is about the binary search itself);
* names are NUL-free texts, and `name.hash` is the hash of `name.text`;
* the destination is a byte memory with, on the side, the elements of each dynamic container.  A container's
  read iterator lists its elements in order; `WriteIterator::Initialise` empties it and each `AddEmpty`
  appends a default constructed element at memory not used before.  This is the contract stated at
  inc/clcpp/Containers.h:66-90; the containers themselves are the user's code;
* pointers are eight bytes.
-/
namespace Clr.JSON

/-! ### Types -/

/-- `clcpp::EnumConstant`, inc/clcpp/clcpp.h:717-724. -/
structure Const where
  name : Bytes
  value : BitVec 32
deriving DecidableEq, Repr

/-- What the serialiser reads of a `clcpp::Field`, inc/clcpp/clcpp.h:748-777: name, offset, `flag_attributes`,
whether it is a pointer, and the number of elements if it is a C array (`field->ci`). -/
structure FldInfo where
  name : Bytes
  offset : Nat
  flags : BitVec 32 := 0
  isPtr : Bool := false
  count : Option Nat := none
deriving DecidableEq, Repr

mutual
/-- What the serialiser reads of a `clcpp::Type`, inc/clcpp/clcpp.h:691-712 and the types derived from it:
`KIND_TYPE`, `KIND_ENUM` (with whether it has the attribute `flags`), `KIND_CLASS`, `KIND_TEMPLATE_TYPE` that is
not a container, and the two sorts of container. -/
inductive Ty where
  | prim (hash : BitVec 32) (size : Nat)
  | enum (hash : BitVec 32) (size : Nat) (constants : List Const) (isFlags : Bool)
  | cls (hash : BitVec 32) (size : Nat) (flags : BitVec 32) (fields : Flds) (bases : Tys)
  | tmpl (hash : BitVec 32) (size : Nat) (bases : Tys)
  | vec (hash : BitVec 32) (size : Nat) (elem : Ty) (isPtr : Bool)
  | dict (hash : BitVec 32) (size : Nat) (key : Ty) (elem : Ty) (isPtr : Bool)

/-- `Class::fields`. -/
inductive Flds where
  | nil
  | cons (info : FldInfo) (type : Ty) (rest : Flds)

/-- `Type::base_types`. -/
inductive Tys where
  | nil
  | cons (type : Ty) (rest : Tys)
end

/-- `type->name.hash`. -/
def Ty.hash : Ty → BitVec 32
  | .prim h _ => h
  | .enum h _ _ _ => h
  | .cls h _ _ _ _ => h
  | .tmpl h _ _ => h
  | .vec h _ _ _ => h
  | .dict h _ _ _ _ => h

/-- `type->size`. -/
def Ty.size : Ty → Nat
  | .prim _ s => s
  | .enum _ s _ _ => s
  | .cls _ s _ _ _ => s
  | .tmpl _ s _ => s
  | .vec _ s _ _ => s
  | .dict _ s _ _ _ => s

/-- The size of an element, Containers.cpp:41-44, 102-105. -/
def strideOf (t : Ty) (isPtr : Bool) : Nat := if isPtr then 8 else t.size

/-- The bytes a field takes in its class. -/
def FldInfo.extent (f : FldInfo) (t : Ty) : Nat :=
  match f.count with
  | some n => n * strideOf t f.isPtr
  | none => strideOf t f.isPtr

/-! ### Memory -/

/-- Memory: bytes, the (key, value) addresses of the elements of the container at an address, and the first
address not in use. -/
structure Mem where
  byte : Nat → UInt8
  elems : Nat → List (Nat × Nat)
  next : Nat

/-- Read `n` bytes. -/
def Mem.read (m : Mem) (a : Nat) : Nat → Bytes
  | 0 => []
  | n + 1 => m.byte a :: m.read (a + 1) n

/-- Write bytes. -/
def Mem.write (m : Mem) (a : Nat) (bs : Bytes) : Mem :=
  { m with byte := fun x => if a ≤ x then (bs[x - a]?).getD (m.byte x) else m.byte x }

/-- A pointer in memory. -/
def Mem.ptr (m : Mem) (a : Nat) : Nat := unle (m.read a 8)

/-- Take `n` bytes of unused memory; containers inside it are empty. -/
def Mem.alloc (m : Mem) (n : Nat) : Nat × Mem :=
  (m.next, { m with elems := fun x => if m.next ≤ x ∧ x < m.next + n then [] else m.elems x,
                    next := m.next + n })

/-- Replace the elements of a container. -/
def Mem.setElems (m : Mem) (a : Nat) (l : List (Nat × Nat)) : Mem :=
  { m with elems := fun x => if x = a then l else m.elems x }

/-- `clutl::IPtrMap`, inc/clutl/Serialise.h:108-112. -/
structure PtrMap where
  can : Nat → BitVec 32 → Bool
  map : Nat → BitVec 32

/-- What both directions are given: the floating point functions, the dispatch table and
`transient_flags`. -/
structure Env where
  fl : Floats
  lut : List (Option Num)
  transient : BitVec 32

/-- What only saving is given: `ptr_map` and the `JSONFlags` (inc/clutl/Serialise.h:143-166) but for the
indentation level. -/
structure Opts where
  ptrs : Option PtrMap := none
  format : Bool := false
  hexFloats : Bool := false
  hexPtrs : Bool := false
  sort : Bool := false

/-- `(flag_attributes & transient_flags) != 0`. -/
def Env.skips (e : Env) (flags : BitVec 32) : Bool := flags &&& e.transient != 0

/-! ### Saving -/

/-- `SaveString`, SerialiseJSON.cpp:580-592: the text is not escaped. -/
def quote (s : Bytes) : Bytes := 34 :: (s ++ [34])

/-- The loop over the constants for flags, SerialiseJSON.cpp:737-763: the names written. -/
def flagNames : List Const → BitVec 32 → List Bytes
  | [], _ => []
  | c :: cs, v =>
    if v &&& c.value != 0 then
      c.name :: (if v &&& ~~~c.value = 0 then [] else flagNames cs (v &&& ~~~c.value))
    else flagNames cs v

/-- Names separated by `|`, SerialiseJSON.cpp:743-751. -/
def joinBar : List Bytes → Bytes
  | [] => []
  | [s] => s
  | s :: t :: r => s ++ (124 :: joinBar (t :: r))

/-- `SaveEnum`, SerialiseJSON.cpp:727-791. -/
def saveEnum (constants : List Const) (isFlags : Bool) (value : BitVec 32) : Bytes :=
  if isFlags && value != 0 then
    match flagNames constants value with
    | [] => quote b!"clReflect_JSON_EnumFlagNotFound"
    | names => quote (joinBar names)
  else
    match constants.find? (fun c => c.value == value) with
    | some c => quote c.name
    | none => quote b!"clReflect_JSON_EnumValueNotFound"

/-- `ptr_map == nullptr || !ptr_map->CanMapPtr(...)` (SerialiseJSON.cpp:839, 951) and then `MapPtr`
(797): `none` is a pointer that is not saved. -/
def Opts.mapPtr (o : Opts) (type : BitVec 32) (p : Nat) : Option (BitVec 32) :=
  match o.ptrs with
  | none => none
  | some pm => if pm.can p type then some (pm.map p) else none

/-- `SavePtr`, SerialiseJSON.cpp:793-808. -/
def savePtr (o : Opts) (hash : BitVec 32) : Res Bytes :=
  if o.hexPtrs then do
    let t ← saveHex hash.toNat
    .ok (b!"0x" ++ t)
  else saveUnsigned hash.toNat

/-- `SaveType`, SerialiseJSON.cpp:718-725. -/
def saveType (e : Env) (o : Opts) (m : Mem) (hash : BitVec 32) (a : Nat) : Res Bytes :=
  match dispatch e.lut hash with
  | some k => saveNum e.fl o.hexFloats k (m.read a k.size)
  | none => .trap

/-- `NewLine`, SerialiseJSON.cpp:874-886. -/
def newLine (o : Opts) (indent : Nat) : Bytes :=
  if o.format then 10 :: List.replicate (indent % 16) 9 else []

/-- `OpenScope`, SerialiseJSON.cpp:888-907; the new indentation level is `indent + 1`, masked where it is
used. -/
def openScope (o : Opts) (indent : Nat) : Bytes :=
  newLine o indent ++ 123 :: newLine o (indent + 1)

/-- `CloseScope`, SerialiseJSON.cpp:909-925, at the level the matching `OpenScope` was called at. -/
def closeScope (o : Opts) (indent : Nat) : Bytes :=
  newLine o indent ++ 125 :: newLine o indent

/-- The part of the loop of `SaveContainer` that writes an element's value, SerialiseJSON.cpp:834-849; `none`
is the `continue` at 841. -/
def saveValue (o : Opts) (m : Mem) (type : BitVec 32) (isPtr : Bool) (save : Nat → Res Bytes) (v : Nat) :
    Res (Option Bytes) :=
  if isPtr then
    match o.mapPtr type (m.ptr v) with
    | none => .ok none
    | some h => (savePtr o h).map some
  else (save v).map some

/-- The key of a dictionary's element and the colon, SerialiseJSON.cpp:826-832. -/
def saveKey (key : Option (Nat → Res Bytes)) (k : Nat) : Res Bytes :=
  match key with
  | none => .ok []
  | some f => (f k).map (· ++ [58])

/-- The loop of `SaveContainer`, SerialiseJSON.cpp:817-853, with `n` iterations to go and the reader at the first
element of the list: the `continue` at 841 skips `MoveNext`, so the next iteration is at the same element. -/
def saveItems (o : Opts) (m : Mem) (type : BitVec 32) (isPtr : Bool) (key : Option (Nat → Res Bytes))
    (save : Nat → Res Bytes) : Nat → List (Nat × Nat) → Bool → Res Bytes
  | 0, _, _ => .ok []
  | _ + 1, [], _ => .ub
  | n + 1, kv :: rest, written => do
    let k ← saveKey key kv.1
    let v ← saveValue o m type isPtr save kv.2
    match v with
    | none => do
      let r ← saveItems o m type isPtr key save n (kv :: rest) written
      .ok ((if written then [44] else []) ++ k ++ r)
    | some t => do
      let r ← saveItems o m type isPtr key save n rest true
      .ok ((if written then [44] else []) ++ k ++ t ++ r)

/-- `SaveContainer`, SerialiseJSON.cpp:810-857, and the check for no elements of its callers (859-872,
1120-1133). -/
def saveContainer (o : Opts) (m : Mem) (type : BitVec 32) (isPtr : Bool) (key : Option (Nat → Res Bytes))
    (save : Nat → Res Bytes) (items : List (Nat × Nat)) : Res Bytes :=
  if items = [] then .ok b!"[]"
  else do
    let t ← saveItems o m type isPtr key save items.length items false
    .ok ((if key.isSome then [123] else [91]) ++ t ++ (if key.isSome then [125] else [93]))

/-- The elements of a C array, Containers.cpp:27-65. -/
def arrayItems (a n stride : Nat) : List (Nat × Nat) := (List.range n).map fun i => (0, a + i * stride)

/-- A field with how its type is saved. -/
structure Saver where
  info : FldInfo
  type : Ty
  /-- `SaveObject` of the field's type, from indentation level and address. -/
  save : Nat → Nat → Res Bytes

/-- `SaveFieldObject`, SerialiseJSON.cpp:927-942, with the assertion of Containers.cpp:54 for elements of no
size. -/
def saveField (o : Opts) (m : Mem) (s : Saver) (indent a : Nat) : Res Bytes :=
  match s.info.count with
  | some n =>
    if strideOf s.type s.info.isPtr = 0 ∧ n ≠ 0 then .trap
    else saveContainer o m s.type.hash s.info.isPtr none (s.save indent)
      (arrayItems a n (strideOf s.type s.info.isPtr))
  | none =>
    if s.info.isPtr then
      match o.mapPtr s.type.hash (m.ptr a) with
      | some h => savePtr o h
      | none => .ok []
    else s.save indent a

/-- A sequence of `SaveClassField`, SerialiseJSON.cpp:944-969. -/
def saveMembers (o : Opts) (m : Mem) (indent a : Nat) : List Saver → Bool → Res Bytes
  | [], _ => .ok []
  | s :: r, written =>
    if s.info.isPtr ∧ o.mapPtr s.type.hash (m.ptr (a + s.info.offset)) = none then
      saveMembers o m indent a r written
    else do
      let v ← saveField o m s indent (a + s.info.offset)
      let t ← saveMembers o m indent a r true
      .ok ((if written then 44 :: newLine o indent else []) ++ quote s.info.name ++ 58 :: v ++ t)

/-- `lowest_field_offset`, SerialiseJSON.cpp:987, 1002. -/
def lowestOf : Option Saver → Int
  | none => 0x7FFFFFFF
  | some b => b.info.offset

/-- The inner loop of the sorted order, SerialiseJSON.cpp:991-1007: the first of the fields with the lowest offset
above `last` (and below `lowest`, if there is a candidate). -/
def pickLowest (e : Env) (last : Int) : List Saver → Option Saver → Option Saver
  | [], best => best
  | s :: r, best =>
    if e.skips s.info.flags then pickLowest e last r best
    else if (s.info.offset : Int) > last ∧ (s.info.offset : Int) < lowestOf best then
      pickLowest e last r (some s)
    else pickLowest e last r best

/-- The outer loop, SerialiseJSON.cpp:986-1016, with `n` iterations to go. -/
def sortLoop (e : Env) (all : List Saver) : Nat → Int → List Saver
  | 0, _ => []
  | n + 1, last =>
    match pickLowest e last all none with
    | none => sortLoop e all n last
    | some s => s :: sortLoop e all n s.info.offset

/-- The order and choice of `SaveClassFields`, SerialiseJSON.cpp:971-1032. -/
def order (e : Env) (o : Opts) (all : List Saver) : List Saver :=
  if o.sort then sortLoop e all all.length (-1) else all.filter fun s => !e.skips s.info.flags

mutual
/-- `SaveObject`, SerialiseJSON.cpp:1135-1166, with `SaveClass` for a class value (1062-1118) and
`SaveContainer` (1120-1133).  A template type that is not a container is saved through a reader that was
never initialised, whose count is 0 (inc/clcpp/Containers.h:100-106). -/
def saveObj (e : Env) (o : Opts) (m : Mem) : Ty → Nat → Nat → Res Bytes
  | .prim h _, _, a => saveType e o m h a
  | .enum _ _ cs fl, _, a => .ok (saveEnum cs fl (BitVec.ofNat 32 (unle (m.read a 4))))
  | .cls _ _ flags fs bs, indent, a =>
    if e.skips flags then .ok []
    else do
      let t ← saveMembers o m (indent + 1) a (order e o (savers e o m fs) ++ baseSavers e o m bs) false
      .ok (openScope o indent ++ t ++ closeScope o indent)
  | .tmpl _ _ _, _, _ => .ok b!"[]"
  | .vec _ _ elem p, indent, a =>
    saveContainer o m elem.hash p none (fun x => saveObj e o m elem indent x) (m.elems a)
  | .dict _ _ key elem p, indent, a =>
    saveContainer o m elem.hash p (some fun x => saveObj e o m key indent x)
      (fun x => saveObj e o m elem indent x) (m.elems a)

/-- The fields of a class with how to save them. -/
def savers (e : Env) (o : Opts) (m : Mem) : Flds → List Saver
  | .nil => []
  | .cons f t r =>
    { info := f, type := t, save := fun indent a => saveObj e o m t indent a } :: savers e o m r

/-- `SaveClass` of a type, SerialiseJSON.cpp:1034-1060: the fields it saves, in order.  The base's fields
are saved from the address of the derived object. -/
def classSavers (e : Env) (o : Opts) (m : Mem) : Ty → List Saver
  | .cls _ _ flags fs bs =>
    if e.skips flags then [] else order e o (savers e o m fs) ++ baseSavers e o m bs
  | .tmpl _ _ bs => baseSavers e o m bs
  | _ => []

/-- The loop over the base types, SerialiseJSON.cpp:1053-1059. -/
def baseSavers (e : Env) (o : Opts) (m : Mem) : Tys → List Saver
  | .nil => []
  | .cons t r => classSavers e o m t ++ baseSavers e o m r
end

/-- `SaveJSON` of an object, SerialiseJSON.cpp:1169-1174, after the dispatch table is set up.  `indent` is
what the caller has in the low four bits of the flags. -/
def saveJSON (e : Env) (o : Opts) (m : Mem) (t : Ty) (indent a : Nat) : Res Bytes := saveObj e o m t indent a

/-! ### Loading -/

/-- Outcome of the parser: as `Res`, and `fuel` when the given number of steps does not suffice (C33 proves
that the number `loadJSON` gives always does). -/
inductive Out (α : Type) where
  | ok (a : α)
  | trap
  | ub
  | fuel
deriving DecidableEq, Repr

namespace Out

/-- Sequencing. -/
def bind {α β : Type} : Out α → (α → Out β) → Out β
  | ok a, f => f a
  | trap, _ => trap
  | ub, _ => ub
  | fuel, _ => fuel

instance : Monad Out where
  pure := ok
  bind := bind

@[simp] theorem bind_ok {α β : Type} (a : α) (f : α → Out β) : (Bind.bind (ok a) f) = f a := rfl
@[simp] theorem bind_trap {α β : Type} (f : α → Out β) : (Bind.bind (trap : Out α) f) = trap := rfl
@[simp] theorem bind_ub {α β : Type} (f : α → Out β) : (Bind.bind (ub : Out α) f) = ub := rfl
@[simp] theorem bind_fuel {α β : Type} (f : α → Out β) : (Bind.bind (fuel : Out α) f) = fuel := rfl

theorem bind_eq_ok {α β : Type} {x : Out α} {f : α → Out β} {b : β} :
    Bind.bind x f = ok b ↔ ∃ a, x = ok a ∧ f a = ok b := by
  cases x <;> simp

/-- An outcome of the lexer. -/
def ofRes {α : Type} : Res α → Out α
  | .ok a => ok a
  | .trap => trap
  | .ub => ub

end Out

/-- The parser's variables: the look-ahead token `t`, the context, and memory. -/
structure St where
  t : Tok
  c : Ctx
  m : Mem

/-- `type` and `object`, which are null together. -/
abbrev Target := Option (Ty × Nat)

/-- `t = LexerNextToken(ctx)`. -/
def nextTok (e : Env) (s : St) : Out St := do
  let r ← Out.ofRes (nextToken e.fl.strtod s.c)
  .ok { s with t := r.1, c := r.2 }

/-- `Expect`, SerialiseJSON.cpp:87-100. -/
def expect (e : Env) (s : St) (type : TokType) : Out (Tok × St) :=
  if s.t.type ≠ type then .ok ({}, { s with c := s.c.setError .unexpectedToken })
  else do
    let s' ← nextTok e s
    .ok (s.t, s')

/-- `FindPrimitive(enum_type->constants, HashData(...))`. -/
def findConst (constants : List Const) (name : Bytes) : Option (BitVec 32) :=
  (constants.find? fun c => Hash.hashText c.name == Hash.hashText name).map Const.value

/-- The pieces of a text between `|`, as SerialiseJSON.cpp:119-148 visits them, `cur` being the piece so far. -/
def splitBar (cur : Bytes) : Bytes → List Bytes
  | [] => if cur = [] then [] else [cur]
  | b :: r => if b = 124 then cur :: splitBar [] r else splitBar (cur ++ [b]) r

/-- The flags found among pieces, SerialiseJSON.cpp:128-144: the first assigns, the others are or-ed in. -/
def orFlags (constants : List Const) : List Bytes → Option (BitVec 32) → Option (BitVec 32)
  | [], acc => acc
  | p :: ps, acc =>
    match findConst constants p with
    | none => orFlags constants ps acc
    | some v => orFlags constants ps (some (match acc with | none => v | some w => w ||| v))

/-- What a string is as a value of an enum, SerialiseJSON.cpp:117-160. -/
def enumOfText (constants : List Const) (isFlags : Bool) (text : Bytes) : Option (BitVec 32) :=
  if isFlags then orFlags constants (splitBar [] text) none else findConst constants text

/-- `ParserString`, SerialiseJSON.cpp:102-163. -/
def loadString (m : Mem) (t : Tok) (tgt : Target) : Mem :=
  if t.isValid then
    match tgt with
    | some (.enum _ _ cs fl, a) =>
      match enumOfText cs fl t.text with
      | some v => m.write a (le 4 v.toNat)
      | none => m
    | _ => m
  else m

/-- `LoadInteger`, SerialiseJSON.cpp:185-208, for a valid token (210-216, 320-327). -/
def loadInteger (e : Env) (m : Mem) (t : Tok) (v : Int) (tgt : Target) (isPtr : Bool) : Mem :=
  if t.isValid then
    match tgt with
    | none => m
    | some (ty, a) =>
      if isPtr then m.write a (le 4 (wrapTo 4 v))
      else
        match dispatch e.lut ty.hash with
        | some k => m.write a (storeInt e.fl k v)
        | none => m
  else m

/-- `ParserDecimal`, SerialiseJSON.cpp:218-237. -/
def loadDecimal (e : Env) (m : Mem) (t : Tok) (tgt : Target) : Out Mem :=
  if t.isValid then
    match tgt with
    | none => .ok m
    | some (ty, a) =>
      match dispatch e.lut ty.hash with
      | some k => do
        let bs ← Out.ofRes (storeDec e.fl k t.bits)
        .ok (m.write a bs)
      | none => .ok m
  else .ok m

/-- A `WriteIterator` in use: for a C array (element type, base address, limit and position in bytes) or for a
container at an address. -/
inductive Writer where
  | arr (type : Ty) (isPtr : Bool) (base limit pos : Nat)
  | cont (type : Ty) (isPtr : Bool) (addr : Nat)

/-- `AddEmpty()`: Containers.cpp:112-118 for a C array, appending for a container. -/
def Writer.addEmpty (w : Writer) (m : Mem) : Out (Nat × Writer × Mem) :=
  match w with
  | .arr t p base limit pos =>
    if pos < limit then .ok (base + pos, .arr t p base limit (pos + strideOf t p), m) else .trap
  | .cont t p addr =>
    let r := m.alloc (strideOf t p)
    .ok (r.1, w, r.2.setElems addr (m.elems addr ++ [(0, r.1)]))

/-- `m_ValueType` and `m_ValueIsPtr`. -/
def Writer.elem : Writer → Ty × Bool
  | .arr t p _ _ _ => (t, p)
  | .cont t p _ => (t, p)

/-- The parser for values: state, target, whether it is a pointer, and the field's number of elements if
it is a C array. -/
abbrev ValueParser := St → Target → Bool → Option Nat → Out St

/-- `ParserElements`, SerialiseJSON.cpp:239-267: the count and the state after. -/
def parseElements (e : Env) (pv : ValueParser) : Nat → Option Writer → St → Out (Nat × St)
  | 0, _, _ => .fuel
  | n + 1, none, s => do
    let s ← pv s none false none
    if s.t.type ≠ .comma then .ok (1, s)
    else do
      let s ← nextTok e s
      let r ← parseElements e pv n none s
      .ok (r.1 + 1, r.2)
  | n + 1, some w, s => do
    let r ← w.addEmpty s.m
    let s ← pv { s with m := r.2.2 } (some (w.elem.1, r.1)) w.elem.2 none
    if s.t.type ≠ .comma then .ok (1, s)
    else do
      let s ← nextTok e s
      let r ← parseElements e pv n (some r.2.1) s
      .ok (r.1 + 1, r.2)

/-- The writer of `ParserArray`, SerialiseJSON.cpp:288-306, `n` being the steps for the count.  `PopState`
restores the position and the token, not the line (JSONLexer.cpp:427-439); an error is kept.
`PushState`'s assertion holds because nothing is pushed while the count is made with a null type.  `AddEmpty()`
without a key is meaningless for a dictionary and is taken as an assertion of its iterator. -/
def arrayWriter (e : Env) (pv : ValueParser) (n : Nat) (s : St) (tgt : Target) (isPtr : Bool)
    (arr : Option Nat) : Out (Option Writer × St) :=
  match arr, tgt with
  | some k, some (ty, a) => .ok (some (.arr ty isPtr a (k * strideOf ty isPtr) 0), s)
  | _, some (.vec _ _ elem p, a) => do
    let r ← parseElements e pv n none s
    .ok (some (.cont elem p a),
      { t := s.t, c := { r.2.c with rest := s.c.rest, pos := s.c.pos }, m := r.2.m.setElems a [] })
  | _, some (.dict _ _ _ _ _, _) => .trap
  | _, _ => .ok (none, s)

/-- `ParserArray`, SerialiseJSON.cpp:269-318. -/
def parseArray (e : Env) (pv : ValueParser) (n : Nat) (s : St) (tgt : Target) (isPtr : Bool)
    (arr : Option Nat) : Out St := do
  let r ← expect e s .lbracket
  if !r.1.isValid then .ok r.2
  else if r.2.t.type = .rbracket then nextTok e r.2
  else do
    let w ← arrayWriter e pv n r.2 tgt isPtr arr
    let q ← parseElements e pv n w.1 w.2
    let x ← expect e q.2 .rbracket
    .ok x.2

mutual
/-- `FindFieldsRecursive`, SerialiseJSON.cpp:393-416. -/
def findField (hash : BitVec 32) : Ty → Option (FldInfo × Ty)
  | .cls _ _ _ fs bs =>
    match findOwn hash fs with
    | some r => some r
    | none => findBases hash bs
  | .tmpl _ _ bs => findBases hash bs
  | _ => none

/-- `FindPrimitive(type->AsClass()->fields, hash)`. -/
def findOwn (hash : BitVec 32) : Flds → Option (FldInfo × Ty)
  | .nil => none
  | .cons f t r => if Hash.hashText f.name = hash then some (f, t) else findOwn hash r

/-- The loop over the base types, SerialiseJSON.cpp:404-412. -/
def findBases (hash : BitVec 32) : Tys → Option (FldInfo × Ty)
  | .nil => none
  | .cons t r =>
    match findField hash t with
    | some x => some x
    | none => findBases hash r
end

/-- The field a name designates in a target, SerialiseJSON.cpp:428-442: its description, type and address. -/
def memberOf (e : Env) (tgt : Target) (name : Bytes) : Option (FldInfo × Ty × Nat) :=
  match tgt with
  | some (.cls h s fl fs bs, a) =>
    match findField (Hash.hashText name) (.cls h s fl fs bs) with
    | some (f, t) => if e.skips f.flags then none else some (f, t, a + f.offset)
    | none => none
  | _ => none

/-- `ParserPair`, SerialiseJSON.cpp:418-459. -/
def parsePair (e : Env) (pv : ValueParser) (s : St) (tgt : Target) : Out St := do
  let r ← expect e s .string
  if !r.1.isValid then .ok r.2
  else do
    let q ← expect e r.2 .colon
    if !q.1.isValid then .ok q.2
    else
      match memberOf e tgt r.1.text with
      | some (f, t, a) => pv q.2 (some (t, a)) f.isPtr f.count
      | none => pv q.2 none false none

/-- `ParserMembers`, SerialiseJSON.cpp:461-472. -/
def parseMembers (e : Env) (pv : ValueParser) : Nat → St → Target → Out St
  | 0, _, _ => .fuel
  | n + 1, s, tgt => do
    let s ← parsePair e pv s tgt
    if s.t.type = .comma then do
      let s ← nextTok e s
      parseMembers e pv n s tgt
    else .ok s

/-- A parser of objects. -/
abbrev ObjectParser := St → Target → Out St

/-- `AddEmpty(key)` of a dictionary at `a`: the key's bytes are copied. -/
def addKey (m : Mem) (a key : Nat) (kt vt : Ty) (isPtr : Bool) : Nat × Mem :=
  let k := m.alloc kt.size
  let v := k.2.alloc (strideOf vt isPtr)
  (v.1, (v.2.write k.1 (m.read key kt.size)).setElems a (m.elems a ++ [(k.1, v.1)]))

/-- The loop of `ParserDictionary`, SerialiseJSON.cpp:482-504.  `key_data` (485) is 128 bytes of stack memory that
hold whatever they hold. -/
def dictLoop (e : Env) (pv : ValueParser) (po : ObjectParser) (kt vt : Ty) (isPtr : Bool) (a : Nat) :
    Nat → St → Out St
  | 0, _ => .fuel
  | n + 1, s =>
    if s.t.isValid && s.t.type != .rbrace then
      if kt.size < 128 then do
        let key := s.m.alloc 128
        let s ← pv { s with m := key.2 } (some (kt, key.1)) false none
        let r ← expect e s .colon
        if !r.1.isValid then .ok r.2
        else do
          let v := addKey r.2.m a key.1 kt vt isPtr
          let s ← po { r.2 with m := v.2 } (some (vt, v.1))
          let r ← expect e s .rbrace
          if r.2.t.type = .comma then do
            let s ← nextTok e r.2
            dictLoop e pv po kt vt isPtr a n s
          else dictLoop e pv po kt vt isPtr a n r.2
      else .trap
    else .ok s

/-- `ParserDictionary`, SerialiseJSON.cpp:474-505: `m_KeyType` is null for a container without keys and is
dereferenced when the loop is entered. -/
def parseDict (e : Env) (pv : ValueParser) (po : ObjectParser) (n : Nat) (s : St) (ty : Ty) (a : Nat) :
    Out St :=
  match ty with
  | .dict _ _ kt vt p => dictLoop e pv po kt vt p a n { s with m := s.m.setElems a [] }
  | _ => if s.t.isValid && s.t.type != .rbrace then .ub else .ok { s with m := s.m.setElems a [] }

/-- Whether `type->ci` is set. -/
def Ty.isContainer : Ty → Bool
  | .vec .. => true
  | .dict .. => true
  | _ => false

/-- `transient` in `ParserValue`, SerialiseJSON.cpp:332, 353, and the null type that line 364 tests: what an
object is parsed into. -/
def objectTarget (e : Env) (tgt : Target) : Target :=
  match tgt with
  | some (.cls h s fl fs bs, a) => if e.skips fl then none else some (.cls h s fl fs bs, a)
  | t => t

mutual
/-- `ParserObject`, SerialiseJSON.cpp:507-550. -/
def parseObject (e : Env) : Nat → St → Target → Out St
  | 0, _, _ => .fuel
  | n + 1, s, tgt => do
    let r ← expect e s .lbrace
    if !r.1.isValid then .ok r.2
    else if r.2.t.type = .rbrace then .ok r.2
    else
      match tgt with
      | some (ty, a) =>
        if ty.isContainer then parseDict e (parseValue e n) (parseObject e n) (n + 1) r.2 ty a
        else parseMembers e (parseValue e n) (n + 1) r.2 tgt
      | none => parseMembers e (parseValue e n) (n + 1) r.2 none

/-- `ParserValue`, SerialiseJSON.cpp:329-391. -/
def parseValue (e : Env) : Nat → ValueParser
  | 0, _, _, _, _ => .fuel
  | n + 1, s, tgt, isPtr, arr =>
    match s.t.type with
    | .string => do
      let r ← expect e s .string
      .ok { r.2 with m := loadString r.2.m r.1 tgt }
    | .integer => do
      let r ← expect e s .integer
      .ok { r.2 with m := loadInteger e r.2.m r.1 (int64Of r.1.bits) tgt isPtr }
    | .decimal => do
      let r ← expect e s .decimal
      let m ← loadDecimal e r.2.m r.1 tgt
      .ok { r.2 with m := m }
    | .lbrace => do
      let s ← parseObject e n s (objectTarget e tgt)
      let r ← expect e s .rbrace
      .ok r.2
    | .lbracket => parseArray e (parseValue e n) (n + 1) s tgt isPtr arr
    | .true => do
      let r ← expect e s .true
      .ok { r.2 with m := loadInteger e r.2.m r.1 1 tgt isPtr }
    | .false => do
      let r ← expect e s .false
      .ok { r.2 with m := loadInteger e r.2.m r.1 0 tgt isPtr }
    | .null => do
      let r ← expect e s .null
      .ok { r.2 with m := loadInteger e r.2.m r.1 0 tgt isPtr }
    | _ => .ok { s with c := s.c.setError .unexpectedToken }
end

/-- Steps that suffice for a text of this length. -/
def fuelFor (text : Bytes) : Nat := 2 * text.length + 4

/-- `LoadJSON` of an object, SerialiseJSON.cpp:553-560: the error and the memory afterwards. -/
def loadJSON (e : Env) (text : Bytes) (m : Mem) (ty : Ty) (a : Nat) : Out (Err × Mem) := do
  let s ← nextTok e { t := {}, c := { rest := text }, m := m }
  let s ← parseObject e (fuelFor text) s (some (ty, a))
  .ok (s.c.err, s.m)

end Clr.JSON
