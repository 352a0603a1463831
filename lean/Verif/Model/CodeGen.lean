import Verif.Model.Hash

/-!
Code generation, src/clReflectMerge/CodeGen.cpp.

Simplifications:
* of the database, only what is read is kept: `DBMap`s are lists in the order of iteration (by hash);
* the vector `namespaces` of a namespace holds pointers to the namespaces whose parent it is, in the order of the map.  A
  namespace has one parent, so the pointers form a tree below the global namespace and each namespace is visited once:
  the vectors before and after `RemoveEmptyNamespaces` are computed where they are used;
* no namespace has the hash 0;
* generated text is a list of lines without their `"\r\n"`.
-/
namespace Clr.Gen

/-- `cldb::Namespace`. -/
structure Ns where
  hash : BitVec 32
  text : Bytes
  parent : BitVec 32
deriving DecidableEq, Repr

/-- `cldb::Class`. -/
structure Cls where
  hash : BitVec 32
  text : Bytes
  parent : BitVec 32
  isClass : Bool
deriving DecidableEq, Repr

/-- `cldb::Enum::Scoped`. -/
inductive Scoped where
  | none | cls | struct
deriving DecidableEq, Repr

/-- `cldb::Enum`. -/
structure En where
  hash : BitVec 32
  text : Bytes
  parent : BitVec 32
  scope : Scoped
deriving DecidableEq, Repr

/-- `cldb::Type`. -/
structure Native where
  hash : BitVec 32
  text : Bytes
deriving DecidableEq, Repr

/-- What is read of the database. -/
structure Db where
  namespaces : List Ns := []
  classes : List Cls := []
  enums : List En := []
  types : List Native := []
deriving DecidableEq, Repr

/-- `PrimType`, CodeGen.cpp:156-164. -/
inductive PrimType where
  | type | cls | struct | enum | enumCls | enumStruct
deriving DecidableEq, Repr

/-- `Primitive`, CodeGen.cpp:165-178. -/
structure Prim where
  text : Bytes
  hash : BitVec 32
  parent : BitVec 32
  type : PrimType
deriving DecidableEq, Repr

/-- What is before and behind the last `::`, CodeGen.cpp:113-126. -/
def lastScope : Bytes → Option (Bytes × Bytes)
  | [] => none
  | c :: cs =>
    match lastScope cs with
    | some (a, b) => some (c :: a, b)
    | none => if c = 58 ∧ cs.head? = some 58 then some ([], cs.tail) else none

/-- `UnscopeName`, CodeGen.cpp:132-135. -/
def unscope (text : Bytes) : Bytes :=
  match lastScope text with
  | some (_, b) => b
  | none => text

/-- `CodeGen::Line`, CodeGen.cpp:19-38: the formatted text is cut to the 511 characters of the buffer. -/
def line (indent : Nat) (text : Bytes) : Bytes := List.replicate indent 9 ++ text.take 511

/-- `namespaces[db_ns.name.hash] = ns`, CodeGen.cpp:209. -/
def put (m : List Ns) (n : Ns) : List Ns :=
  if m.any (fun x => x.hash == n.hash) then m.map (fun x => if x.hash == n.hash then n else x) else m ++ [n]

/-- The first loop of `BuildNamespaces`, CodeGen.cpp:203-210: the map. -/
def buildMap (db : Db) : List Ns := db.namespaces.foldl put []

/-- `namespaces.find(hash) != namespaces.end()`, in the map with the global namespace. -/
def known (m : List Ns) (hash : BitVec 32) : Bool := hash == 0#32 || m.any (fun n => n.hash == hash)

/-- The vector `namespaces` of a namespace, CodeGen.cpp:213-229. -/
def children (m : List Ns) (hash : BitVec 32) : List Ns := m.filter (fun n => n.parent == hash)

/-- The first loop of `BuildNamespaceContents`, CodeGen.cpp:237-251. -/
def classPrims (m : List Ns) (db : Db) : List Prim :=
  (db.classes.filter fun c => known m c.parent).map fun c => ⟨c.text, c.hash, c.parent, if c.isClass then .cls else .struct⟩

/-- The type for an enum, CodeGen.cpp:267-281. -/
def enumType : Scoped → PrimType
  | .none => .enum
  | .cls => .enumCls
  | .struct => .enumStruct

/-- The second loop of `BuildNamespaceContents`, CodeGen.cpp:255-286. -/
def enumPrims (m : List Ns) (db : Db) : List Prim :=
  (db.enums.filter fun e => known m e.parent).map fun e => ⟨e.text, e.hash, e.parent, enumType e.scope⟩

/-- The third loop of `BuildNamespaceContents`, CodeGen.cpp:289-300. -/
def typePrims (db : Db) : List Prim := db.types.map fun t => ⟨t.text, t.hash, 0, .type⟩

/-- The vector `primitives`, CodeGen.cpp:233-301. -/
def primitives (m : List Ns) (db : Db) : List Prim := classPrims m db ++ enumPrims m db ++ typePrims db

/-- The vector `classes` of a namespace: classes, then scoped enums. -/
def classesOf (m : List Ns) (db : Db) (hash : BitVec 32) : List Prim :=
  (classPrims m db).filter (fun p => p.parent == hash) ++
    (enumPrims m db).filter (fun p => p.parent == hash && p.type != .enum)

/-- The vector `enums` of a namespace. -/
def enumsOf (m : List Ns) (db : Db) (hash : BitVec 32) : List Prim :=
  (enumPrims m db).filter (fun p => p.parent == hash && p.type == .enum)

/-- `nb_primitives` of a namespace other than the global one. -/
def nbPrimitives (m : List Ns) (db : Db) (hash : BitVec 32) : Nat := (classesOf m db hash).length + (enumsOf m db hash).length

/-- The loop of `RemoveEmptyNamespaces`, CodeGen.cpp:307-323, over the vector from index `i`: an element to be removed is replaced by
the last one, which is popped.  Every round makes the vector shorter or `i` greater. -/
def pruneLoop (empty : Ns → Bool) : Nat → Nat → List Ns → List Ns
  | 0, _, v => v
  | n + 1, i, v =>
    match v[i]? with
    | none => v
    | some child =>
      if empty child then
        match v.getLast? with
        | none => v
        | some last => pruneLoop empty n i ((v.set i last).dropLast)
      else pruneLoop empty n (i + 1) v

/-- `RemoveEmptyNamespaces`, CodeGen.cpp:304-324: the vector `namespaces` that remains of a namespace; to the given depth. -/
def remaining (m : List Ns) (db : Db) : Nat → BitVec 32 → List Ns
  | 0, _ => []
  | n + 1, hash =>
    let v := children m hash
    pruneLoop (fun c => (remaining m db n c.hash).isEmpty && nbPrimitives m db c.hash == 0) (v.length + 1) 0 v

/-- The word a declaration begins with, CodeGen.cpp:346-373; native types are not in the vectors. -/
def keyword : PrimType → Bytes
  | .cls => b!"class "
  | .struct => b!"struct "
  | .enum => b!"enum "
  | .enumCls => b!"enum class "
  | .enumStruct => b!"enum struct "
  | .type => []

/-- The declaration of a primitive. -/
def declaration (p : Prim) : Bytes := keyword p.type ++ unscope p.text ++ b!";"

/-- What `GenNamespaceForwardDeclare` writes behind the nested namespaces, CodeGen.cpp:343-376. -/
def contents (m : List Ns) (db : Db) (hash : BitVec 32) (indent : Nat) : List Bytes :=
  (if (enumsOf m db hash).isEmpty then []
   else [line indent b!"#if defined(CLCPP_USING_MSVC)"] ++ (enumsOf m db hash).map (fun p => line indent (declaration p)) ++
     [line indent b!"#endif"]) ++
  (classesOf m db hash).map fun p => line indent (declaration p)

/-- `GenNamespaceForwardDeclare`, CodeGen.cpp:327-384, for the global namespace (`root`, the only one without a scope) and below;
to the given depth. -/
def declare (m : List Ns) (db : Db) : Nat → BitVec 32 → Nat → List Bytes
  | 0, _, _ => []
  | n + 1, hash, indent =>
    ((remaining m db (n + 1) hash).flatMap fun c =>
      [line indent (b!"namespace " ++ unscope c.text), line indent b!"{"] ++ declare m db n c.hash (indent + 1) ++ [line indent b!"}"]) ++
    contents m db hash indent

/-- More than the greatest depth of namespaces whose names spell their nesting. -/
def depth (db : Db) : Nat := (db.namespaces.map fun n => n.text.length).sum + 2

/-- `ForwardDeclareTypes`, CodeGen.cpp:434-440, after `BuildNamespaces`, `BuildNamespaceContents` and `RemoveEmptyNamespaces` (523-530). -/
def forwardDeclare (db : Db) : List Bytes :=
  [line 0 b!"// Forward declarations for all known types"] ++ declare (buildMap db) db (depth db) 0 0 ++ [line 0 []]

/-! ### Files -/

/-- `%x`. -/
def hexText (n : Nat) : Bytes :=
  if n < 16 then [(if n < 10 then 48 + UInt8.ofNat n else 87 + UInt8.ofNat n)]
  else hexText (n / 16) ++ [(if n % 16 < 10 then 48 + UInt8.ofNat (n % 16) else 87 + UInt8.ofNat (n % 16))]
termination_by n
decreasing_by omega

/-- White space as `scanf` skips it. -/
def isSpace (c : UInt8) : Bool := c == 32 || (9 ≤ c && c ≤ 13)

/-- A hexadecimal digit. -/
def isHex (c : UInt8) : Bool := (48 ≤ c && c ≤ 57) || (65 ≤ c && c ≤ 70) || (97 ≤ c && c ≤ 102)

/-- Its value. -/
def hexVal (c : UInt8) : Nat := if c < 65 then c.toNat - 48 else if c < 97 then c.toNat - 55 else c.toNat - 87

/-- The value of the digits a text begins with. -/
def hexDigits (t : Bytes) : Nat := (t.takeWhile isHex).foldl (fun a c => a * 16 + hexVal c) 0

/-- The digits after an optional `0x`: `none` when there are none. -/
def scanDigits (t : Bytes) : Option Nat :=
  match t with
  | 48 :: x :: c :: r =>
    if (x = 120 ∨ x = 88) ∧ isHex c then some (hexDigits (c :: r)) else some (hexDigits (48 :: x :: c :: r))
  | c :: r => if isHex c then some (hexDigits (c :: r)) else none
  | [] => none

/-- `%x`, as the GNU C library reads it: an `unsigned long` (the greatest one if the number does not fit), negated after a minus,
of which an `unsigned int` keeps the lower half. -/
def scanHex (t : Bytes) : Option (BitVec 32) :=
  let t := t.dropWhile isSpace
  match t with
  | 45 :: r => (scanDigits r).map fun n => BitVec.ofNat 32 (2 ^ 64 - min n (2 ^ 64 - 1))
  | 43 :: r => (scanDigits r).map fun n => BitVec.ofNat 32 (min n (2 ^ 64 - 1))
  | _ => (scanDigits t).map fun n => BitVec.ofNat 32 (min n (2 ^ 64 - 1))

/-- `fscanf(fp, "// %x", ...)`, CodeGen.cpp:453: `none` leaves the variable as it is. -/
def scanHeader : Bytes → Option (BitVec 32)
  | 47 :: 47 :: r => scanHex r
  | _ => none

/-- The text that is written: the hash in front (`PrefixLine`, CodeGen.cpp:48-64). -/
def withHeader (text : Bytes) : Bytes := b!"// " ++ hexText (Hash.hashText text).toNat ++ [13, 10] ++ text

/-- `WriteFile`, CodeGen.cpp:442-463, on a file's contents (`none`: there is no file): what the file is overwritten with, `none` if it
is not touched.  Errors opening the file are not modelled, and generated text has no NUL, so that `GenerateHash` is the hash of
all of it. -/
def writeFile (text : Bytes) (file : Option Bytes) : Option Bytes :=
  let hash := Hash.hashText text
  let existing := match file with
    | some f => (scanHeader f).getD (hash + 1)
    | none => hash + 1
  if existing ≠ hash then some (withHeader text) else none

end Clr.Gen
