import Verif.Model.CodeGenSpec
import Verif.Model.CodeGenTypes

/-!
Specification of the generated `GetType` and its likes: what a compiler makes of the lines, and what is expected of them.
-/
namespace Clr.Gen

/-- The text behind a beginning. -/
def behind : Bytes → Bytes → Option Bytes
  | [], t => some t
  | a :: p, b :: t => if a = b then behind p t else none
  | _ :: _, [] => none

/-- A decimal number at the beginning of a text, and what is behind it. -/
def decimal (t : Bytes) : Option (Nat × Bytes) :=
  let ds := t.takeWhile fun c => 48 ≤ c && c ≤ 57
  if ds = [] then none else some (ds.foldl (fun a c => a * 10 + (c.toNat - 48)) 0, t.drop ds.length)

/-- A hexadecimal number at the beginning of a text, and what is behind it. -/
def hexadecimal (t : Bytes) : Option (Nat × Bytes) :=
  let ds := t.takeWhile isHex
  if ds = [] then none else some (ds.foldl (fun a c => a * 16 + hexVal c) 0, t.drop ds.length)

/-- The template argument in `NAME >() ...`, and what is behind the blank. -/
def argument (t : Bytes) : Option (Bytes × Bytes) :=
  let a := t.takeWhile (· != 40)
  if a.drop (a.length - 2) = b!" >" then some (a.take (a.length - 2), t.drop a.length) else none

/-- The statements that matter. -/
inductive Stmt where
  /-- `static const int clcppNbTypes = n;` -/
  | size (n : Nat)
  /-- `clcppTypePtrs[i] = db->GetType(hash);` in a block in a function -/
  | assign (i hash : Nat)
  /-- `template <> const Type* GetType< name >() { return clcppTypePtrs[i]; }` in the namespace `clcpp` -/
  | getType (name : Bytes) (i : Nat) (guarded : Bool)
  /-- `template <> unsigned int GetTypeNameHash< name >() { return hash; }` in the namespace `clcpp` -/
  | getHash (name : Bytes) (hash : Nat) (guarded : Bool)
  /-- `template <> constexpr unsigned int clcppTypeHash< name >() { return hash; }` in no namespace -/
  | typeHash (name : Bytes) (hash : Nat) (guarded : Bool)
deriving DecidableEq, Repr

def sizeOf (d : Decl) : Option Stmt := do
  let r ← behind b!"static const int clcppNbTypes = " d.text
  let (n, r) ← decimal r
  if r = b!";" ∧ d.path = [] then some (.size n) else none

def assignOf (d : Decl) : Option Stmt := do
  let r ← behind b!"clcppTypePtrs[" d.text
  let (i, r) ← decimal r
  let r ← behind b!"] = db->GetType(0x" r
  let (h, r) ← hexadecimal r
  if r = b!");" ∧ d.path = [[], []] then some (.assign i h) else none

def getTypeOf (d : Decl) : Option Stmt := do
  let r ← behind b!"template <> const Type* GetType< " d.text
  let (name, r) ← argument r
  let r ← behind b!"() { return clcppTypePtrs[" r
  let (i, r) ← decimal r
  if r = b!"]; }" ∧ d.path = [b!"clcpp"] then some (.getType name i d.guarded) else none

def getHashOf (d : Decl) : Option Stmt := do
  let r ← behind b!"template <> unsigned int GetTypeNameHash< " d.text
  let (name, r) ← argument r
  let r ← behind b!"() { return 0x" r
  let (h, r) ← hexadecimal r
  if r = b!"; }" ∧ d.path = [b!"clcpp"] then some (.getHash name h d.guarded) else none

def typeHashOf (d : Decl) : Option Stmt := do
  let r ← behind b!"template <> constexpr unsigned int clcppTypeHash< " d.text
  let (name, r) ← argument r
  let r ← behind b!"() { return 0x" r
  let (h, r) ← hexadecimal r
  if r = b!"; }" ∧ d.path = [] then some (.typeHash name h d.guarded) else none

/-- The statement in a line, if it is one of those. -/
def stmtOf (d : Decl) : Option Stmt := sizeOf d <|> assignOf d <|> getTypeOf d <|> getHashOf d <|> typeHashOf d

/-- The statements in generated lines. -/
def stmts (ls : List Bytes) : List Stmt := (read [] [] false ls).declared.filterMap stmtOf

/-- What is assigned to the element `i`. -/
def Stmt.assigned (i : Nat) : Stmt → Option Nat
  | .assign j h => if j = i then some h else none
  | _ => none

/-- What is asked of the database for an element of the array: the last assignment counts. -/
def element (ss : List Stmt) (i : Nat) : Option Nat := (ss.filterMap (Stmt.assigned i)).getLast?

/-- A specialisation of `GetType`, for the given elements of the array. -/
def Stmt.typeOf (f : Nat → Option Nat) : Stmt → Option (Bytes × Option Nat × Bool)
  | .getType n i g => some (n, f i, g)
  | _ => none

/-- A specialisation of `GetTypeNameHash`. -/
def Stmt.nameHash : Stmt → Option (Bytes × Option Nat × Bool)
  | .getHash n h g => some (n, some h, g)
  | _ => none

/-- A specialisation of `clcppTypeHash`. -/
def Stmt.constHash : Stmt → Option (Bytes × Option Nat × Bool)
  | .typeHash n h g => some (n, some h, g)
  | _ => none

/-- The specialisations of `GetType`, with the hash whose type they return. -/
def getTypesIn (ss : List Stmt) : List (Bytes × Option Nat × Bool) := ss.filterMap (Stmt.typeOf (element ss))

/-- The specialisations of `GetTypeNameHash`. -/
def getHashesIn (ss : List Stmt) : List (Bytes × Option Nat × Bool) := ss.filterMap Stmt.nameHash

/-- The specialisations of `clcppTypeHash`. -/
def typeHashesIn (ss : List Stmt) : List (Bytes × Option Nat × Bool) := ss.filterMap Stmt.constHash

/-- How a type is named anywhere. -/
def qualified (text : Bytes) : Bytes := if scopeOf text = [] then b!"::" ++ text else text

/-- The types for which there is to be a specialisation, with their hashes: built-in types, and the classes and enums that are not inside a
class; enums that are not scoped only with one compiler. -/
def symbols (db : Db) : List (Bytes × Option Nat × Bool) :=
  (db.classes.filter fun c => inNamespace db c.parent).map (fun c => (qualified c.text, some c.hash.toNat, false)) ++
  (db.enums.filter fun e => inNamespace db e.parent).map (fun e => (qualified e.text, some e.hash.toNat, e.scope == .none)) ++
  db.types.map fun t => (t.text, some t.hash.toNat, false)

/-- Names that are not too long for a line, and have no bracket in them. -/
def Short (text : Bytes) : Prop := 40 ∉ text ∧ text.length ≤ 430

/-- Databases for which the generated specialisations are right. -/
structure Listed (db : Db) : Prop where
  spelled : Spelled db
  classes : ∀ c ∈ db.classes, Short c.text
  enums : ∀ e ∈ db.enums, Short e.text
  types : ∀ t ∈ db.types, Short t.text
  few : db.classes.length + db.enums.length + db.types.length < 10 ^ 9

end Clr.Gen
