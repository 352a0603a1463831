import Verif.Model.ScanTypes
import Verif.Props.FileUtils

/-!
What the declared types of C++ mean, independently of how clscan reads them: the specification for C66 to C68.
-/
namespace Clr.ScanTypes
open Clr.FileUtils (OccursAt)
open Clr.Hash (Op)

/-- A type that is neither a typedef or such, nor `const`. -/
def Bare : CType → Prop
  | .alias _ => False
  | .const _ => False
  | _ => True

/-- `Means t c b`: the type `t` is, by way of any typedefs, the type `b`, and it is `const` if `c`. -/
inductive Means : CType → Bool → CType → Prop where
  | self {b : CType} : Bare b → Means b false b
  | alias {t b : CType} {c : Bool} : Means t c b → Means (.alias t) c b
  | const {t b : CType} {c : Bool} : Means t c b → Means (.const t) true b

/-- `Points t op c b`: the type `t` is `b` itself, or a pointer or a reference to it, and the `b` is `const` if `c`. -/
inductive Points : CType → Op → Bool → CType → Prop where
  | value {t b : CType} {c : Bool} : Means t c b → Points t .value c b
  | pointer {t u b : CType} {c c' : Bool} : Means t c' (.pointer u) → Means u c b → Points t .pointer c b
  | reference {t u b : CType} {c c' : Bool} : Means t c' (.lref u) → Means u c b → Points t .reference c b

/-- What is put between the arguments, and behind those that are pointers. -/
def listing : List (Bytes × Bool) → Bytes
  | [] => []
  | [(x, p)] => x ++ (if p then b!"*" else [])
  | (x, p) :: rest => x ++ (if p then b!"*" else []) ++ b!"," ++ listing rest

/-- The parts of a text that are taken out of type names. -/
def patterns : List Bytes := [b!"enum ", b!"struct ", b!"class ", b!" *", b!" &"]

/-- A name of a built-in type: none of those is in it, and it has no space at its end. -/
def Plain (s : Bytes) : Prop := (∀ p ∈ patterns, ∀ i, ¬ OccursAt p s i) ∧ ∀ a, s ≠ a ++ [32]

/-- What clang may print before an enum. -/
def enumKeywords : List Bytes := [[], b!"enum "]

/-- What clang may print before a class. -/
def classKeywords : List Bytes := [[], b!"struct ", b!"class "]

mutual
/-- `HasName env b x`: the type `b` is known as `x`. -/
inductive HasName (env : Env) : CType → Bytes → Prop where
  | builtin {n : Bytes} : HasName env (.builtin n) n
  | enum {k n : Bytes} : HasName env (.enum k n) n
  | record {k n : Bytes} : HasName env (.record k n) n
  | inst {id : Nat} {xs : List (Bytes × Bool)} : ArgNames env (env id).args xs →
      HasName env (.inst id) ((env id).tname ++ b!"<" ++ listing xs ++ b!">")
  | spec {id : Nat} {x : Bytes} : HasName env (.inst id) x → HasName env (.spec id) x

/-- `ArgNames env args xs`: the arguments are types, with the names in `xs`, or pointers to them as said there. -/
inductive ArgNames (env : Env) : List Arg → List (Bytes × Bool) → Prop where
  | nil : ArgNames env [] []
  | value {t b : CType} {c : Bool} {x : Bytes} {r : List Arg} {xs : List (Bytes × Bool)} : Points t .value c b → HasName env b x →
      ArgNames env r xs → ArgNames env (.type t :: r) ((x, false) :: xs)
  | pointer {t b : CType} {c : Bool} {x : Bytes} {r : List Arg} {xs : List (Bytes × Bool)} : Points t .pointer c b → HasName env b x →
      ArgNames env r xs → ArgNames env (.type t :: r) ((x, true) :: xs)
end

/-- `Declares env t i`: a thing declared with the type `t` is described by `i`: the name of the type, whether it is a pointer or
reference, whether what is held or pointed to is `const`, and the number of elements, zero unless it is an array. -/
inductive Declares (env : Env) : CType → PInfo → Prop where
  | single {t b : CType} {op : Op} {c : Bool} {x : Bytes} : Points t op c b → HasName env b x → Declares env t ⟨x, op, c, 0⟩
  | array {t b : CType} {op : Op} {c : Bool} {x : Bytes} {n : Nat} : 0 < n → n < 2 ^ 32 → Points t op c b → HasName env b x →
      Declares env (.array n t) ⟨x, op, c, n⟩

/-- The names in a type are what they can be: those of built-in types plain, those of classes and enums without spaces; arrays have
elements, and `const` is not said of arrays, but of their elements. -/
def WellNamed : CType → Prop
  | .builtin n => Plain n
  | .enum k n => k ∈ enumKeywords ∧ (32 : UInt8) ∉ n
  | .record k n => k ∈ classKeywords ∧ (32 : UInt8) ∉ n
  | .const (.array _ _) => False
  | .alias t => WellNamed t
  | .const t => WellNamed t
  | .pointer t => WellNamed t
  | .lref t => WellNamed t
  | .rref t => WellNamed t
  | .array n t => 0 < n ∧ WellNamed t
  | _ => True

/-- A class: one that is not an instance of a template, or the instance with a given number. -/
inductive IsClass : CType → Prop where
  | record {k n : Bytes} : IsClass (.record k n)
  | inst {id : Nat} : IsClass (.inst id)
  | spec {id : Nat} : IsClass (.spec id)

/-- `IsInstance b id`: the type `b` is the instance `id`. -/
inductive IsInstance : CType → Nat → Prop where
  | inst {id : Nat} : IsInstance (.inst id) id
  | spec {id : Nat} : IsInstance (.spec id) id

/-- The same of all instances of templates, which are all declared; and base classes are classes. -/
structure WellNamedEnv (env : Env) : Prop where
  tname : ∀ id, (32 : UInt8) ∉ (env id).tname
  declared : ∀ id, (env id).declared = true
  args : ∀ id t, .type t ∈ (env id).args → WellNamed t
  bases : ∀ id b, b ∈ (env id).bases → WellNamed b.type ∧ ∃ c u, Means b.type c u ∧ IsClass u

/-- The names of the recorded instances of templates. -/
def Db.typeNames (db : Db) : List Bytes := db.templateTypes.map TemplateType.name

/-- `Describes env db e id`: the entry `e` says of the instance `id` what there is to say: its name, its template, its size and its
arguments; the arguments that are instances themselves are in the database too, and so are its base classes. -/
structure Describes (env : Env) (db : Db) (e : TemplateType) (id : Nat) : Prop where
  name : HasName env (.inst id) e.name
  parent : e.parent = (env id).tname
  size : e.size = (env id).size
  params : ArgNames env (env id).args e.params
  args : ∀ t op c b id', .type t ∈ (env id).args → Points t op c b → IsInstance b id' →
    ∃ x, HasName env (.inst id') x ∧ x ∈ db.typeNames
  bases : ∀ b, b ∈ (env id).bases → b.virt = false ∧ ∃ c u x, Means b.type c u ∧ HasName env u x ∧ (e.name, x) ∈ db.inherits ∧
    ∀ id', IsInstance u id' → x ∈ db.typeNames

/-- Every recorded instance of a template is described. -/
def GoodDb (env : Env) (db : Db) : Prop := ∀ e ∈ db.templateTypes, ∃ id, Describes env db e id

/-- `Grows db db'`: from `db` to `db'` there were only added instances of templates, and inheritance relations. -/
structure Grows (db db' : Db) : Prop where
  templateTypes : db.templateTypes <+: db'.templateTypes
  inherits : db.inherits <+: db'.inherits
  containers : db'.containers = db.containers
  functions : db'.functions = db.functions
  fields : db'.fields = db.fields
  enums : db'.enums = db.enums
  constants : db'.constants = db.constants

/-- A type that can be recorded, given which instances can. -/
def CanName (inst : Nat → Prop) : CType → Prop
  | .builtin _ => True
  | .enum _ _ => True
  | .record _ _ => True
  | .inst id => inst id
  | .spec id => inst id
  | _ => False

/-- An instance that can be recorded, with other instances in it nested to a depth less than `n`: it has at most three arguments, that are
types or pointers to types that can be recorded, and its base classes are not virtual and can be recorded. -/
def CanRecord (env : Env) : Nat → Nat → Prop
  | 0, _ => False
  | n + 1, id => (env id).args.length ≤ 3 ∧
      (∀ a ∈ (env id).args, ∃ t op c b, a = .type t ∧ Points t op c b ∧ op ≠ .reference ∧ CanName (CanRecord env n) b) ∧
      ∀ b ∈ (env id).bases, b.virt = false ∧ ∃ c u, Means b.type c u ∧ CanName (CanRecord env n) u

/-- `In env id' id`: the instance `id'` is an argument of `id`, or pointed to by one, or a base class of it. -/
inductive In (env : Env) (id' id : Nat) : Prop where
  | arg {t b : CType} {op : Op} {c : Bool} : .type t ∈ (env id).args → Points t op c b → IsInstance b id' → In env id' id
  | arrayArg {t b : CType} {op : Op} {c : Bool} {n : Nat} : .type (.array n t) ∈ (env id).args → Points t op c b → IsInstance b id' →
      In env id' id
  | base {b : Base} {u : CType} {c : Bool} : b ∈ (env id).bases → Means b.type c u → IsInstance u id' → In env id' id

/-- No instance is in itself, at any depth: each has a rank, and those in it have a smaller one. -/
def Ranked (env : Env) (rank : Nat → Nat) : Prop := ∀ id' id, In env id' id → rank id' < rank id

/-- No two instances are known by the same name. -/
def DistinctNames (env : Env) : Prop := ∀ i j x, HasName env (.inst i) x → HasName env (.inst j) x → i = j

/-! ### Fields, functions and members -/

/-- `FieldFor env t name parent offset uid f`: the entry `f` describes something with the type, name, parent and so on. -/
def FieldFor (env : Env) (t : CType) (name parent : Bytes) (offset : Int) (uid : BitVec 32) (f : Field) : Prop :=
  ∃ i, Declares env t i ∧ f = ⟨name, parent, i.name, i.op, i.isConst, offset, uid⟩

/-- The names of parameters: those without one are called `unnamed` and their number. -/
def NameOf (p : ParamDecl) (k : Nat) (x : Bytes) : Prop :=
  (p.name ≠ [] ∧ x = p.name) ∨ (p.name = [] ∧ x = b!"unnamed" ++ FileUtils.itoa (UInt32.ofNat k))

/-- `ParamsFor env fn uid k ps fs`: the entries `fs` describe the parameters `ps` of the function `fn`, in order and numbered from `k`. -/
inductive ParamsFor (env : Env) (fn : Bytes) (uid : BitVec 32) : Nat → List ParamDecl → List Field → Prop where
  | nil {k : Nat} : ParamsFor env fn uid k [] []
  | cons {k : Nat} {p : ParamDecl} {ps : List ParamDecl} {x : Bytes} {f : Field} {fs : List Field} : NameOf p k x →
      FieldFor env p.type x fn k uid f → ParamsFor env fn uid (k + 1) ps fs → ParamsFor env fn uid k (p :: ps) (f :: fs)

/-- The types that can be recorded, with instances nested to a depth less than `n`: what can be named, pointers and references to it, and
arrays of these. -/
def Supported (env : Env) (n : Nat) (t : CType) : Prop :=
  (∃ op c b, Points t op c b ∧ CanName (CanRecord env n) b) ∨
    ∃ m u op c b, t = .array m u ∧ 0 < m ∧ m < 2 ^ 32 ∧ Points u op c b ∧ CanName (CanRecord env n) b

/-- A field in a class: its name, its type, and where it begins, in bits. -/
abbrev Place := Bytes × CType × Nat

mutual
/-- The fields of a member in order, `off` bits into the class. -/
def Member.places (off : Nat) : Member → List Place
  | .field name t bits => [(name, t, off + bits)]
  | .anon bits ms => ms.places (off + bits)

/-- The fields of the members. -/
def Members.places (off : Nat) : Members → List Place
  | .nil => []
  | .cons m r => m.places off ++ r.places off
end

mutual
/-- The fields of a member, with where they begin in the struct they are declared in. -/
def Member.ownPlaces : Member → List Place
  | .field name t bits => [(name, t, bits)]
  | .anon _ ms => ms.ownPlaces

/-- The fields of the members, with where they begin in the struct they are declared in. -/
def Members.ownPlaces : Members → List Place
  | .nil => []
  | .cons m r => m.ownPlaces ++ r.ownPlaces
end

/-- `FieldsFor env n parent ps fs`: the entries `fs` describe the fields `ps` in order, all but those with types that can not be recorded
with instances nested to a depth less than `n`. -/
inductive FieldsFor (env : Env) (n : Nat) (parent : Bytes) : List Place → List Field → Prop where
  | nil : FieldsFor env n parent [] []
  | keep {name : Bytes} {t : CType} {bits : Nat} {f : Field} {ps : List Place} {fs : List Field} :
      FieldFor env t name parent ((bits / 8 : Nat) : Int) 0#32 f → FieldsFor env n parent ps fs →
      FieldsFor env n parent ((name, t, bits) :: ps) (f :: fs)
  | skip {name : Bytes} {t : CType} {bits : Nat} {ps : List Place} {fs : List Field} : ¬ Supported env n t → FieldsFor env n parent ps fs →
      FieldsFor env n parent ((name, t, bits) :: ps) fs

mutual
/-- All types of fields are well named. -/
def Member.wellNamed : Member → Prop
  | .field _ t _ => WellNamed t
  | .anon _ ms => ms.wellNamed

/-- All types of fields are well named. -/
def Members.wellNamed : Members → Prop
  | .nil => True
  | .cons m r => m.wellNamed ∧ r.wellNamed
end

mutual
/-- Anonymous structs and unions are all at the beginning of what they are in. -/
def Member.atStart : Member → Prop
  | .field _ _ _ => True
  | .anon bits ms => bits = 0 ∧ ms.atStart

/-- Anonymous structs and unions are all at the beginning of what they are in. -/
def Members.atStart : Members → Prop
  | .nil => True
  | .cons m r => m.atStart ∧ r.atStart
end

end Clr.ScanTypes
