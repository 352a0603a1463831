import Verif.Model.ExportLog
import Verif.Props.ExportLinks
/-
C92: the text that clexport writes about a database, said of the database.
-/
namespace Clr.ExportLog
open Clr Clr.Export
attribute [local irreducible] Clr.DB.hashOf

/-! ### Words -/

def tabs (n : Nat) : Bytes := List.replicate n 9

/-- The number that digits stand for. -/
def digitsValue (t : Bytes) : Nat := t.foldl (fun v c => 10 * v + (c.toNat - 48)) 0

/-- `t` is how a natural number is written: digits, the first of which is not a zero unless it is the only one. -/
def Digits (n : Nat) (t : Bytes) : Prop :=
  (∀ c ∈ t, 48 ≤ c.toNat ∧ c.toNat ≤ 57) ∧ digitsValue t = n ∧ t ≠ [] ∧ (t.head? = some 48 → t = [48])

/-- `t` is how an integer is written. -/
def Decimal (i : Int) (t : Bytes) : Prop :=
  (0 ≤ i ∧ Digits i.toNat t) ∨ (i < 0 ∧ ∃ u, t = 45 :: u ∧ Digits (-i).toNat u)

/-- The text of the name with this hash. -/
def wordOf (db : DB.Database) (h : UInt32) : Bytes := ((db.names.find? fun n => n.hash == h).map (·.text)).getD []

/-! ### What there is to list -/

/-- In the order of the hashes of their names. -/
def ByHash (db : DB.Database) (l : List Ref) : Prop :=
  l.Pairwise fun a b => ∀ p q, entry db a = some p → entry db b = some q → p.name.hash ≤ q.name.hash

/-- In the order of their offsets: the fields of a class, the parameters of a function. -/
def ByOffset (db : DB.Database) (l : List Ref) : Prop :=
  l.Pairwise fun a b => ∀ p q, db.fields[a.2]? = some p → db.fields[b.2]? = some q → p.offset.toInt ≤ q.offset.toInt

/-- In the order of their values. -/
def ByValue (db : DB.Database) (l : List Ref) : Prop :=
  l.Pairwise fun a b => ∀ p q, db.enumConstants[a.2]? = some p → db.enumConstants[b.2]? = some q → p.value.toInt ≤ q.value.toInt

/-- `l` holds, once each, the primitives of kind `k` that record `r` as their parent and meet the condition. -/
def Members (db : DB.Database) (r : Ref) (k : K) (keep : Ref → Prop) (l : List Ref) : Prop :=
  l.Nodup ∧ ∀ c, c ∈ l ↔ c.1 = k ∧ Records db c r ∧ keep c

/-- `l` holds, once each, the attributes of `r`. -/
def Attached (db : DB.Database) (r : Ref) (l : List Ref) : Prop :=
  l.Nodup ∧ (∀ a, a ∈ l ↔ AttributeOf db a r) ∧ ByHash db l

/-- `l` holds the primitives of kind `k` that have no parent, in the order of the database. -/
def Outermost (db : DB.Database) (k : K) (l : List Ref) : Prop :=
  (l.Pairwise fun a b => a.2 < b.2) ∧ ∀ c, c ∈ l ↔ c.1 = k ∧ ∃ p, entry db c = some p ∧ p.parent.hash = 0

/-- `c` is the return value of function `r`. -/
def Returns (db : DB.Database) (r : Ref) : Option Ref → Prop
  | some c => c.1 = .field ∧ Records db c r ∧ Named db c b!"return"
  | none => ∀ c : Ref, c.1 = .field → Records db c r → ¬ Named db c b!"return"

/-! ### Lines -/

/-- The value of an attribute, by its kind. -/
inductive ValueText (db : DB.Database) (float : Nat → Bytes) : Ref → Bytes → Prop
  | flag (i : Nat) : ValueText db float (.flagAttr, i) (b!"flag: " ++ nameText db (.flagAttr, i))
  | int (i : Nat) (x : DB.IntAttribute) (t : Bytes) (hx : db.intAttributes[i]? = some x) (ht : Decimal x.value.toInt t) :
      ValueText db float (.intAttr, i) (b!"int: " ++ nameText db (.intAttr, i) ++ b!" = " ++ t)
  | float (i : Nat) (x : DB.FloatAttribute) (hx : db.floatAttributes[i]? = some x) :
      ValueText db float (.floatAttr, i) (b!"float: " ++ nameText db (.floatAttr, i) ++ b!" = " ++ float x.bits.toNat)
  | primitive (i : Nat) (x : DB.PrimitiveAttribute) (hx : db.primitiveAttributes[i]? = some x)
      (hq : ∃ q p, (q.1 ∈ typeKinds ∨ q.1 = .function) ∧ entry db q = some p ∧ p.name.hash = x.value.hash) :
      ValueText db float (.primAttr, i) (b!"primitive: " ++ nameText db (.primAttr, i) ++ b!" = " ++ wordOf db x.value.hash)
  | unresolved (i : Nat) (x : DB.PrimitiveAttribute) (hx : db.primitiveAttributes[i]? = some x)
      (hq : ¬ ∃ q p, (q.1 ∈ typeKinds ∨ q.1 = .function) ∧ entry db q = some p ∧ p.name.hash = x.value.hash) :
      ValueText db float (.primAttr, i) (b!"primitive: " ++ nameText db (.primAttr, i) ++ b!" = <<UNRESOLVED>>")
  | text (i : Nat) (x : DB.TextAttribute) (hx : db.textAttributes[i]? = some x) :
      ValueText db float (.textAttr, i) (b!"text: " ++ nameText db (.textAttr, i) ++ b!" = " ++ x.value)

/-- What stands before the attributes of something and, if there are any, the attributes. -/
def heading (d : Nat) (name : Bytes) (l : List Ref) (t : Bytes) : Bytes :=
  if l = [] then [] else tabs d ++ b!"Attributes for " ++ name ++ tabs d ++ b!"\n" ++ t

/-- The name of a field's type. -/
def TypeText (db : DB.Database) (c : Ref) (t : Bytes) : Prop :=
  (∃ q, HasType db c q ∧ t = nameText db q) ∨ ((∀ q, ¬ HasType db c q) ∧ t = b!"<<UNRESOLVED TYPE>>")

/-- The number of entries of an array. -/
def CountText (db : DB.Database) (c : Ref) (t : Bytes) : Prop :=
  (∃ (i : Nat) (x : DB.ContainerInfo) (u : Bytes), db.containerInfos[i]? = some x ∧ ContainerOf db x.name.hash c ∧
    (∀ (j : Nat) (y : DB.ContainerInfo), i < j → db.containerInfos[j]? = some y → ¬ ContainerOf db y.name.hash c) ∧
    Decimal x.count.toBitVec.toInt u ∧ t = b!"[" ++ u ++ b!"]") ∨
  ((∀ (i : Nat) (x : DB.ContainerInfo), db.containerInfos[i]? = some x → ¬ ContainerOf db x.name.hash c) ∧ t = [])

/-- What stands behind the type of a pointer or a reference. -/
def opWord : DB.QualOp → Bytes
  | .value => []
  | .pointer => b!"*"
  | .reference => b!"&"

/-- A field, a parameter or, without its name, a return value, as it is declared. -/
def FieldText (db : DB.Database) (c : Ref) (named : Bool) (t : Bytes) : Prop :=
  ∃ f ty n, db.fields[c.2]? = some f ∧ TypeText db c ty ∧ CountText db c n ∧
    t = (if f.qualifier.isConst then b!"const " else []) ++ ty ++
      opWord f.qualifier.op ++
      (if named then b!" " ++ nameText db c else []) ++ n

/-- The parameters of a function. -/
inductive FieldTexts (db : DB.Database) : List Ref → List Bytes → Prop
  | nil : FieldTexts db [] []
  | cons (c : Ref) (cs : List Ref) (t : Bytes) (ts : List Bytes) (h : FieldText db c true t) (hs : FieldTexts db cs ts) :
      FieldTexts db (c :: cs) (t :: ts)

def ReturnText (db : DB.Database) : Option Ref → Bytes → Prop
  | some c, t => FieldText db c false t
  | none, t => t = b!"void"

/-- The base types of a class. -/
def basesText (db : DB.Database) : List Ref → Bytes
  | [] => []
  | b :: bs => b!" : public " ++ nameText db b ++ bs.flatMap fun c => b!", public " ++ nameText db c

/-- The record says that type `r` derives from type `q`. -/
def SaysDerived (db : DB.Database) (t : DB.TypeInheritance) (r q : Ref) : Prop :=
  r.1 ∈ typeKinds ∧ q.1 ∈ typeKinds ∧ ∃ pr pq, entry db r = some pr ∧ entry db q = some pq ∧
    t.derived.hash = pr.name.hash ∧ t.base.hash = pq.name.hash

/-- The types that `r` derives from by some records, in their order. -/
inductive Bases (db : DB.Database) (r : Ref) : List DB.TypeInheritance → List Ref → Prop
  | nil : Bases db r [] []
  | yes (t : DB.TypeInheritance) (ts : List DB.TypeInheritance) (q : Ref) (l : List Ref) (h : SaysDerived db t r q)
      (hs : Bases db r ts l) : Bases db r (t :: ts) (q :: l)
  | no (t : DB.TypeInheritance) (ts : List DB.TypeInheritance) (l : List Ref) (h : ∀ q, ¬ SaysDerived db t r q)
      (hs : Bases db r ts l) : Bases db r (t :: ts) l

/-- `l` holds the base types of `r`, in the order of the database. -/
def Derives (db : DB.Database) (r : Ref) (l : List Ref) : Prop := Bases db r db.inheritances l

/-! ### The listing -/

mutual
/-- `t` is what is listed of `r` at indentation `d`. -/
inductive Item (db : DB.Database) (float : Nat → Bytes) : Nat → Ref → Bytes → Prop
  | attribute (d : Nat) (a : Ref) (t : Bytes) (ht : ValueText db float a t) : Item db float d a (tabs d ++ t)
  | field (d : Nat) (i : Nat) (as : List Ref) (u t : Bytes) (ha : Attached db (.field, i) as) (hu : Listing db float (d + 1) as u)
      (ht : FieldText db (.field, i) true t) :
      Item db float d (.field, i) (heading d (nameText db (.field, i)) as u ++ tabs d ++ t ++ b!";")
  | function (d : Nat) (i : Nat) (as : List Ref) (u : Bytes) (ret : Option Ref) (rt : Bytes) (ps : List Ref) (ts : List Bytes)
      (ha : Attached db (.function, i) as) (hu : Listing db float (d + 1) as u)
      (hr : Returns db (.function, i) ret) (hrt : ReturnText db ret rt)
      (hp : Members db (.function, i) .field (fun c => ret ≠ some c) ps) (ho : ByOffset db ps)
      (hts : FieldTexts db ps ts) :
      Item db float d (.function, i) (heading d (nameText db (.function, i)) as u ++ tabs d ++ rt ++ b!" " ++ nameText db (.function, i) ++
        b!"(" ++ List.intercalate b!", " ts ++ b!");")
  | constant (d : Nat) (i : Nat) (x : DB.EnumConstant) (t : Bytes) (hx : db.enumConstants[i]? = some x) (ht : Decimal x.value.toInt t) :
      Item db float d (.constant, i) (tabs d ++ nameText db (.constant, i) ++ b!" = " ++ t ++ b!",")
  | enum (d : Nat) (i : Nat) (as : List Ref) (u : Bytes) (cs : List Ref) (t : Bytes)
      (ha : Attached db (.enum, i) as) (hu : Listing db float (d + 1) as u)
      (hc : Members db (.enum, i) .constant (fun _ => True) cs) (ho : ByValue db cs) (ht : Listing db float (d + 1) cs t) :
      Item db float d (.enum, i) (heading d (nameText db (.enum, i)) as u ++ tabs d ++ b!"enum " ++ nameText db (.enum, i) ++ b!"\n" ++
        tabs d ++ b!"{\n" ++ t ++ tabs d ++ b!"};")
  | instance (d : Nat) (i : Nat) (bs : List Ref) (hb : Derives db (.instance, i) bs) :
      Item db float d (.instance, i) (tabs d ++ b!"class " ++ nameText db (.instance, i) ++ basesText db bs ++ b!"\n")
  | template (d : Nat) (i : Nat) (is : List Ref) (t : Bytes)
      (hi : Members db (.template, i) .instance (fun _ => True) is) (ho : ByHash db is) (ht : Listing db float (d + 1) is t) :
      Item db float d (.template, i) (tabs d ++ b!"template " ++ nameText db (.template, i) ++ b!"\n" ++
        tabs d ++ b!"{\n" ++ t ++ tabs d ++ b!"};")
  | cls (d : Nat) (i : Nat) (as bs cs fs es ms ts : List Ref) (u t1 t2 t3 t4 t5 : Bytes)
      (ha : Attached db (.cls, i) as) (hu : Listing db float (d + 1) as u) (hb : Derives db (.cls, i) bs)
      (h1 : Members db (.cls, i) .cls (fun _ => True) cs ∧ ByHash db cs) (k1 : Listing db float (d + 1) cs t1)
      (h2 : Members db (.cls, i) .field (fun c => ∃ q, HasType db c q) fs ∧ ByOffset db fs) (k2 : Listing db float (d + 1) fs t2)
      (h3 : Members db (.cls, i) .enum (fun _ => True) es ∧ ByHash db es) (k3 : Listing db float (d + 1) es t3)
      (h4 : Members db (.cls, i) .function (GoodFunction db) ms ∧ ByHash db ms) (k4 : Listing db float (d + 1) ms t4)
      (h5 : Members db (.cls, i) .template (fun _ => True) ts ∧ ByHash db ts) (k5 : Listing db float (d + 1) ts t5) :
      Item db float d (.cls, i) (heading d (nameText db (.cls, i)) as u ++ tabs d ++ b!"class " ++ nameText db (.cls, i) ++ basesText db bs ++
        b!"\n" ++ tabs d ++ b!"{\n" ++ (t1 ++ t2 ++ t3 ++ t4 ++ t5) ++ tabs d ++ b!"};")
  | space (d : Nat) (i : Nat) (ns cs es fs ts : List Ref) (t1 t2 t3 t4 t5 : Bytes)
      (h1 : Members db (.space, i) .space (fun _ => True) ns ∧ ByHash db ns) (k1 : Listing db float (d + 1) ns t1)
      (h2 : Members db (.space, i) .cls (fun _ => True) cs ∧ ByHash db cs) (k2 : Listing db float (d + 1) cs t2)
      (h3 : Members db (.space, i) .enum (fun _ => True) es ∧ ByHash db es) (k3 : Listing db float (d + 1) es t3)
      (h4 : Members db (.space, i) .function (GoodFunction db) fs ∧ ByHash db fs) (k4 : Listing db float (d + 1) fs t4)
      (h5 : Members db (.space, i) .template (fun _ => True) ts ∧ ByHash db ts) (k5 : Listing db float (d + 1) ts t5) :
      Item db float d (.space, i) (tabs d ++ b!"namespace " ++ nameText db (.space, i) ++ b!"\n" ++
        tabs d ++ b!"{\n" ++ (t1 ++ t2 ++ t3 ++ t4 ++ t5) ++ tabs d ++ b!"}")
/-- `t` is what is listed of some things, one after the other. -/
inductive Listing (db : DB.Database) (float : Nat → Bytes) : Nat → List Ref → Bytes → Prop
  | nil (d : Nat) : Listing db float d [] []
  | cons (d : Nat) (r : Ref) (rs : List Ref) (t u : Bytes) (h : Item db float d r t) (hs : Listing db float d rs u) :
      Listing db float d (r :: rs) (t ++ (tabs d ++ b!"\n") ++ u)
end

/-- `t` is the listing of the database: everything that has no parent, with what is in it. -/
def Whole (db : DB.Database) (float : Nat → Bytes) (t : Bytes) : Prop :=
  ∃ ns cs es fs ts t1 t2 t3 t4 t5,
    (Outermost db .space ns ∧ Listing db float 0 ns t1) ∧ (Outermost db .cls cs ∧ Listing db float 0 cs t2) ∧
    (Outermost db .enum es ∧ Listing db float 0 es t3) ∧ (Outermost db .function fs ∧ Listing db float 0 fs t4) ∧
    (Outermost db .template ts ∧ Listing db float 0 ts t5) ∧ t = t1 ++ t2 ++ t3 ++ t4 ++ t5

/-! ### What is asked -/

/-- `r` is nested `d` deep. -/
inductive Nested (db : DB.Database) : Nat → Ref → Prop
  | outer (r : Ref) (p : DB.Prim) (hp : entry db r = some p) (h0 : p.parent.hash = 0) : Nested db 0 r
  | inner (d : Nat) (c r : Ref) (h : Records db c r) (hr : Nested db d r) : Nested db (d + 1) c

/-- What the log can print: `std::sort` sorts; nothing is nested more than 126 deep, names and texts have at most 240 characters. -/
structure Printable (db : DB.Database) (P : Printer) : Prop where
  shallow : ∀ d r, Nested db d r → d < 127
  names : ∀ r, (nameText db r).length ≤ 240
  texts : ∀ x ∈ db.textAttributes, x.value.length ≤ 240
  floats : ∀ n, (P.float n).length ≤ 240
  sort : ∀ (key : Ref → Int) (l : List Ref), (P.sort key l).Perm l ∧ (P.sort key l).Pairwise fun a b => key a ≤ key b

end Clr.ExportLog
