import Verif.Model.Database
import Verif.Model.FileUtils
/-
Model of src/clReflectCore/DatabaseTextSerialiser.cpp: writing a database as text, reading it back, and
recognising text databases.

Files are byte lists without newline translation (POSIX text mode). The standard library's `"%f"`
conversions and the compiler-dependent `itoa` are parameters (`Cfg`).
-/
namespace Clr.TextDB
open Clr.DB Clr.FileUtils

/-- What the serialiser takes from the platform. -/
structure Cfg where
  /-- Built with Microsoft's compiler (src/clReflectCore/FileUtils.cpp:51). -/
  msvc : Bool
  /-- `fprintf("%f")` of the float with the given bits (DatabaseTextSerialiser.cpp:192). -/
  printF : UInt32 → Bytes
  /-- `sscanf("%f")` into a variable that holds 0 (DatabaseTextSerialiser.cpp:622-623). -/
  scanF : Bytes → UInt32

/-- `itoa` (src/clReflectCore/FileUtils.cpp:47-57). -/
def Cfg.itoa (cfg : Cfg) (v : UInt32) : Bytes := if cfg.msvc then itoaMSVC v else FileUtils.itoa v

/-- The characters of a byte string up to its first NUL: what `fputs(s.c_str())` writes and what a
`char*` designates. -/
def cstr (s : Bytes) : Bytes := s.takeWhile (· != 0)

/-- The tables of the file. -/
inductive Table where
  | names | types | enumConstants | enums | fields | functions | classes | templates | templateTypes
  | namespaces | flagAttributes | intAttributes | floatAttributes | primitiveAttributes | textAttributes
  | containers | inheritance
deriving DecidableEq, Repr

/-- The title given to `WritePrimitives` (src/clReflectCore/DatabaseTextSerialiser.cpp:257, 282-301). -/
def Table.title : Table → Bytes
  | .names => b!"Names"
  | .types => b!"Types"
  | .enumConstants => b!"Enum Constants"
  | .enums => b!"Enums"
  | .fields => b!"Fields"
  | .functions => b!"Functions"
  | .classes => b!"Classes"
  | .templates => b!"Templates"
  | .templateTypes => b!"Template Types"
  | .namespaces => b!"Namespaces"
  | .flagAttributes => b!"Flag Attributes"
  | .intAttributes => b!"Int Attributes"
  | .floatAttributes => b!"Float Attributes"
  | .primitiveAttributes => b!"Primitive Attributes"
  | .textAttributes => b!"Text Attributes"
  | .containers => b!"Containers"
  | .inheritance => b!"Inheritance"

/-- The column headers (src/clReflectCore/DatabaseTextSerialiser.cpp:257, 282-301). -/
def Table.headers : Table → Bytes
  | .names => b!"Hash\t\tName"
  | .types => b!"Name\t\tParent\t\tSize"
  | .enumConstants => b!"Name\t\tParent\t\tValue"
  | .enums => b!"Name\t\tParent\t\tSize\t\tScoped"
  | .fields => b!"Name\t\tParent\t\tType\t\tMod\tCst\tOffs\tUID"
  | .functions => b!"Name\t\tParent\t\tUID"
  | .classes => b!"Name\t\tParent\t\tSize\t\tBase\t\tIs Class"
  | .templates => b!"Name\t\tParent"
  | .templateTypes => b!"Name\t\tParent\t\tArgument type and pointer pairs"
  | .namespaces => b!"Name\t\tParent"
  | .flagAttributes => b!"Name\t\tParent"
  | .intAttributes => b!"Name\t\tParent\t\tValue"
  | .floatAttributes => b!"Name\t\tParent\t\tValue"
  | .primitiveAttributes => b!"Name\t\tParent\t\tValue"
  | .textAttributes => b!"Name\t\tParent\t\tValue"
  | .containers => b!"Name\t\tRead\t\tWrite\t\tFlags\t\tCount"
  | .inheritance => b!"Name\t\tDerived\t\tBase"

/-! ### Writing -/

/-- `WriteName` (src/clReflectCore/DatabaseTextSerialiser.cpp:66-71). -/
def rowName (n : Name) : Bytes := itohex n.hash ++ [9] ++ cstr n.text

/-- `WritePrimitive` (src/clReflectCore/DatabaseTextSerialiser.cpp:74-79). -/
def rowPrim (p : Prim) : Bytes := itohex p.name.hash ++ [9] ++ itohex p.parent.hash

/-- `WriteType` (src/clReflectCore/DatabaseTextSerialiser.cpp:82-87): the 64-bit size is converted to
`unsigned int` by the call of `itohex`. -/
def rowType (p : Ty) : Bytes := rowPrim p.toPrim ++ [9] ++ itohex p.size.toUInt32

/-- `WriteClass` (src/clReflectCore/DatabaseTextSerialiser.cpp:90-95). -/
def rowClass (p : Class) : Bytes := rowType p.toTy ++ [9] ++ (if p.isClass then b!"\t1" else b!"\t0")

/-- `WriteEnumScoped` (src/clReflectCore/DatabaseTextSerialiser.cpp:97-111). -/
def scopedText : Scoped → Bytes
  | .none => b!"n"
  | .cls => b!"c"
  | .struct => b!"s"

/-- `WriteEnum` (src/clReflectCore/DatabaseTextSerialiser.cpp:113-118). -/
def rowEnum (p : Enum) : Bytes := rowType p.toTy ++ [9] ++ scopedText p.scope

/-- `WriteEnumConstant` (src/clReflectCore/DatabaseTextSerialiser.cpp:120-125). -/
def rowEnumConstant (cfg : Cfg) (p : EnumConstant) : Bytes :=
  rowPrim p.toPrim ++ [9] ++ cfg.itoa p.value.toUInt32

/-- `WriteQualifier` (src/clReflectCore/DatabaseTextSerialiser.cpp:128-138). -/
def qualText (q : Qualifier) : Bytes :=
  (match q.op with
   | .value => b!"v"
   | .pointer => b!"p"
   | .reference => b!"r") ++ (if q.isConst then b!"\t1" else b!"\t0")

/-- `WriteField` (src/clReflectCore/DatabaseTextSerialiser.cpp:141-152). -/
def rowField (cfg : Cfg) (p : Field) : Bytes :=
  rowPrim p.toPrim ++ [9] ++ itohex p.type.hash ++ [9] ++ qualText p.qualifier ++ [9] ++
  cfg.itoa p.offset.toUInt32 ++ b!"\t\t" ++ itohex p.parentUniqueId

/-- `WriteFunction` (src/clReflectCore/DatabaseTextSerialiser.cpp:155-160). -/
def rowFunction (p : Function) : Bytes := rowPrim p.toPrim ++ [9] ++ itohex p.uniqueId

/-- One iteration of the argument loop (src/clReflectCore/DatabaseTextSerialiser.cpp:170-175). -/
def targText (a : TArg) : Bytes :=
  if a.type.hash = 0 then [] else itohex a.type.hash ++ (if a.ptr then b!"\t1" else b!"\t0") ++ [9]

/-- `WriteTemplateType` (src/clReflectCore/DatabaseTextSerialiser.cpp:163-177). -/
def rowTemplateType (p : TemplateType) : Bytes :=
  rowType p.toTy ++ [9] ++ targText p.a0 ++ targText p.a1 ++ targText p.a2 ++ targText p.a3

/-- `WriteIntAttribute` (src/clReflectCore/DatabaseTextSerialiser.cpp:180-185). -/
def rowIntAttribute (cfg : Cfg) (p : IntAttribute) : Bytes :=
  rowPrim p.toPrim ++ [9] ++ cfg.itoa p.value.toUInt32

/-- `WriteFloatAttribute` (src/clReflectCore/DatabaseTextSerialiser.cpp:188-193). -/
def rowFloatAttribute (cfg : Cfg) (p : FloatAttribute) : Bytes := rowPrim p.toPrim ++ [9] ++ cfg.printF p.bits

/-- `WritePrimitiveAttribute` (src/clReflectCore/DatabaseTextSerialiser.cpp:196-201). -/
def rowPrimitiveAttribute (p : PrimitiveAttribute) : Bytes := rowPrim p.toPrim ++ [9] ++ itohex p.value.hash

/-- `WriteTextAttribute` (src/clReflectCore/DatabaseTextSerialiser.cpp:226-231). -/
def rowTextAttribute (p : TextAttribute) : Bytes := rowPrim p.toPrim ++ [9] ++ cstr p.value

/-- `WriteContainerInfo` (src/clReflectCore/DatabaseTextSerialiser.cpp:204-215). -/
def rowContainerInfo (c : ContainerInfo) : Bytes :=
  itohex c.name.hash ++ [9] ++ itohex c.readIterator.hash ++ [9] ++ itohex c.writeIterator.hash ++ [9] ++
  itohex c.flags ++ [9] ++ itohex c.count

/-- `WriteTypeInheritance` (src/clReflectCore/DatabaseTextSerialiser.cpp:217-224). -/
def rowInheritance (t : TypeInheritance) : Bytes :=
  itohex t.name.hash ++ [9] ++ itohex t.derived.hash ++ [9] ++ itohex t.base.hash

/-- The rows of one table: the loops of `WriteTable` and `WriteNameTable`
(src/clReflectCore/DatabaseTextSerialiser.cpp:238-242, 258-262). -/
def rows (cfg : Cfg) (db : Database) : Table → List Bytes
  | .names => db.names.map rowName
  | .types => db.types.map rowType
  | .enumConstants => db.enumConstants.map (rowEnumConstant cfg)
  | .enums => db.enums.map rowEnum
  | .fields => db.fields.map (rowField cfg)
  | .functions => db.functions.map rowFunction
  | .classes => db.classes.map rowClass
  | .templates => db.templates.map (fun p => rowPrim p.toPrim)
  | .templateTypes => db.templateTypes.map rowTemplateType
  | .namespaces => db.namespaces.map (fun p => rowPrim p.toPrim)
  | .flagAttributes => db.flagAttributes.map (fun p => rowPrim p.toPrim)
  | .intAttributes => db.intAttributes.map (rowIntAttribute cfg)
  | .floatAttributes => db.floatAttributes.map (rowFloatAttribute cfg)
  | .primitiveAttributes => db.primitiveAttributes.map rowPrimitiveAttribute
  | .textAttributes => db.textAttributes.map rowTextAttribute
  | .containers => db.containerInfos.map rowContainerInfo
  | .inheritance => db.inheritances.map rowInheritance

/-- `WriteRuler` (src/clReflectCore/DatabaseTextSerialiser.cpp:44-47), without the newline. -/
def ruler : Bytes := b!"-------------------------------------------------------------------------"

/-- `WriteNamedRuler` (src/clReflectCore/DatabaseTextSerialiser.cpp:34-41), without the newline: the text
overwrites the characters from position 5, a space follows. -/
def namedRuler (title : Bytes) : Bytes :=
  b!"---- " ++ title ++ [32] ++
  (b!"---- --------------------------------------------------------------------").drop (6 + title.length)

/-- The lines of one table: `WriteTableHeader`, the rows, `WriteTableFooter`
(src/clReflectCore/DatabaseTextSerialiser.cpp:50-63, 235-264). -/
def tableLines (cfg : Cfg) (db : Database) (t : Table) : List Bytes :=
  [namedRuler t.title, t.headers, ruler] ++ rows cfg db t ++ [ruler, [], []]

/-- The order in which `WriteTextDatabase` writes the tables
(src/clReflectCore/DatabaseTextSerialiser.cpp:279-301). -/
def writeOrder : List Table :=
  [.names, .types, .enumConstants, .enums, .fields, .functions, .classes, .templates, .templateTypes,
   .namespaces, .flagAttributes, .intAttributes, .floatAttributes, .primitiveAttributes, .textAttributes,
   .containers, .inheritance]

/-- All lines of the file. -/
def fileLines (cfg : Cfg) (db : Database) : List Bytes :=
  [[], b!"clReflect Database", b!"Format Version: " ++ cfg.itoa 1, [], []] ++
  writeOrder.flatMap (tableLines cfg db)

/-- `WriteTextDatabase` (src/clReflectCore/DatabaseTextSerialiser.cpp:268-304): the contents of the
file. -/
def writeText (cfg : Cfg) (db : Database) : Bytes := (fileLines cfg db).flatMap (· ++ [10])

/-! ### Reading -/

/-- `strtok(text, d)` on the rest of the text: the token (null pointer: `none`) and the new rest. -/
def strtok (d : UInt8) (text : Bytes) : Option Bytes × Bytes :=
  match text.dropWhile (· == d) with
  | [] => (none, [])
  | t => (some (t.takeWhile (· != d)), (t.dropWhile (· != d)).drop 1)

/-- `StringTokeniser::GetHexInt` (src/clReflectCore/DatabaseTextSerialiser.cpp:330-336). -/
def getHexInt (text : Bytes) : UInt32 × Bytes :=
  match strtok 9 text with
  | (none, r) => (0, r)
  | (some t, r) => (hextoi t, r)

/-- `StringTokeniser::GetInt` (src/clReflectCore/DatabaseTextSerialiser.cpp:337-343). -/
def getInt (d : UInt8) (text : Bytes) : Int32 × Bytes :=
  match strtok d text with
  | (none, r) => (0, r)
  | (some t, r) => (atoi t, r)

/-- `GetNameAndParent` (src/clReflectCore/DatabaseTextSerialiser.cpp:346-350) and the `db.GetName` calls
of the parse functions. -/
def getPrim (names : List Name) (line : Bytes) : Prim × Bytes :=
  let (name, r) := getHexInt line
  let (parent, r) := getHexInt r
  ({ name := getNameByHash names name, parent := getNameByHash names parent }, r)

/-- `ParseName` (src/clReflectCore/DatabaseTextSerialiser.cpp:358-367). -/
def parseName (line : Bytes) (db : Database) : Res Database :=
  let (hash, r) := getHexInt line
  match strtok 9 r with
  | (none, _) => .ok db
  | (some name, _) =>
    if hash = 0 then .ok db else .ok { db with names := assignBy Name.hash ⟨hash, name⟩ db.names }

/-- `ParsePrimitive<Namespace>` (src/clReflectCore/DatabaseTextSerialiser.cpp:370-385). -/
def parseNamespace (line : Bytes) (db : Database) : Res Database := do
  let (p, _) := getPrim db.names line
  let l ← add (fun x : Namespace => x.name.hash) { toPrim := p } db.namespaces
  pure { db with namespaces := l }

/-- `ParsePrimitive<Template>`. -/
def parseTemplate (line : Bytes) (db : Database) : Res Database := do
  let (p, _) := getPrim db.names line
  let l ← add (fun x : Template => x.name.hash) { toPrim := p } db.templates
  pure { db with templates := l }

/-- `ParsePrimitive<FlagAttribute>`. -/
def parseFlagAttribute (line : Bytes) (db : Database) : Res Database := do
  let (p, _) := getPrim db.names line
  let l ← add (fun x : FlagAttribute => x.name.hash) { toPrim := p } db.flagAttributes
  pure { db with flagAttributes := l }

/-- `ParseType` (src/clReflectCore/DatabaseTextSerialiser.cpp:388-406). -/
def parseType (line : Bytes) (db : Database) : Res Database := do
  let (p, r) := getPrim db.names line
  let (size, _) := getHexInt r
  let l ← add (fun x : Ty => x.name.hash) { toPrim := p, size := size.toUInt64 } db.types
  pure { db with types := l }

/-- `ParseEnumConstant` (src/clReflectCore/DatabaseTextSerialiser.cpp:409-427). -/
def parseEnumConstant (line : Bytes) (db : Database) : Res Database := do
  let (p, r) := getPrim db.names line
  let (value, _) := getInt 9 r
  let l ← add (fun x : EnumConstant => x.name.hash) { toPrim := p, value := value } db.enumConstants
  pure { db with enumConstants := l }

/-- `ParseEnumScoped` (src/clReflectCore/DatabaseTextSerialiser.cpp:429-448): a missing token is a null
dereference, an unknown letter returns an uninitialised variable. -/
def parseScoped (text : Bytes) : Res Scoped :=
  match (strtok 9 text).1 with
  | some (110 :: _) => .ok .none
  | some (99 :: _) => .ok .cls
  | some (115 :: _) => .ok .struct
  | _ => .ub

/-- `ParseEnum` (src/clReflectCore/DatabaseTextSerialiser.cpp:450-468): the size read is discarded, the
`Enum` constructor sets `sizeof(int)` (src/clReflectCore/Database.h:316-320). -/
def parseEnum (line : Bytes) (db : Database) : Res Database := do
  let (p, r) := getPrim db.names line
  let (_, r) := getHexInt r
  let s ← parseScoped r
  let l ← add (fun x : Enum => x.name.hash) { toPrim := p, size := 4, scope := s } db.enums
  pure { db with enums := l }

/-- `ParseQualifier` (src/clReflectCore/DatabaseTextSerialiser.cpp:471-486): missing tokens are null
dereferences, an unknown letter leaves the constructor's `VALUE`. -/
def parseQualifier (text : Bytes) : Res (Qualifier × Bytes) :=
  match strtok 9 text with
  | (none, _) => .ub
  | (some mod, r) =>
    match strtok 9 r with
    | (none, _) => .ub
    | (some cst, r) =>
      let op := match mod.head? with
        | some 112 => QualOp.pointer
        | some 114 => QualOp.reference
        | _ => QualOp.value
      .ok ({ op := op, isConst := cst.head? != some 48 }, r)

/-- `ParseField` (src/clReflectCore/DatabaseTextSerialiser.cpp:489-516). -/
def parseField (line : Bytes) (db : Database) : Res Database := do
  let (p, r) := getPrim db.names line
  let (type, r) := getHexInt r
  let (q, r) ← parseQualifier r
  let (index, r) := getInt 9 r
  let (uid, _) := getHexInt r
  let l ← add (fun x : Field => x.name.hash)
    { toPrim := p, type := getNameByHash db.names type, qualifier := q, offset := index, parentUniqueId := uid }
    db.fields
  pure { db with fields := l }

/-- `ParseFunction` (src/clReflectCore/DatabaseTextSerialiser.cpp:519-537). -/
def parseFunction (line : Bytes) (db : Database) : Res Database := do
  let (p, r) := getPrim db.names line
  let (uid, _) := getHexInt r
  let l ← add (fun x : Function => x.name.hash) { toPrim := p, uniqueId := uid } db.functions
  pure { db with functions := l }

/-- `ParseClass` (src/clReflectCore/DatabaseTextSerialiser.cpp:540-560). -/
def parseClass (line : Bytes) (db : Database) : Res Database := do
  let (p, r) := getPrim db.names line
  let (size, r) := getHexInt r
  let (isClass, _) := getInt 9 r
  let l ← add (fun x : Class => x.name.hash)
    { toPrim := p, size := size.toUInt64, isClass := isClass != 0 } db.classes
  pure { db with classes := l }

/-- One iteration of the argument loop (src/clReflectCore/DatabaseTextSerialiser.cpp:578-585); `none`:
the loop breaks. -/
def parseTArg (names : List Name) (text : Bytes) : Option (TArg × Bytes) :=
  let (type, r) := getHexInt text
  if type = 0 then none
  else
    let (ptr, r) := getInt 9 r
    some ({ type := getNameByHash names type, ptr := ptr != 0 }, r)

/-- The argument loop (src/clReflectCore/DatabaseTextSerialiser.cpp:576-586) with the slots left to
fill. -/
def parseTArgs (names : List Name) : Nat → Bytes → List TArg
  | 0, _ => []
  | n + 1, text =>
    match parseTArg names text with
    | none => []
    | some (a, r) => a :: parseTArgs names n r

/-- `ParseTemplateType` (src/clReflectCore/DatabaseTextSerialiser.cpp:563-589). -/
def parseTemplateType (line : Bytes) (db : Database) : Res Database := do
  let (p, r) := getPrim db.names line
  let (size, r) := getHexInt r
  let args := parseTArgs db.names 4 r
  let l ← add (fun x : TemplateType => x.name.hash)
    { toPrim := p, size := size.toUInt64, a0 := args.getD 0 {}, a1 := args.getD 1 {}, a2 := args.getD 2 {},
      a3 := args.getD 3 {} } db.templateTypes
  pure { db with templateTypes := l }

/-- `ParseIntAttribute` (src/clReflectCore/DatabaseTextSerialiser.cpp:592-610). -/
def parseIntAttribute (line : Bytes) (db : Database) : Res Database := do
  let (p, r) := getPrim db.names line
  let (value, _) := getInt 9 r
  let l ← add (fun x : IntAttribute => x.name.hash) { toPrim := p, value := value } db.intAttributes
  pure { db with intAttributes := l }

/-- `ParseFloatAttribute` (src/clReflectCore/DatabaseTextSerialiser.cpp:613-632): a missing token is
passed to `sscanf` as a null pointer. -/
def parseFloatAttribute (cfg : Cfg) (line : Bytes) (db : Database) : Res Database :=
  let (p, r) := getPrim db.names line
  match (strtok 9 r).1 with
  | none => .ub
  | some t => do
    let l ← add (fun x : FloatAttribute => x.name.hash) { toPrim := p, bits := cfg.scanF t } db.floatAttributes
    pure { db with floatAttributes := l }

/-- `ParsePrimitiveAttribute` (src/clReflectCore/DatabaseTextSerialiser.cpp:635-653). -/
def parsePrimitiveAttribute (line : Bytes) (db : Database) : Res Database := do
  let (p, r) := getPrim db.names line
  let (value, _) := getHexInt r
  let l ← add (fun x : PrimitiveAttribute => x.name.hash)
    { toPrim := p, value := getNameByHash db.names value } db.primitiveAttributes
  pure { db with primitiveAttributes := l }

/-- `ParseTextAttribute` (src/clReflectCore/DatabaseTextSerialiser.cpp:656-674): a missing token
initialises a `std::string` from a null pointer. -/
def parseTextAttribute (line : Bytes) (db : Database) : Res Database :=
  let (p, r) := getPrim db.names line
  match (strtok 9 r).1 with
  | none => .ub
  | some t => do
    let l ← add (fun x : TextAttribute => x.name.hash) { toPrim := p, value := t } db.textAttributes
    pure { db with textAttributes := l }

/-- `Add` into one of the two tables that are `std::map`s (src/clReflectCore/Database.h:609-616, 631-636):
an entry whose key is present is not inserted. -/
def addUnique {α : Type} (key : α → UInt32) (x : α) (l : List α) : Res (List α) :=
  if key x = 0 then .trap else .ok (if (findBy key (key x) l).isSome then l else insertBy key x l)

/-- `ParseContainerInfo` (src/clReflectCore/DatabaseTextSerialiser.cpp:677-696). -/
def parseContainerInfo (line : Bytes) (db : Database) : Res Database := do
  let (name, r) := getHexInt line
  let (read, r) := getHexInt r
  let (write, r) := getHexInt r
  let (flags, r) := getHexInt r
  let (count, _) := getHexInt r
  let l ← addUnique (fun x : ContainerInfo => x.name.hash)
    { name := getNameByHash db.names name, readIterator := getNameByHash db.names read,
      writeIterator := getNameByHash db.names write, flags := flags, count := count } db.containerInfos
  pure { db with containerInfos := l }

/-- `ParseInheritance` (src/clReflectCore/DatabaseTextSerialiser.cpp:698-713). -/
def parseInheritance (line : Bytes) (db : Database) : Res Database := do
  let (name, r) := getHexInt line
  let (derived, r) := getHexInt r
  let (base, _) := getHexInt r
  let l ← addUnique (fun x : TypeInheritance => x.name.hash)
    { name := getNameByHash db.names name, derived := getNameByHash db.names derived,
      base := getNameByHash db.names base } db.inheritances
  pure { db with inheritances := l }

/-- The parse function of each table (src/clReflectCore/DatabaseTextSerialiser.cpp:762-778). -/
def parseRow (cfg : Cfg) : Table → Bytes → Database → Res Database
  | .names => parseName
  | .types => parseType
  | .enumConstants => parseEnumConstant
  | .enums => parseEnum
  | .fields => parseField
  | .functions => parseFunction
  | .classes => parseClass
  | .templates => parseTemplate
  | .templateTypes => parseTemplateType
  | .namespaces => parseNamespace
  | .flagAttributes => parseFlagAttribute
  | .intAttributes => parseIntAttribute
  | .floatAttributes => parseFloatAttribute cfg
  | .primitiveAttributes => parsePrimitiveAttribute
  | .textAttributes => parseTextAttribute
  | .containers => parseContainerInfo
  | .inheritance => parseInheritance

/-- The row loop of `ParseTable` (src/clReflectCore/DatabaseTextSerialiser.cpp:736-744) on the lines
`ReadLine` still returns: the contents of `ReadLine`'s static buffer afterwards, the lines left, the
database. When the file ends inside the table the buffer's contents do not matter (no further call
returns a line); it is left empty. -/
def rowLoop (parse : Bytes → Database → Res Database) : List Bytes → Database → Res (Bytes × List Bytes × Database)
  | [], db => .ok ([], [], db)
  | l :: ls, db =>
    if startswith l b!"----" then .ok (l, ls, db)
    else do
      let db ← parse l db
      rowLoop parse ls db

/-- `ParseTable` (src/clReflectCore/DatabaseTextSerialiser.cpp:715-746). `line` is the contents of the
static buffer, which the caller and this function share. -/
def parseTable (cfg : Cfg) (t : Table) (line : Bytes) (lines : List Bytes) (db : Database) :
    Res (Bytes × List Bytes × Database) :=
  if startswith line (b!"---- " ++ t.title ++ b!" ") then
    match lines with
    | _ :: _ :: ls => rowLoop (parseRow cfg t) ls db
    | _ => .ok ([], [], db)
  else .ok (line, lines, db)

/-- The body of the reading loop: the tables in the order they are tried
(src/clReflectCore/DatabaseTextSerialiser.cpp:762-778). -/
def tryTables (cfg : Cfg) : List Table → Bytes → List Bytes → Database → Res (List Bytes × Database)
  | [], _, lines, db => .ok (lines, db)
  | t :: ts, line, lines, db => do
    let (line, lines, db) ← parseTable cfg t line lines db
    tryTables cfg ts line lines db

/-- The order of the `ParseTable` calls (src/clReflectCore/DatabaseTextSerialiser.cpp:762-778). -/
def readOrder : List Table :=
  [.names, .namespaces, .types, .enumConstants, .enums, .fields, .functions, .templates, .templateTypes,
   .classes, .flagAttributes, .intAttributes, .floatAttributes, .primitiveAttributes, .textAttributes,
   .containers, .inheritance]

/-- The reading loop (src/clReflectCore/DatabaseTextSerialiser.cpp:760-779). Every iteration takes a line
from the file, so the number of lines bounds the iterations. -/
def readLoop (cfg : Cfg) : Nat → List Bytes → Database → Res Database
  | 0, _, db => .ok db
  | _, [], db => .ok db
  | n + 1, l :: ls, db => do
    let (ls, db) ← tryTables cfg readOrder l ls db
    readLoop cfg n ls db

/-- The lines successive `ReadLine` calls return, as C strings. -/
def linesOf (file : Bytes) : List Bytes := (allLines (file.length + 1) file).map cstr

/-- The loop of `IsTextDatabase` (src/clReflectCore/DatabaseTextSerialiser.cpp:796-818); the first
argument is `is_text_db`, the second `line_index`. -/
def isTextLoop : Bool → Nat → List Bytes → Bool
  | b, _, [] => b
  | b, i, l :: ls =>
    let b := if startswith l b!"clReflect Database" then true else b
    if b && startswith l b!"Format Version: " then
      let (_, r) := strtok 58 l
      if (getInt 58 r).1 ≠ 1 then false else b
    else if i > 5 then b
    else isTextLoop b (i + 1) ls

/-- `IsTextDatabase` (src/clReflectCore/DatabaseTextSerialiser.cpp:786-822); `none`: the file cannot be
opened. -/
def isText (file : Option Bytes) : Bool :=
  match file with
  | none => false
  | some f => isTextLoop true 0 (linesOf f)

/-- `ReadTextDatabase` (src/clReflectCore/DatabaseTextSerialiser.cpp:750-783): the result and the
database. -/
def readText (cfg : Cfg) (file : Option Bytes) (db : Database) : Res (Bool × Database) :=
  match file with
  | none => .ok (false, db)
  | some f =>
    if isText (some f) then do
      let db ← readLoop cfg (linesOf f).length (linesOf f) db
      pure (true, db)
    else .ok (false, db)

end Clr.TextDB
